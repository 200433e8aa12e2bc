"""Regenerate lean/Verif.lean and MANIFEST.json from the property theorems."""
import glob
import json
import os
import re

ROOT = os.path.dirname(os.path.dirname(os.path.abspath(__file__)))
notes = {}
path = os.path.join(ROOT, 'tools', 'notes.json')
if os.path.exists(path):
    notes = json.load(open(path))

theorems = {}
docs = {}
mods = []
for f in sorted(glob.glob(os.path.join(ROOT, 'lean/Verif/Props/*.lean'))):
    mods.append('Verif.Props.' + os.path.basename(f)[:-5])
    for m in re.finditer(r'/--((?:(?!-/).)*)-/\s*(?:open Classical in\s*)?theorem (C\d+_\w+)',
                         open(f).read(), re.S):
        docs[m.group(2)] = re.sub(r'^C\d+(, |: | )?', '', ' '.join(m.group(1).split()))
    ns = ''
    for line in open(f):
        m = re.match(r'namespace (\S+)', line)
        if m:
            ns = m.group(1)
        m = re.match(r'theorem (C(\d\d+)_\S+)', line)
        if m:
            theorems.setdefault('C' + m.group(2), []).append(ns + '.' + m.group(1))

with open(os.path.join(ROOT, 'lean/Verif.lean'), 'w') as out:
    out.write(''.join(f'import {m}\n' for m in mods))

props = [json.loads(x)['id'] for x in open(os.path.join(ROOT, 'properties.jsonl')) if x.strip()]
claims = []
for p in props:
    ths = theorems.get(p, [])
    if not ths:
        continue
    note = notes.get(p, '')
    if not note:
        bad = [t.split('.')[-1] for t in ths if re.search(r'_(violated|fails)$', t)]
        guard = [t.split('.')[-1] for t in ths if t.endswith('_partial')]
        if guard:
            note += 'Proved under a guard: ' + ' '.join(
                f'{t}: {docs.get(t, "")}' for t in guard) + ' '
        if bad:
            note += 'The code violates the property (proved): ' + ' '.join(
                f'{t}: {docs.get(t, "")}' for t in bad)
        note = note.strip() or 'Proved at full strength.'
    partial = any(re.search(r'_(partial|violated|fails)$', t) for t in ths)
    claims.append({'property': p, 'status': 'partial' if partial else 'proved',
                   'theorems': ths, 'note': note})
extra = set(theorems) - set(props)
if extra:
    print('theorems without property:', sorted(extra))
missing = [p for p in props if p not in theorems]
print('no theorems yet:', missing)
with open(os.path.join(ROOT, 'MANIFEST.json'), 'w') as out:
    json.dump({'claims': claims}, out, indent=1)
    out.write('\n')
