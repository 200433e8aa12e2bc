"""Write DESIGN.md: the hand-written part (tools/design_top.md), then the
modelled files, the disagreements and the axioms, from the Lean sources."""
import glob, json, os, re, subprocess
ROOT = os.path.dirname(os.path.dirname(os.path.abspath(__file__)))
V = ROOT + '/lean/Verif'
def sentence(d):
    d = ' '.join(d.split())
    d = re.sub(r'^C\d+(, | )?', '', d)
    return d
out = [open(ROOT + '/tools/design_top.md').read()]
out.append('## Modelled files\n\nCited files per model (line numbers are in the definitions).\n')
for f in sorted(glob.glob(V + '/Model/*.lean')):
    s = open(f).read()
    c = sorted(set(re.findall(r'[\w/.]*\b\w+\.py\b', s)))
    c = [x.replace('/repo/', '') for x in c]
    c = sorted(x for x in set(c) if not any(y != x and y.endswith('/' + x) for y in c))
    out.append(f"* `{os.path.basename(f)[:-5]}`: " + ', '.join(f'`{x}`' for x in c))
out.append('\n' + open(ROOT + '/tools/design_bottom.md').read())
dis, allt = {}, []
for f in sorted(glob.glob(V + '/Props/*.lean')):
    s = open(f).read()
    ns = re.search(r'^namespace (\S+)', s, re.M).group(1)
    for m in re.finditer(r'(?:/--((?:(?!-/).)*)-/\s*)?(?:open Classical in\s*)?theorem (C(\d+)_\w+)', s, re.S):
        allt.append(ns + '.' + m.group(2))
        if re.search(r'_(violated|fails)$', m.group(2)):
            dis.setdefault('C' + m.group(3), []).append((m.group(2), sentence(m.group(1) or '')))
out.append('## Disagreements\n\nWhere the code does not have the English property, proved in Lean.\n')
for p in sorted(dis, key=lambda x: int(x[1:])):
    out.append(f'### {p}\n')
    out += [f'* `{n}`: {d}' for n, d in dis[p]]
    out.append('')
t = '/tmp/axioms.lean'
open(t, 'w').write('import Verif\n' + '\n'.join(f'#print axioms {x}' for x in allt) + '\n')
r = subprocess.run(['lake', 'env', 'lean', t], cwd=ROOT + '/lean', capture_output=True, text=True).stdout
groups = {}
for x in allt:
    m = re.search(rf"'{re.escape(x)}' (does not depend|depends on axioms: \[([^\]]*)\])", r, re.S)
    assert m, x
    a = ', '.join(sorted(y.strip() for y in (m.group(2) or '').split(',') if y.strip()))
    groups.setdefault(a, []).append(x.split('.')[-1])
out.append('## Axioms of each theorem\n')
for a in sorted(groups):
    out.append(f"* {a or 'no axioms'} ({len(groups[a])}): " + ', '.join(groups[a]))
open(ROOT + '/DESIGN.md', 'w').write('\n'.join(out) + '\n')
print({a: len(b) for a, b in groups.items()})
