"""Try the seeded bugs of seeded/mutations.jsonl against the theorems.

Each bug edits one definition of Model/X.lean.  The edited model is compiled in
one scratch file together with Spec/X, Lemmas/X and Props/X (outside /verif);
a theorem fails if it does not elaborate or depends on a failed lemma.
usage: seed.py [start [stop]]   (indices into mutations.jsonl; default: new ones)
"""
import json, os, re, subprocess, sys
from concurrent.futures import ThreadPoolExecutor
ROOT = '/verif/lean/Verif'
SCRATCH = '/tmp/seed'
os.makedirs(SCRATCH, exist_ok=True)
PARTS = ('Model', 'Spec', 'Lemmas', 'Props')
# further files of theorems about a model
EXTRA = {'ChannelNodes': ['ChannelShapes', 'ChannelPlain', 'ChannelOrdinary']}
def files(mod): return [(p, m) for m in [mod] + EXTRA.get(mod, []) for p in PARTS]

def assemble(mod, old, new, count):
    imports, body = [], []
    for part, name in files(mod):
        p = f'{ROOT}/{part}/{name}.lean'
        if not os.path.exists(p):
            continue
        s = open(p).read()
        if part == 'Model':
            if s.count(old) != count:
                raise SystemExit(f'{mod}: {s.count(old)} occurrences of {old!r}')
            s = s.replace(old, new)
        for l in s.split('\n'):
            if l.startswith('import '):
                m = l.split()[1]
                if m not in [f'Verif.{q}.{x}' for q, x in files(mod)] and l not in imports:
                    imports.append(l)
        body.append('\n'.join(l for l in s.split('\n') if not l.startswith('import ')))
    return imports, '\n'.join(body)

def theorems(mod):
    names = []
    for m in [mod] + EXTRA.get(mod, []):
        s = open(f'{ROOT}/Props/{m}.lean').read()
        ns = re.search(r'^namespace (\S+)', s, re.M).group(1)
        names += [f'{ns}.{t}' for t in re.findall(r'^theorem (C\d+_\w+)', s, re.M)]
    return names

def attempt(i, m):
    mod = m['module']
    imports, body = assemble(mod, m['old'], m['new'], m.get('count', 1))
    names = theorems(mod)
    tail = '\n'.join(f'#print axioms {n}' for n in names)
    f = f'{SCRATCH}/S{i}.lean'
    open(f, 'w').write('\n'.join(imports) + '\n' + body + '\n' + tail + '\n')
    r = subprocess.run(['lake', 'env', 'lean', f], cwd='/verif/lean', capture_output=True, text=True)
    out = r.stdout + r.stderr
    open(f'{SCRATCH}/S{i}.out', 'w').write(out)
    failed = []
    for n in names:
        short = n.split('.')[-1]
        g = re.search(rf"'{re.escape(n)}' (depends on axioms: \[([^\]]*)\]|does not depend)", out, re.S)
        if g is None or 'sorryAx' in (g.group(2) or ''):
            failed.append(short)
    # a proof stopped by a timeout can leave a constant without axioms behind
    heads = [(k + 1, g.group(1)) for k, l in enumerate(open(f).read().split('\n'))
             if (g := re.match(r'theorem (\w+)', l))]
    for g in re.finditer(r'\.lean:(\d+):\d+: error', out):
        above = [n for k, n in heads if k <= int(g.group(1))]
        if above and above[-1] not in failed and any(n.endswith('.' + above[-1]) for n in names):
            failed.append(above[-1])
    return failed, 'error' in out

def main():
    ms = [json.loads(l) for l in open('/verif/seeded/mutations.jsonl')]
    logp = '/verif/seeded/LOG.jsonl'
    done = {(e['module'], e['old'], e['new']) for e in map(json.loads, open(logp))}
    if len(sys.argv) > 1:
        a = int(sys.argv[1]); b = int(sys.argv[2]) if len(sys.argv) > 2 else a + 1
        idx = range(a, b)
    else:
        idx = [i for i, m in enumerate(ms) if (m['module'], m['old'], m['new']) not in done]
    def go(i):
        m = ms[i]
        try:
            failed, err = attempt(i, m)
        except SystemExit as e:
            print(i, 'BAD', e, flush=True); return
        e = dict(definition=f"Verif.{m['module']}.{m['definition']}", edit=m['edit'],
                 claim=m['claim'], theorems_failed=failed,
                 theorems_tightened=m.get('tightened', []),
                 module=m['module'], old=m['old'], new=m['new'])
        pid = m['claim'][:3]
        ok = any(t.startswith(pid) for t in failed)
        if ok and (m['module'], m['old'], m['new']) not in done:
            with open(logp, 'a') as f:
                f.write(json.dumps(e, ensure_ascii=False) + '\n')
        print(i, m['module'], m['definition'], 'caught' if ok else 'SURVIVED',
              len(failed), ' '.join(failed)[:150], flush=True)
    with ThreadPoolExecutor(3) as ex:
        list(ex.map(go, idx))
main()
