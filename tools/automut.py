"""Systematic small edits of the models, to find code no theorem notices.
usage: automut.py OUT per_module seed workers [modules...]"""
import sys, re, os, json, random, subprocess
from concurrent.futures import ThreadPoolExecutor
sys.argv, args = ['x', '0', '0'], sys.argv[1:]
ROOT = '/verif/lean/Verif'; SCRATCH = '/tmp/seed'; os.makedirs(SCRATCH, exist_ok=True)
PARTS = ('Model', 'Spec', 'Lemmas', 'Props')
# further files of theorems about a model
EXTRA = {'ChannelNodes': ['ChannelShapes', 'ChannelPlain', 'ChannelOrdinary']}
def files(mod): return [(p, m) for m in [mod] + EXTRA.get(mod, []) for p in PARTS]
OPS = [(r' < ', ' ≤ '), (r' ≤ ', ' < '), (r' > ', ' ≥ '), (r' ≥ ', ' > '),
       (r' && ', ' || '), (r' \|\| ', ' && '), (r' ∧ ', ' ∨ '), (r' ∨ ', ' ∧ '),
       (r' \+ 1\b', ''), (r' - 1\b', ''), (r' \+ ', ' - '), (r' - ', ' + '), (r' \* ', ' + '),
       (r'\btrue\b', 'false'), (r'\bfalse\b', 'true'), (r' == ', ' != '), (r' != ', ' == '),
       (r'\bmax\b', 'min'), (r'\bmin\b', 'max'), (r'\.take\b', '.drop'), (r'\.drop\b', '.take'),
       (r'\bif ([^:]+?) then', r'if ¬ (\1) then'), (r'\.any\b', '.all'), (r'\.all\b', '.any'),
       (r'\.reverse\b', ''), (r'\bforget', 'forget'), (r'\.head\?', '.getLast?'), (r'\.getLast\?', '.head?'),
       (r'\b0\b', '1'), (r'\b1\b', '2'), (r'\b2\b', '3'), (r' ++ ', ' ++ '), (r' / ', ' * '),
       (r' % ', ' / '), (r' ∈ ', ' ∉ '), (r' = ', ' ≠ '), (r' ≠ ', ' = ')]
# a second family, used with an OUT name that contains `kinds`
KINDS = [(r'\.error \.value\b', '.error .type'), (r'\.error \.(?!value\b)(\w+)', '.error .value'),
         (r'¬ ', ''), (r'!(?=[a-z(])', ''), (r' \+\+ \[[^\[\]]*\]', ''), (r'\.length\b', '.length.succ'), (r'\.1\b', '.2'), (r'\.2\b', '.1'),
         (r'"([^"\n]+)"', r'"\1x"'), (r'\b(\d\d+)\b', r'(\1 + 1)'), (r'(?<=[ (])([a-z]\w*) ([a-z]\w*)(?=\))', r'\2 \1'),
         (r'\bsome ([a-z]\w*)\b', 'none'), (r'\.getD (\w+|\([^()]*\)) ', r'.getD (\1 + 1) '),
         (r'\bfun (\w) (\w) =>', r'fun \2 \1 =>'), (r'\.isSome\b', '.isNone'), (r'\.isNone\b', '.isSome'), (r'\.isEmpty\b', '.isEmpty.not'),
         (r'\.eraseDups\b', ''), (r'\.dedup\b', ''), (r'\.foldl\b', '.foldr'), (r'(\w+) :: (\w+)\)', r'\2)')]
def code_lines(s):
    out = []; depth = 0
    for n, l in enumerate(s.split('\n')):
        c = l.count('/-'); d = l.count('-/')
        if depth == 0 and c == 0 and not l.startswith(('import', 'namespace', 'open', 'end', 'deriving')) \
           and 'deriving' not in l and l.strip():
            out.append(n)
        depth += c - d
    return out
def mutants(mod):
    s = open(f'{ROOT}/Model/{mod}.lean').read(); L = s.split('\n'); res = []
    for n in code_lines(s):
        l = L[n]
        body = l.split(' -- ')[0]
        head = re.match(r'^(noncomputable )?(def|structure|inductive|abbrev|theorem|instance)\b.*?:=', l)
        off = head.end() if head else (len(l) if re.match(r'^(noncomputable )?(def|structure|inductive|abbrev)', l) else 0)
        for pat, rep in OPS if 'kinds' not in args[0] else KINDS:
            for g in re.finditer(pat, l):
                if g.start() < off: continue
                if pat in (r' = ',) and 'if ' not in l and 'decide' not in l: continue
                new = l[:g.start()] + g.expand(rep) + l[g.end():]
                if new != l: res.append((n, l, new))
    return s, res
def assemble(mod, model):
    imports, body = [], []
    cut = 0
    for part, name in files(mod):
        p = f'{ROOT}/{part}/{name}.lean'
        if not os.path.exists(p): continue
        t = model if part == 'Model' else open(p).read()
        for l in t.split('\n'):
            if l.startswith('import '):
                m = l.split()[1]
                if m not in [f'Verif.{q}.{x}' for q, x in files(mod)] and l not in imports: imports.append(l)
        body.append('\n'.join(l for l in t.split('\n') if not l.startswith('import ')))
        if part == 'Model': cut = body[0].count('\n') + 1
    return imports, '\n'.join(body), cut
def theorems(mod):
    names = []
    for m in [mod] + EXTRA.get(mod, []):
        s = open(f'{ROOT}/Props/{m}.lean').read()
        ns = re.search(r'^namespace (\S+)', s, re.M).group(1)
        names += [f'{ns}.{t}' for t in re.findall(r'^theorem (C\d+_\w+)', s, re.M)]
    return names
def run(job):
    mod, k, n, old, new, s = job
    L = s.split('\n'); L[n] = new
    imports, body, cut = assemble(mod, '\n'.join(L))
    names = theorems(mod)
    f = f'{SCRATCH}/A_{mod}_{k}.lean'
    open(f, 'w').write('\n'.join(imports) + '\n' + body + '\n' + '\n'.join(f'#print axioms {x}' for x in names) + '\n')
    try:
        r = subprocess.run(['lake', 'env', 'lean', f], cwd='/verif/lean', capture_output=True, text=True, timeout=600)
        out = r.stdout + r.stderr
    except subprocess.TimeoutExpired:
        os.remove(f); return mod, n, old, new, 'timeout', []
    errs = [int(x) for x in re.findall(r'^[^\n:]*:(\d+):\d+: error', out, re.M)]
    heads = [(i + 1, g.group(1)) for i, l in enumerate(open(f).read().split('\n'))
             if (g := re.match(r'theorem (\w+)', l))]
    os.remove(f)
    if errs and min(errs) <= len(imports) + cut: return mod, n, old, new, 'invalid', []
    failed = []
    for x in names:
        g = re.search(rf"'{re.escape(x)}' (depends on axioms: \[([^\]]*)\]|does not depend)", out, re.S)
        if g is None or 'sorryAx' in (g.group(2) or ''): failed.append(x.split('.')[-1])
    # a proof stopped by a timeout can leave a constant without axioms behind
    for e in errs:
        above = [t for i, t in heads if i <= e]
        if above and above[-1] not in failed and any(x.endswith('.' + above[-1]) for x in names): failed.append(above[-1])
    return mod, n, old, new, 'caught' if failed else 'SURVIVED', failed
OUT, per, seed, workers = args[0], int(args[1]), int(args[2]), int(args[3])
mods = args[4:] or sorted(f[:-5] for f in os.listdir(ROOT + '/Model'))
rnd = random.Random(seed); jobs = []
for mod in mods:
    if not os.path.exists(f'{ROOT}/Props/{mod}.lean'): print('no props', mod); continue
    s, res = mutants(mod)
    rnd.shuffle(res)
    jobs += [(mod, k, n, o, w, s) for k, (n, o, w) in enumerate(res[:per])]
with ThreadPoolExecutor(workers) as ex, open(OUT, 'a') as o:
    for mod, n, old, new, st, failed in ex.map(run, jobs):
        o.write(json.dumps(dict(mod=mod, line=n + 1, old=old, new=new, status=st, failed=failed), ensure_ascii=False) + '\n'); o.flush()
