"""split Props/X.lean: move helper theorems to Lemmas/X.lean, defs to Spec/X.lean (or Lemmas)."""
import sys,re,os
R='/verif/lean/Verif'
def blocks(body):
    # split at blank lines followed by a top-level start
    lines=body.split('\n'); out=[]; cur=[]
    starts=re.compile(r'^(theorem|def|example|/--|/-!|namespace|open|variable|end |abbrev|structure|inductive|instance|private|@\[|set_option|local|section|lemma|noncomputable)')
    inm=False
    for i,l in enumerate(lines):
        if inm:
            cur.append(l)
            if l.rstrip()=='end': inm=False
            continue
        if l.rstrip()=='mutual':
            if cur: out.append('\n'.join(cur).rstrip('\n'))
            cur=[l]; inm=True; continue
        if starts.match(l) and (i==0 or lines[i-1].strip()==''):
            if cur: out.append('\n'.join(cur).rstrip('\n'))
            cur=[l]
        else: cur.append(l)
    if cur: out.append('\n'.join(cur).rstrip('\n'))
    return [b for b in out if b.strip()]
def kind(b):
    t=re.sub(r'/-.*?-/','',b,flags=re.S).strip()
    if not t: return 'comment'
    t=re.sub(r'^(@\[[^\]]*\]\s*)','',t)
    t=re.sub(r'^mutual\s*','',t)
    t=re.sub(r'^open Classical in\s*','',t)
    if t.startswith('theorem'):
        return 'prop' if re.match(r'theorem C\d\d+_',t) else 'lemma'
    w=t.split()[0]
    if w in('def','abbrev','structure','inductive','instance','noncomputable','local'): return 'def'
    return w
for name in sys.argv[1:]:
    p=f'{R}/Props/{name}.lean'; s=open(p).read()
    open(f'/tmp/{name}.orig.lean','w').write(s)
    bl=blocks(s)
    imports=[l for l in bl[0].split('\n') if l.startswith('import')]
    # first block may hold imports and module doc separately
    spec=[];lem=[];prop=[]
    lp=f'{R}/Lemmas/{name}.lean'
    if os.path.exists(lp): print('exists',lp); continue
    common=[]
    moved=0; nspec=0
    for b in bl:
        if b.startswith('import'): continue
        k=kind(b)
        if k in('namespace','open','variable','set_option','section') : common.append(b); lem.append(b); prop.append(b); spec.append(b)
        elif k=='end': lem.append(b); prop.append(b); spec.append(b)
        elif k=='lemma': lem.append(b); moved+=1
        elif k=='def': spec.append(b); moved+=1; nspec+=1
        elif k=='comment':
            if b.startswith('/-!') and not prop: prop.append(b)
            elif re.search(r'### Spec',b): spec.append(b)
            elif re.search(r'elper',b): lem.append(b)
            else: prop.append(b)
        else: prop.append(b)
    if not moved: print('nothing',name); continue
    if nspec:
        open(f'{R}/Spec/{name}.lean','w').write('\n'.join(imports)+f'\n\n/-! Definitions used in the statements of `Verif/Props/{name}.lean`. -/\n\n'+'\n\n'.join(spec)+'\n')
        imports=[f'import Verif.Spec.{name}']
    open(lp,'w').write('\n'.join(imports)+f'\n\n/-! Helper lemmas for `Verif/Props/{name}.lean`. -/\n\n'+'\n\n'.join(lem)+'\n')
    open(p,'w').write(f'import Verif.Lemmas.{name}\n\n'+'\n\n'.join(prop)+'\n')
    print(name,'moved',moved)
