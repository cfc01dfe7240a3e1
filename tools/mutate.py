import json,sys,subprocess,re,os,shutil,glob
SRC='/verif/lean'; MUT='/tmp/mut'
def sync():
    os.makedirs(MUT,exist_ok=True)
    for f in glob.glob(SRC+'/**/*.lean',recursive=True):
        if '.lake' in f: continue
        t=f.replace(SRC,MUT); os.makedirs(os.path.dirname(t),exist_ok=True)
        if not os.path.exists(t) or open(t).read()!=open(f).read(): shutil.copy(f,t)
DECL=re.compile(r'^(?:@\[[^\]]*\]\s*)?(?:private |protected |noncomputable )*(theorem|lemma|def|example|instance|structure|inductive|abbrev)\b\s*([^\s:({\[]*)')
def decls(path):
    out=[];
    for i,l in enumerate(open(path).read().split('\n'),1):
        m=DECL.match(l)
        if m: out.append((i,m.group(1),m.group(2) or 'example@%d'%i))
    return out
def enclosing(path,line):
    best=None
    for i,k,n in decls(path):
        if i<=line: best=(k,n,i)
    return best
_graph=None
def graph():
    # name -> set of last components used; restricted by file
    g={}
    for f in glob.glob(SRC+'/Verif/**/*.lean',recursive=True):
        ls=open(f).read().split('\n'); ds=decls(f)
        for idx,(i,k,n) in enumerate(ds):
            end=ds[idx+1][0]-1 if idx+1<len(ds) else len(ls)
            body='\n'.join(ls[i-1:end])
            g[(f,n)]=(set(re.findall(r"[A-Za-z_][\w'?!]*",body)),k)
    return g
def closure(failed,mods=None):
    global _graph
    if _graph is None: _graph=graph()
    names={n.split('.')[-1] for n in failed}
    res=set()
    changed=True
    seen=set(names)
    while changed:
        changed=False
        for (f,n),(ids,k) in _graph.items():
            if mods and not any(f.endswith(x) for x in mods): continue
            short=n.split('.')[-1]
            if short in seen or k not in('theorem','lemma'): continue
            if ids & seen:
                seen.add(short); changed=True
    return sorted(x for x in seen if re.match(r'C\d\d',x))
def run(m):
    sync()
    p=os.path.join(MUT,'Verif',m['file'])
    s=open(p).read(); orig=s
    if s.count(m['old'])<1: print('NOT FOUND',m['old']); return None
    s=s.replace(m['old'],m['new'],m.get('times',1)); open(p,'w').write(s)
    failed=[]; 
    try:
        for mod in m['build']:
            r=subprocess.run(['lake','build','Verif.'+mod],cwd=MUT,capture_output=True,text=True)
            for mm in re.finditer(r'^error: (Verif/\S+\.lean):(\d+):\d+:',r.stdout+r.stderr,re.M):
                e=enclosing(os.path.join(MUT,mm.group(1)),int(mm.group(2)))
                if e: failed.append((mm.group(1),e[0],e[1]))
    finally:
        open(p,'w').write(orig)
    fn=[]
    for f,k,n in failed:
        tag=n if not n.startswith('example') else n+' in '+f
        if tag not in fn: fn.append(tag)
    mods=[]
    for b in m['build']+['Lemmas.'+os.path.basename(m['file'])[:-5]]: mods.append('Verif/'+b.replace('.','/')+'.lean')
    mods+=m.get('mods',[])
    top=closure([n for f,k,n in failed if k in('theorem','lemma')],mods)
    direct=[n for n in fn if re.match(r'C\d\d',n)]
    return {'definition':m['def'],'file':'Verif/'+m['file'],'edit':m['edit'],'claim_broken':m['claim'],
      'theorems_failed':direct+[t for t in top if t not in direct],'lemmas_failed':[n for n in fn if n not in direct],
      'theorems_tightened':[],'modelfail': any('Model/' in f for f,_,_ in failed)}
if __name__=='__main__':
    muts=json.load(open(sys.argv[1]))
    out=sys.argv[2]
    for i,m in enumerate(muts):
        r=run(m)
        if r is None: continue
        print(i,m['def'],'|',m['edit'],'->',r['theorems_failed'] or 'SURVIVED', r['lemmas_failed'], 'MODELFAIL' if r['modelfail'] else '',flush=True)
        with open(out,'a') as f: f.write(json.dumps(r)+'\n')
