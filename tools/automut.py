#!/usr/bin/env python3
"""Systematic seeded bugs: for every model definition that has no entry in seeded/LOG.jsonl apply small edits (boundaries, +-1, swapped operands, negated
conditions, dropped statements) to a scratch copy and build until the first failure.  usage: automut.py WORKER NWORKERS OUT [PER_DEF]
Results in OUT (jsonl, same fields as mutate.py); survivors are examined by hand."""
import sys,os,re,json,subprocess,shutil,random,collections,time,signal
W,N,OUT=int(sys.argv[1]),int(sys.argv[2]),sys.argv[3]
PER=int(sys.argv[4]) if len(sys.argv)>4 else 1
SRC='/tmp/amut/pristine'; DST='/tmp/amut/w%d'%W
SKIPF={'Basic.lean'}
def covered():
    defs=collections.defaultdict(set)
    for l in open('/verif/seeded/LOG.jsonl'):
        d=json.loads(l); m=re.match(r'\s*(?:Model/)?(\S+\.lean):\s*(.*)',d['definition'])
        if m: defs[m.group(1).split('/')[-1]].add(m.group(2))
    if os.path.exists(OUT):
        for l in open(OUT):
            d=json.loads(l); defs[d['file']].add(d['definition'])
    return defs
def blocks(t):
    """(name, start, end) of the body of each def"""
    L=[(m.start(),m.group(1)) for m in re.finditer(r'^(?:@\[.*?\] )?(?:private |protected |noncomputable )?def (\S+)',t,re.M)]
    ends=[m.start() for m in re.finditer(r'^(?:/-|def |@\[|private |protected |noncomputable |structure |inductive |instance |theorem |end |namespace |section |variable |abbrev |open |example |class )',t,re.M)]+[len(t)]
    for s,n in L:
        e=min(x for x in ends if x>s)
        b=t.find(':=',s,e); p=t.find('\n  | ',s,e)
        c=[x for x in (b,p) if x>=0]
        if c: yield n,min(c),e
OPS=[(r' < ',' ≤ '),(r' ≤ ',' < '),(r' > ',' ≥ '),(r' ≥ ',' > '),(r' \+ 1\b',''),(r' - 1\b',''),(r' \+ ',' - '),(r' - ',' + '),(r' \* ',' + '),
 (r'\bsize1\b','size2'),(r'\bsize2\b','size1'),(r'\bi j\b','j i'),(r'\btrue\b','false'),(r'\bfalse\b','true'),(r' && ',' || '),(r' ∧ ',' ∨ '),(r' ∨ ',' ∧ '),
 (r'\bmin\b','max'),(r'\bmax\b','min'),(r' = ',' ≠ '),(r' ≠ ',' = '),(r'\b0\b','1'),(r'\b1\b','2'),(r'\.row\b','.col'),(r'\.col\b','.row'),(r'\.1\b','.2'),(r'\.2\b','.1'),
 (r'\bif (?=[a-z(])','if ¬ '),(r'\bfilled\b','cap'),(r'\br c\b','c r'),(r'\ba b\b','b a'),(r'\bs\.size1\b','s.size2'),(r' / ',' * '),(r' % ',' / '),(r'\bdbg\b','false'),(r'\bzero\b','one')]
def cands(t,s,e,rnd):
    C=[]
    body=t[s:e]
    for pat,rep in OPS:
        for m in re.finditer(pat,body):
            pre=body[max(0,m.start()-3):m.start()+4]
            if ':=' in body[m.start():m.start()+4]: continue
            a,b=s+m.start(),s+m.end()
            # not inside comments
            ls=t.rfind('\n',0,a)+1
            if '--' in t[ls:a]: continue
            C.append((a,b,rep))
    lines=[m for m in re.finditer(r'\n( +)check \S+.*',body)]
    for m in lines: C.append((s+m.start(),s+m.end(),''))
    rnd.shuffle(C)
    return C
def enclosing(path,line):
    try: L=open(path).read().split('\n')
    except Exception: return '?'
    for i in range(min(line,len(L))-1,-1,-1):
        m=re.match(r'\s*(?:@\[.*?\]\s*)?(?:private\s+|protected\s+|noncomputable\s+)*(theorem|lemma|def|example|instance|abbrev)\b\s*([^\s:({\[]*)',L[i])
        if m: return m.group(2) or 'example@%d'%(i+1)
    return '?'
def restore():
    subprocess.run(['rm','-rf',DST+'/.lake/build'],check=True)
    subprocess.run(['cp','-a',SRC+'/.lake/build',DST+'/.lake/build'],check=True)
def build(target,stopfirst):
    p=subprocess.Popen(['lake','build']+target,cwd=DST,stdout=subprocess.PIPE,stderr=subprocess.STDOUT,text=True,start_new_session=True)
    fails=[]
    t0=None
    for line in p.stdout:
        m=re.search(r'error: (Verif/\S+?\.lean):(\d+):',line)
        if m:
            fails.append((m.group(1),int(m.group(2))))
            if stopfirst:
                os.killpg(p.pid,signal.SIGKILL); p.wait(); return fails,False
    p.wait()
    return fails,p.returncode==0
def main():
    if not os.path.exists(DST):
        os.makedirs(DST)
        subprocess.run('cd %s && cp -r Verif Verif.lean lakefile.toml lake-manifest.json lean-toolchain %s/ 2>/dev/null; mkdir -p %s/.lake; for f in .lake/*; do b=$(basename $f); [ $b = build ] || cp -a $f %s/.lake/; done'%(SRC,DST,DST,DST),shell=True)
    restore()
    cov=covered(); todo=[]
    for f in sorted(os.listdir(SRC+'/Verif/Model')):
        t=open(SRC+'/Verif/Model/'+f).read(); c=' '.join(cov.get(f,[]))
        for n,s,e in blocks(t):
            if re.search(r'(?<![\w])'+re.escape(n.split('.')[-1])+r'(?![\w])',c) and PER==1: continue
            todo.append((f,n,s,e))
    random.Random(7).shuffle(todo)
    todo=[x for k,x in enumerate(todo) if k%N==W]
    print(len(todo),'definitions',flush=True)
    for f,n,s,e in todo:
        p=DST+'/Verif/Model/'+f; t=open(SRC+'/Verif/Model/'+f).read()
        rnd=random.Random(f+n+str(PER)); done=0
        for a,b,rep in cands(t,s,e,rnd)[:8]:
            open(p,'w').write(t[:a]+rep+t[b:])
            fl,ok=build(['Verif.Model.'+f[:-5]],True)
            if not ok: continue
            t0=time.time()
            fl,ok=build([],True)
            ls=t.rfind('\n',0,a)+1; le=t.find('\n',b)
            bad=[x for x in fl if x[0].startswith('Verif/Model')]
            if bad: restore(); continue
            names=[x[0][6:-5]+':'+enclosing(DST+'/'+x[0],x[1]) for x in fl]
            res=dict(id='auto',file=f,definition=n,edit=t[ls:le].strip()+'  ==>  '+(t[ls:a]+rep+t[b:le]).strip(),claim='automatic edit of '+n,ok=ok,failed=names)
            open(OUT,'a').write(json.dumps(res)+'\n')
            print(f,n,'SURVIVED' if ok else 'killed',names,res['edit'] if ok else '',int(time.time()-t0),flush=True)
            restore(); done+=1
            if done>=PER: break
        open(p,'w').write(t)
        if not done: print(f,n,'no mutant',flush=True)
        restore()
main()
