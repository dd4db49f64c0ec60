#!/usr/bin/env python3
"""Apply seeded bugs to a scratch copy of the model and record which theorems fail.
usage: mutate.py batch.py ; batch.py defines MUT = [(id, file, def, old, new, claim), ...].
Results go to /tmp/mut/results.jsonl (reviewed by hand, then appended to seeded/LOG.jsonl)."""
import sys, os, re, json, subprocess, shutil, runpy
SRC='/verif/lean'; DST='/tmp/mut/lean'
def sync():
    subprocess.run(['rsync','-a','--delete',SRC+'/',DST+'/'],check=True) if shutil.which('rsync') else (
        shutil.rmtree(DST,ignore_errors=True), shutil.copytree(SRC,DST,symlinks=True,copy_function=shutil.copy2))
def enclosing(path,line):
    try: L=open(path).read().split('\n')
    except Exception: return '?'
    name='?'
    for i in range(min(line,len(L))-1,-1,-1):
        m=re.match(r'\s*(?:@\[.*?\]\s*)?(?:private\s+|protected\s+|noncomputable\s+)*(theorem|lemma|def|example|instance|abbrev)\b\s*([^\s:({\[]*)',L[i])
        if m: name=m.group(2) or 'example@%d'%(i+1); break
    return name
def main():
    batch=runpy.run_path(sys.argv[1])['MUT']
    sync()
    for (mid,f,d,old,new,claim) in batch:
        p=os.path.join(DST,'Verif/Model',f) if not f.startswith('Verif') else os.path.join(DST,f)
        s=open(p).read()
        if s.count(old)!=1:
            print('BAD',mid,s.count(old)); continue
        open(p,'w').write(s.replace(old,new))
        r=subprocess.run(['lake','build'],cwd=DST,capture_output=True,text=True,timeout=2400)
        out=r.stdout+r.stderr
        fails=[]; mods=[]
        for m in re.finditer(r'error: (Verif/\S+?\.lean):(\d+):(\d+)',out):
            n=enclosing(os.path.join(DST,m.group(1)),int(m.group(2)))
            k=m.group(1)[6:-5]+':'+n
            if k not in fails: fails.append(k)
        res=dict(id=mid,file=f,definition=d,edit=old.strip()+'  ==>  '+new.strip(),claim=claim,ok=(r.returncode==0),failed=fails)
        open('/tmp/mut/results.jsonl','a').write(json.dumps(res)+'\n')
        print(mid,'SURVIVED' if r.returncode==0 else 'killed',fails[:6],flush=True)
        open(p,'w').write(s)
main()
