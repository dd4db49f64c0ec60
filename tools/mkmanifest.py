#!/usr/bin/env python3
"""Regenerates MANIFEST.json from the table below and checks that every theorem exists."""
import json,re,subprocess,glob,os
root=os.path.dirname(os.path.dirname(os.path.abspath(__file__)))
T={}
exec(open(os.path.join(root,'tools/claims.py')).read())
names=set()
for f in glob.glob(root+'/lean/Verif/**/*.lean',recursive=True):
    ns=[]
    for line in open(f):
        m=re.match(r'\s*namespace\s+(\S+)',line)
        if m: ns.append(m.group(1)); continue
        m=re.match(r'\s*end\s+(\S+)',line)
        if m and ns and ns[-1]==m.group(1): ns.pop(); continue
        m=re.match(r'\s*(?:private |protected )?(?:theorem|lemma)\s+(\S+)',line)
        if m: names.add('.'.join(ns+[m.group(1)]))
props=[json.loads(l)['id'] for l in open(root+'/properties.jsonl')]
claims=[]
for p in props:
    if p not in T: print('no claim yet',p); continue
    st,th,note=T[p]
    for t in th:
        if t not in names: print('MISSING',p,t)
    claims.append({"property":p,"status":st,"theorems":th,"note":note})
json.dump({"claims":claims},open(root+'/MANIFEST.json','w'),indent=1)
print(len(claims),'claims')
