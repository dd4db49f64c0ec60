"""Append mutation results (/tmp/mut/results.jsonl) to seeded/LOG.jsonl; lines already logged are skipped."""
import json,sys,os
L='/verif/seeded/LOG.jsonl'
os.makedirs('/verif/seeded',exist_ok=True)
seen=set()
if os.path.exists(L):
    for l in open(L): seen.add((json.loads(l)['definition'],json.loads(l)['edit']))
tight=json.loads(sys.argv[1]) if len(sys.argv)>1 else {}
with open(L,'a') as f:
    for l in open('/tmp/mut/results.jsonl'):
        d=json.loads(l)
        k=(d['file']+': '+d['definition'],d['edit'])
        if k in seen: continue
        f.write(json.dumps({'definition':k[0],'edit':k[1],'claim':d['claim'],'result':'survived' if d['ok'] else 'rejected','theorems_failed':d['failed'],'theorems_tightened':tight.get(d['id'],[])},ensure_ascii=False)+'\n')
