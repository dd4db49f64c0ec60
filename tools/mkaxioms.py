#!/usr/bin/env python3
"""Runs #print axioms on every theorem of MANIFEST.json; writes tools/axioms.json.  Needs a finished lake build."""
import json, re, subprocess
R = '/verif/'
ths = []
for c in json.load(open(R + 'MANIFEST.json'))['claims']:
    for t in c['theorems']:
        if t not in ths: ths.append(t)
open('/tmp/ax.lean', 'w').write('import Verif\n' + ''.join(f'#print axioms {t}\n' for t in ths))
out = subprocess.run(['lake', 'env', 'lean', '/tmp/ax.lean'], cwd=R + 'lean', capture_output=True, text=True).stdout
out = re.sub(r'\s+', ' ', out)
res = {}
for m in re.finditer(r"'([^']+)' (?:depends on axioms: \[([^\]]*)\]|does not depend on any axioms)", out):
    res[m.group(1)] = ', '.join(x.strip() for x in m.group(2).split(',')) if m.group(2) else ''
json.dump(res, open(R + 'tools/axioms.json', 'w'), indent=0)
print(len(ths), 'theorems', len(res), 'answers', [t for t in ths if t not in res][:10])
from collections import Counter
print(Counter(res.values()))
