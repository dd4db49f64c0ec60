#!/usr/bin/env python3
"""Generates DESIGN.md from properties.jsonl, MANIFEST.json, the Lean sources and tools/axioms.json (written by tools/mkaxioms.py)."""
import json, re, glob, os
R = '/verif/'
props = [json.loads(l) for l in open(R + 'properties.jsonl')]
man = {c['property']: c for c in json.load(open(R + 'MANIFEST.json'))['claims']}
ax = json.load(open(R + 'tools/axioms.json'))
from design_text import METHOD, HEAD, HEADERS, FINDINGS, NOTES
src = {}
for f in sorted(glob.glob(R + 'lean/Verif/**/*.lean', recursive=True)):
    src[f[len(R + 'lean/'):-5]] = open(f).read()
where = {}
for m, t in src.items():
    ns = []
    for line in t.split('\n'):
        a = re.match(r'namespace\s+(\S+)', line)
        b = re.match(r'end\s+(\S+)', line)
        if a: ns.append(a.group(1))
        elif b and ns and ns[-1] == b.group(1): ns.pop()
        c = re.match(r'(?:@\[[^\]]*\]\s*)?(?:private\s+|protected\s+)?theorem\s+(\S+)', line)
        if c: where['.'.join(ns + [c.group(1)])] = m
def direct_models(m, seen=None):
    seen = set() if seen is None else seen
    out = set()
    for i in re.findall(r'^import (Verif\S+)', src[m], re.M):
        i = i.replace('.', '/')
        if i in seen or i not in src: continue
        seen.add(i)
        if '/Model/' in i: out.add(i.split('/')[-1])
        elif '/Lemmas/' in i or '/Spec/' in i: out |= direct_models(i, seen)
    return out
o = [HEAD]
o.append('## Per property: what is modelled, how it is proved\n')
o.append('Theorem names are in MANIFEST.json. "Model" and "Proofs" name files under `lean/Verif/Model` and `lean/Verif/Props`. `partial` means that the claim as written in '
         'properties.jsonl is false of the code or proved with a restriction; the note says which, the theorems ending in `_refuted` prove the negation on a concrete or universally '
         'quantified case, and the theorems ending in `_partial` prove the rest.\n')
for p in props:
    c = man[p['id']]
    files = []
    for t in c['theorems']:
        w = where.get(t)
        if w and w not in files: files.append(w)
    models = set()
    for w in files:
        d = direct_models(w)
        if not d:
            for i in re.findall(r'^import (Verif\.Props\S+)', src[w], re.M): d |= direct_models(i.replace('.', '/'))
        models |= d
    o.append(f"* **{p['id']}** {p['title']} — *{c['status']}*. {METHOD.get(p['id'], '')} Model: {', '.join(sorted(models)) or '(see Proofs)'}. Proofs: {', '.join(w.split('/')[-1] for w in files)}. {c['note']}")
o.append('\n' + HEADERS)
# cited ranges per header
cov = {}
pat = re.compile(r'([a-zA-Z_0-9]+\.hpp)[`\s:,(]*(?:lines?\s*)?((?:\d+(?:\s*[-–]\s*\d+)?(?:\s*[,;/]\s*|\s+and\s+)?)+)')
cite = {}
for m, t in src.items():
    if '/Model/' not in m: continue
    for q in pat.finditer(t):
        cite.setdefault(q.group(1), {}).setdefault(m.split('/')[-1], 0)
        cite[q.group(1)][m.split('/')[-1]] += 1
o.append('\n### Which model files cite which header (citations carry the line numbers)\n')
for h in sorted(cite):
    o.append(f"* `{h}`: " + ', '.join(f'{k} ({n})' for k, n in sorted(cite[h].items())))
o.append('\n' + FINDINGS.replace('@PARTIAL@', ', '.join(p['id'] for p in props if man[p['id']]['status'] == 'partial')))
o.append('\n' + NOTES)
o.append('\n## Axioms of each theorem\n')
o.append('Output of `#print axioms` for every theorem named in MANIFEST.json (tools/mkaxioms.py). No theorem depends on any other axiom.\n')
groups = {}
for t, a in ax.items(): groups.setdefault(a, []).append(t)
for a in sorted(groups, key=lambda a: -len(groups[a])):
    o.append(f"* **{a or 'no axioms'}** ({len(groups[a])} theorems): " + ', '.join('`' + t.replace('Ublas.', '', 1) + '`' for t in sorted(groups[a])) + '\n')
open(R + 'DESIGN.md', 'w').write('\n'.join(o) + '\n')
miss = [p['id'] for p in props if p['id'] not in METHOD]
print(len(o), 'lines; no method text:', miss, '; theorems without file:', [t for c in man.values() for t in c['theorems'] if t not in where][:5])
