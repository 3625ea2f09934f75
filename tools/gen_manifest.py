#!/usr/bin/env python3
"""Writes /verif/MANIFEST.json from the theorem names in lean/Verif/Props (every theorem named Cnn_...)."""
import json, re, glob, os
os.chdir(os.path.join(os.path.dirname(__file__), '..'))
props=[json.loads(l) for l in open('properties.jsonl')]
thms={}
for f in sorted(glob.glob('lean/Verif/Props/*.lean')):
    for m in re.finditer(r'^theorem (C(\d\d+)_\w+)', open(f).read(), re.M):
        thms.setdefault('C'+m.group(2),[]).append('Wdns.'+m.group(1))
notes=json.load(open('tools/notes.json'))
claims=[]
for p in props:
    i=p['id']; t=thms.get(i,[])
    n=notes.get(i,{})
    if not t: continue
    st=n.get('status') or ('partial' if any(x.endswith('_partial') for x in t) else 'proved')
    claims.append({'property':i,'status':st,'theorems':t,'note':n.get('note','')})
json.dump({'claims':claims},open('MANIFEST.json','w'),indent=1)
print(len(claims),'claims;', {s:sum(c['status']==s for c in claims) for s in ('proved','partial','not_applicable')}, 'missing:', [p['id'] for p in props if p['id'] not in thms])
