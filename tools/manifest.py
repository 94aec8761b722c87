#!/usr/bin/env python3
"""Regenerates MANIFEST.json: theorem names are collected from lean/Verif/Props by their C-number prefix."""
import json,re,glob,os
root=os.path.dirname(os.path.dirname(os.path.abspath(__file__)))
thms={}
for f in sorted(glob.glob(root+'/lean/Verif/Props/*.lean')):
    for m in re.finditer(r'^theorem (C(\d\d)_\w+)',open(f).read(),re.M):
        thms.setdefault('C'+m.group(2),[]).append('CP.'+m.group(1))
notes=json.load(open(root+'/tools/notes.json'))
ids=[json.loads(l)['id'] for l in open(root+'/properties.jsonl')]
claims=[]
for i in ids:
    n=notes.get(i,{})
    t=thms.get(i,[])
    if not t:
        continue
    claims.append({'property':i,'status':n.get('status','proved'),'theorems':t,'note':n.get('note','')})
json.dump({'claims':claims},open(root+'/MANIFEST.json','w'),indent=1)
print(len(claims),'of',len(ids),'missing:',[i for i in ids if i not in thms])
