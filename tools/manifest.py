#!/usr/bin/env python3
"""Regenerates MANIFEST.json from the theorem names in lean/Verif/Props and tools/notes.json."""
import json,re,glob,os
root=os.path.dirname(os.path.dirname(os.path.abspath(__file__)))
props=[json.loads(l)['id'] for l in open(root+'/properties.jsonl') if l.strip()]
notes=json.load(open(root+'/tools/notes.json'))
th={}
for f in sorted(glob.glob(root+'/lean/Verif/Props/*.lean')):
    for m in re.finditer(r'^theorem (C\d+)_(\w+)',open(f).read(),re.M):
        th.setdefault(m.group(1),[]).append('Verif.%s_%s'%(m.group(1),m.group(2)))
claims=[]
for p in props:
    t=th.get(p,[]); n=notes.get(p,{})
    st=n.get('status') or ('proved' if t and not any('partial' in x or 'violated' in x for x in t) else 'partial')
    if not t: st=n.get('status') or 'partial'
    claims.append(dict(property=p,status=st,theorems=t,note=n.get('note','')))
for p in th:
    assert p in props,p
json.dump(dict(claims=claims),open(root+'/MANIFEST.json','w'),indent=1)
print(sum(len(c['theorems']) for c in claims),'theorems',[c['property'] for c in claims if not c['theorems']])
