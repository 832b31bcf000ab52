#!/usr/bin/env python3
"""Writes MANIFEST.json: collects the theorems Cxx_* from lean/Verif/Props, with status and note from NOTES below."""
import json,re,glob,os
root=os.path.dirname(os.path.dirname(os.path.abspath(__file__)))
thms={}
for f in sorted(glob.glob(root+'/lean/Verif/Props/*.lean')):
    ns=[]
    for line in open(f):
        m=re.match(r'namespace (\S+)',line)
        if m: ns.append(m.group(1))
        m=re.match(r'end (\S+)',line)
        if m and ns and ns[-1]==m.group(1): ns.pop()
        m=re.match(r'theorem (C\d\d+_\w+)',line)
        if m: thms.setdefault(m.group(1).split('_')[0],[]).append('.'.join(ns+[m.group(1)]))
exec(open(root+'/tools/manifest_notes.py').read())
claims=[]
for l in open(root+'/properties.jsonl'):
    p=json.loads(l)['id']
    t=thms.get(p,[])
    if p in NOTES:
        st,note=NOTES[p]
        assert t or st=='not_applicable',p
        claims.append({'property':p,'status':st,'theorems':t,'note':note})
    elif t: print('no note for',p,t)
json.dump({'claims':claims},open(root+'/MANIFEST.json','w'),indent=1)
print(len(claims),'claims')
