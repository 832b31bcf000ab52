#!/usr/bin/env python3
"""Regenerates the generated parts of DESIGN.md (between the markers): the result table and the list of modelled lines."""
import json,re,glob,os
root=os.path.dirname(os.path.dirname(os.path.abspath(__file__)))
man=json.load(open(root+'/MANIFEST.json'))['claims']
props={}
for l in open(root+'/properties.jsonl'):
    d=json.loads(l); props[d['id']]=d
where={}
imports={}
for f in sorted(glob.glob(root+'/lean/Verif/Props/*.lean')):
    b=os.path.basename(f)[:-5]
    s=open(f).read()
    imports[b]=re.findall(r'^import Verif\.Model\.(\w+)',s,re.M)
    for m in re.finditer(r'^theorem (C\d\d+_\w+)',s,re.M): where[m.group(1)]=b
out=['| Prop | Title | Status | Props module (models) | Theorems | What is proved / missing |','|---|---|---|---|---|---|']
for c in man:
    t=[x.split('.')[-1] for x in c['theorems']]
    mods=sorted({where[x] for x in t if x in where})
    mm='; '.join('%s (%s)'%(m,', '.join(imports[m])) for m in mods)
    out.append('| %s | %s | %s | %s | %s | %s |'%(c['property'],props[c['property']]['title'],c['status'],mm,', '.join('`%s`'%x for x in t),c['note'].replace('|','/')))
table='\n'.join(out)
mods=[]
for f in sorted(glob.glob(root+'/lean/Verif/Model/*.lean')):
    s=open(f).read()
    head=re.search(r'/-!\s*(.*?)-/',s,re.S)
    h=' '.join(head.group(1).split()) if head else ''
    n=len(re.findall(r'^(?:noncomputable )?(?:def|structure|inductive|abbrev)\b',s,re.M))
    mods.append('* `Model/%s` (%d definitions): %s'%(os.path.basename(f)[:-5],n,h.lstrip('# ')))
p=root+'/DESIGN.md'
s=open(p).read()
def put(s,name,text):
    a='<!-- begin %s -->'%name; b='<!-- end %s -->'%name
    i=s.index(a)+len(a); j=s.index(b)
    return s[:i]+'\n'+text+'\n'+s[j:]
s=put(s,'table',table); s=put(s,'models','\n'.join(mods))
open(p,'w').write(s)
