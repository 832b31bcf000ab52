#!/usr/bin/env python3
"""Writes AXIOMS.txt: the axioms each theorem of MANIFEST.json depends on (run after lake build)."""
import json,os,subprocess,tempfile,re
root=os.path.dirname(os.path.dirname(os.path.abspath(__file__)))
t=[x for c in json.load(open(root+'/MANIFEST.json'))['claims'] for x in c['theorems']]
src='import Verif\n'+'\n'.join('#print axioms '+x for x in t)+'\n'
f=tempfile.NamedTemporaryFile('w',suffix='.lean',delete=False); f.write(src); f.close()
o=subprocess.run(['lake','env','lean',f.name],cwd=root+'/lean',capture_output=True,text=True).stdout
o=re.sub(r'\n\s+',' ',o)
lines=[l for l in o.splitlines() if l.strip()]
open(root+'/AXIOMS.txt','w').write('\n'.join(lines)+'\n')
print(len(t),len(lines),sorted({a for l in lines for a in re.findall(r'\[(.*)\]',l)}))
