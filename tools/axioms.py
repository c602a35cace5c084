#!/usr/bin/env python3
"""Writes AXIOMS.md: the axioms of every theorem of the manifest, as printed by Lean. Needs a finished build."""
import json,subprocess,os,re
root=os.path.join(os.path.dirname(os.path.abspath(__file__)),'..')
M=json.load(open(os.path.join(root,'MANIFEST.json')))['claims']
names=[t for c in M for t in c['theorems']]
src='import Verif\n'+''.join('#print axioms %s\n'%n for n in names)
open('/tmp/axioms.lean','w').write(src)
r=subprocess.run(['lake','env','lean','/tmp/axioms.lean'],cwd=os.path.join(root,'lean'),capture_output=True,text=True)
o=r.stdout
res={}
for n,a in re.findall(r"'(\S+)' depends on axioms: \[([^\]]*)\]",o): res[n]=', '.join(x.strip() for x in a.split(','))
for n in re.findall(r"'(\S+)' does not depend on any axioms",o): res[n]='none'
miss=[n for n in names if n not in res]
bad=[n for n in res if set(res[n].split(', '))-{'propext','Classical.choice','Quot.sound','none'}]
print(len(names),'missing',miss[:5],'bad',bad[:5])
with open(os.path.join(root,'AXIOMS.md'),'w') as f:
    f.write('# Axioms of each theorem\n\nAs printed by `#print axioms`; written by `tools/axioms.py`.\n\n')
    for n in names: f.write('* `%s`: %s\n'%(n,res.get(n,'?')))
