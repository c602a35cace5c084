#!/usr/bin/env python3
"""Writes DESIGN.md: design_head.md, the modules and what they leave out, the properties, the findings."""
import json,re,glob,os
root=os.path.join(os.path.dirname(os.path.abspath(__file__)),'..')
out=[open(os.path.join(root,'tools/design_head.md')).read()]
out.append('\n## Modules: what is modelled and what is left out\n')
for f in sorted(glob.glob(os.path.join(root,'lean/Verif/Model/*.lean'))):
    s=open(f).read()
    m=re.search(r'/-!(.*?)-/',s,re.S)
    body=m.group(1).strip()
    title,_,rest=body.partition('\n')
    out.append('### `%s`: %s\n\n%s\n'%(os.path.basename(f)[:-5],title.lstrip('# '),re.sub(r'(?m)^#+ ','',rest.strip())))
P=[json.loads(l) for l in open(os.path.join(root,'properties.jsonl'))]
M={c['property']:c for c in json.load(open(os.path.join(root,'MANIFEST.json')))['claims']}
loc={}
doc={}
for f in glob.glob(os.path.join(root,'lean/Verif/Props/*.lean')):
    s=open(f).read()
    for t in re.findall(r'^theorem (C\d+_\S+)',s,re.M): loc[t]=os.path.basename(f)[:-5]
    for d,t in re.findall(r'/--((?:(?!-/).)*?)-/\s*theorem (C\d+_\S+)',s,re.S): doc[t]=' '.join(d.split())
out.append('## Properties\n\nStatus, theorems and what is missing. The statements are in `properties.jsonl`.\n\n| Property | Status | Module | Theorems | Note |\n|---|---|---|---|---|')
for p in P:
    c=M[p['id']]
    mods=sorted({loc[t] for t in (x.split('.')[-1] for x in c['theorems']) if t in loc})
    out.append('| %s %s | %s | %s | %s | %s |'%(p['id'],p['title'].replace('|','/'),c['status'],', '.join(mods),', '.join('`%s`'%x.split('.')[-1] for x in c['theorems']),(c.get('note') or '').replace('|','/')))
out.append('\n## Findings: where the code violates a property\n')
for t in sorted((t for t in loc if t.endswith('_violated')),key=lambda t:(int(t[1:t.index('_')]),t)):
    d=re.sub(r'^\*\*C\d+\*\*,?\s*(violated:?)?\s*','',doc.get(t,''))
    out.append('* `%s`: %s'%(t,d[:1].upper()+d[1:] if d else 'see the theorem.'))
open(os.path.join(root,'DESIGN.md'),'w').write('\n'.join(out)+'\n')
