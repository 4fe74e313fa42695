#!/usr/bin/env python3
"""Regenerates MANIFEST.json (and lean/Verif/Audit.lean) from the theorem names in lean/Verif/Props."""
import re,glob,json,os
root=os.path.dirname(os.path.dirname(os.path.abspath(__file__)))
notes=json.load(open(root+'/tools/notes.json'))
ths={}
for f in sorted(glob.glob(root+'/lean/Verif/Props/*.lean')):
    ns=[]
    for l in open(f):
        m=re.match(r'namespace (\S+)',l)
        if m: ns.append(m.group(1))
        m=re.match(r'end (\S+)',l)
        if m and ns and ns[-1]==m.group(1): ns.pop()
        m=re.match(r'(?:@\[[^\]]*\] *)?theorem (C(\d+)_\S+)',l)
        if m: ths.setdefault('C'+m.group(2),[]).append('.'.join(ns)+'.'+m.group(1))
claims=[]
for l in open(root+'/properties.jsonl'):
    p=json.loads(l); i=p['id']; t=ths.get(i,[])
    if not t: st='partial' ; 
    else: st='partial' if any('_partial' in x or '_violated' in x for x in t) else 'proved'
    if not t: continue
    claims.append(dict(property=i,status=st,theorems=t,note=notes.get(i,'')))
s='{"claims": [\n'+',\n'.join(json.dumps(c) for c in claims)+'\n]}\n'
open(root+'/MANIFEST.json','w').write(s)
mods=sorted(os.path.basename(f)[:-5] for f in glob.glob(root+'/lean/Verif/Props/*.lean'))
a=''.join('import Verif.Props.%s\n'%m for m in mods)
a+='/-!\n# Axiom audit (generated by tools/manifest.py)\n\nEvery property theorem must print at most `propext`, `Classical.choice`, `Quot.sound`.\n-/\n'
for c in claims:
    for t in c['theorems']: a+='#print axioms %s\n'%t
open(root+'/lean/Verif/Audit.lean','w').write(a)
# root module
alls=[]
for d in ['Model','Spec','Lemmas','Props']:
    for f in sorted(glob.glob(root+'/lean/Verif/%s/*.lean'%d)): alls.append('import Verif.%s.%s\n'%(d,os.path.basename(f)[:-5]))
open(root+'/lean/Verif.lean','w').write(''.join(alls)+'import Verif.Audit\n')
print(len(claims),'claims',sum(len(c['theorems']) for c in claims),'theorems', [c['property'] for c in claims if not c['note'] and c['status']=='partial'])
