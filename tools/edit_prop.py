#!/usr/bin/env python3
"""edit_prop.py ID field text : edits one field of a property."""
import json,sys,os
root=os.path.dirname(os.path.dirname(os.path.abspath(__file__)))
L=[json.loads(l) for l in open(root+'/properties.jsonl')]
for d in L:
    if d['id']==sys.argv[1]: d[sys.argv[2]]=sys.argv[3]
open(root+'/properties.jsonl','w').write(''.join(json.dumps(d)+'\n' for d in L))
