#!/usr/bin/env python3
"""note.py ID status text"""
import json,sys,os
root=os.path.dirname(os.path.dirname(os.path.abspath(__file__)))
n=json.load(open(root+'/tools/notes.json'))
n[sys.argv[1]]=dict(status=sys.argv[2],note=sys.argv[3])
json.dump(n,open(root+'/tools/notes.json','w'),indent=1,sort_keys=True)
