#!/usr/bin/env python3
"""Check that every anchor in properties.jsonl names a file and symbol that exist in /repo."""
import json,os,sys
bad=0
for l in open('/verif/properties.jsonl'):
    d=json.loads(l)
    for a in d['anchors']:
        f,_,s=a.partition(':')
        path='/repo/'+f
        if not os.path.exists(path) or (s and s not in open(path,errors='replace').read()):
            print('BAD',d['id'],a); bad=1
sys.exit(bad)
