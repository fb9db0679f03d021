#!/usr/bin/env python3
"""Check that every edit of a mutation file applies to the current model (no build)."""
import json,re,sys
for m in json.load(open(sys.argv[1])):
    s=open('/verif/lean/Verif/'+m['file']+'.lean').read()
    d=re.search(r'^(?:def|inductive|structure) '+re.escape(m['def'])+r'(?![\w.\'])',s,re.M)
    at=s.find(m['old'],d.start() if d else 0)
    if not d or at<0: print('NOT FOUND',m['def'],'|',m['old'])
    else:
        n=re.search(r'^(/--)',s[d.start():],re.M)
        if n and at>d.start()+n.start(): print('OUTSIDE',m['def'],'|',m['old'])
