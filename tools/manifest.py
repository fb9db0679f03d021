#!/usr/bin/env python3
"""Generate MANIFEST.json from tools/claims.txt.
Each line of claims.txt:  ID | status | theorem, theorem | note"""
import json,re,subprocess,sys
claims=[]
for l in open('/verif/tools/claims.txt'):
    l=l.strip()
    if not l or l.startswith('#'): continue
    i,s,t,n=[x.strip() for x in l.split('|',3)]
    claims.append(dict(property=i,status=s,theorems=[x.strip() for x in t.split(',') if x.strip()],note=n))
ids=[json.loads(l)['id'] for l in open('/verif/properties.jsonl')]
seen={c['property'] for c in claims}
assert seen<=set(ids), seen-set(ids)
missing=[i for i in ids if i not in seen]
print('unclaimed:',missing)
json.dump(dict(claims=claims),open('/verif/MANIFEST.json','w'),indent=1)
# axiom audit
names=[t for c in claims for t in c['theorems']]
src='import Verif\n'+''.join(f'#print axioms {n}\n' for n in names)
open('/tmp/audit.lean','w').write(src)
r=subprocess.run('cd /verif/lean && lake env lean /tmp/audit.lean',shell=True,capture_output=True,text=True)
out=r.stdout+r.stderr
bad=[l for l in out.split('\n') if 'error:' in l or 'error(' in l or 'sorryAx' in l]
ax=set(re.findall(r"[A-Za-z_.]+",' '.join(re.findall(r"axioms: \[([^\]]*)\]",out))))
print('axioms:',ax,'theorems:',len(names)); print('\n'.join(bad))
assert not bad and ax<={'propext','Classical.choice','Quot.sound'}, 'unexpected axioms'
