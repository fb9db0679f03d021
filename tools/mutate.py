#!/usr/bin/env python3
"""Apply seeded bugs to a scratch copy of the model, rebuild, log which theorems stop proving.
usage: mutate.py FILE.json   (list of {file, def, old, new, claim, [tightened]}; file relative to lean/Verif, no .lean)"""
import json,re,subprocess,sys,os,shutil
SCR='/tmp/scratch'
if os.path.exists(SCR): shutil.rmtree(SCR)
shutil.copytree('/verif/lean',SCR)
def build(target):
    r=subprocess.run(['lake','build',target],cwd=SCR,capture_output=True,text=True)
    out=r.stdout+r.stderr
    failed=[]
    for m in re.finditer(r'^error: (Verif/[\w/]+\.lean):(\d+):',out,re.M):
        lines=open(os.path.join(SCR,m[1])).read().split('\n')
        for k in range(int(m[2])-1,-1,-1):
            mm=re.match(r'\s*(?:@\[[^\]]*\]\s*)?(?:private )?(theorem|lemma|def|example|instance)\b\s*([\w.\'?]*)',lines[k])
            if mm:
                if mm[1]=='def': failed.append('DEF '+mm[2]); break
                n=(m[1][6:-5].replace('/','.'))+'.'+(mm[2] if mm[1]!='example' else f'example@{k+1}')
                if n not in failed: failed.append(n)
                break
    ok=r.returncode==0
    # modules not built because of failed dependencies
    return ok,failed,out
for m in json.load(open(sys.argv[1])):
    p=os.path.join(SCR,'Verif',m['file']+'.lean')
    s=open(p).read()
    d=re.search(r'^(?:def|inductive|structure) '+re.escape(m['def'])+r'(?![\w.\'])',s,re.M)
    at=s.find(m['old'],d.start() if d else 0)
    if at<0:
        print('NOT FOUND',m['def'],m['old']); continue
    open(p,'w').write(s[:at]+m['new']+s[at+len(m['old']):])
    ok,failed,out=build('Verif')
    open(p,'w').write(s)
    if any(f.startswith('DEF ') for f in failed):
        print('INVALID ',m['def'],failed); continue
    print(('SURVIVED' if ok else 'killed  '),m['def'],'|',m['new'][:70].replace('\n',' '),'|',failed)
    if not ok and not failed: print(out[-600:])
    if m.get('dry') or '--dry' in sys.argv: continue
    log=dict(definition='Verif/'+m['file']+'.lean: '+m['def'],edit=f"{m['old']}  ==>  {m['new']}",claim_broken=m['claim'],
        theorems_failed=failed,survived=ok,theorems_tightened=m.get('tightened',[]))
    if m.get('comment'): log['comment']=m['comment']
    open('/verif/seeded/LOG.jsonl','a').write(json.dumps(log)+'\n')
