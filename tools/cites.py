#!/usr/bin/env python3
"""Check (or with --fix rewrite) citations of the form  `path.c:A-B`, `Function`  in the model comments: the line range
must be the range of that function's definition in /repo."""
import re,sys,glob,os
cache={}
def funcs(path):
    if path in cache: return cache[path]
    d={}
    L=open('/repo/'+path,errors='replace').read().split('\n')
    i=0
    while i<len(L):
        m=re.match(r'^(?!\s|#|\}|\{|typedef)[\w\*\s\(\),]*?\b(\w+)\s*\(',L[i])
        if m and not L[i].rstrip().endswith(';'):
            j=i
            while j<len(L) and not L[j].startswith('{') and not L[j].rstrip().endswith('{') and not L[j].rstrip().endswith(';'): j+=1
            if j<len(L) and '{' in L[j]:
                k=j
                while k<len(L) and not L[k].startswith('}'): k+=1
                d.setdefault(m[1],(i+1,k+1)); i=k
        i+=1
    cache[path]=d
    return d
if __name__=='__main__':
    if len(sys.argv)>1 and sys.argv[1].endswith('.c'):
        for n,r in funcs(sys.argv[1]).items(): print(n,r)
        sys.exit()
    fix='--fix' in sys.argv
    bad=0
    for f in glob.glob('/verif/lean/Verif/**/*.lean',recursive=True):
        t=open(f).read()
        def rep(m):
            global bad
            p,a,b,n=m[1],int(m[2]),int(m[3] or m[2]),m[5]
            if not os.path.exists('/repo/'+p): print(f,'no file',p); bad+=1; return m[0]
            fr=funcs(p).get(n)
            if fr is None: print(f,'no function',p,n); bad+=1; return m[0]
            if (a,b)!=fr:
                if fix: return f'`{p}:{fr[0]}-{fr[1]}`{m[4]}`{n}`'
                print(f.split('/')[-2:],p,n,(a,b),'should be',fr); bad+=1
            return m[0]
        t2=re.sub(r'`([\w/]+\.[ch]):(\d+)(?:-(\d+))?`(,\s+)`(\w+)`',rep,t)
        if fix and t2!=t: open(f,'w').write(t2)
    print('bad',bad)
