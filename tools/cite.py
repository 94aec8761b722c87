#!/usr/bin/env python3
"""Checks (and with --fix rewrites) the /repo citations of the model: `/repo/f.go:a-b `Name`` must be the
line range of the declaration Name in f.go. Other citations must lie inside the file."""
import re,sys,glob,os
root=os.path.join(os.path.dirname(__file__),"..","lean","Verif")
fix='--fix' in sys.argv
decls={}
def load(f):
    if f in decls: return decls[f]
    L=open('/repo/'+f).read().split('\n'); d={}
    i=0
    while i<len(L):
        m=re.match(r'func (?:\(\w+ \*?(\w+)(?:\[[^]]*\])?\) )?(\w+)(?:\[[^]]*\])?\(',L[i]) or re.match(r'type ()(\w+)(?:\[[^]]*\])? (?:struct|interface|func)',L[i]) or re.match(r'(?:var|const) ()(\w+) ',L[i])
        if m:
            j=i
            if not re.search(r'\}\s*$',L[i]) and (L[i].rstrip().endswith('{')):
                while not L[j].startswith('}'): j+=1
            d.setdefault(m.group(2),[]).append((i+1,j+1))
            if m.group(1): d.setdefault(m.group(1)+'.'+m.group(2),[]).append((i+1,j+1))
        i+=1
    decls[f]=(d,len(L)); return decls[f]
pat=re.compile(r'/repo/(\w+\.go):(\d+)(?:-(\d+))? `([\w.]+)`')
anyc=re.compile(r'/repo/(\w+\.go):(\d+)(?:-(\d+))?')
bad=0
for p in sorted(glob.glob(root+'/**/*.lean',recursive=True)):
    s=open(p).read()
    def sub(m):
        global bad
        f,a,b,n=m.group(1),int(m.group(2)),int(m.group(3) or m.group(2)),m.group(4)
        d,_=load(f)
        if n not in d:
            print('no decl',os.path.basename(p),m.group(0)); bad+=1; return m.group(0)
        r=min(d[n],key=lambda r:abs(r[0]-a))
        if r!=(a,b):
            print('range',os.path.basename(p),m.group(0),'->',r); bad+=1
            if fix:
                rng=f'{r[0]}-{r[1]}' if r[0]!=r[1] else f'{r[0]}'
                return f'/repo/{f}:{rng} `{n}`'
        return m.group(0)
    t=pat.sub(sub,s)
    for m in anyc.finditer(t):
        _,n=load(m.group(1))
        if int(m.group(3) or m.group(2))>n: print('beyond eof',p,m.group(0)); bad+=1
    if fix and t!=s: open(p,'w').write(t)
print('issues',bad)
