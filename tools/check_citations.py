#!/usr/bin/env python3
"""Check (and with --fix, repair) the line ranges in model comments of the form
`/repo/src/F.rs:a-b` `symbol`: the symbol's item must start at line a (or its attributes) and end at b."""
import re,sys,glob
fix='--fix' in sys.argv
cache={}
def lines(f):
    if f not in cache: cache[f]=open(f).read().split('\n')
    return cache[f]
def item(f,sym):
    L=lines(f); sym=sym.strip()
    m=re.match(r'impl (\w+) for (\w+)',sym)
    pats=[]; ty=None
    if m: pats=[r'impl(<[^>]*>)? (fmt::)?'+m.group(1)+r'(<.*>)? for '+m.group(2)+r'\b']
    elif sym.endswith('::all()'):
        n=sym[:-7]
        for i,l in enumerate(L):
            if re.search(r'pub struct '+n+':',l):
                j=i
                while L[j]!='}': j+=1
                return [(i,j+1)]
        return []
    else:
        ty=None
        m=re.match(r'(\w+)::(\w+)$',sym)
        if m: ty,n=m.group(1),m.group(2)
        else:
            n=re.sub(r'^(struct|enum|fn) ','',sym)
        kinds='struct|enum|fn' if not re.match(r'(struct|enum|fn) ',sym) else sym.split()[0]
        pats=[r'(pub(\(\w+\))? )?('+kinds+') '+n+r'\b']
    out=[]
    cur=None
    for i,l in enumerate(L):
        mm=re.match(r'impl(<[^>]*>)? (?:.* for )?(\w+)',l)
        if mm: cur=mm.group(2)
        if l=='}': pass
        for p in pats:
            if re.match(r'\s*'+p,l):
                ind=len(l)-len(l.lstrip())
                j=i
                if not l.rstrip().endswith(';'):
                    while not re.match(' '*ind+r'}',lines(f)[j]): j+=1
                if ty is None or cur==ty: out.append((i+1,j+1))
    return out
bad=0
for p in sorted(glob.glob('/verif/lean/Verif/Model/*.lean')):
    s=open(p).read()
    def rep(m):
        global bad
        f,a,b,sym=m.group(1),int(m.group(2)),int(m.group(3)),m.group(4)
        rs=item('/repo/src/'+f,sym)
        if not rs: 
            print('??',p.split('/')[-1],f,a,b,sym); return m.group(0)
        ok=any(a<=x and x-a<=3 and b==y for x,y in rs)
        if ok: return m.group(0)
        x,y=min(rs,key=lambda r:abs(r[0]-a))
        bad+=1
        print('BAD' if not fix else 'FIX',p.split('/')[-1],f,(a,b),sym,'->',(x,y))
        return f'`/repo/src/{f}:{x}-{y}` `{sym}`'
    t=re.sub(r'`/repo/src/(\w+\.rs):(\d+)-(\d+)` `([^`]*)`',rep,s)
    if fix and t!=s: open(p,'w').write(t)
print('bad',bad)
