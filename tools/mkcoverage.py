#!/usr/bin/env python3
"""Which functions of /repo are modelled: read from the citations in lean/Verif/Model/*.lean."""
import re,os,glob,collections,ast
R='/repo/SeismicMesh/'
py=[os.path.relpath(f,R) for f in glob.glob(R+'**/*.py',recursive=True)]
cpp=[os.path.relpath(f,R) for f in glob.glob(R+'**/*.cpp',recursive=True)]
base={}
for f in py+cpp:
    if f.endswith('__init__.py') or f=='__about__.py': continue
    base[f]=f
# suffix lookup
def resolve(name):
    c=[f for f in base if f==name or f.endswith('/'+name)]
    return c[0] if len(c)==1 else None
def pyfuncs(f):
    t=ast.parse(open(R+f).read());out=[]
    for n in t.body:
        if isinstance(n,ast.FunctionDef): out.append((n.name,n.lineno,n.end_lineno))
        if isinstance(n,ast.ClassDef):
            for m in n.body:
                if isinstance(m,ast.FunctionDef): out.append((n.name+'.'+m.name,m.lineno,m.end_lineno))
    return out
def cppfuncs(f):
    L=open(R+f).read().split('\n');out=[]
    st=[]
    for i,l in enumerate(L,1):
        m=re.match(r'^(?:std::vector<[^(]*>|py::array|double|int|void|bool|std::array<[^(]*>)\s+(\w+)\(',l)
        m2=re.match(r'^\s+\.def\("(\w+)"',l)
        if m: st.append((m.group(1),i))
        elif m2: st.append((m2.group(1),i))
        elif re.match(r'^(std::vector|py::array|double)\b[^;]*$',l) and i<len(L):
            m3=re.match(r'^(\w+)\(',L[i]) 
            if m3: st.append((m3.group(1),i))
    for k,(n,i) in enumerate(st):
        e=(st[k+1][1]-1) if k+1<len(st) else len(L)
        out.append((n,i,e))
    return out
funcs=[(f,)+x for f in sorted(base) for x in (pyfuncs(f) if f.endswith('.py') else cppfuncs(f))]
cites=collections.defaultdict(set)
short={}
for m in sorted(glob.glob('/verif/lean/Verif/Model/*.lean')):
    s0=open(m).read();full0=s0;s='\n'.join(re.findall(r'/--.*?-/',s0,re.S));mod=os.path.basename(m)[:-5]
    # header: full paths named there resolve short names such as utils.py
    full=re.findall(r'([\w/]+\.(?:py|cpp))',s0)
    last={}
    for g in re.finditer(r'([\w/]+\.(?:py|cpp)):(\d+(?:-\d+)?(?:,\s*\d+(?:-\d+)?)*)',s):
        n=g.group(1);f=resolve(n.replace('SeismicMesh/',''))
        if f is None:
            c=[x for x in map(lambda y:resolve(y.replace('SeismicMesh/','')),full) if x and x.endswith('/'+n)]
            if not c:
                c={'utils.py':['geometry/utils.py']}.get(n,[])
            f=c[0] if c else None
        if f is None: continue
        for r in re.split(r',\s*',g.group(2)):
            a,_,b=r.partition('-');a=int(a);b=int(b or a)
            for (ff,name,i,e) in funcs:
                if ff==f and a<=e and b>=i: cites[(f,name)].add(mod)
why=[(r'show|_generate_samples|plot_sizing|print_msg|silence|talk|wrapper|_select_verbosity$','display only'),
(r'Timer|elapsed|reset|__repr__|TypedInput','utility'),]
out=["\n## Coverage\n\nFrom the citations in `Model/*.lean` (`tools/mkcoverage.py`). Functions without a module are not modelled.\n\n| file | function | modelled in |\n|---|---|---|\n"]
un=[]
for f,n,i,e in funcs:
    c=cites.get((f,n))
    if not c:
        un.append((f,n)); w=next((w for r,w in why if re.search(r,n)),'')
        out.append(f"| {f} | {n} | – {w} |\n")
    else: out.append(f"| {f} | {n} | {', '.join(sorted(c))} |\n")
open('/verif/tools/coverage.md','w').write(''.join(out))
if __name__=='__main__':
    print(len(funcs),'functions;',len(un),'not modelled:');print('\n'.join(f+':'+n for f,n in un))
