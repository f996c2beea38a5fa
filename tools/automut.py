#!/usr/bin/env python3
"""Systematic mutation. Usage: automut.py OUT FILE... (relative to lean/Verif). Every definition in the files is edited
at every place one of the operators below applies; the project copy in $MUTDIR is built until the first error.
Prints/append one JSON line per mutant to OUT: file, def, line, edit, result (killed by <module:theorem> | invalid | SURVIVED)."""
import sys,os,subprocess,re,json,shutil,signal,random
M=os.environ.get('MUTDIR','/tmp/mut')+'/lean'
os.makedirs(os.path.dirname(M),exist_ok=True)
if os.path.exists(M): shutil.rmtree(M)
shutil.copytree('/verif/lean',M,symlinks=True)
OUT=sys.argv[1]
done=set()
if os.path.exists(OUT):
    for l in open(OUT):
        d=json.loads(l); done.add((d['file'],d['line'],d['edit']))
OPS=[(r'\btrue\b','false'),(r'\bfalse\b','true'),(r'&&','||'),(r'\|\|','&&'),(r'==','!='),(r'!=','=='),(r'(?<![:<>≤≥!=])≤','<'),(r' < ',' ≤ '),(r' ∧ ',' ∨ '),(r' ∨ ',' ∧ '),
     (r' = ',' ≠ '),(r' ≠ ',' = '),(r' \+ 1\b',''),(r' \+ 1\b',' + 2'),(r' \+ ',' - '),(r' - ',' + '),(r'\b0\b','1'),(r'\b1\b','0'),(r'\b([2-9]|\d\d+)\b','INC'),(r' \|\|\| ',' &&& '),(r' &&& ',' ||| '),
     (r', \w+(?:\.\w+)* := [^,{}]*(?=[,}])','DROP'),(r'(?<=with )\w+ := [^,{}]*, ','DROP'),(r' ++ \[[^\[\]]*\]','DROP'),(r'\b\.inl\b','.inr'),(r'¬ ',''),
     (r"\(([a-z]\w*'?)\.\w+(?: [^\s()\[\]{},]+| \([^()]*\)| \[[^\[\]]*\])+\)(?=\.)",'G1'),(r"\(([a-z]\w*'?)\.\w+(?: [^\s()\[\]{},]+| \([^()]*\)| \[[^\[\]]*\])+\)(?!\.)",'G1'),
     (r"(?<=\))\.(?!ok\b)[a-z]\w*(?: [^\s()\[\]{},]+| \([^()]*\)| \[[^\[\]]*\])+",'DROP'),
     (r'(?<=if )([^\n]+?) ∧ ([^\n]+?)(?= then)','G1'),(r'(?<=if )([^\n]+?) ∧ ([^\n]+?)(?= then)','G2'),(r'\bsome\b \w+','none')]
def regions(src):
    """(start,end,name) of definitions"""
    L=src.split('\n'); res=[]; pos=0; cur=None; com=0
    starts=[]
    for i,l in enumerate(L):
        starts.append(pos); pos+=len(l)+1
    for i,l in enumerate(L):
        m=re.match(r'(?:@\[[^\]]*\]\s*)?(?:private |noncomputable )?(def|abbrev|structure|inductive|instance|theorem|lemma|example|namespace|end|section|variable|open|/-|#|set_option|import|mutual|attribute|include|local|omit|deriving)(?!\w)\s*(\S*)',l)
        if m or re.match(r'/-',l):
            if cur: res.append((cur[0],starts[i],cur[1])); cur=None
            if m and m.group(1) in('def','abbrev','structure','inductive','instance'): cur=(starts[i],m.group(2))
    if cur: res.append((cur[0],len(src),cur[1]))
    return res
def comments(src):
    c=[]
    for m in re.finditer(r'/-.*?-/|--[^\n]*|"[^"\n]*"',src,re.S): c.append(m.span())
    return c
def thm(f,ln):
    name='?'
    for i,l in enumerate(open(f)):
        if i+1>ln: break
        m=re.match(r'\s*(?:@\[[^\]]*\]\s*)?(?:private )?(theorem|lemma|example|def|instance|inductive)\s*(\S*)',l)
        if m: name=m.group(2) if m.group(1)!='example' else 'example'
    return name
def build(own):
    p=subprocess.Popen(['lake','build'],cwd=M,stdout=subprocess.PIPE,stderr=subprocess.STDOUT,text=True,start_new_session=True)
    r='SURVIVED'
    for l in p.stdout:
        m=re.match(r'error: (Verif/\S+?\.lean):(\d+):',l)
        if m:
            n=thm(M+'/'+m.group(1),int(m.group(2))); r='killed by '+m.group(1)[6:-5].replace('/','.')+':'+n
            if m.group(1)=='Verif/'+own:
                k=re.search(r'(?m)^(?:@\[[^\]]*\]\s*)?(?:private )?(theorem|lemma|example|def|instance|inductive|abbrev|structure)\s+'+re.escape(n),open(M+'/'+m.group(1)).read())
                if k and k.group(1) not in('theorem','lemma','example'): r='invalid '+n
            try: os.killpg(p.pid,signal.SIGKILL)
            except ProcessLookupError: pass
            break
        if l.startswith('error:') and 'lean exited' not in l: r='killed '+l.strip()[:100]
    p.wait()
    return r
for f in sys.argv[2:]:
    p=M+'/Verif/'+f; src=open(p).read(); com=comments(src)
    muts=[]
    for a,b,name in regions(src):
        for pat,new in OPS:
            for m in re.finditer(pat,src[a:b]):
                s,e=a+m.start(),a+m.end()
                if any(x<=s<y for x,y in com): continue
                n=str(int(m.group(0))+1) if new=='INC' else '' if new=='DROP' else m.group(1) if new=='G1' else m.group(2) if new=='G2' else new
                ln=src.count('\n',0,s)+1
                ls=src.rfind('\n',0,s)+1; le=src.find('\n',e); le=len(src) if le<0 else le
                muts.append((ln,name,s,e,n,src[ls:le].strip()[:200]+'  ==>  '+(src[ls:s]+n+src[e:le]).strip()[:200]))
    if os.environ.get("COUNT"): print(f,len(muts)); continue
    if os.environ.get("SHUFFLE"): random.Random(1).shuffle(muts)
    for ln,name,s,e,n,ed in muts:
        if (f,ln,ed) in done: continue
        open(p,'w').write(src[:s]+n+src[e:])
        r=build(f)
        open(p,'w').write(src)
        open(OUT,'a').write(json.dumps(dict(file=f,definition=name,line=ln,edit=ed,result=r),ensure_ascii=False)+'\n')
