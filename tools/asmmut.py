#!/usr/bin/env python3
"""Single instruction mutants of the assembler transcriptions. Usage: asmmut.py <workdir> <port>...
For every instruction (loads and stores: one in four): drop it, and perturb it (offset, immediate, operand order, label).  Builds Verif.Asm.<port>; prints one JSON line per mutant."""
import sys,os,subprocess,re,json,shutil,zlib,threading,time
W=sys.argv[1]; M=W+'/lean'
os.makedirs(W,exist_ok=True); shutil.rmtree(M,ignore_errors=True); shutil.copytree('/verif/lean',M,symlinks=True)
REG={'X86_64':'r9','Arm64':'(x 7)','I386':'ecx','Ppc64':'(r 9)'}
def thm(f,ln):
    name='?'
    for i,l in enumerate(open(f)):
        if i+1>ln: break
        m=re.match(r'\s*(?:@\[[^\]]*\]\s*)?(?:private )?(theorem|lemma|example|def|instance|inductive)\s*(\S*)',l)
        if m: name=m.group(2) if m.group(1)!='example' else 'example'
    return name
TARGET={'Ppc64v1':['Verif.Asm.Ppc64v1First','Verif.Asm.Ppc64v1Ontop'],'Ppc32Xcoff':['Verif.Asm.Ppc32XcoffFirst','Verif.Asm.Ppc32XcoffOntop']}
TMO=int(os.environ.get('TMO','600'))
killed=[0]
def watch():
    # ends provers of this work directory that use more than 6 GB
    while True:
        time.sleep(2)
        for l in subprocess.run(['ps','-eo','pid,rss,args'],capture_output=True,text=True).stdout.split('\n')[1:]:
            q=l.split(None,2)
            if len(q)==3 and M in q[2] and '/lean ' in q[2] and int(q[1])>6000000: killed[0]=1; subprocess.run(['kill','-9',q[0]])
threading.Thread(target=watch,daemon=True).start()
def perturb(t):
    m=re.match(r'\.(st|ld|fst|fld|sth|ldh|std|ldd)\b(.*) (0x[0-9a-f]+|\d+)$',t)
    if m: return '.%s%s %s'%(m.group(1),m.group(2),hex(int(m.group(3),0)+8))
    m=re.match(r'(\.addi .*off A )(0x[0-9a-f]+|\d+)\)$',t)
    if m: return m.group(1)+hex(int(m.group(2),0)+16)+')'
    m=re.match(r'\.mov (\([^)]*\)|\S+) (\([^)]*\)|\S+)$',t)
    if m: return '.mov %s %s'%(m.group(2),m.group(1))
    m=re.match(r'(.*mask A )(\d)(.*)$',t)
    if m: return m.group(1)+str(int(m.group(2))-1)+m.group(3)
    if re.match(r'\.mfb|\.mtb',t) and 'tibLimit' in t: return t.replace('tibLimit','tibBase')
    if 'Lab.finish' in t: return None
    return None
def nop(t):
    m=re.match(r'\.\w+ (\([^)]*\)|\S+) (\([^)]*\)|\S+)',t)
    return None
for port in sys.argv[2:]:
    p=M+'/Verif/Asm/'+port+'Code.lean'; src=open(p).read(); lines=src.split('\n')
    # a register for the no-op
    ab=re.findall(r'^abbrev (\w+)(?: \((\w+) : Nat\))? : A\.R',src,re.M)
    reg=ab[0][0] if not ab[0][1] else '(%s 7)'%ab[0][0]
    cur='?'
    for i,l in enumerate(lines):
        d=re.match(r'def (\w+)',l)
        if d: cur=d.group(1)
        m=re.match(r'(\s*)(\.\w+ [^\]]*?)(,|\])?( -- (\d+).*)$',l)
        if not m: continue
        t=m.group(2).rstrip()
        if os.environ.get('ONLY') and not re.search(os.environ['ONLY'],t): continue
        ci='inductive CI' in src
        wrap=(lambda x:'.i (%s)'%x) if ci else (lambda x:x)
        mi=re.match(r'\.i \((.*)\)$',t) if ci else None
        if mi: t=mi.group(1)
        muts=[('drop',wrap('.mov %s %s'%(reg,reg)))]
        q=perturb(t) if (mi or not ci) else None
        if q: q=wrap(q)
        if q: muts.append(('alter',q))
        for kind,new in muts:
            if re.match(r'\.(f?st|f?ld)\b',t) and zlib.crc32(('%s%d%s'%(port,i,kind)).encode())%4: continue
            if os.environ.get('NAMES') and 'asm_%s_%s_%s_%d'%(port,cur,kind,i+1) not in os.environ['NAMES'].split(','): continue
            ls=list(lines); ls[i]=m.group(1)+new+(m.group(3) or '')+m.group(4)
            open(p,'w').write('\n'.join(ls))
            killed[0]=0; rc=0
            try: r=subprocess.run(['lake','build']+TARGET.get(port,['Verif.Asm.'+port]),cwd=M,capture_output=True,text=True,timeout=TMO); out=r.stdout; rc=r.returncode
            except subprocess.TimeoutExpired: out='error: Verif/Asm/%s.lean:1:'%port; subprocess.run(['pkill','-f',M])
            errs=[]
            for e in re.finditer(r'error: (Verif/\S+?\.lean):(\d+):',out):
                k=e.group(1)[6:-5].replace('/','.')+':'+thm(M+'/'+e.group(1),int(e.group(2)))
                if k not in errs: errs.append(k)
            if rc and not errs: errs.append('Asm.%s: (proof search exceeds 6 GB)'%port if killed[0] else 'BUILD FAILED')
            print(json.dumps(dict(name='asm_%s_%s_%s_%d'%(port,cur,kind,i+1),definition='%s.%s'%(port,cur),edit=t+'  ==>  '+('(no instruction)' if kind=='drop' else new),
              claim_broken='transfer, argument passing and preservation contract of the %s routine (source line %s)'%(cur,m.group(5)),theorems_failed=errs[:8],n_failed=len(errs),survived=not errs)),flush=True)
    open(p,'w').write(src)
