#!/usr/bin/env python3
"""Mutation tests. Usage: mutate.py <mutants.py> [names...]; mutants.py defines MUTANTS, a list of dicts:
name, file (relative to lean/Verif), old, new, nth (default 0), definition, claim, witness (Lean Bool expr, optional), wimport (modules)
Copies /verif/lean to /tmp/mut/lean (with build output), edits, builds, restores; prints one JSON line per mutant."""
import sys,os,subprocess,re,json,shutil
M=os.environ.get('MUTDIR','/tmp/mut')+'/lean'
os.makedirs(os.path.dirname(M),exist_ok=True)
subprocess.run(['rsync','-a','--delete','/verif/lean/',M+'/']) if shutil.which('rsync') else (shutil.rmtree(M,ignore_errors=True),shutil.copytree('/verif/lean',M,symlinks=True))
g={}; exec(open(sys.argv[1]).read(),g)
sel=sys.argv[2:]
def thm(f,ln):
    name='?'
    for i,l in enumerate(open(f)):
        if i+1>ln: break
        m=re.match(r'\s*(?:@\[[^\]]*\]\s*)?(?:private )?(theorem|lemma|example|def|instance|inductive)\s*(\S*)',l)
        if m: name=m.group(2) if m.group(1)!='example' else 'example'
    return name
for m in g['MUTANTS']:
    if sel and m['name'] not in sel: continue
    p=M+'/Verif/'+m['file']; src=open(p).read()
    parts=src.split(m['old']); n=m.get('nth',0)
    if len(parts)<n+2: print(json.dumps({'name':m['name'],'error':'pattern not found'}),flush=True); continue
    open(p,'w').write(m['old'].join(parts[:n+1])+m['new']+m['old'].join(parts[n+1:]))
    out=subprocess.run(['lake','build'],cwd=M,capture_output=True,text=True).stdout
    errs=[]
    for e in re.finditer(r'error: (Verif/\S+?\.lean):(\d+):',out):
        k=e.group(1)[6:-5].replace('/','.')+':'+thm(M+'/'+e.group(1),int(e.group(2)))
        if k not in errs: errs.append(k)
    w=None
    if m.get('witness'):
        open(M+'/W.lean','w').write(m.get('wimport','import Verif.Fiber.Spec\nopen Verif.Fiber')+'\n#eval ('+m['witness']+')\n')
        r=subprocess.run(['lake','env','lean','W.lean'],cwd=M,capture_output=True,text=True); w=r.stdout.strip()[-200:]
    open(p,'w').write(src)
    print(json.dumps(dict(name=m['name'],definition=m['definition'],edit=m.get('edit',m['old'].strip()+'  ==>  '+m['new'].strip()),claim_broken=m['claim'],theorems_failed=errs[:12],n_failed=len(errs),witness_on_mutant=w,survived=not errs)),flush=True)
