import re,subprocess,json,sys
M='/tmp/muti/lean'
# direct test: C96_step / C98_step against a mutated model, without the modules in between
src=open(M+'/Verif/Fiber/Model.lean').read()
g={}; exec(open('/verif/tools/mutants/ident.py').read(),g)
mig=open('/verif/lean/Verif/Migrate/Fiber.lean').read(); mig=mig[:mig.index('/-- **C96, whole')]
mig=re.sub(r'import .*\n','',mig).replace('/-! #','/- #',1)
nam=open('/verif/lean/Verif/Names/Fiber.lean').read(); nam=nam[:nam.index('/-- **C98, whole')] if '/-- **C98, whole' in nam else nam[:nam.index('theorem C98_history')]
nam=re.sub(r'import .*\n','',nam).replace('/-! #','/- #',1)
def run(model):
    open(M+'/Verif/Fiber/Model.lean','w').write(model)
    b=subprocess.run(['lake','build','Verif.Migrate.Spec','Verif.Names.Spec'],cwd=M,capture_output=True,text=True)
    if b.returncode: return 'prebuild',re.findall(r'error: (\S+)',b.stdout)[:3]
    res=[]
    for n,t in (('C96',mig),('C98',nam)):
        open(M+'/D.lean','w').write('import Verif.Migrate.Spec\nimport Verif.Names.Spec\n'+t+'\nend Verif.Fiber\n')
        r=subprocess.run(['lake','env','lean','D.lean'],cwd=M,capture_output=True,text=True)
        ls=[int(x) for x in re.findall(r'D.lean:(\d+):\d+: error',r.stdout)]
        L=open(M+'/D.lean').read().split('\n'); names=[]
        for l in ls:
            k=l-1
            while k>=0 and not re.match(r'(?:@\[.*\] )?theorem (\S+)',L[k]): k-=1
            nm=re.match(r'(?:@\[.*\] )?theorem (\S+)',L[k]).group(1) if k>=0 else '?'
            if nm not in names: names.append(nm)
        res.append((n,names))
    return res
print('base',run(src))
for m in g['MUTANTS']:
    if m['file']!='Fiber/Model.lean' : continue
    if m['old'] not in src: print('missing',m['name']); continue
    print(m['name'],run(src.replace(m['old'],m['new'],1)),flush=True)
open(M+'/Verif/Fiber/Model.lean','w').write(src)
