# the end of a context: the stack given back twice, not at all, or a local not destroyed (C95, programs whose contexts end one after the other)
MUTANTS=[]
W={}
for f in ('Fiber','UFiber'):
    W[f]='import Verif.%s.Spec\nopen Verif.Fiber (Op Tid Var)\nopen Verif.%s\ndef start : List (Tid × Op) := h1 ++ [(0, .create [] .success), (0, .resume 3), (0, .resume 4), (0, .resume 2), (0, .moveAssign 2 6), (0, .drop 6)]'%(f,f)
for f in ('Cont','UCont'):
    W[f]='import Verif.%s.Props\nopen Verif.Fiber (Tid Var)\nopen Verif.%s\ndef start : List (Tid × Op) := h2 ++ [(0, .callcc [] .success), (0, .resume 4), (0, .tick), (0, .resume 2), (0, .moveAssign 2 6), (0, .drop 6)]'%(f,f)
ends={f:'let p := start ++ [(0, .retHandle 2), (0, .tick), (0, .tick)%s]; (runsOk p, (exec p).log.take 2, (exec p).frames 0, (exec p).status 1)'%(', (0, .tick), (0, .drop 8)' if f in ('Fiber','Cont') else ', (0, .drop 8), (0, .tick)') for f in W}
def m(f,name,d,old,new,claim): MUTANTS.append(dict(name='life_'+f+'_'+name,file=f+'/Model.lean',old=old,new=new,definition=f+'.'+d,claim=claim,witness=ends[f],wimport=W[f]))
for f in ('Fiber','Cont','UFiber','UCont'):
    m(f,'twice','exitStep','.addLog (.dealloc n)','.addLog (.dealloc n) |>.addLog (.dealloc n)','C95: the stack of a context that has ended is given back twice')
    m(f,'skip_local','step','(s.setFrames c (.user k%s ls m :: rest)).destroyVar t c x'%(' lib' if f=='Cont' else ''),'(s.setFrames c (.user k%s (x :: ls) m :: rest)).destroyVar t c x'%(' lib' if f=='Cont' else ''),'C95: a return does not get past the first local')
