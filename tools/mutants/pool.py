# switches that leave something on the stack, or handles not moved, in programs that resume each other (C95)
MUTANTS=[]
W={}
for f in ('Fiber','UFiber'):
    W[f]='import Verif.%s.Spec\nopen Verif.Fiber (Op Tid Var)\nopen Verif.%s\ndef half\' (t : Tid) (x v : Var) : List (Tid × Op) := [(t, .resume x), (t, .moveAssign x v), (t, .drop v)]\ndef put\' (t : Tid) (x p : Var) : List (Tid × Op) := [(t, .resumeWith x), (t, .moveAssign x p), (t, .retHandle p), (t, .tick), (t, .tick), (t, .drop (p + 2))]\ndef start : List (Tid × Op) := h1 ++ [(0, .create [] .success), (0, .resume 3), (0, .resume 4)]'%(f,f)
for f in ('Cont','UCont'):
    W[f]='import Verif.%s.Props\nopen Verif.Fiber (Tid Var)\nopen Verif.%s\ndef half\' (t : Tid) (x v : Var) : List (Tid × Op) := [(t, .resume x), (t, .moveAssign x v), (t, .drop v)]\ndef put\' (t : Tid) (x p : Var) : List (Tid × Op) := [(t, .resumeWith x%s), (t, .moveAssign x p), (t, .retHandle p), (t, .tick), (t, .tick), (t, .drop (p + 2))]\ndef start : List (Tid × Op) := h2 ++ [(0, .callcc [] .success), (0, .resume 4), (0, .tick)]'%(f,f,' false' if f=='Cont' else '')
rounds='let p := start ++ half\' 0 2 6 ++ half\' 0 5 7 ++ half\' 0 2 8; (runsOk p, (exec p).frames 0 == (exec start).frames 0, (exec p).frames 1 == (exec start).frames 1)'
puts='let p := start ++ put\' 0 2 6 ++ put\' 0 5 9 ++ put\' 0 2 12; (runsOk p, (exec p).frames 0 == (exec start).frames 0, (exec p).frames 1 == (exec start).frames 1)'
def m(f,name,d,old,new,claim,w): MUTANTS.append(dict(name='pool_'+f+'_'+name,file=f+'/Model.lean',old=old,new=new,definition=f+'.'+d,claim=claim,witness=w,wimport=W[f]))
for f,lib in (('Fiber',''),('Cont',' lib')):
    m(f,'keep_frame','State.deliver','(.user k%s (s.nextVar :: ls) m :: rest))'%lib,'(.user k%s (s.nextVar :: ls) m :: .resume :: rest))'%lib,'C95: each switch leaves an activation of the library on the stack of the context resumed',rounds)
for f in ('UFiber','UCont'):
    m(f,'keep_frame','State.arrive','(.user k (s.nextVar :: ls) m :: rest))','(.user k (s.nextVar :: ls) m :: .resume :: rest))','C95: each switch leaves an activation of the library on the stack of the context resumed',rounds)
for f in ('Fiber','UFiber','Cont','UCont'):
    m(f,'ret_copy','userStep','.ok (((s.setVal x none).newVar (.ret c) (s.val x))','.ok ((s.newVar (.ret c) (s.val x))','C95: an on-top function that returns a handle keeps it too',puts)
    m(f,'assign_swap','userStep',"let s' := (s.setVal y (s.val x)).setVal x none","let s' := (s.setVal y none).setVal x none",'C95: the handle moved into the shared set is lost',puts)
