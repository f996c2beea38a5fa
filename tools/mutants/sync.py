# happens-before (C94)
MUTANTS=[]
def m(name,file,d,old,new,claim,nth=0): MUTANTS.append(dict(name='sync_'+name,file=file,old=old,new=new,nth=nth,definition=d,claim=claim))
S='Sync/Spec.lean'; F='Fiber/Model.lean'
m('noobject',S,'Sync.HB',"(hi : writes i x) (hx : writes j x) : HB","(hi : writes i x) (hx : writes j x) (h0 : tid i = tid j) : HB",'C94: without synchronisation of fiber objects of several threads')
m('nostart',S,'Sync.HB',"(hs : starts i (tid j)) : HB","(hs : starts i (tid j)) (h0 : tid i = tid j) : HB",'C94: without order of the start of a thread and its steps')
m('notrans',S,'Sync.HB',"HB len tid starts writes j k → HB len tid starts writes i k","HB len tid starts writes j k → tid i = tid j → HB len tid starts writes i k",'C94: happens-before not transitive')
m('writesbefore',S,'Sync.Writes',"(Handle (r.st i) x ∨ Handle (r.st (i + 1)) x)","(Handle (r.st i) x)",'C94: construction of an object does not count as a write')
m('writesafter',S,'Sync.Writes',"(Handle (r.st i) x ∨ Handle (r.st (i + 1)) x)","(Handle (r.st (i + 1)) x)",'C94: destruction of an object does not count as a write')
m('heaponly',S,'Sync.Writes',"(Handle (r.st i) x ∨ Handle (r.st (i + 1)) x)","((r.st i).kind x = .heap ∨ (r.st (i + 1)).kind x = .heap)",'C94: only heap objects synchronised')
C='Sync/CSpec.lean'; U='Sync/USpec.lean'
m('cwritesbefore',C,'Sync.C.Writes',"(Handle (r.st i) x ∨ Handle (r.st (i + 1)) x)","(Handle (r.st i) x)",'C94 (continuation): construction of an object does not count as a write')
m('uwritesafter',U,'Sync.U.Writes',"(Handle (r.st i) x ∨ Handle (r.st (i + 1)) x)","(Handle (r.st (i + 1)) x)",'C94 (ucontext): destruction of an object does not count as a write')
m('share',F,'deliver',".ok ((s.newVar (.loc c) v).setFrames c (.user k (s.nextVar :: ls) m :: rest))",".ok ((s.newVar .heap v).setFrames c (.user k ls m :: rest))",'C05, C94: the object returned by resume() is not a temporary of the caller')
m('loopleak','Fiber/Model.lean','deliver',"    .ok ((s.newVar (.loc c) v).setFrames c (.user k (s.nextVar :: ls) m :: rest))","    .ok ((s.newVar (.loc c) v).setFrames c (.user k (s.nextVar :: ls) m :: .resume :: rest))",'C95: resume() leaves an activation behind on the stack')
m('uloopleak','UFiber/Model.lean','arrive',"      | none => .ok ((s.newVar (.loc w) p).setFrames w (.user k (s.nextVar :: ls) m :: rest))","      | none => .ok ((s.newVar (.loc w) p).setFrames w (.user k (s.nextVar :: ls) m :: .resume :: rest))",'C95: resume() leaves an activation behind on the stack')
m('loopkeep','Fiber/Model.lean','userStep',"        let s' := (s.setVal y (s.val x)).setVal x none                                -- 315-316","        let s' := (s.setVal y (s.val x))                                -- 315-316",'C16, C95: move assignment does not empty its source')
