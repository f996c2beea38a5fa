# behaviour that depends on the number of a thread or object, or on how a context was switched to (C96, C97, C98)
MUTANTS=[]
def m(f,name,d,old,new,claim,nth=0): MUTANTS.append(dict(name='ident_'+f+'_'+name,file=f+'/Model.lean',old=old,new=new,nth=nth,definition=f+'.'+d,claim=claim))
for f in ('Fiber','UFiber','Cont','UCont'):
    m(f,'newheap_tid','userStep','| .newHeap => .ok (s.newVar .heap none)','| .newHeap => if t = 5 then .rejected else .ok (s.newVar .heap none)','C96: what a thread may do does not depend on which thread it is')
    m(f,'throw_tid','userStep','.throw n => .ok','.throw n => if t % 2 = 1 then .rejected else .ok','C96: what a thread may do does not depend on which thread it is')
    m(f,'move_name','userStep','| .moveHeap x => if s.accessible x then','| .moveHeap x => if s.accessible x ∧ x ≠ 7 then','C98: whether a handle can be moved does not depend on which object it is')
    m(f,'swap_name','userStep','if s.accessible x ∧ s.accessible y then .ok','if s.accessible x ∧ s.accessible y ∧ x < y then .ok','C98: swap works in both orders of the objects')
    m(f,'self_assign','userStep','if y = x then .ok s ','if y ≤ x then .ok s ','C98: assignment does not depend on which objects are assigned')
m('Fiber','order','State.deliver',"(.user .fn [s.nextVar] .normal :: .entryRun :: rest))).addLog (.enter c))","(.user .fn [s.nextVar] .normal :: .entryRun :: rest))).addLog (if s.log.length % 2 = 0 then .enter c else .alloc c))",'C99: what happens when a fiber starts depends on what was recorded before')
m('UFiber','order','State.arrive',".resume :: .user k ls m :: rest =>\n    let p := s.frm w",".resume :: .user k ls m :: rest =>\n    let p := if s.log.length = 1000 then none else s.frm w",'C99: the object received depends on the number of events so far')
