F='UCont/Model.lean'
MUTANTS=[]
W='import Verif.UCont.Props\nopen Verif.UCont'
def m(name,d,old,new,claim,nth=0,**k): MUTANTS.append(dict(name='uc_'+name,file=F,old=old,new=new,nth=nth,definition='UCont.'+d,claim=claim,**k))
m('from_not_set','State.switchTo','frm := upd s.frm w (some c)\n','frm := s.frm\n','C68: resumed context gets the resumer')
m('cur_not_set','State.switchTo','cur := upd s.cur t (some w)\n','cur := s.cur\n','C68/C69')
m('from_kept_user','State.arrive','let s := { s with frm := upd s.frm w none }\n    if s.unw w','let s := s\n    if s.unw w','C68 exact effect (exchange of from)')
m('from_kept_callcc','State.arrive','let s := { s with frm := upd s.frm w none }\n    if s.unw w','let s := s\n    if s.unw w','C68 exact effect (exchange of from, in callcc)',nth=1)
m('callcc_ontop_ignored','State.arrive','| none => .ok ((s.newVar (.loc w) p).setFrames w (.callcc x (.returning s.nextVar) k ls :: rest))','| none => .ok ((s.newVar (.loc w) none).setFrames w (.callcc x (.returning s.nextVar) k ls :: rest))','C68: callcc returns the resumer')
m('callcc_unw_ignored','State.arrive','if s.unw w then\n      .ok ((s.newVar (.exc w) p).setFrames w (.callcc','if false then\n      .ok ((s.newVar (.exc w) p).setFrames w (.callcc','C68: destroyed context unwinds')
m('callcc_param_empty','State.arrive','.ok (((s.newVar (.loc w) (s.frm w)).setFrames w (.user .fn','.ok (((s.newVar (.loc w) none).setFrames w (.user .fn','C68: function gets the caller')
m('callcc_not_started','State.doCallcc','(s.setFrames c (.callcc x .waiting k ls :: rest)).doResume t c x','.ok (s.setFrames c (.user k (x :: ls) .normal :: rest))','C68: callcc enters f at once')
m('callcc_temp_visible','State.doCallcc','hidden := upd s.hidden x true','hidden := s.hidden','C68/C69: the temporary cannot be named')
m('callcc_caps_skipped','State.doCallcc','let s := s.capture n xs','let s := s','C68: captured objects moved into the record')
m('callcc_alloc_unlogged','State.doCallcc','{ s with nextCtx := n + 1 }.addLog (.alloc n)','{ s with nextCtx := n + 1 }','C70: created')
m('empty_assert','State.doResume','| none => .ub                                                                      -- 434: member call on a null pointer','| none => .assertion','C71: undefined behaviour, not assertion')
m('empty_assert_with','State.doResumeWith','| none => .ub ','| none => .assertion ','C71: undefined behaviour, not assertion')
m('ret_empty_assert','State.finish','| none => .ub ','| none => .assertion ','C71')
m('resume_keeps_handle','State.doResume','((s.setVal x none).setFrames','(s.setFrames','C69: handle emptied')
m('resume_with_keeps_handle','State.doResumeWith','((s.setVal x none).setFrames','(s.setFrames','C69: handle emptied')
m('ontop_not_stored','State.doResumeWith','ontop := upd s.ontop w (some s.nextId), nextId','ontop := s.ontop, nextId','C68: on-top function executed')
m('term_not_set','State.finish','term := upd s.term c true, unw','term := s.term, unw','C69 operator bool / C70')
m('finish_suspended','State.finish','switchTo t w .terminated with','switchTo t w .suspended with','C70')
m('finished_resumed','State.doResume','if s.status w = .terminated then .assertion','if s.status w = .ended then .assertion','C71 assertion')
m('dtor_no_unwind','State.destroyPtr','unw := upd s.unw v true ','unw := s.unw ','C68 destroy unwinds')
m('dtor_root','State.destroyPtr','else if s.root v then .ok { s with lost := upd s.lost v true }                     -- 401\n','','C69/C70: main context is not destroyed')
m('dtor_no_dealloc','State.destroyPtr','else if s.term v then .ok (s.setFrames c (.exiting v :: s.frames c))','else if s.term v then .ok s','C70 balance')
m('dtor_no_release_after','State.arrive','.ok (s.setFrames w (.exiting v :: .dtor v :: rest)) else .assertion','.ok (s.setFrames w rest) else .assertion','C70 balance')
m('callcc_throw_swallowed','propagate','.ok (s.setFrames c (.callcc x (.unwinding e) k\' ls\' :: rest\'))','.ok (s.setFrames c (.callcc x .waiting k\' ls\' :: rest\'))','C68 callcc throws')
m('callcc_result_dropped','step','(s.setFrames c (.user k (y :: ls) .normal :: rest)).destroyVar t c x','(s.setFrames c (.user k ls .normal :: rest)).destroyVar t c x','C68 callcc returns')
m('callcc_temp_leaked','step','| .tick => (s.setFrames c (.user k ls (.unwinding e) :: rest)).destroyVar t c x\n      | _ => .rejected\n    | .exiting','| .tick => .ok (s.setFrames c (.user k ls (.unwinding e) :: rest))\n      | _ => .rejected\n    | .exiting','C68/C70: temporary destroyed')
m('user_exc_finishes','propagate','| .user _ => .terminate ','| .user _ => s.finish t c none ','C71 termination')
m('ontop_result_dropped','leave','.ok ((s.newVar (.loc c) v).setFrames c (.callcc z (.returning s.nextVar) k\' ls\' :: rest\'))','.ok ((s.newVar (.loc c) none).setFrames c (.callcc z (.returning s.nextVar) k\' ls\' :: rest\'))','C68 on-top result')
m('ontop_not_reset','leave','let s := ({ s with ontop := upd s.ontop c none }).kill x','let s := s.kill x','C25 analogue: executed once',nth=1)
m('dealloc_twice','exitStep','.addLog (.dealloc n)\n','.addLog (.dealloc n) |>.addLog (.dealloc n)\n','C70 released once')
m('moveassign_leak','userStep','| some v => s\'.destroyPtr t c v','| some _ => .ok s\'','C70 balance')
m('swap_half','userStep','.ok ((s.setVal x (s.val y)).setVal y (s.val x)) else','.ok (s.setVal x (s.val y)) else','C69 exclusive')
m('alloc_throw_creates','userStep','| .allocThrows n => .ok (s.setFrames','| .allocThrows n => .ok ((s.addLog (.alloc s.nextCtx)).setFrames','C70: created')
m('fn_throws_ok','userStep','| .fnThrows => .terminate','| .fnThrows => .ok s','C71 termination')
