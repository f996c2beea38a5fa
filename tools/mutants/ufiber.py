F='UFiber/Model.lean'
MUTANTS=[]
W='import Verif.UFiber.Spec\nopen Verif.UFiber'
def m(name,d,old,new,claim,witness=None,nth=0,**k): MUTANTS.append(dict(name='u_'+name,file=F,old=old,new=new,nth=nth,definition='UFiber.'+d,claim=claim,witness=witness,wimport=W,**k))
m('from_not_set','State.switchTo','frm := upd s.frm w (some c)\n','frm := s.frm\n','C22/C25: resume() returns the resumer')
m('from_not_cleared','State.arrive','let s := { s with frm := upd s.frm w none }\n    if s.unw w','if s.unw w','C25 exchange(from, nullptr): exact behaviour')
m('unw_ignored','State.arrive','if s.unw w then\n      .ok ((s.newVar (.exc w) p)','if false then\n      .ok ((s.newVar (.exc w) p)','C24/C26: destruction unwinds')
m('ontop_before_unw','State.arrive','if s.unw w then\n      .ok','if s.unw w && (s.ontop w).isNone then\n      .ok','C25: on-top function not executed while the target is unwound')
m('ontop_not_stored','State.doResumeWith','ontop := upd s.ontop w (some s.nextId), nextId','ontop := s.ontop, nextId','C23/C25: on-top function executed')
m('ontop_not_reset','leave','let s := ({ s with ontop := upd s.ontop c none }).kill x','let s := s.kill x','C25: executed once')
m('term_not_set','State.finish','term := upd s.term c true, unw','term := s.term, unw','C24: finished fibers are released, assertion 462 holds')
m('unw_not_set','State.destroyPtr','let s := { s with unw := upd s.unw v true                                        -- 460\n                      early','let s := { s with unw := s.unw                                        -- 460\n                      early','C24/C26')
m('term_check_missing','State.destroyPtr','else if s.term v then .ok (s.setFrames c (.exiting v :: s.frames c))               -- 459, 464\n','','C24: destroying a handle of a finished fiber only releases it')
m('root_check_missing','State.destroyPtr','else if s.root v then .ok { s with lost := upd s.lost v true }                     -- 458\n','','C24: destroying the handle of a main context does nothing')
m('assert462_dropped','State.arrive','if s.term v then .ok (s.setFrames w (.exiting v :: .dtor v :: rest)) else .assertion','.ok (s.setFrames w (.exiting v :: .dtor v :: rest))','C24')
m('unstarted_unwound','State.arrive','| .entryJump :: rest =>\n','| .entryJump :: rest => if s.unw w then .terminate else\n','C22 violation: exact behaviour (function of never-started fiber runs)')
m('ontop_first_on_unstarted','State.arrive','.ok (((s.newVar (.loc w) (s.frm w)).setFrames w (.user .fn [s.nextVar] .normal :: .entryRun :: rest)).addLog (.enter w))','match s.ontop w with | some i => .ok (((s.newVar (.loc w) (s.frm w)).setFrames w (.user (.ontop i) [s.nextVar] .normal :: .entryJump :: rest)).addLog (.ontop i w)) | none => .ok (((s.newVar (.loc w) (s.frm w)).setFrames w (.user .fn [s.nextVar] .normal :: .entryRun :: rest)).addLog (.enter w))','C23 exact behaviour')
m('resume_keeps_handle','State.doResume','((s.setVal x none).setFrames','(s.setFrames','C22/C04 analogue: handle emptied, single ownership')
m('exit_skips_caps','exitStep','| x :: xs => ({ s with caps := upd s.caps n xs }).destroyVar t c x','| x :: xs => (({ s with caps := upd s.caps n xs }).kill x).destroyVar t c x','C24 captured objects are destroyed with the record')
m('dealloc_twice','exitStep','.addLog (.dealloc n)\n','.addLog (.dealloc n) |>.addLog (.dealloc n)\n','C24 released once')
m('finish_assert','State.finish','| none => .assertion                                                               -- 484','| none => .terminate                                                               -- 484','C22-C26 exact outcome of returning an empty object')
m('finish_early_switch','State.finish','switchTo t w .terminated with             -- 301','switchTo t w .suspended with             -- 301','C24: finished fiber not resumable')
m('ontop_throw_resets','propagate','.ok (s.setFrames c (.user k\' ls\' (.unwinding e) :: rest\'))\n  | _, _ => .ub','.ok ({ s with ontop := upd s.ontop c none }.setFrames c (.user k\' ls\' (.unwinding e) :: rest\'))\n  | _, _ => .ub','C25 violation (exact behaviour): ontop stays installed')
m('unw_reset_on_throw','State.arrive','.ok ((s.newVar (.exc w) p).setFrames w (.user k ls (.unwinding (.forced s.nextVar)) :: rest))','.ok (({ s with unw := upd s.unw w false }.newVar (.exc w) p).setFrames w (.user k ls (.unwinding (.forced s.nextVar)) :: rest))','C26 violation (exact behaviour)')
m('resume_finished','State.doResume','if s.status w = .terminated then .assertion                                      -- 302, in `w`','if s.status w = .terminated then .ub                                      -- 302, in `w`','C22-C26: resume of finished object is an assertion')
m('create_started','State.doCreate','frames := upd s.frames n [.entryJump]','frames := upd s.frames n [.user .fn [] .normal, .entryRun]','C22')
m('moveassign_leak','userStep','| some v => s\'.destroyPtr t c v','| some _ => .ok s\'','C24: overwritten fiber is destroyed')
m('swap_half','userStep','.ok ((s.setVal x (s.val y)).setVal y (s.val x)) else','.ok (s.setVal x (s.val y)) else','single ownership')
R='UFiber/Records.lean'
def r(name,d,old,new,claim,nth=0): MUTANTS.append(dict(name='ur_'+name,file=R,old=old,new=new,nth=nth,definition='UFiber.'+d,claim=claim,witness=None,wimport=W))
r('save_in_own','X.switchTo','let saved := upd x.saved r c ','let saved := upd x.saved c c ','C86: swapcontext saves in the record current() designates')
r('curr_not_set','X.switchTo','curr := upd x.curr t (some w)   ','curr := x.curr   ','C86: current() designates the record switched to')
r('from_context','X.switchTo','frm := upd x.s.frm w (some r) ','frm := upd x.s.frm w (some c) ','C86: from is current(), not the context executed')
r('continue_w','X.switchTo','let d := saved w  ','let d := w  ','C86: what is continued is what was saved in the record')
r('throw_keeps_handle','X.doWithThrows','(x.s.setVal y none).setFrames','x.s.setFrames','C86: the handle has lost its fiber')
r('throw_keeps_curr','X.doWithThrows','curr := upd x.curr t (some w) }','curr := x.curr }','C86: current() designates the target after the exception')
r('throw_sets_ontop','X.doWithThrows','with frm := upd x.s.frm w (x.curr t) }','with frm := upd x.s.frm w (x.curr t), term := upd x.s.term w true }','C86: the target is unfinished after the exception')
r('arrive_from_own','X.arrive','let p := s.frm w\n    let s := { s with frm := upd s.frm w none }','let p := s.frm w\n    let s := { s with frm := upd s.frm d none }','C86: from of the current record is taken')
r('ontop_own','xleave','ontop := upd x.s.ontop r none','ontop := upd x.s.ontop t none','C86_step_coherent: the on-top function of the current record is reset')
r('finish_no_term','X.finish','term := upd x.s.term c true, unw := upd x.s.unw c false','term := x.s.term, unw := upd x.s.unw c false','C86_step_coherent: finished')
r('finish_unw','X.finish','unw := upd x.s.unw c false','unw := x.s.unw','C86_step_coherent: force_unwind reset')
r('resume_keeps','X.doResume','(x.s.setVal y none).setFrames','x.s.setFrames','C86_step_coherent: resume() empties the object')
r('go_no_terminated','X.go','(if x.s.unw w then .terminate else .assertion)','.assertion','C86_finished_unreachable: forced unwinding of a finished context terminates')
r('destroy_ub','X.destroyPtr','else if s.root v then .ok { x with s := { s with lost := upd s.lost v true } }     -- 458\n','else if false then .ok { x with s := { s with lost := upd s.lost v true } }     -- 458\n','C86_step_coherent: main contexts are not unwound')
r('main_keeps_curr','xleave','| .ok s\' => .ok { x with s := s\', curr := upd x.curr t none }','| .ok s\' => .ok { x with s := s\' }','C86: an ended thread has no current record')
r('spawn_curr','xuserStep','curr := upd x.curr s.nextTid (some s.nextCtx)','curr := upd x.curr s.nextTid (some 0)','C86: current() of a new thread is its own record')
r('exit_caps','xexitStep','{ x with s := { x.s with caps := upd x.s.caps n ys } }','{ x with s := x.s }','C86_step_coherent: captured objects destroyed once')
r('exit_any','xuserStep','.drop y =>\n    if y ∈ ls then','.drop y =>\n    if y ∈ ls ∧ y ≠ 0 then','C86_step_coherent')
