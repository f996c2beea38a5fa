F='Fiber/Model.lean'
MUTANTS=[]
def m(name,d,old,new,claim,witness=None,nth=0,**k): MUTANTS.append(dict(name=name,file=F,old=old,new=new,nth=nth,definition=d,claim=claim,witness=witness,**k))
m('resume_keeps_handle','State.doResume','let s := (s.setVal x none).setFrames c (.resume :: s.frames c)','let s := s.setFrames c (.resume :: s.frames c)','C04 handle emptied by resume; C01','(exec [(0,.create [] .success),(0,.resume 0)]).val 0')
m('resumeWith_keeps_handle','State.doResumeWith','let s := (s.setVal x none).setFrames c (.resume :: s.frames c)','let s := s.setFrames c (.resume :: s.frames c)','C04; C01','(exec [(0,.create [] .success),(0,.resumeWith 0)]).val 0',nth=1)
m('moveAssign_leaks_old','userStep','| some f => s\'.destroyFctx t c f','| some _ => .ok s\'','C03/C08/C16: overwritten context is destroyed','(exec [(0,.create [] .success),(0,.create [] .success),(0,.moveAssign 0 1)]).frames 0')
m('self_move_unchecked','userStep','if y = x then .ok s ','if y = x + 1000000 then .ok s ','C16 self-move changes nothing','(exec [(0,.create [] .success),(0,.moveAssign 0 0)]).val 0')
m('exit_skips_captures','exitStep','match s.caps n with\n  | x :: xs => ({ s with caps := upd s.caps n xs }).destroyVar t c x\n  | [] =>','match (generalizing := false) ([] : List Var) with\n  | x :: xs => ({ s with caps := upd s.caps n xs }).destroyVar t c x\n  | [] =>','C07/C08/C20: captured objects destroyed before release')
m('entry_param_empty','State.deliver','.ok ((((s.newVar (.loc c) v).setFrames','.ok ((((s.newVar (.loc c) none).setFrames','C06: parameter designates the resumer; C03')
m('resume_result_empty','State.deliver','.ok ((s.newVar (.loc c) v).setFrames c (.user k (s.nextVar :: ls) m :: rest))','.ok ((s.newVar (.loc c) none).setFrames c (.user k (s.nextVar :: ls) m :: rest))','C05, C03')
m('finish_suspended','State.finish','match s.ontopSwitch t f .terminated with','match s.ontopSwitch t f .suspended with','C07/C08: finished context terminated')
m('dtor_resumes_normally','State.destroyFctx','| some (s, back) => s.raiseForced t f.ctx back','| some (s, back) => s.deliver f.ctx (some back)','C09, C10: destruction unwinds')
m('unwind_runs_unstarted','State.raiseForced','| .entryJump :: _ => s.finish t c f','| .entryJump :: _ => s.deliver c (some f)','C10 (the ucontext bug)','(exec [(0,.create [] .success),(0,.drop 0)]).log.length')
m('ontop_throw_swallowed','State.raiseUser','| .entryJump :: _ => .terminate','| .entryJump :: _ => s.deliver c none','C12/C13')
m('fn_throw_finishes','propagate','| .user _ => .terminate                                      -- fiber_entry is noexcept, 88 and 99','| .user _ => .rejected','C13/C54')
m('fn_empty_return_ub','leave','| none => .assertion                                         -- 102\n    | some f => (s.kill x).finish t c f\n  | .ontop','| none => .terminate\n    | some f => (s.kill x).finish t c f\n  | .ontop','C13/C14')
m('swap_half','userStep','.ok ((s.setVal x (s.val y)).setVal y (s.val x)) else','.ok (s.setVal x (s.val y)) else','C01/C16')
m('drop_leaks','userStep','if x ∈ ls then (s.setFrames c (.user k (ls.erase x) .normal :: rest)).destroyVar t c x','if x ∈ ls then .ok ((s.setFrames c (.user k (ls.erase x) .normal :: rest)).kill x)','C03/C09')
m('return_copies','userStep','.ok (((s.setVal x none).newVar (.ret c) (s.val x)).setFrames c','.ok ((s.newVar (.ret c) (s.val x)).setFrames c','C01/C04')
m('create_enters','State.doCreate','| some (s, f) => .ok ((s.newVar (.loc c) (some f))','| some (s, f) => .ok (((s.addLog (.enter n)).newVar (.loc c) (some f))','C06 not by construction')
m('capture_copies','State.capture',"let s' := (s.setVal x none).newVar (.cap n) v","let s' := s.newVar (.cap n) v",'C01/C04/C18')
m('capture_drops','State.capture',"let s' := (s.setVal x none).newVar (.cap n) v","let s' := (s.setVal x none).newVar (.cap n) none",'C03')
m('failed_alloc_logged','userStep','| .allocThrows n => .ok (s.setFrames','| .allocThrows n => .ok ((s.addLog (.alloc s.nextCtx)).setFrames','C18/C08')
m('ontop_result_dropped','leave','((s.setFrames c rest).kill x).deliver c (s.val x)','((s.setFrames c rest).kill x).deliver c none','C11/C05/C03')
m('ontop_twice','State.doResumeWith','[s.nextVar] .normal :: s.frames f.ctx)).addLog (.ontop (s.nextId - 1) f.ctx))','[s.nextVar] .normal :: s.frames f.ctx)).addLog (.ontop (s.nextId - 1) f.ctx)).addLog (.ontop (s.nextId - 1) f.ctx))','C11 exactly once')
m('catch_takes_forced','step','| .call, .user _ => .ok (s.setFrames c rest)\n        | _, _','| .call, .user _ => .ok (s.setFrames c rest)\n        | .call, .forced x => .ok ((s.setFrames c rest).kill x)\n        | _, _','C03')
m('dealloc_twice','exitStep','upd (upd s.frames n []) c rest }).addLog (.dealloc n))','upd (upd s.frames n []) c rest }).addLog (.dealloc n)).addLog (.dealloc n))','C07 once')
m('dealloc_wrong','exitStep','.addLog (.dealloc n)).deliver','.addLog (.dealloc c)).deliver','C07/C08')
m('cleanup_throw_passes','propagate','| .cleanup, _ => .terminate                                    -- destructors are noexcept','| .cleanup, .user k\' ls\' _ :: rest\' => .ok (s.setFrames c (.user k\' ls\' (.unwinding e) :: rest\'))','C13')
m('ontop_param_empty','State.doResumeWith','.ok (((s.newVar (.loc f.ctx) (some back)).setFrames f.ctx','.ok (((s.newVar (.loc f.ctx) none).setFrames f.ctx','C11/C03')
m('ontop_in_resumer','State.doResumeWith','(.user (.ontop (s.nextId - 1)) [s.nextVar] .normal :: s.frames f.ctx)).addLog','(s.frames f.ctx)).addLog','C11: executed on the target')
m('exit_delivers_before_dealloc','exitStep','if s.status n = .terminated then','if s.status n ≠ .freed then','equivalent: n is always terminated here (no claim broken)')
m('dtor_no_wait','State.destroyFctx','let s := s.setFrames c (.dtor f.ctx :: s.frames c)\n','let s := s\n','C09 destructor waits')
m('resume_stays_running','State.switch','status := upd (upd s.status c leave) f.ctx (.running t)','status := upd s.status f.ctx (.running t)','C17/C02')
m('forced_loses_fctx','State.raiseForced','.ok ((s.newVar (.exc c) (some f)).setFrames','.ok ((s.newVar (.exc c) none).setFrames','C03/C20')
m('spawn_shares_ctx','userStep','cur := upd s.cur s.nextTid (some n), status','cur := upd s.cur s.nextTid (some c), status','C17')
m('newvar_reuse','State.newVar','nextVar := s.nextVar + 1 }','nextVar := s.nextVar }','C01/C04')
m('stop_before_locals','step','| .tick => (s.setFrames c (.user k ls m :: rest)).destroyVar t c x','| .tick => .ok (s.setFrames c (.user k [] m :: rest))','C03/C07: locals destroyed during unwinding')
m('withThrows_keeps_handle','State.doWithThrows','let s := (s.setVal x none).setFrames c (.resume :: s.frames c)','let s := s.setFrames c (.resume :: s.frames c)','C04/C12: resume_with empties the handle even if the copy throws',nth=2)
m('withThrows_wrong_context','State.doWithThrows','.raiseUser f.ctx n','.raiseUser back.ctx n','C12: the exception surfaces in the target')
m('withThrows_caller_emptied','State.doWithThrows','else .ok (s.setFrames c (.user k ls (.unwinding (.user n)) :: rest))','else .ok ((s.setVal x none).setFrames c (.user k ls (.unwinding (.user n)) :: rest))','C12: a failed construction in the caller leaves the fiber alone; C03')
m('withThrows_runs','State.doWithThrows','{ s with lost := upd s.lost back.ctx true }.raiseUser f.ctx n','{ s with lost := upd s.lost back.ctx true }.deliver f.ctx none','C12/C05: the exception is raised')
