F='Cont/Model.lean'
MUTANTS=[]
W='import Verif.Cont.Model\nopen Verif.Cont'
def m(name,d,old,new,claim,witness=None,nth=0,**k): MUTANTS.append(dict(name='c_'+name,file=F,old=old,new=new,nth=nth,definition='Cont.'+d,claim=claim,witness=witness,wimport=W,**k))
m('callcc_no_resume','State.doCallcc','(s.setFrames c (.callcc x .waiting k lib ls :: rest)).doResume t c x            -- 386: .resume()','.ok (s.setFrames c (.user k lib (x :: ls) .normal :: rest))','C21: callcc resumes at once')
m('callcc_no_empty','State.doResume','let s := (s.setVal x none).setFrames c (.resume :: s.frames c)','let s := s.setFrames c (.resume :: s.frames c)','C21/C04')
m('callcc_result_lost','step','(.user k lib (y :: ls) .normal :: rest)).destroyVar t c x','(.user k lib ls .normal :: rest)).destroyVar t c x','C21: callcc returns the result of resume')
m('callcc_temp_kept','step','| .tick => (s.setFrames c (.user k lib (y :: ls) .normal :: rest)).destroyVar t c x','| .tick => .ok (s.setFrames c (.user k lib (y :: ls) .normal :: rest))','C21: temporary destroyed')
m('callcc_exc_swallowed','step','| .tick => (s.setFrames c (.user k lib ls (.unwinding e) :: rest)).destroyVar t c x','| .tick => (s.setFrames c (.user k lib ls .normal :: rest)).destroyVar t c x','C21: exceptions leave callcc')
m('callcc_returns_temp','step','(.user k lib (y :: ls) .normal :: rest)).destroyVar t c x','(.user k lib (x :: ls) .normal :: rest)).destroyVar t c y','C21: result object')
m('entry_param_dropped','State.deliver','.ok (((s.newVar (.loc c) v).setFrames c (.user .fn none','.ok (((s.newVar (.loc c) none).setFrames c (.user .fn none','C21/C06')
m('lib_not_moved','State.deliver','(.user .fn none [s.nextVar] .normal :: .entryRun','(.user .fn v [s.nextVar] .normal :: .entryRun','C21/C01: library object keeps the handle')
m('ontop_lib_copy','State.doResumeWith','(.user (.ontop (s.nextId - 1)) none [s.nextVar]','(.user (.ontop (s.nextId - 1)) (some back) [s.nextVar]','C21/C01')
m('lvalue_ok','State.doResumeWith','if lv then .ub\n','if false then .ub\n','C21_lvalue_function_ub exact behaviour')
m('capture_copies','State.capture',"let s' := (s.setVal x none).newVar (.cap n) v","let s' := s.newVar (.cap n) v",'C21/C01')
m('finish_resume','State.finish','.ok (s.setFrames f.ctx (.exiting c :: s.frames f.ctx))','.ok (s.setFrames f.ctx (s.frames f.ctx))','C21/C07: stack released')
m('dealloc_wrong','exitStep','.addLog (.dealloc n)).deliver','.addLog (.dealloc c)).deliver','C21/C07')
m('dtor_callcc_missed','State.raiseForced','.ok ((s.newVar (.exc c) (some f)).setFrames c (.callcc x (.unwinding (.forced s.nextVar)) k lib ls :: rest))','.ok ((s.newVar (.exc c) (some f)).setFrames c (.callcc x (.returning s.nextVar) k lib ls :: rest))','C21/C09: unwinding of a context suspended in callcc')
m('temp_visible','State.doCallcc','with hidden := upd s.hidden x true }','with hidden := s.hidden }','C21: temporary not nameable (model sanity)')
m('accessible_hidden','State.accessible','=> !s.hidden x','=> true','C21: temporary not nameable')
m('callcc_alloc_fail_logs','userStep','| .allocThrows n => .ok (s.setFrames','| .allocThrows n => .ok ((s.addLog (.alloc s.nextCtx)).setFrames','C21/C18')
m('resume_swallow','State.raiseUser','.ok (s.setFrames c (.callcc x (.unwinding (.user n)) k lib ls :: rest))','.ok (s.setFrames c (.callcc x .waiting k lib ls :: rest))','C21/C12')
m('fn_empty_return_ok','leave','| none => .assertion                                         -- 102','| none => .terminate                                         -- 102','C21/C14')
m('self_move','userStep','if y = x then .ok s ','if y = x + 1000000 then .ok s ','C21/C16')
