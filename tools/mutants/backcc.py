F='Backends/ContSpec.lean'
MUTANTS=[]
def m(name,d,old,new,claim,nth=0,f=F): MUTANTS.append(dict(name='bc_'+name,file=f,old=old,new=new,nth=nth,definition=d,claim=claim))
m('no_settle_f','Backends.Cc.fSettle','if fReleasing s t then Cont.step s t .tick else .ok s','.ok s','C88: release is part of the step')
m('no_settle_u','Backends.Cc.uSettle','if uReleasing s t then UCont.step s t .tick else .ok s','.ok s','C88: release is part of the step')
m('swallow_ok','Backends.Cc.Allowed','| .swallow => False','| .swallow => True','C88 false: swallowing forced_unwind')
m('callcc_captures','Backends.Cc.Allowed','| .callcc xs _ => xs = [] ∧ MaySwitch s t','| .callcc _ _ => MaySwitch s t','C88 false: captured continuations')
m('callcc_anywhere','Backends.Cc.Allowed','| .callcc xs _ => xs = [] ∧ MaySwitch s t','| .callcc xs _ => xs = []','C88 false: callcc while unwinding')
m('resume_anywhere','Backends.Cc.Allowed','| .resume _ => MaySwitch s t','| .resume _ => True','C88 false: resume while unwinding')
m('ontop_ok','Backends.Cc.MaySwitch','¬ BeingUnwound (s.frames c) ∧ ¬ InOntop (s.frames c)','¬ BeingUnwound (s.frames c)','C88 false: resume in an on-top function')
m('drop_main','Backends.Cc.Allowed','| .drop x => MayDestroy s x','| .drop _ => True','C88 false: destroying the main handle')
m('ontop_throw','Backends.Cc.Allowed','| .user (.ontop _) _ [] (.unwinding _) :: _ => False ','| .user (.ontop _) _ [] (.unwinding _) :: _ => True ','C88 false: on-top function throws')
m('callcc_forced_missed','Backends.Cc.isForced','  | .callcc _ (.unwinding (.forced _)) _ _ _ => true\n','','C88: unwinding through callcc counts as being unwound')
m('callcc_ontop_missed','Backends.Cc.isOntopFrame','  | .callcc _ _ (.ontop _) _ _ => true\n','','C88: an on-top function that called callcc is active')
m('strip_wrong','Backends.Cc.strip','.callcc x (stripM cm) k ls','.user k (x :: ls) .normal','C88: activations of callcc are the same')
m('f_hidden','Cont.State.doCallcc','hidden := upd s.hidden x true','hidden := s.hidden','C88: temporaries',f='Cont/Model.lean')
m('u_order','UCont.step','(.user k (y :: ls) .normal :: rest)).destroyVar t c x','(.user k (ls ++ [y]) .normal :: rest)).destroyVar t c x','C88: order of destruction of locals',f='UCont/Model.lean')
m('u_ontop_kept','UCont.leave','let s := ({ s with ontop := upd s.ontop c none }).kill x','let s := (s).kill x','C88: on-top function executed again',f='UCont/Model.lean')
m('u_unw_kept','UCont.State.finish','term := upd s.term c true, unw := upd s.unw c false','term := upd s.term c false, unw := upd s.unw c false','C88: finished context',f='UCont/Model.lean')
