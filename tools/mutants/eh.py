# exception state (C93)
MUTANTS=[]
F='EH/Model.lean'
def m(name,d,old,new,claim,nth=0): MUTANTS.append(dict(name='eh_'+name,file=F,old=old,new=new,nth=nth,definition='EH.'+d,claim=claim))
m('entry_noend','destroyPrims','(f.ctx, .beginCatch (.forced s.nextVar)), (f.ctx, .endCatch)]','(f.ctx, .beginCatch (.forced s.nextVar))]','C93: fiber_entry jumps from inside its catch block (never started fiber destroyed)')
m('entry_nocatch','destroyPrims','[(f.ctx, .throw), (f.ctx, .beginCatch (.forced s.nextVar)), (f.ctx, .endCatch)]','[(f.ctx, .throw)]','C93: exception of a never started fiber stays in flight')
m('unwind_none','destroyPrims','    | _ => [(f.ctx, .throw)]','    | _ => []','C93: exceptions in flight are counted')
m('fn_noend','prims','| .fn, .forced x, _ => [(c, .beginCatch (.forced x)), (c, .endCatch)]','| .fn, .forced x, _ => [(c, .beginCatch (.forced x))]','C93: fiber_entry jumps from inside its catch block')
m('fn_nocatch','prims','| .fn, .forced x, _ => [(c, .beginCatch (.forced x)), (c, .endCatch)]','| .fn, .forced x, _ => []','C93: forced_unwind is caught')
m('ontop_noend','prims','.entryJump :: _ => [(c, .beginCatch (.forced x)), (c, .endCatch)]    --','.entryJump :: _ => [(c, .beginCatch (.forced x))]    --','C93: fiber_entry jumps from inside its catch block (on-top function threw)')
m('throw_none','prims','| .throw _ => [(c, .throw)]','| .throw _ => []','C93: exceptions in flight are counted')
m('alloc_none','prims','| .create _ (.allocThrows _) => [(c, .throw)]','| .create _ (.allocThrows _) => []','C93: exceptions in flight are counted')
m('with_here','prims','| some f => [(f.ctx, .throw)]\n        | none => []','| some _ => [(c, .throw)]\n        | none => []','C93: the copy throws on the stack of the target')
m('with_none','prims','| .withThrows _ _ false => [(c, .throw)]','| .withThrows _ _ false => []','C93: exceptions in flight are counted')
m('catch_none','prims','| .catchUser => [(c, .beginCatch e)]','| .catchUser => []','C93: a caught exception is not in flight')
m('catch_wrong','prims','| .catchUser => [(c, .beginCatch e)]','| .catchUser => [(s.nextCtx, .beginCatch e)]','C93: handlers belong to the context that catches')
m('assign_src','prims','destroyPrims s (s.val y)','destroyPrims s (s.val x)','C93: the old value of the target of an assignment is destroyed')
m('assign_self','prims','if y = x then [] else destroyPrims s (s.val y)','destroyPrims s (s.val y)','C93: self assignment destroys nothing')
m('tick_none','prims','      | .tick => destroyPrims s (s.val x)\n      | _ => []\n    | .user k []','      | .tick => []\n      | _ => []\n    | .user k []','C93: locals are destroyed when an activation is left')
m('caps_none','prims','| x :: _ => destroyPrims s (s.val x)\n        | [] => []','| _ :: _ => []\n        | [] => []','C93: captured objects are destroyed')
m('catch_flight','Prim.app','| .beginCatch e, g => ⟨e :: g.caught, g.uncaught - 1⟩','| .beginCatch e, g => ⟨e :: g.caught, g.uncaught⟩','C93: a caught exception is not in flight')
m('end_all','Prim.app','| .endCatch, g => ⟨g.caught.tail, g.uncaught⟩','| .endCatch, g => ⟨[], g.uncaught⟩','C93: the end of a handler ends the innermost one only')
m('catch_order','Prim.app','⟨e :: g.caught, g.uncaught - 1⟩','⟨g.caught ++ [e], g.uncaught - 1⟩','C93: innermost handler first')
m('thread0','EState.after','g := upd a.g t (ps.foldl (fun g p => p.2.app g) (a.g t))','g := upd a.g 0 (ps.foldl (fun g p => p.2.app g) (a.g 0))','C93: the state of the thread that executes the step')
m('rule_after','NoJumpInCatch','b.st.cur t ≠ some c → (a.own c).caught = []','b.st.cur t ≠ some c → True','C93: without the rule')
m('rule_b','CleanSwitches','((a.own c).caught = [] ∧ inflight (b.st.frames c) = 0)','((a.own c).caught = [])','C93: without the rule about exceptions in flight')
