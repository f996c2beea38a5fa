# exception state (C93): continuation, ucontext
MUTANTS=[]
def m(f,name,d,old,new,claim,nth=0): MUTANTS.append(dict(name='eh_'+f+'_'+name,file='EH/'+f+'.lean',old=old,new=new,nth=nth,definition='EH.'+f[:-5]+'.'+d,claim=claim))
for f in ('UModel','UCModel'):
    m(f,'arr_always','arrPrims','if s.unw w then [(w, .throw)] else []','[(w, .throw)]','C93: only a context whose force_unwind is set throws when it is switched to')
    m(f,'arr_never','arrPrims','if s.unw w then [(w, .throw)] else []','[]','C93: exceptions in flight are counted')
    m(f,'destroy_root','destroyPrims','if s.root v || s.term v then []','if s.term v then []','C93: the destructor of an object designating a main context throws nothing')
    m(f,'destroy_term','destroyPrims','if s.root v || s.term v then []','if s.root v then []','C93: the destructor of an object designating a finished context throws nothing')
    m(f,'fn_noend','prims','[(c, .beginCatch (.forced x)), (c, .endCatch)] ++','[(c, .beginCatch (.forced x))] ++','C93: run() resumes from inside its catch block')
    m(f,'fn_nocatch','prims','[(c, .beginCatch (.forced x)), (c, .endCatch)] ++ toPrims s (s.val x)','toPrims s (s.val x)','C93: forced_unwind is caught')
    m(f,'fn_noarr','prims','(c, .endCatch)] ++ toPrims s (s.val x)','(c, .endCatch)]','C93: the context resumed at the end may throw')
    m(f,'ret_noarr','prims','| .fn, some x => toPrims s (s.val x)','| .fn, some x => []','C93: the context resumed at the end may throw')
    m(f,'resume_self','prims','| .resume x => toPrims s (s.val x)','| .resume _ => arrPrims s c','C93: the context switched to throws')
    m(f,'with_none','prims','| .resumeWith x => toPrims s (s.val x)','| .resumeWith _ => []','C93: the context switched to throws')
    m(f,'assign_src','prims','destroyPrims s (s.val y)','destroyPrims s (s.val x)','C93: the old value of the target of an assignment is destroyed')
    m(f,'caps_none','prims','| x :: _ => destroyPrims s (s.val x)\n        | [] => []','| _ :: _ => []\n        | [] => []','C93: captured objects are destroyed')
    m(f,'catch_wrong','prims','| .catchUser => [(c, .beginCatch e)]','| .catchUser => [(s.nextCtx, .beginCatch e)]','C93: handlers belong to the context that catches')
    m(f,'rule_a','NoJumpInCatch','b.st.cur t ≠ some c → (a.own c).caught = []','b.st.cur t ≠ some c → True','C93: without the rule')
    m(f,'rule_b','CleanSwitches','((a.own c).caught = [] ∧ inflight (b.st.frames c) = 0)','((a.own c).caught = [])','C93: without the rule about exceptions in flight')
for f in ('CModel','UCModel'):
    m(f,'cc_ret','prims','''| .callcc x (.returning _) _ _ :: _ => match op with                       -- the temporary of `callcc` (535-541)
      | .tick => destroyPrims s (s.val x)''' if f[0]=='U' else '''| .callcc x (.returning _) _ _ _ :: _ => match op with                     -- the temporary of `callcc` (380-387)
      | .tick => destroyPrims s (s.val x)''','''| .callcc x (.returning _) _ _ '''+('' if f[0]=='U' else '_ ')+''':: _ => match op with
      | .tick => [(c, .throw)]''','C93: the end of callcc throws nothing of its own')
    m(f,'alloc_none','prims','| .callcc _ (.allocThrows _) => [(c, .throw)]','| .callcc _ (.allocThrows _) => []','C93: exceptions in flight are counted')
    m(f,'cc_flight','inflight','| .callcc _ (.unwinding _)','| .callcc _ .waiting','C93: an exception that leaves callcc is in flight')
m('CModel','fn_noend','prims','| .fn, .forced x, _ => [(c, .beginCatch (.forced x)), (c, .endCatch)]','| .fn, .forced x, _ => [(c, .beginCatch (.forced x))]','C93: context_entry jumps from inside its catch block')
m('CModel','unwind_none','destroyPrims','    | _ => [(f.ctx, .throw)]','    | _ => []','C93: exceptions in flight are counted')
m('CModel','with_here','prims','| some f => [(f.ctx, .throw)]\n        | none => []','| some _ => [(c, .throw)]\n        | none => []','C93: the copy throws on the stack of the target')
