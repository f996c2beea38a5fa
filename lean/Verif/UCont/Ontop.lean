import Verif.UCont.Props

/-! # C91: how often an on-top function runs, and switching during unwinding: `continuation` on ucontext and on Windows fibers

`activation_record::resume_with` (continuation_ucontext.hpp 151-208) stores the function in the record of the target; the target executes whatever is stored
when `resume()`/`resume_with()` comes back in it (439, 462), unless it is being unwound; the record is emptied only after the function has returned (440, 463). -/

namespace Verif.UCont
open Verif.Fiber (CtxId Var Tid Kind Exc Mode UKind Status Event CreateOutcome upd upd_apply)

/-- how often the function of the `i`-th `resume_with()` was executed -/
def executions (s : State) (i : Nat) : Nat := s.log.countP fun | .ontop j _ => decide (j = i) | _ => false

theorem executions_abs (s : State) (i : Nat) : executions s i = UFiber.executions s.abs i := by
  simp only [executions, UFiber.executions, abs_log]
  congr 1

/-- a history during which thread `t` stays in context `d` -/
inductive StepsIn (t : Tid) (d : CtxId) : State → State → Prop
  | refl {s : State} (h : RunsOn s t d) : StepsIn t d s s
  | tail {s s' s'' : State} {t' : Tid} {op : Op} : StepsIn t d s s' → step s' t' op = .ok s'' → RunsOn s'' t d → StepsIn t d s s''

theorem StepsIn.steps {t d} {s s' : State} (h : StepsIn t d s s') : Steps s s' := by
  induction h with
  | refl => exact .refl _
  | tail _ hs _ ih => exact .tail ih hs

theorem create_cur {s s' : UFiber.State} {t : Tid} {xs : List Var} (h : UFiber.step s t (.create xs .success) = .ok s') : s'.cur = s.cur := by
  obtain ⟨c, _, he⟩ := UFiber.step_eff h
  cases he with
  | @create k ls rest _ hf ha s2 h2 =>
    have hc := UFiber.capture_keep ({ s with nextCtx := s.nextCtx + 1 }.addLog (.alloc s.nextCtx)) s.nextCtx xs
    rw [← h2] at hc
    simp [hc.2.2.2.2.2.1]
  | destroy h1 => cases h1

theorem StepsIn.abs {t d} {s s' : State} (hr : Reachable s) (h : StepsIn t d s s') : UFiber.StepsIn t d s.abs s'.abs := by
  induction h with
  | refl h => exact .refl h
  | @tail s1 s2 t' op h1 h2 h3 ih =>
    have hok := step_run_ok (h1.steps.reachable hr) h2
    by_cases hc : ∃ xs, op = .callcc xs .success
    · obtain ⟨xs, rfl⟩ := hc
      simp only [fiberOps, UFiber.run] at hok
      split at hok
      · rename_i sm hm
        split at hok
        · rename_i sn hn
          simp only [UFiber.Res.ok.injEq] at hok
          refine .tail (.tail ih hm ?_) (by rw [hok] at hn; exact hn) h3
          have : UFiber.RunsOn s1.abs t d := ih.runs
          unfold UFiber.RunsOn at this ⊢
          rw [create_cur hm]; exact this
        · rename_i hx; exact absurd hok (hx _)
      · rename_i hx; exact absurd hok (hx _)
    · obtain ⟨op', ho⟩ := single_op (s := s1) (t := t') (fun xs h => hc ⟨xs, h⟩)
      rw [ho, run_single] at hok
      exact .tail ih hok h3

/-- **A stored function runs first.** A continuation suspended in `resume()` or in `callcc()`, not being unwound, whose record holds function `i`, is resumed: the
function is executed at once on its stack, with an object that designates the resumer. -/
theorem C91_pending_runs {s : State} {t : Tid} {c d : CtxId} {k k' : UKind} {ls ls' : List Var} {rest rest' : List Frame} {x z : Var} {i : Nat}
    (h : Reachable s) (hu : UserCode s t c k ls rest) (ha : Handle s x) (hd : Designates s x d)
    (hr : InResume s d k' ls' rest' ∨ InCallcc s d z k' ls' rest') (hw : s.unw d = false) (ho : s.ontop d = some i) :
    ∃ s' p, step s t (.resume x) = .ok s' ∧ UserCode s' t d (.ontop i) [p] (s.frames d) ∧ Designates s' p c ∧ Suspended s' c ∧
      s'.log = .ontop i d :: s.log ∧ s'.ontop d = some i := by
  have hne := facts_target h hu.1 hd
  have hst : s.status d = .suspended := by rcases hr with hr | hr <;> exact suspended_of_frames h hd hr
  have hstep : step s t (.resume x) = s.doResume t c x := by simp only [step, hu.1, hu.2, userStep, handle_accessible ha, if_true]
  rw [hstep]
  have hv : s.val x = some d := hd
  rcases hr with hr | hr
  · have hr' : s.frames d = .resume :: .user k' ls' .normal :: rest' := hr
    simp only [State.doResume, hv, hst, reduceCtorEq, if_false, State.switchTo, State.setVal, State.setFrames, hu.1, if_true, State.arrive, upd_apply, hne, hr', hw, ho]
    refine ⟨_, s.nextVar, rfl, ⟨?_, ?_⟩, ?_, ?_, ?_, ?_⟩ <;> simp [Designates, Suspended, State.newVar, State.addLog, Ne.symm hne, ho]
  · have hr' : s.frames d = .resume :: .callcc z .waiting k' ls' :: rest' := hr
    simp only [State.doResume, hv, hst, reduceCtorEq, if_false, State.switchTo, State.setVal, State.setFrames, hu.1, if_true, State.arrive, upd_apply, hne, hr', hw, ho]
    refine ⟨_, s.nextVar, rfl, ⟨?_, ?_⟩, ?_, ?_, ?_, ?_⟩ <;> simp [Designates, Suspended, State.newVar, State.addLog, Ne.symm hne, ho]

/-- context 1, started by `callcc` of main, calls `resume_with` on main (suspended in `callcc`); the function suspends by resuming context 1, which resumes main -/
def hAgain : List (Tid × Op) := [(0, .callcc [] .success), (0, .resumeWith 1), (0, .resume 2)]
example : Reachable (exec hAgain) ∧ UserCode (exec hAgain) 0 1 .fn [3, 1] [.entryRun] ∧ Handle (exec hAgain) 3 ∧ Designates (exec hAgain) 3 0 ∧
    (exec hAgain).frames 0 = [.resume, .user (.ontop 0) [2] .normal, .resume, .callcc 0 .waiting .main []] ∧
    InResume (exec hAgain) 0 (.ontop 0) [2] [.resume, .callcc 0 .waiting .main []] ∧ (exec hAgain).unw 0 = false ∧ (exec hAgain).ontop 0 = some 0 :=
  ⟨reachable_exec (by decide), ⟨by decide, by decide⟩, ⟨.inr (.inl ⟨1, by decide⟩), by decide⟩, (by decide : (exec hAgain).val 3 = some 0),
    by decide, (by decide : (exec hAgain).frames 0 = _), by decide, by decide⟩

/-- Once no record holds function `i` any more it is never executed again. -/
theorem C91_never_again {s s' : State} (h : Reachable s) {i : Nat} (hi : i < s.nextId) (hn : ∀ c, s.ontop c ≠ some i) (hs : Steps s s') :
    executions s' i = executions s i := by
  rw [executions_abs, executions_abs]
  exact UFiber.C25_never_again (reachable_facts h).reach hi hn (steps_abs h hs)

/-- main's on-top function has returned -/
def hOnce : List (Tid × Op) := [(0, .callcc [] .success), (0, .resumeWith 1), (0, .retHandle 2), (0, .tick)]
example : Reachable (exec (hOnce ++ [(0, .tick)])) ∧ (exec (hOnce ++ [(0, .tick)])).nextId = 1 ∧ (exec (hOnce ++ [(0, .tick)])).ontop 0 = none ∧
    (exec (hOnce ++ [(0, .tick)])).ontop 1 = none ∧ executions (exec (hOnce ++ [(0, .tick)])) 0 = 1 :=
  ⟨reachable_exec (by decide), by decide, by decide, by decide, by decide⟩

/-- When an on-top function returns, the record of its context is emptied; whatever function was stored there is never executed again. -/
theorem C91_return_clears {s s' s'' : State} {t : Tid} {c : CtxId} {i j : Nat} {x : Var} {rest : List Frame} (h : Reachable s)
    (hc : RunsOn s t c) (hf : s.frames c = .user (.ontop i) [] (.returning (some x)) :: rest) (hj : s.ontop c = some j)
    (hs : step s t .tick = .ok s') (hs' : Steps s' s'') : s'.ontop c = none ∧ executions s' j = executions s j ∧ executions s'' j = executions s j := by
  have hok := step_run_ok h hs
  have hc' : s.cur t = some c := hc
  have ho : fiberOps s t .tick = [(t, .tick)] := by simp [fiberOps, hc', hf]
  rw [ho, run_single] at hok
  have := UFiber.C25_return_clears (s := s.abs) (s' := s'.abs) (s'' := s''.abs) (t := t) (c := c) (i := i) (j := j) (x := x) (rest := absL rest)
    (reachable_facts h).reach hc (by rw [abs_frames, hf]; rfl) hj hok (steps_abs (.step h hs) hs')
  rw [executions_abs, executions_abs, executions_abs]
  exact this

example : Reachable (exec hOnce) ∧ RunsOn (exec hOnce) 0 0 ∧
    (exec hOnce).frames 0 = [.user (.ontop 0) [] (.returning (some 3)), .resume, .callcc 0 .waiting .main []] ∧ (exec hOnce).ontop 0 = some 0 ∧
    runsOk (hOnce ++ [(0, .tick)]) = true :=
  ⟨reachable_exec (by decide), (by decide : (exec hOnce).cur 0 = _), by decide, by decide, by decide⟩

/-- **Exactly once.** The target is suspended in `resume()` or in `callcc()` and is not being unwound; the function neither suspends (the thread stays in the
target; other threads may do anything) nor throws (it returns): it is executed exactly once at all later times. -/
theorem C91_exactly_once {s s1 s2 s3 s4 : State} {t : Tid} {c d : CtxId} {k k' : UKind} {ls ls' : List Var} {rest rest' : List Frame} {x y z : Var}
    (h : Reachable s) (hu : UserCode s t c k ls rest) (ha : Handle s x) (hd : Designates s x d)
    (hn : InResume s d k' ls' rest' ∨ InCallcc s d z k' ls' rest') (hw : s.unw d = false) (h1 : step s t (.resumeWith x) = .ok s1)
    (h2 : StepsIn t d s1 s2) (hr : s2.frames d = .user (.ontop s.nextId) [] (.returning (some y)) :: s.frames d)
    (h3 : step s2 t .tick = .ok s3) (h4 : Steps s3 s4) : executions s4 s.nextId = 1 := by
  have hr1 : Reachable s1 := .step h h1
  have hr2 := h2.steps.reachable hr1
  have hok1 := step_run_ok h h1
  simp only [fiberOps, run_single] at hok1
  have hok3 := step_run_ok hr2 h3
  have hrun : s2.cur t = some d := (h2.abs hr1).runs
  have ho : fiberOps s2 t .tick = [(t, .tick)] := by simp [fiberOps, hrun, hr]
  rw [ho, run_single] at hok3
  rw [executions_abs]
  rcases hn with hn | hn
  · have hn' : s.frames d = .resume :: .user k' ls' .normal :: rest' := hn
    exact UFiber.C25_exactly_once (s := s.abs) (s1 := s1.abs) (s2 := s2.abs) (s3 := s3.abs) (s4 := s4.abs) (k' := k') (ls' := ls') (rest' := absL rest')
      (reachable_facts h).reach (reachable_facts hr2).early (userCode_abs hu) (handle_abs ha) hd
      (show s.abs.frames d = _ by rw [abs_frames, hn']; rfl) hw hok1 (h2.abs hr1) (by rw [abs_frames, hr, hn']; rfl) hok3 (steps_abs (.step hr2 h3) h4)
  · have hn' : s.frames d = .resume :: .callcc z .waiting k' ls' :: rest' := hn
    exact UFiber.C25_exactly_once (s := s.abs) (s1 := s1.abs) (s2 := s2.abs) (s3 := s3.abs) (s4 := s4.abs) (k' := k') (ls' := z :: ls') (rest' := absL rest')
      (reachable_facts h).reach (reachable_facts hr2).early (userCode_abs hu) (handle_abs ha) hd
      (show s.abs.frames d = _ by rw [abs_frames, hn']; rfl) hw hok1 (h2.abs hr1) (by rw [abs_frames, hr, hn']; rfl) hok3 (steps_abs (.step hr2 h3) h4)

example : UserCode (exec [(0, .callcc [] .success)]) 0 1 .fn [1] [.entryRun] ∧ InCallcc (exec [(0, .callcc [] .success)]) 0 0 .main [] [] ∧
    (exec [(0, .callcc [] .success)]).unw 0 = false ∧ runsOk hOnce = true ∧ (exec hOnce).cur 0 = some 0 ∧
    (exec hOnce).frames 0 = .user (.ontop 0) [] (.returning (some 3)) :: (exec [(0, .callcc [] .success)]).frames 0 ∧
    executions (exec (hOnce ++ [(0, .tick)])) 0 = 1 :=
  ⟨⟨by decide, by decide⟩, (by decide : (exec _).frames 0 = _), by decide, by decide, by decide, by decide, by decide⟩

/-- An exception that leaves the function does not empty the record: the next switch to that continuation executes the function again (`C91_pending_runs`). -/
theorem C91_throw_keeps {s : State} {t : Tid} {c : CtxId} {i j : Nat} {e : Exc} {k : UKind} {ls : List Var} {m : Mode} {rest : List Frame} {z : Var}
    (hc : RunsOn s t c) (hf : s.frames c = .user (.ontop i) [] (.unwinding e) :: .resume :: .user k ls m :: rest ∨
      s.frames c = .user (.ontop i) [] (.unwinding e) :: .resume :: .callcc z .waiting k ls :: rest)
    (hj : s.ontop c = some j) :
    ∃ s', step s t .tick = .ok s' ∧ s'.ontop c = some j ∧
      (s'.frames c = .user k ls (.unwinding e) :: rest ∨ s'.frames c = .callcc z (.unwinding e) k ls :: rest) := by
  have hc' : s.cur t = some c := hc
  rcases hf with hf | hf
  · refine ⟨s.setFrames c (.user k ls (.unwinding e) :: rest), ?_, hj, .inl (by simp [State.setFrames])⟩
    simp [step, hc', hf, propagate]
  · refine ⟨s.setFrames c (.callcc z (.unwinding e) k ls :: rest), ?_, hj, .inr (by simp [State.setFrames])⟩
    simp [step, hc', hf, propagate]

example : let s := exec [(0, .callcc [] .success), (0, .resumeWith 1), (0, .moveHeap 2), (0, .throw 7), (0, .tick)]
    Reachable s ∧ RunsOn s 0 0 ∧ s.frames 0 = [.user (.ontop 0) [] (.unwinding (.user 7)), .resume, .callcc 0 .waiting .main []] ∧ s.ontop 0 = some 0 :=
  ⟨reachable_exec (by decide), (by decide : (exec _).cur 0 = _), by decide, by decide⟩

/-- "Exactly once" fails when the function throws (main catches the exception around `callcc`, suspends and is resumed) … -/
theorem C91_violation_throw : ∃ h : List (Tid × Op), runsOk h = true ∧ (exec h).nextId = 1 ∧ executions (exec h) 0 = 2 :=
  ⟨[(0, .call), (0, .callcc [] .success), (0, .resumeWith 1), (0, .moveHeap 2), (0, .throw 7), (0, .tick), (0, .tick), (0, .tick), (0, .catchUser),
    (0, .resume 3), (0, .resume 4)], by decide, by decide, by decide⟩

/-- … and when it suspends. -/
theorem C91_violation_suspend : ∃ h : List (Tid × Op), runsOk h = true ∧ (exec h).nextId = 1 ∧ executions (exec h) 0 = 2 :=
  ⟨hAgain ++ [(0, .resume 3)], by decide, by decide, by decide⟩

/-- `resume_with()` on a continuation that is being unwound (suspended again by code that runs during the unwinding): the function is never executed, whatever
happens later. -/
theorem C91_unwound_never {s s' s'' : State} {t : Tid} {d : CtxId} {x : Var} (h : Reachable s) (hd : Designates s x d) (hw : s.unw d = true)
    (hs : step s t (.resumeWith x) = .ok s') (hs' : Steps s' s'') : executions s'' s.nextId = 0 := by
  have hok := step_run_ok h hs
  simp only [fiberOps, run_single] at hok
  rw [executions_abs]
  exact UFiber.C25_unwound_never (reachable_facts h).reach hd hw hok (steps_abs (.step h hs) hs')

/-- main destroys continuation 1, suspended in `resume()`; code that runs during the unwinding executes `callcc`: continuation 1 is suspended in `callcc()` while
being unwound, object 5 designates it -/
def hUnw : List (Tid × Op) := h2 ++ [(0, .drop 2), (0, .cleanup), (0, .callcc [] .success)]
example : Reachable (exec hUnw) ∧ Designates (exec hUnw) 5 1 ∧ (exec hUnw).unw 1 = true ∧ UserCode (exec hUnw) 0 2 .fn [5] [.entryRun] ∧ Handle (exec hUnw) 5 ∧
    InCallcc (exec hUnw) 1 4 .cleanup [] [.user .fn [1] (.unwinding (.forced 3)), .entryRun] ∧ runsOk (hUnw ++ [(0, .resumeWith 5)]) = true :=
  ⟨reachable_exec (by decide), (by decide : (exec hUnw).val 5 = some 1), by decide, ⟨by decide, by decide⟩, ⟨.inr (.inl ⟨2, by decide⟩), by decide⟩,
    (by decide : (exec hUnw).frames 1 = _), by decide⟩

/-- **Switching during unwinding.** A continuation that is being unwound and was suspended by code running during the unwinding, in `resume()` or in `callcc()`, is
resumed, with or without a function: that call does not return, it throws `forced_unwind` again, carrying the way back to the resumer; no function is executed. -/
theorem C91_resume_throws {s : State} {t : Tid} {c d : CtxId} {k k' : UKind} {ls ls' : List Var} {rest rest' : List Frame} {x z : Var} {op : Op}
    (h : Reachable s) (hop : op = .resume x ∨ op = .resumeWith x) (hu : UserCode s t c k ls rest) (ha : Handle s x) (hd : Designates s x d)
    (hn : InResume s d k' ls' rest' ∨ InCallcc s d z k' ls' rest') (hw : s.unw d = true) :
    ∃ s' e, step s t op = .ok s' ∧ RunsOn s' t d ∧ s'.val e = some c ∧ Suspended s' c ∧ s'.log = s.log ∧
      (InResume s d k' ls' rest' → s'.frames d = .user k' ls' (.unwinding (.forced e)) :: rest') ∧
      (InCallcc s d z k' ls' rest' → s'.frames d = .callcc z (.unwinding (.forced e)) k' ls' :: rest') := by
  have hne := facts_target h hu.1 hd
  have hst : s.status d = .suspended := by rcases hn with hr | hr <;> exact suspended_of_frames h hd hr
  have hv : s.val x = some d := hd
  rcases hop with rfl | rfl
  · have hstep : step s t (.resume x) = s.doResume t c x := by simp only [step, hu.1, hu.2, userStep, handle_accessible ha, if_true]
    rw [hstep]
    rcases hn with hr | hr
    · have hr' : s.frames d = .resume :: .user k' ls' .normal :: rest' := hr
      simp only [State.doResume, hv, hst, reduceCtorEq, if_false, State.switchTo, State.setVal, State.setFrames, hu.1, if_true, State.arrive, upd_apply, hne, hr', hw]
      refine ⟨_, s.nextVar, rfl, ?_, ?_, ?_, ?_, ?_, ?_⟩ <;> simp [RunsOn, Suspended, InResume, InCallcc, State.newVar, Ne.symm hne, hr']
    · have hr' : s.frames d = .resume :: .callcc z .waiting k' ls' :: rest' := hr
      simp only [State.doResume, hv, hst, reduceCtorEq, if_false, State.switchTo, State.setVal, State.setFrames, hu.1, if_true, State.arrive, upd_apply, hne, hr', hw]
      refine ⟨_, s.nextVar, rfl, ?_, ?_, ?_, ?_, ?_, ?_⟩ <;> simp [RunsOn, Suspended, InResume, InCallcc, State.newVar, Ne.symm hne, hr']
  · have hstep : step s t (.resumeWith x) = s.doResumeWith t c x := by simp only [step, hu.1, hu.2, userStep, handle_accessible ha, if_true]
    rw [hstep]
    rcases hn with hr | hr
    · have hr' : s.frames d = .resume :: .user k' ls' .normal :: rest' := hr
      simp only [State.doResumeWith, hv, hst, reduceCtorEq, if_false, State.switchTo, State.setVal, State.setFrames, hu.1, if_true, State.arrive, upd_apply, hne, hr', hw]
      refine ⟨_, s.nextVar, rfl, ?_, ?_, ?_, ?_, ?_, ?_⟩ <;> simp [RunsOn, Suspended, InResume, InCallcc, State.newVar, Ne.symm hne, hr']
    · have hr' : s.frames d = .resume :: .callcc z .waiting k' ls' :: rest' := hr
      simp only [State.doResumeWith, hv, hst, reduceCtorEq, if_false, State.switchTo, State.setVal, State.setFrames, hu.1, if_true, State.arrive, upd_apply, hne, hr', hw]
      refine ⟨_, s.nextVar, rfl, ?_, ?_, ?_, ?_, ?_, ?_⟩ <;> simp [RunsOn, Suspended, InResume, InCallcc, State.newVar, Ne.symm hne, hr']

/-- "Is being unwound" lasts until the continuation has finished. -/
theorem C91_sticky {s s' : State} (h : Reachable s) {d : CtxId} (hw : s.unw d = true) (hs : Steps s s') : s'.unw d = true ∨ s'.term d = true :=
  UFiber.C26_sticky (s := s.abs) (s' := s'.abs) (reachable_facts h).reach hw (steps_abs h hs) (reachable_facts (hs.reachable h)).early

/-- A destructor that switches away during the unwinding and is resumed ends in `std::terminate`. -/
theorem C91_violation_unwinding : (exec (hUnw ++ [(0, .resume 5)])).frames 1 =
      [.callcc 4 (.unwinding (.forced 6)) .cleanup [], .user .fn [1] (.unwinding (.forced 3)), .entryRun] ∧
    (match run init (hUnw ++ [(0, .resume 5), (0, .tick), (0, .tick)]) with | .terminate => true | _ => false) = true := by decide

end Verif.UCont
