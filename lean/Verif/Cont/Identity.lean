import Verif.Cont.Props
import Verif.Fiber.Identity

/-! # C97: `resume_with()` of a function that returns its argument is `resume()`, `continuation` on fcontext -/

namespace Verif.Cont
open Verif.Fiber (CtxId Var Tid Fctx Kind Exc Mode UKind Status Event upd upd_apply new_two succ2_ne)
open State

/-- as `Verif.Fiber.identityOnTop`, with an rvalue function object -/
def identityOnTop (t : Tid) (x p : Var) : List (Tid × Op) := [(t, .resumeWith x false), (t, .retHandle p), (t, .tick), (t, .tick)]

/-- As `Verif.Fiber.SameBut`: the states are the same, but for the name of one object and the objects of the on-top function, which have been destroyed. -/
structure SameBut (s a b : State) (d : CtxId) (r r' : Var) : Prop where
  cur : b.cur = a.cur
  status : b.status = a.status
  seq : b.seq = a.seq
  caps : b.caps = a.caps
  lost : b.lost = a.lost
  hidden : b.hidden = a.hidden
  nextCtx : b.nextCtx = a.nextCtx
  nextTid : b.nextTid = a.nextTid
  frames : ∀ c, c ≠ d → b.frames c = a.frames c
  /-- the object is the result of `resume()`, or the one `callcc()` is about to return -/
  top : (∃ k ls rest, a.frames d = .user k none (r :: ls) .normal :: rest ∧ b.frames d = .user k none (r' :: ls) .normal :: rest) ∨
    ∃ y k ls rest, a.frames d = .callcc y (.returning r) k none ls :: rest ∧ b.frames d = .callcc y (.returning r') k none ls :: rest
  old : ∀ v, v < s.nextVar → b.val v = a.val v ∧ b.kind v = a.kind v
  new : s.nextVar ≤ r ∧ s.nextVar ≤ r' ∧ b.val r' = a.val r ∧ b.kind r' = a.kind r
  gone : ∀ v, s.nextVar ≤ v → v < b.nextVar → v ≠ r' → b.kind v = .dead ∧ b.val v = none

/-- **C97.** In every reachable state, for every handle of a context suspended in `resume()`: `resume_with()` of a function that returns its argument has the effect of `resume()`. -/
theorem C97_continuation_resumed {s : State} {t : Tid} {c d : CtxId} {k : UKind} {ls : List Var} {rest : List Frame} {x : Var} {k' : UKind} {ls' : List Var} {rest' : List Frame}
    (h : Reachable s) (hu : UserCode s t c k ls rest) (ha : Handle s x) (hd : Designates s x d) (hr : InResume s d k' ls' rest') :
    ∃ a b r r', step s t (.resume x) = .ok a ∧ run s (identityOnTop t x s.nextVar) = .ok b ∧ SameBut s a b d r r' ∧ Designates a r c ∧ a.log = s.log ∧ b.log = .ontop s.nextId d :: s.log := by
  have hi := Fiber.reachable_inv (reachable_spec h).2
  obtain ⟨f, hf, rfl⟩ := hd
  have hcf : f.ctx ≠ c := ((Fiber.facts hi hu.1).2.2.2 x f hf).2.2
  have ax := handle_accessible ha
  have hn : s.nextVar + 1 ≠ s.nextVar := Nat.succ_ne_self _
  have hn2 : s.nextVar + 1 + 1 ≠ s.nextVar := succ2_ne _
  have hhn : s.hidden s.nextVar = false := by
    cases e : s.hidden s.nextVar with
    | false => rfl
    | true => exact absurd (hidden_empty h _ e).1 (Nat.lt_irrefl _)
  obtain ⟨q1, q2⟩ := hi.vi.valid x f hf
  replace q1 : s.status f.ctx = .suspended := q1
  replace q2 : s.seq f.ctx = f.seq := q2
  simp only [InResume] at hr
  have e0 : step s t (.resume x) = s.doResume t c x := by simp only [step, hu.1, hu.2, userStep, ax, if_true]
  have e1 : step s t (.resumeWith x false) = s.doResumeWith t c x false := by simp only [step, hu.1, hu.2, userStep, ax, if_true]
  obtain ⟨a, ea⟩ : ∃ a, step s t (.resume x) = .ok a := by
    rw [e0]
    simp [State.doResume, State.doResumeWith, hf, State.jump, State.ontopSwitch, State.switch, hu.1, q1, q2, State.deliver, step, userStep, State.accessible, hcf, State.setVal, State.newVar, State.setFrames, State.addLog, State.destroyVar, State.kill, leave, hr, hhn]
  obtain ⟨b, eb⟩ : ∃ b, run s (identityOnTop t x s.nextVar) = .ok b := by
    simp only [identityOnTop, run, e1]
    simp [State.doResume, State.doResumeWith, hf, State.jump, State.ontopSwitch, State.switch, hu.1, q1, q2, State.deliver, step, userStep, State.accessible, hcf, State.setVal, State.newVar, State.setFrames, State.addLog, State.destroyVar, State.kill, leave, hr, hhn]
  refine ⟨a, b, s.nextVar, s.nextVar + 2, ea, eb, ?_⟩
  rw [e0] at ea
  simp [State.doResume, State.doResumeWith, hf, State.jump, State.ontopSwitch, State.switch, hu.1, q1, q2, State.deliver, step, userStep, State.accessible, hcf, State.setVal, State.newVar, State.setFrames, State.addLog, State.destroyVar, State.kill, leave, hr, hhn] at ea
  simp only [identityOnTop, run, e1] at eb
  simp [State.doResume, State.doResumeWith, hf, State.jump, State.ontopSwitch, State.switch, hu.1, q1, q2, State.deliver, step, userStep, State.accessible, hcf, State.setVal, State.newVar, State.setFrames, State.addLog, State.destroyVar, State.kill, leave, hr, hhn] at eb
  subst ea eb
  refine ⟨⟨rfl, rfl, rfl, rfl, rfl, rfl, rfl, rfl, ?_, ?_, ?_, ?_, ?_⟩, ?_, rfl, rfl⟩
  · intro c' hc'; simp [upd_apply, hc']
  · exact .inl ⟨k', ls', rest', by simp, by simp⟩
  · intro v hv'
    have h1 : v ≠ s.nextVar := Nat.ne_of_lt hv'
    have h2 : v ≠ s.nextVar + 1 := Nat.ne_of_lt (Nat.lt_succ_of_lt hv')
    have h3 : v ≠ s.nextVar + 1 + 1 := Nat.ne_of_lt (Nat.lt_succ_of_lt (Nat.lt_succ_of_lt hv'))
    simp [upd_apply, h1, h2, h3]
  · exact ⟨Nat.le_refl _, Nat.le_add_right _ _, by simp, by simp⟩
  · intro v h1 h2 h3
    rcases new_two h1 (show v < s.nextVar + 3 from h2) h3 with rfl | rfl <;> simp [upd_apply, hn, Ne.symm hn, Ne.symm hn2]
  · refine ⟨⟨c, s.seq c + 1⟩, ?_, rfl⟩
    simp

/-- **C97.** The same for a context suspended in `callcc()`. -/
theorem C97_continuation_callcc {s : State} {t : Tid} {c d : CtxId} {k : UKind} {ls : List Var} {rest : List Frame} {x : Var} {k' : UKind} {ls' : List Var} {rest' : List Frame}
    (h : Reachable s) (hu : UserCode s t c k ls rest) (ha : Handle s x) (hd : Designates s x d) (hr : InCallcc s d k' ls' rest') :
    ∃ a b r r', step s t (.resume x) = .ok a ∧ run s (identityOnTop t x s.nextVar) = .ok b ∧ SameBut s a b d r r' ∧ Designates a r c ∧ a.log = s.log ∧ b.log = .ontop s.nextId d :: s.log := by
  have hi := Fiber.reachable_inv (reachable_spec h).2
  obtain ⟨f, hf, rfl⟩ := hd
  have hcf : f.ctx ≠ c := ((Fiber.facts hi hu.1).2.2.2 x f hf).2.2
  have ax := handle_accessible ha
  have hn : s.nextVar + 1 ≠ s.nextVar := Nat.succ_ne_self _
  have hn2 : s.nextVar + 1 + 1 ≠ s.nextVar := succ2_ne _
  have hhn : s.hidden s.nextVar = false := by
    cases e : s.hidden s.nextVar with
    | false => rfl
    | true => exact absurd (hidden_empty h _ e).1 (Nat.lt_irrefl _)
  obtain ⟨q1, q2⟩ := hi.vi.valid x f hf
  replace q1 : s.status f.ctx = .suspended := q1
  replace q2 : s.seq f.ctx = f.seq := q2
  obtain ⟨y, hr⟩ := hr
  have e0 : step s t (.resume x) = s.doResume t c x := by simp only [step, hu.1, hu.2, userStep, ax, if_true]
  have e1 : step s t (.resumeWith x false) = s.doResumeWith t c x false := by simp only [step, hu.1, hu.2, userStep, ax, if_true]
  obtain ⟨a, ea⟩ : ∃ a, step s t (.resume x) = .ok a := by
    rw [e0]
    simp [State.doResume, State.doResumeWith, hf, State.jump, State.ontopSwitch, State.switch, hu.1, q1, q2, State.deliver, step, userStep, State.accessible, hcf, State.setVal, State.newVar, State.setFrames, State.addLog, State.destroyVar, State.kill, leave, hr, hhn]
  obtain ⟨b, eb⟩ : ∃ b, run s (identityOnTop t x s.nextVar) = .ok b := by
    simp only [identityOnTop, run, e1]
    simp [State.doResume, State.doResumeWith, hf, State.jump, State.ontopSwitch, State.switch, hu.1, q1, q2, State.deliver, step, userStep, State.accessible, hcf, State.setVal, State.newVar, State.setFrames, State.addLog, State.destroyVar, State.kill, leave, hr, hhn]
  refine ⟨a, b, s.nextVar, s.nextVar + 2, ea, eb, ?_⟩
  rw [e0] at ea
  simp [State.doResume, State.doResumeWith, hf, State.jump, State.ontopSwitch, State.switch, hu.1, q1, q2, State.deliver, step, userStep, State.accessible, hcf, State.setVal, State.newVar, State.setFrames, State.addLog, State.destroyVar, State.kill, leave, hr, hhn] at ea
  simp only [identityOnTop, run, e1] at eb
  simp [State.doResume, State.doResumeWith, hf, State.jump, State.ontopSwitch, State.switch, hu.1, q1, q2, State.deliver, step, userStep, State.accessible, hcf, State.setVal, State.newVar, State.setFrames, State.addLog, State.destroyVar, State.kill, leave, hr, hhn] at eb
  subst ea eb
  refine ⟨⟨rfl, rfl, rfl, rfl, rfl, rfl, rfl, rfl, ?_, ?_, ?_, ?_, ?_⟩, ?_, rfl, rfl⟩
  · intro c' hc'; simp [upd_apply, hc']
  · exact .inr ⟨y, k', ls', rest', by simp, by simp⟩
  · intro v hv'
    have h1 : v ≠ s.nextVar := Nat.ne_of_lt hv'
    have h2 : v ≠ s.nextVar + 1 := Nat.ne_of_lt (Nat.lt_succ_of_lt hv')
    have h3 : v ≠ s.nextVar + 1 + 1 := Nat.ne_of_lt (Nat.lt_succ_of_lt (Nat.lt_succ_of_lt hv'))
    simp [upd_apply, h1, h2, h3]
  · exact ⟨Nat.le_refl _, Nat.le_add_right _ _, by simp, by simp⟩
  · intro v h1 h2 h3
    rcases new_two h1 (show v < s.nextVar + 3 from h2) h3 with rfl | rfl <;> simp [upd_apply, hn, Ne.symm hn, Ne.symm hn2]
  · refine ⟨⟨c, s.seq c + 1⟩, ?_, rfl⟩
    simp

/-- a context has been started by `callcc()` in `main` and has resumed `main` (object 2) -/
def hIdentity : List (Tid × Op) := [(0, .callcc [] .success), (0, .resume 1), (0, .tick)]

example : Reachable (exec hIdentity) := reachable_exec (by decide +kernel)
example : UserCode (exec hIdentity) 0 0 .main [2] [] ∧ Handle (exec hIdentity) 2 ∧ Designates (exec hIdentity) 2 1 ∧ InResume (exec hIdentity) 1 .fn [1] [.entryRun] :=
  ⟨⟨by decide +kernel, by decide +kernel⟩, ⟨.inr (.inl ⟨0, by decide +kernel⟩), by decide +kernel⟩, ⟨⟨1, 2⟩, by decide +kernel, rfl⟩, (by decide +kernel : (exec hIdentity).frames 1 = _)⟩
/-- `main` is suspended in `callcc()`, the context called has a handle of it (object 1) -/
example : UserCode (exec [(0, .callcc [] .success)]) 0 1 .fn [1] [.entryRun] ∧ Handle (exec [(0, .callcc [] .success)]) 1 ∧ Designates (exec [(0, .callcc [] .success)]) 1 0 ∧
    InCallcc (exec [(0, .callcc [] .success)]) 0 .main [] [] :=
  ⟨⟨by decide +kernel, by decide +kernel⟩, ⟨.inr (.inl ⟨1, by decide +kernel⟩), by decide +kernel⟩, ⟨⟨0, 2⟩, by decide +kernel, rfl⟩, ⟨0, by decide +kernel⟩⟩

end Verif.Cont
