import Verif.UFiber.Props2
import Verif.Fiber.Identity

/-! # C97: `resume_with()` of a function that returns its argument is `resume()`, `fiber` on ucontext -/

namespace Verif.UFiber
open Verif.Fiber (CtxId Var Tid Kind Exc Mode UKind Frame Status Event Op CreateOutcome upd upd_apply new_two succ2_ne identityOnTop)
open State

/-- As `Verif.Fiber.SameBut`: the states are the same, but for the name of one object and the objects of the on-top function, which have been destroyed. -/
structure SameBut (s a b : State) (d : CtxId) (r r' : Var) : Prop where
  cur : b.cur = a.cur
  status : b.status = a.status
  frm : b.frm = a.frm
  ontop : b.ontop = a.ontop
  term : b.term = a.term
  unw : b.unw = a.unw
  root : b.root = a.root
  early : b.early = a.early
  caps : b.caps = a.caps
  lost : b.lost = a.lost
  nextCtx : b.nextCtx = a.nextCtx
  nextTid : b.nextTid = a.nextTid
  frames : ∀ c, c ≠ d → b.frames c = a.frames c
  top : ∃ k ls rest, a.frames d = .user k (r :: ls) .normal :: rest ∧ b.frames d = .user k (r' :: ls) .normal :: rest
  old : ∀ v, v < s.nextVar → b.val v = a.val v ∧ b.kind v = a.kind v
  new : s.nextVar ≤ r ∧ s.nextVar ≤ r' ∧ b.val r' = a.val r ∧ b.kind r' = a.kind r
  gone : ∀ v, s.nextVar ≤ v → v < b.nextVar → v ≠ r' → b.kind v = .dead ∧ b.val v = none

/-- **C97.** In every reachable state, for every handle of a context suspended in `resume()`, not being unwound and without on-top function left behind (see C25): `resume_with()` of a function
that returns its argument has the effect of `resume()`. -/
theorem C97_ucontext_resumed {s : State} {t : Tid} {c d : CtxId} {k k' : UKind} {ls ls' : List Var} {rest rest' : List Frame} {x : Var}
    (h : Reachable s) (he : NoEarlyDestroy s) (hu : UserCode s t c k ls rest) (ha : Handle s x) (hd : Designates s x d) (hr : InResume s d k' ls' rest') (hw : s.unw d = false)
    (ho : s.ontop d = none) :
    ∃ a b r r', step s t (.resume x) = .ok a ∧ run s (identityOnTop t x s.nextVar) = .ok b ∧ SameBut s a b d r r' ∧ Designates a r c ∧ a.log = s.log ∧ b.log = .ontop s.nextId d :: s.log := by
  have hi := reachable_inv h he
  have hs := inResume_susp hi hd hr
  have hcf := susp_ne hi hu.1 hs
  have hn : s.nextVar + 1 ≠ s.nextVar := Nat.succ_ne_self _
  have hn2 : s.nextVar + 1 + 1 ≠ s.nextVar := succ2_ne _
  have hn3 : s.nextVar + 1 + 1 ≠ s.nextVar + 1 := Nat.succ_ne_self _
  simp only [InResume] at hr
  obtain ⟨a, ea⟩ : ∃ a, step s t (.resume x) = .ok a := by
    rw [resume_eq hu ha hd hs]
    simp only [State.arrive, preResume, sw, State.setFrames, State.setVal, upd_apply, hcf, if_false, hr, hw, ho]
    exact ⟨_, rfl⟩
  obtain ⟨b, eb⟩ : ∃ b, run s (identityOnTop t x s.nextVar) = .ok b := by
    simp only [identityOnTop, run]
    rw [resumeWith_eq hu ha hd hs]
    simp [State.arrive, preResumeWith, sw, step, userStep, State.accessible, hcf, State.setVal, State.newVar, State.setFrames, State.addLog, State.destroyVar, State.kill, leave, hr, hw]
  refine ⟨a, b, s.nextVar, s.nextVar + 2, ea, eb, ?_⟩
  rw [resume_eq hu ha hd hs] at ea
  simp [State.arrive, preResume, sw, State.setFrames, State.setVal, upd_apply, hcf, hr, hw, ho, State.newVar] at ea
  simp only [identityOnTop, run] at eb
  rw [resumeWith_eq hu ha hd hs] at eb
  simp [State.arrive, preResumeWith, sw, step, userStep, State.accessible, hcf, State.setVal, State.newVar, State.setFrames, State.addLog, State.destroyVar, State.kill, leave, hr, hw] at eb
  subst ea eb
  refine ⟨⟨rfl, rfl, rfl, ?_, rfl, rfl, rfl, rfl, rfl, rfl, rfl, rfl, ?_, ?_, ?_, ?_, ?_⟩, ?_, rfl, rfl⟩
  · funext z; simp only [upd_apply]; split
    · next e => rw [e, ho]
    · rfl
  · intro c' hc'; simp [upd_apply, hc']
  · exact ⟨k', ls', rest', by simp, by simp⟩
  · intro v hv'
    have h1 : v ≠ s.nextVar := Nat.ne_of_lt hv'
    have h2 : v ≠ s.nextVar + 1 := Nat.ne_of_lt (Nat.lt_succ_of_lt hv')
    have h3 : v ≠ s.nextVar + 1 + 1 := Nat.ne_of_lt (Nat.lt_succ_of_lt (Nat.lt_succ_of_lt hv'))
    simp [upd_apply, h1, h2, h3]
  · exact ⟨Nat.le_refl _, Nat.le_add_right _ _, by simp, by simp⟩
  · intro v h1 h2 h3
    rcases new_two h1 (show v < s.nextVar + 3 from h2) h3 with rfl | rfl <;> simp [upd_apply, hn, Ne.symm hn, Ne.symm hn2]
  · simp [Designates]

/-- `main` has a fiber that was started and has resumed it (object 2) -/
def hIdentity : List (Tid × Op) := [(0, .create [] .success), (0, .resume 0), (0, .resume 1)]

example : Reachable (exec hIdentity) ∧ NoEarlyDestroy (exec hIdentity) := ⟨reachable_exec (by decide), (by decide : (exec hIdentity).early = false)⟩
example : UserCode (exec hIdentity) 0 0 .main [2, 0] [] ∧ Handle (exec hIdentity) 2 ∧ Designates (exec hIdentity) 2 1 ∧ InResume (exec hIdentity) 1 .fn [1] [.entryRun] ∧
    (exec hIdentity).unw 1 = false ∧ (exec hIdentity).ontop 1 = none :=
  ⟨⟨by decide, by decide⟩, .inr (.inl ⟨0, by decide⟩), (by decide : (exec hIdentity).val 2 = _), (by decide : (exec hIdentity).frames 1 = _), by decide, by decide⟩

/-- With ucontext this does not hold of a fiber that was not started (C23): `fn` is not executed before the fiber's function, but later. -/
theorem C97_ucontext_not_started : ∃ s, Reachable s ∧ NotStarted s 1 ∧ (exec [(0, .create [] .success), (0, .resumeWith 0)]).log = [.enter 1, .alloc 1] ∧
    (exec [(0, .create [] .success), (0, .resumeWith 0), (0, .resume 1), (0, .resume 2)]).log = [.ontop 0 1, .enter 1, .alloc 1] ∧
    (exec [(0, .create [] .success), (0, .resume 0), (0, .resume 1), (0, .resume 2)]).log = [.enter 1, .alloc 1] :=
  ⟨exec [(0, .create [] .success)], reachable_exec (by decide), (by decide : (exec [(0, .create [] .success)]).frames 1 = _), by decide, by decide, by decide⟩

end Verif.UFiber
