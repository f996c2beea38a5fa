import Verif.Fiber.Props2

/-! # C97: `resume_with()` of a function that returns its argument is `resume()`, fcontext fiber -/

namespace Verif.Fiber

/-- thread `t` calls `resume_with(fn)` on object `x`; `fn`, whose parameter is object `p`, moves it into its result and returns: the parameter, now empty, is destroyed (first tick) and the call
returns (second tick) -/
def identityOnTop (t : Tid) (x p : Var) : List (Tid × Op) := [(t, .resumeWith x), (t, .retHandle p), (t, .tick), (t, .tick)]

/-- States `a` and `b`, both later than `s`, are the same, but for the name of one object of context `d` (`r` in `a`, `r'` in `b`), a parameter and a result of an on-top function in `b`, which have
been destroyed, and `log`, the events in `b` that are not in `a`. -/
structure SameBut (s a b : State) (d : CtxId) (r r' : Var) : Prop where
  cur : b.cur = a.cur
  status : b.status = a.status
  seq : b.seq = a.seq
  caps : b.caps = a.caps
  lost : b.lost = a.lost
  nextCtx : b.nextCtx = a.nextCtx
  nextTid : b.nextTid = a.nextTid
  /-- all stacks are the same, but that the innermost activation of `d` has its object under another name -/
  frames : ∀ c, c ≠ d → b.frames c = a.frames c
  top : ∃ k ls rest, a.frames d = .user k (r :: ls) .normal :: rest ∧ b.frames d = .user k (r' :: ls) .normal :: rest
  /-- all objects that existed before have the same values, the object received too -/
  old : ∀ v, v < s.nextVar → b.val v = a.val v ∧ b.kind v = a.kind v
  new : s.nextVar ≤ r ∧ s.nextVar ≤ r' ∧ b.val r' = a.val r ∧ b.kind r' = a.kind r
  /-- other objects created meanwhile do not exist any more -/
  gone : ∀ v, s.nextVar ≤ v → v < b.nextVar → v ≠ r' → b.kind v = .dead ∧ b.val v = none

theorem new_two {n v : Nat} (h1 : n ≤ v) (h2 : v < n + 3) (h3 : v ≠ n + 2) : v = n ∨ v = n + 1 := by omega
theorem succ2_ne (n : Nat) : n + 1 + 1 ≠ n := by omega

/-- **C97.** In every reachable state, for every handle of a context suspended in `resume()`: `resume_with()` of a function that returns its argument has the effect of `resume()`. -/
theorem C97_resumed {s : State} {t : Tid} {c d : CtxId} {k k' : UKind} {ls ls' : List Var} {rest rest' : List Frame} {x : Var}
    (h : Reachable s) (hu : UserCode s t c k ls rest) (ha : Handle s x) (hd : Designates s x d) (hr : InResume s d k' ls' rest') :
    ∃ a b r r', step s t (.resume x) = .ok a ∧ run s (identityOnTop t x s.nextVar) = .ok b ∧ SameBut s a b d r r' ∧ Designates a r c ∧ a.log = s.log ∧ b.log = .ontop s.nextId d :: s.log := by
  have hi := reachable_inv h
  obtain ⟨f, hv, rfl⟩ := hd
  have hcf : f.ctx ≠ c := ((facts hi hu.1).2.2.2 x f hv).2.2
  simp only [InResume] at hr
  have hn : s.nextVar + 1 ≠ s.nextVar := Nat.succ_ne_self _
  have hn2 : s.nextVar + 1 + 1 ≠ s.nextVar := succ2_ne _
  have hn3 : s.nextVar + 1 + 1 ≠ s.nextVar + 1 := Nat.succ_ne_self _
  obtain ⟨a, ea⟩ : ∃ a, step s t (.resume x) = .ok a := by
    rw [resume_eq hi hu ha hv]
    simp only [State.deliver, sw, State.setFrames, State.setVal, upd_apply, hcf, if_false, hr]
    exact ⟨_, rfl⟩
  obtain ⟨b, eb⟩ : ∃ b, run s (identityOnTop t x s.nextVar) = .ok b := by
    simp only [identityOnTop, run]
    rw [resumeWith_eq hi hu ha hv]
    simp [step, userStep, State.accessible, hcf, State.setVal, State.newVar, State.setFrames, State.destroyVar, State.kill, leave, State.deliver, hr]
  refine ⟨a, b, s.nextVar, s.nextVar + 2, ea, eb, ?_⟩
  rw [resume_eq hi hu ha hv] at ea
  simp only [State.deliver, sw, State.setFrames, State.setVal, upd_apply, hcf, if_false, hr, Res.ok.injEq] at ea
  simp only [identityOnTop, run] at eb
  rw [resumeWith_eq hi hu ha hv] at eb
  simp [step, userStep, State.accessible, hcf, State.setVal, State.newVar, State.setFrames, State.destroyVar, State.kill, leave, State.deliver, hr] at eb
  subst ea eb
  refine ⟨⟨rfl, rfl, rfl, rfl, rfl, rfl, rfl, ?_, ?_, ?_, ?_, ?_⟩, ?_, rfl, rfl⟩
  · intro c' hc'; simp [State.newVar, upd_apply, hc']
  · exact ⟨k', ls', rest', by simp [State.newVar], by simp⟩
  · intro v hv'
    have h1 : v ≠ s.nextVar := Nat.ne_of_lt hv'
    have h2 : v ≠ s.nextVar + 1 := Nat.ne_of_lt (Nat.lt_succ_of_lt hv')
    have h3 : v ≠ s.nextVar + 1 + 1 := Nat.ne_of_lt (Nat.lt_succ_of_lt (Nat.lt_succ_of_lt hv'))
    simp [State.newVar, upd_apply, h1, h2, h3]
  · exact ⟨Nat.le_refl _, Nat.le_add_right _ _, by simp [State.newVar], by simp [State.newVar]⟩
  · intro v h1 h2 h3
    rcases new_two h1 (show v < s.nextVar + 3 from h2) h3 with rfl | rfl <;> simp [upd_apply, hn, Ne.symm hn, Ne.symm hn2]
  · refine ⟨⟨c, s.seq c + 1⟩, ?_, rfl⟩
    simp [State.newVar]

/-- **C97.** In every reachable state, for every handle of a fiber that has not been started: the same. -/
theorem C97_not_started {s : State} {t : Tid} {c d : CtxId} {k : UKind} {ls : List Var} {rest : List Frame} {x : Var}
    (h : Reachable s) (hu : UserCode s t c k ls rest) (ha : Handle s x) (hd : Designates s x d) (hr : NotStarted s d) :
    ∃ a b r r', step s t (.resume x) = .ok a ∧ run s (identityOnTop t x s.nextVar) = .ok b ∧ SameBut s a b d r r' ∧ Designates a r c ∧ a.log = .enter d :: s.log ∧ b.log = .enter d :: .ontop s.nextId d :: s.log := by
  have hi := reachable_inv h
  obtain ⟨f, hv, rfl⟩ := hd
  have hcf : f.ctx ≠ c := ((facts hi hu.1).2.2.2 x f hv).2.2
  simp only [NotStarted] at hr
  have hn : s.nextVar + 1 ≠ s.nextVar := Nat.succ_ne_self _
  have hn2 : s.nextVar + 1 + 1 ≠ s.nextVar := succ2_ne _
  have hn3 : s.nextVar + 1 + 1 ≠ s.nextVar + 1 := Nat.succ_ne_self _
  obtain ⟨a, ea⟩ : ∃ a, step s t (.resume x) = .ok a := by
    rw [resume_eq hi hu ha hv]
    simp only [State.deliver, State.addLog, sw, State.setFrames, State.setVal, upd_apply, hcf, if_false, hr]
    exact ⟨_, rfl⟩
  obtain ⟨b, eb⟩ : ∃ b, run s (identityOnTop t x s.nextVar) = .ok b := by
    simp only [identityOnTop, run]
    rw [resumeWith_eq hi hu ha hv]
    simp [step, userStep, State.accessible, hcf, State.setVal, State.newVar, State.setFrames, State.destroyVar, State.kill, leave, State.deliver, State.addLog, hr]
  refine ⟨a, b, s.nextVar, s.nextVar + 2, ea, eb, ?_⟩
  rw [resume_eq hi hu ha hv] at ea
  simp only [State.deliver, State.addLog, sw, State.setFrames, State.setVal, upd_apply, hcf, if_false, hr, Res.ok.injEq] at ea
  simp only [identityOnTop, run] at eb
  rw [resumeWith_eq hi hu ha hv] at eb
  simp [step, userStep, State.accessible, hcf, State.setVal, State.newVar, State.setFrames, State.destroyVar, State.kill, leave, State.deliver, State.addLog, hr] at eb
  subst ea eb
  refine ⟨⟨rfl, rfl, rfl, rfl, rfl, rfl, rfl, ?_, ?_, ?_, ?_, ?_⟩, ?_, rfl, rfl⟩
  · intro c' hc'; simp [State.newVar, upd_apply, hc']
  · exact ⟨.fn, [], [.entryRun], by simp [State.newVar], by simp⟩
  · intro v hv'
    have h1 : v ≠ s.nextVar := Nat.ne_of_lt hv'
    have h2 : v ≠ s.nextVar + 1 := Nat.ne_of_lt (Nat.lt_succ_of_lt hv')
    have h3 : v ≠ s.nextVar + 1 + 1 := Nat.ne_of_lt (Nat.lt_succ_of_lt (Nat.lt_succ_of_lt hv'))
    simp [State.newVar, upd_apply, h1, h2, h3]
  · exact ⟨Nat.le_refl _, Nat.le_add_right _ _, by simp [State.newVar], by simp [State.newVar]⟩
  · intro v h1 h2 h3
    rcases new_two h1 (show v < s.nextVar + 3 from h2) h3 with rfl | rfl <;> simp [upd_apply, hn, Ne.symm hn, Ne.symm hn2]
  · refine ⟨⟨c, s.seq c + 1⟩, ?_, rfl⟩
    simp [State.newVar]

/-- the program of the example: `main` has a fiber that was started and has resumed it (object 2), and one that was not (object 3) -/
def hIdentity : List (Tid × Op) := [(0, .create [] .success), (0, .resume 0), (0, .resume 1), (0, .create [] .success)]

example : Reachable (exec hIdentity) := reachable_exec (by decide)
example : UserCode (exec hIdentity) 0 0 .main [3, 2, 0] [] ∧ Handle (exec hIdentity) 2 ∧ Designates (exec hIdentity) 2 1 ∧ InResume (exec hIdentity) 1 .fn [1] [.entryRun] :=
  ⟨⟨by decide, by decide⟩, .inr (.inl ⟨0, by decide⟩), ⟨⟨1, 2⟩, by decide, rfl⟩, (by decide : (exec hIdentity).frames 1 = _)⟩
example : Handle (exec hIdentity) 3 ∧ Designates (exec hIdentity) 3 2 ∧ NotStarted (exec hIdentity) 2 :=
  ⟨.inr (.inl ⟨0, by decide⟩), ⟨⟨2, 1⟩, by decide, rfl⟩, (by decide : (exec hIdentity).frames 2 = _)⟩

end Verif.Fiber
