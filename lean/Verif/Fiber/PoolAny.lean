import Verif.Fiber.PoolMT

/-!
# C95: pools of any size exist

A program can create any number of fibers that then resume each other (the hypotheses of `C95_pool` can be met for every number of contexts).
-/

namespace Verif.Fiber
open State

/-- main creates a fiber (object `v`) and resumes it; the function of the fiber (parameter `v + 1`) resumes main, which gets object `v + 2` -/
def growPool (t : Tid) (v : Var) : List (Tid × Op) := [(t, .create [] .success), (t, .resume v), (t, .resume (v + 1))]

theorem pool_grow {s : State} {t : Tid} {X : List Var} {b : Stacks} {c : CtxId} (h : Reachable s) (hp : Pool s t X b c) :
    ∃ s' b', run s (growPool t s.nextVar) = .ok s' ∧ Pool s' t ((s.nextVar + 2) :: X) b' c ∧ s'.nextVar = s.nextVar + 3 ∧ (∀ y ∈ X, y < s.nextVar) ∧
      (∀ d, Member s' ((s.nextVar + 2) :: X) c d ↔ d = s.nextCtx ∨ Member s X c d) ∧ s'.nextCtx = s.nextCtx + 1 ∧
      b' s.nextCtx = (.fn, [s.nextVar + 1], [.entryRun]) ∧ s'.val (s.nextVar + 1) = none ∧ (∀ e, e ≠ s.nextCtx → e ≠ c → b' e = b e) ∧ (∀ y, y < s.nextVar → s'.val y = s.val y) ∧ s'.caps = s.caps := by
  obtain ⟨hu, hw⟩ := hp
  have hi := reachable_inv h
  obtain ⟨n, hn⟩ : ∃ n, n = s.nextCtx := ⟨_, rfl⟩
  obtain ⟨v, hv⟩ : ∃ v, v = s.nextVar := ⟨_, rfl⟩
  have hcn : n ≠ c := fun e => by
    have h1 := (hi.ci.absent c).2 (by rw [← e, hn]; exact Nat.le_refl _)
    rw [(hi.ci.curRun _ _).1 hu.1] at h1; cases h1
  have hXd : ∀ y ∈ X, ∀ f, s.val y = some f → f.ctx ≠ n ∧ f.ctx ≠ c := fun y _ f hf => by
    refine ⟨fun e => ?_, ((facts hi hu.1).2.2.2 y f hf).2.2⟩
    have h1 := (hi.ci.absent f.ctx).2 (by rw [e, hn]; exact Nat.le_refl _)
    rw [(hi.vi.valid y f hf).1] at h1; cases h1
  have hXv : ∀ y ∈ X, y < v := fun y hy => by
    rw [hv]
    refine Nat.lt_of_not_le fun hle => ?_
    have hk := hi.oi.fresh y hle
    have := (hw y hy).1
    simp [Handle, hk] at this
  -- creation
  obtain ⟨s2, hs2, e1⟩ := create_eq (xs := []) hi hu (by simp)
  simp only [State.capture, State.addLog] at hs2
  subst hs2
  rw [← hn, ← hv] at e1
  obtain ⟨s1, hs1⟩ : ∃ s1 : State, step s t (.create [] .success) = .ok s1 := ⟨_, e1⟩
  have hs1' := hs1
  rw [e1] at hs1'
  have a0 := Res.ok.inj hs1'
  have a1 : s1.cur = s.cur := by rw [← a0]
  have a2 : s1.frames = upd (upd s.frames n [.entryJump]) c (.user (b c).1 (v :: (b c).2.1) .normal :: (b c).2.2) := by rw [← a0]
  have a3 : s1.val = upd s.val v (some ⟨n, 1⟩) := by rw [← a0]
  have a4 : s1.kind = upd s.kind v (.loc c) := by rw [← a0]
  have a5 : s1.nextVar = v + 1 := by rw [← a0]
  have a6 : s1.nextCtx = n + 1 := by rw [← a0]
  have a7 : s1.caps = s.caps := by rw [← a0]
  clear a0 hs1' e1
  have h1 : Reachable s1 := h.step hs1
  -- main resumes the fiber
  have hu1 : UserCode s1 t c (b c).1 (v :: (b c).2.1) (b c).2.2 := ⟨by rw [a1]; exact hu.1, by rw [a2]; simp⟩
  have e2 := resume_eq (reachable_inv h1) hu1 (x := v) (f := ⟨n, 1⟩) (.inr (.inl ⟨c, by rw [a4]; simp⟩)) (by rw [a3]; simp)
  simp only [State.deliver, State.addLog, sw, State.setFrames, State.setVal, State.newVar, upd_apply, hcn, if_false, a2, a5, if_true] at e2
  obtain ⟨s2, hs2⟩ : ∃ s2 : State, step s1 t (.resume v) = .ok s2 := ⟨_, e2⟩
  have a0 := Res.ok.inj (e2.symm.trans hs2)
  have b1 : s2.cur = upd s1.cur t (some n) := by rw [← a0]
  have b2 : ∀ d, s2.frames d = if d = n then [.user .fn [v + 1] .normal, .entryRun] else if d = c then .resume :: .user (b c).1 (v :: (b c).2.1) .normal :: (b c).2.2 else s.frames d := by
    rw [← a0]; intro d
    simp only [upd_apply]
    by_cases h1 : d = n
    · simp [h1]
    · simp only [if_neg h1]; split <;> rfl
  have b3 : s2.val = upd (upd s1.val v none) (v + 1) (some ⟨c, s1.seq c + 1⟩) := by rw [← a0]
  have b4 : s2.kind = upd s1.kind (v + 1) (.loc n) := by rw [← a0]
  have b5 : s2.nextVar = v + 2 := by rw [← a0]
  have b6 : s2.nextCtx = n + 1 := by rw [← a0]; exact a6
  have b7 : s2.caps = s.caps := by rw [← a0]; exact a7
  clear a0 e2
  have h2 : Reachable s2 := h1.step hs2
  -- the fiber resumes main
  have hu2 : UserCode s2 t n .fn [v + 1] [.entryRun] := ⟨by rw [b1]; simp, by rw [b2, if_pos rfl]⟩
  have e3 := resume_eq (reachable_inv h2) hu2 (x := v + 1) (f := ⟨c, s1.seq c + 1⟩) (.inr (.inl ⟨n, by rw [b4]; simp⟩)) (by rw [b3]; simp)
  simp only [State.deliver, sw, State.setFrames, State.setVal, State.newVar, upd_apply, Ne.symm hcn, if_false, b2, b5, if_true] at e3
  obtain ⟨s3, hs3⟩ : ∃ s3 : State, step s2 t (.resume (v + 1)) = .ok s3 := ⟨_, e3⟩
  have a0 := Res.ok.inj (e3.symm.trans hs3)
  have c1 : s3.cur = upd s2.cur t (some c) := by rw [← a0]
  have c2 : ∀ d, s3.frames d = if d = c then .user (b c).1 ((v + 2) :: v :: (b c).2.1) .normal :: (b c).2.2 else if d = n then [.resume, .user .fn [v + 1] .normal, .entryRun] else s.frames d := by
    rw [← a0]; intro d
    simp only [upd_apply, b2]
    by_cases h1 : d = c
    · simp [h1]
    · simp only [if_neg h1]
      split
      · rfl
      · rfl
  have c3 : s3.val = upd (upd s2.val (v + 1) none) (v + 2) (some ⟨n, s2.seq n + 1⟩) := by rw [← a0]
  have c4 : s3.kind = upd s2.kind (v + 2) (.loc c) := by rw [← a0]
  have c5 : s3.nextVar = v + 3 := by rw [← a0]
  have c6 : s3.nextCtx = n + 1 := by rw [← a0]; exact b6
  have c7 : s3.caps = s.caps := by rw [← a0]; exact b7
  clear a0 e3
  have n1 : v + 1 ≠ v + 2 := Nat.ne_of_lt (Nat.lt_succ_self _)
  have val_old : ∀ y, y < v → s3.val y = s.val y ∧ s3.kind y = s.kind y := fun y hy => by
    have m0 : y ≠ v := Nat.ne_of_lt hy
    have m1 : y ≠ v + 1 := Nat.ne_of_lt (Nat.lt_succ_of_lt hy)
    have m2 : y ≠ v + 2 := Nat.ne_of_lt (Nat.lt_succ_of_lt (Nat.lt_succ_of_lt hy))
    rw [c3, c4, b3, b4, a3, a4]; simp [upd_apply, m0, m1, m2]
  have val_new : s3.val (v + 2) = some ⟨n, s2.seq n + 1⟩ := by rw [c3]; simp
  obtain ⟨b', hb'⟩ : ∃ b' : Stacks, b' = upd (upd b n (.fn, [v + 1], [.entryRun])) c ((b c).1, (v + 2) :: v :: (b c).2.1, (b c).2.2) := ⟨_, rfl⟩
  have hbc : b' c = ((b c).1, (v + 2) :: v :: (b c).2.1, (b c).2.2) := by rw [hb']; simp
  have hbn : b' n = (.fn, [v + 1], [.entryRun]) := by rw [hb']; simp [hcn]
  have hbo : ∀ d, d ≠ n → d ≠ c → b' d = b d := fun d h1 h2 => by rw [hb']; simp [h1, h2]
  refine ⟨s3, b', ?_, ⟨⟨?_, ?_⟩, fun y hy => ?_⟩, by rw [← hv]; exact c5, by rw [← hv]; exact hXv, fun d => ?_, by rw [← hn]; exact c6, by rw [← hn, ← hv]; exact hbn, by rw [← hv, c3]; simp, by rw [← hn]; exact hbo, by rw [← hv]; exact fun y hy => (val_old y hy).1, c7⟩
  · simp only [growPool, run, ← hv, hs1, hs2, hs3]
  · rw [c1]; simp
  · rw [hbc, c2, if_pos rfl]
  · rw [← hv] at hy
    rcases List.mem_cons.1 hy with rfl | hy
    · refine ⟨.inr (.inl ⟨c, by rw [c4]; simp⟩), n, ⟨_, val_new, rfl⟩, ?_⟩
      unfold InResume
      rw [hbn, c2, if_neg hcn, if_pos rfl]
    · obtain ⟨g1, d, ⟨f, hf, rfl⟩, g3⟩ := hw y hy
      obtain ⟨o1, o2⟩ := val_old y (hXv y hy)
      obtain ⟨q1, q2⟩ := hXd y hy f hf
      refine ⟨?_, f.ctx, ⟨f, by rw [o1]; exact hf, rfl⟩, ?_⟩
      · unfold Handle at g1 ⊢; rw [o2]; exact g1
      · unfold InResume at g3 ⊢
        rw [hbo _ q1 q2, c2, if_neg q2, if_neg q1]; exact g3
  · rw [← hn, ← hv]
    constructor
    · rintro (rfl | ⟨y, hy, f, hf, rfl⟩)
      · exact .inr (.inl rfl)
      · rcases List.mem_cons.1 hy with rfl | hy
        · rw [val_new] at hf; cases hf; exact .inl rfl
        · rw [(val_old y (hXv y hy)).1] at hf
          exact .inr (.inr ⟨y, hy, f, hf, rfl⟩)
    · rintro (rfl | rfl | ⟨y, hy, f, hf, rfl⟩)
      · exact .inr ⟨v + 2, List.mem_cons_self, _, val_new, rfl⟩
      · exact .inl rfl
      · exact .inr ⟨y, List.mem_cons_of_mem _ hy, f, by rw [(val_old y (hXv y hy)).1]; exact hf, rfl⟩

/-- **C95** A program can create any number of fibers that resume each other: for every `n` there is a reachable state in which main runs and `n` different objects designate `n` fibers, each waiting in `resume()`. -/
theorem C95_any_number (n : Nat) : ∃ s X b, Reachable s ∧ Pool s 0 X b 0 ∧ X.Nodup ∧ X.length = n ∧ (∀ x ∈ X, x < s.nextVar) ∧ s.nextCtx = n + 1 ∧ ∀ d, Member s X 0 d ↔ d ≤ n := by
  induction n with
  | zero =>
    refine ⟨init, [], fun _ => (.main, [], []), .init, ⟨⟨rfl, rfl⟩, by simp⟩, List.nodup_nil, rfl, by simp, rfl, fun d => ?_⟩
    simp [Member]
  | succ n ih =>
    obtain ⟨s, X, b, h, hp, hnd, hl, hlt, hc, hm⟩ := ih
    obtain ⟨s', b', hr, hp', hv, hXv, hm', hc', -⟩ := pool_grow h hp
    refine ⟨s', (s.nextVar + 2) :: X, b', (steps_run hr).reachable h, hp', List.nodup_cons.2 ⟨fun hmem => ?_, hnd⟩, by simp [hl], fun x hx => ?_, by rw [hc', hc], fun d => ?_⟩
    · exact absurd (hXv _ hmem) (Nat.not_lt.2 (Nat.le_add_right _ 2))
    · rw [hv]
      rcases List.mem_cons.1 hx with rfl | hx
      · exact Nat.lt_succ_self _
      · exact Nat.lt_of_lt_of_le (hXv x hx) (Nat.le_add_right _ 3)
    · rw [hm' d, hm d, hc]
      constructor
      · rintro (rfl | h)
        · exact Nat.le_refl _
        · exact Nat.le_succ_of_le h
      · intro h
        rcases Nat.lt_or_ge n d with h1 | h1
        · exact .inl (Nat.le_antisymm h h1)
        · exact .inr h1

/-- Together: for every number of fibers and every sequence of choices among their handles there is a program that makes them resume each other in this order. -/
theorem C95_any_schedule (n : Nat) : ∃ s X b, Reachable s ∧ X.Nodup ∧ X.length = n ∧ Pool s 0 X b 0 ∧ ∀ p : List Var, (∀ x ∈ p, x ∈ X) →
    ∃ s' c', run s (handoffs 0 p s.nextVar) = .ok s' ∧ Pool s' 0 X b c' ∧ ∀ d, Member s' X c' d ↔ d ≤ n := by
  obtain ⟨s, X, b, h, hp, hnd, hl, -, -, hm⟩ := C95_any_number n
  refine ⟨s, X, b, h, hnd, hl, hp, fun p hX => ?_⟩
  obtain ⟨s', c', h1, h2, h3, -⟩ := C95_pool h hp p hX
  exact ⟨s', c', h1, h2, fun d => (h3 d).trans (hm d)⟩

end Verif.Fiber
