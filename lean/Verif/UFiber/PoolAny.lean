import Verif.UFiber.PoolMT

/-!
# C95: pools of any size exist

A program can create any number of fibers that then resume each other (the hypotheses of `C95_ucontext_pool` can be met for every number of contexts).
-/

namespace Verif.UFiber
open Verif.Fiber (CtxId Var Tid Kind Exc Mode UKind Frame Status Event Op upd upd_apply half loop)
open State

/-- main creates a fiber (object `v`) and resumes it; the function of the fiber (parameter `v + 1`) resumes main, which gets object `v + 2` -/
def growPool (t : Tid) (v : Var) : List (Tid × Op) := [(t, .create [] .success), (t, .resume v), (t, .resume (v + 1))]

theorem pool_grow {s : State} {t : Tid} {X : List Var} {b : Stacks} {c : CtxId} (h : Reachable s) (he : NoEarlyDestroy s) (hp : Pool s t X b c) :
    ∃ s' b', run s (growPool t s.nextVar) = .ok s' ∧ Pool s' t ((s.nextVar + 2) :: X) b' c ∧ s'.nextVar = s.nextVar + 3 ∧ (∀ y ∈ X, y < s.nextVar) ∧
      (∀ d, Member s' ((s.nextVar + 2) :: X) c d ↔ d = s.nextCtx ∨ Member s X c d) ∧ s'.nextCtx = s.nextCtx + 1 ∧ NoEarlyDestroy s' ∧
      b' s.nextCtx = (.fn, [s.nextVar + 1], [.entryRun]) ∧ s'.val (s.nextVar + 1) = none ∧ (∀ e, e ≠ s.nextCtx → e ≠ c → b' e = b e) ∧ (∀ y, y < s.nextVar → s'.val y = s.val y) ∧ s'.caps = s.caps ∧ s'.root = upd s.root s.nextCtx false := by
  obtain ⟨hu, hu1', hu2', hw⟩ := hp
  have hi := reachable_inv h he
  obtain ⟨n, hn⟩ : ∃ n, n = s.nextCtx := ⟨_, rfl⟩
  obtain ⟨v, hv⟩ : ∃ v, v = s.nextVar := ⟨_, rfl⟩
  have hcn : n ≠ c := fun e => by
    have h1 := (hi.ci.absent c).2 (by rw [← e, hn]; exact Nat.le_refl _)
    rw [(hi.ci.curRun _ _).1 hu.1] at h1; cases h1
  have hXd : ∀ y ∈ X, ∀ d, s.val y = some d → d ≠ n ∧ d ≠ c := fun y hy d hd => by
    obtain ⟨-, d', hd', hr', -⟩ := hw y hy
    have : d = d' := by rw [show s.val y = some d' from hd'] at hd; exact (Option.some.inj hd).symm
    subst this
    have hsd := inResume_susp hi hd' hr'
    refine ⟨fun e => ?_, susp_ne hi hu.1 hsd⟩
    have h1 := (hi.ci.absent d).2 (by rw [e, hn]; exact Nat.le_refl _)
    rw [show s.status d = _ from hsd] at h1; cases h1
  have hXv : ∀ y ∈ X, y < v := fun y hy => by
    rw [hv]
    refine Nat.lt_of_not_le fun hle => ?_
    have hk := hi.oi.fresh y hle
    have := (hw y hy).1
    simp [Handle, hk] at this
  -- creation
  have e1 : step s t (.create [] .success) = s.doCreate c (b c).1 (b c).2.1 (b c).2.2 [] := by
    simp only [step, hu.1, hu.2, userStep, List.all_nil, if_true]
  simp only [State.doCreate, State.capture, State.addLog, State.newVar, State.setFrames, ← hn, ← hv] at e1
  obtain ⟨s1, hs1⟩ : ∃ s1 : State, step s t (.create [] .success) = .ok s1 := ⟨_, e1⟩
  have a0 := Res.ok.inj (e1.symm.trans hs1)
  have a1 : s1.cur = s.cur := by rw [← a0]
  have a2 : s1.frames = upd (upd s.frames n [.entryJump]) c (.user (b c).1 (v :: (b c).2.1) .normal :: (b c).2.2) := by rw [← a0]
  have a3 : s1.val = upd s.val v (some n) := by rw [← a0]
  have a4 : s1.kind = upd s.kind v (.loc c) := by rw [← a0]
  have a5 : s1.nextVar = v + 1 := by rw [← a0]
  have a10 : s1.caps = s.caps := by rw [← a0]
  have a11 : s1.root = upd s.root n false := by rw [← a0]
  have a6 : s1.nextCtx = n + 1 := by rw [← a0]
  have a7 : s1.status n = .suspended := by rw [← a0]; simp
  have a8 : s1.unw = upd s.unw n false ∧ s1.ontop = upd s.ontop n none := by rw [← a0]; exact ⟨rfl, rfl⟩
  have a9 : NoEarlyDestroy s1 := by rw [← a0]; exact he
  clear a0 e1
  have h1 : Reachable s1 := h.step hs1
  -- main resumes the fiber
  have hu1 : UserCode s1 t c (b c).1 (v :: (b c).2.1) (b c).2.2 := ⟨by rw [a1]; exact hu.1, by rw [a2]; simp⟩
  have e2 := resume_eq hu1 (x := v) (d := n) (.inr (.inl ⟨c, by rw [a4]; simp⟩)) (by unfold Designates; rw [a3]; simp) a7
  simp only [State.arrive, preResume, State.addLog, sw, State.setFrames, State.setVal, State.newVar, upd_apply, hcn, if_false, a2, a5, if_true] at e2
  obtain ⟨s2, hs2⟩ : ∃ s2 : State, step s1 t (.resume v) = .ok s2 := ⟨_, e2⟩
  have a0 := Res.ok.inj (e2.symm.trans hs2)
  have b1 : s2.cur = upd s1.cur t (some n) := by rw [← a0]
  have b2 : ∀ d, s2.frames d = if d = n then [.user .fn [v + 1] .normal, .entryRun] else if d = c then .resume :: .user (b c).1 (v :: (b c).2.1) .normal :: (b c).2.2 else s.frames d := by
    rw [← a0]; intro d
    simp only [upd_apply]
    by_cases h1 : d = n
    · simp [h1]
    · simp only [if_neg h1]; split <;> rfl
  have b3 : s2.val = upd (upd s1.val v none) (v + 1) (some c) := by rw [← a0]
  have b4 : s2.kind = upd s1.kind (v + 1) (.loc n) := by rw [← a0]
  have b5 : s2.nextVar = v + 2 := by rw [← a0]
  have b10 : s2.caps = s.caps := by rw [← a0]; exact a10
  have b11 : s2.root = upd s.root n false := by rw [← a0]; exact a11
  have b6 : s2.nextCtx = n + 1 := by rw [← a0]; exact a6
  have b7 : s2.status c = .suspended := by rw [← a0]; simp [Ne.symm hcn]
  have b8 : s2.unw = s1.unw ∧ s2.ontop = s1.ontop := by rw [← a0]; exact ⟨rfl, rfl⟩
  have b9 : NoEarlyDestroy s2 := by rw [← a0]; exact a9
  have w1 : s2.unw c = false := by rw [b8.1, a8.1]; simp [Ne.symm hcn, hu1']
  have w2 : s2.ontop c = none := by rw [b8.2, a8.2]; simp [Ne.symm hcn, hu2']
  clear a0 e2
  have h2 : Reachable s2 := h1.step hs2
  -- the fiber resumes main
  have hu2 : UserCode s2 t n .fn [v + 1] [.entryRun] := ⟨by rw [b1]; simp, by rw [b2, if_pos rfl]⟩
  have e3 := resume_eq hu2 (x := v + 1) (d := c) (.inr (.inl ⟨n, by rw [b4]; simp⟩)) (by unfold Designates; rw [b3]; simp) b7
  simp only [State.arrive, preResume, sw, State.setFrames, State.setVal, State.newVar, upd_apply, Ne.symm hcn, if_false, b2, b5, if_true, w1, w2, Bool.false_eq_true] at e3
  obtain ⟨s3, hs3⟩ : ∃ s3 : State, step s2 t (.resume (v + 1)) = .ok s3 := ⟨_, e3⟩
  have a0 := Res.ok.inj (e3.symm.trans hs3)
  have c1 : s3.cur = upd s2.cur t (some c) := by rw [← a0]
  have c2 : ∀ d, s3.frames d = if d = c then .user (b c).1 ((v + 2) :: v :: (b c).2.1) .normal :: (b c).2.2 else if d = n then [.resume, .user .fn [v + 1] .normal, .entryRun] else s.frames d := by
    rw [← a0]; intro d
    simp only [upd_apply, b2]
    by_cases h1 : d = c
    · simp [h1]
    · simp only [if_neg h1]
      split
      · rfl
      · rfl
  have c3 : s3.val = upd (upd s2.val (v + 1) none) (v + 2) (some n) := by rw [← a0]
  have c4 : s3.kind = upd s2.kind (v + 2) (.loc c) := by rw [← a0]
  have c5 : s3.nextVar = v + 3 := by rw [← a0]
  have c10 : s3.caps = s.caps := by rw [← a0]; exact b10
  have c11 : s3.root = upd s.root n false := by rw [← a0]; exact b11
  have c6 : s3.nextCtx = n + 1 := by rw [← a0]; exact b6
  have c8 : s3.unw = upd s.unw n false ∧ s3.ontop = upd s.ontop n none := by
    rw [← a8.1, ← a8.2, ← b8.1, ← b8.2, ← a0]; exact ⟨rfl, rfl⟩
  have c9 : NoEarlyDestroy s3 := by rw [← a0]; exact b9
  clear a0 e3
  have n1 : v + 1 ≠ v + 2 := Nat.ne_of_lt (Nat.lt_succ_self _)
  have val_old : ∀ y, y < v → s3.val y = s.val y ∧ s3.kind y = s.kind y := fun y hy => by
    have m0 : y ≠ v := Nat.ne_of_lt hy
    have m1 : y ≠ v + 1 := Nat.ne_of_lt (Nat.lt_succ_of_lt hy)
    have m2 : y ≠ v + 2 := Nat.ne_of_lt (Nat.lt_succ_of_lt (Nat.lt_succ_of_lt hy))
    rw [c3, c4, b3, b4, a3, a4]; simp [upd_apply, m0, m1, m2]
  have val_new : s3.val (v + 2) = some n := by rw [c3]; simp
  obtain ⟨b', hb'⟩ : ∃ b' : Stacks, b' = upd (upd b n (.fn, [v + 1], [.entryRun])) c ((b c).1, (v + 2) :: v :: (b c).2.1, (b c).2.2) := ⟨_, rfl⟩
  have hbc : b' c = ((b c).1, (v + 2) :: v :: (b c).2.1, (b c).2.2) := by rw [hb']; simp
  have hbn : b' n = (.fn, [v + 1], [.entryRun]) := by rw [hb']; simp [hcn]
  have hbo : ∀ d, d ≠ n → d ≠ c → b' d = b d := fun d h1 h2 => by rw [hb']; simp [h1, h2]
  refine ⟨s3, b', ?_, ⟨⟨?_, ?_⟩, by rw [c8.1]; simp [Ne.symm hcn, hu1'], by rw [c8.2]; simp [Ne.symm hcn, hu2'], fun y hy => ?_⟩, by rw [← hv]; exact c5, by rw [← hv]; exact hXv, fun d => ?_, by rw [← hn]; exact c6, c9, by rw [← hn, ← hv]; exact hbn, by rw [← hv, c3]; simp, by rw [← hn]; exact hbo, by rw [← hv]; exact fun y hy => (val_old y hy).1, c10, by rw [← hn]; exact c11⟩
  · simp only [growPool, run, ← hv, hs1, hs2, hs3]
  · rw [c1]; simp
  · rw [hbc, c2, if_pos rfl]
  · rw [← hv] at hy
    rcases List.mem_cons.1 hy with rfl | hy
    · refine ⟨.inr (.inl ⟨c, by rw [c4]; simp⟩), n, val_new, ?_, by rw [c8.1]; simp, by rw [c8.2]; simp⟩
      unfold InResume
      rw [hbn, c2, if_neg hcn, if_pos rfl]
    · obtain ⟨g1, d, hf, g3, g4, g5⟩ := hw y hy
      obtain ⟨o1, o2⟩ := val_old y (hXv y hy)
      obtain ⟨q1, q2⟩ := hXd y hy d hf
      refine ⟨?_, d, by unfold Designates at hf ⊢; rw [o1]; exact hf, ?_, by rw [c8.1]; simp [q1, g4], by rw [c8.2]; simp [q1, g5]⟩
      · unfold Handle at g1 ⊢; rw [o2]; exact g1
      · unfold InResume at g3 ⊢
        rw [hbo _ q1 q2, c2, if_neg q2, if_neg q1]; exact g3
  · rw [← hn, ← hv]
    constructor
    · rintro (rfl | ⟨y, hy, hf⟩)
      · exact .inr (.inl rfl)
      · rcases List.mem_cons.1 hy with rfl | hy
        · replace hf : s3.val (v + 2) = some d := hf; rw [val_new] at hf; cases hf; exact .inl rfl
        · exact .inr (.inr ⟨y, hy, (val_old y (hXv y hy)).1.symm.trans hf⟩)
    · rintro (rfl | rfl | ⟨y, hy, hf⟩)
      · exact .inr ⟨v + 2, List.mem_cons_self, val_new⟩
      · exact .inl rfl
      · exact .inr ⟨y, List.mem_cons_of_mem _ hy, (val_old y (hXv y hy)).1.trans hf⟩

/-- **C95** A program can create any number of fibers that resume each other: for every `n` there is a reachable state in which main runs and `n` different objects designate `n` fibers, each waiting in `resume()`. -/
theorem C95_ucontext_any_number (n : Nat) : ∃ s X b, Reachable s ∧ NoEarlyDestroy s ∧ Pool s 0 X b 0 ∧ X.Nodup ∧ X.length = n ∧ (∀ x ∈ X, x < s.nextVar) ∧ s.nextCtx = n + 1 ∧ ∀ d, Member s X 0 d ↔ d ≤ n := by
  induction n with
  | zero =>
    refine ⟨init, [], fun _ => (.main, [], []), .init, rfl, ⟨⟨rfl, rfl⟩, rfl, rfl, by simp⟩, List.nodup_nil, rfl, by simp, rfl, fun d => ?_⟩
    simp [Member]
  | succ n ih =>
    obtain ⟨s, X, b, h, he, hp, hnd, hl, hlt, hc, hm⟩ := ih
    obtain ⟨s', b', hr, hp', hv, hXv, hm', hc', he', -⟩ := pool_grow h he hp
    refine ⟨s', (s.nextVar + 2) :: X, b', (steps_run hr).reachable h, he', hp', List.nodup_cons.2 ⟨fun hmem => ?_, hnd⟩, by simp [hl], fun x hx => ?_, by rw [hc', hc], fun d => ?_⟩
    · exact absurd (hXv _ hmem) (Nat.not_lt.2 (Nat.le_add_right _ 2))
    · rw [hv]
      rcases List.mem_cons.1 hx with rfl | hx
      · exact Nat.lt_succ_self _
      · exact Nat.lt_of_lt_of_le (hXv x hx) (Nat.le_add_right _ 3)
    · rw [hm' d, hm d, hc]
      constructor
      · rintro (rfl | h)
        · exact Nat.le_refl _
        · exact Nat.le_succ_of_le h
      · intro h
        rcases Nat.lt_or_ge n d with h1 | h1
        · exact .inl (Nat.le_antisymm h h1)
        · exact .inr h1

/-- Together: for every number of fibers and every sequence of choices among their handles there is a program that makes them resume each other in this order. -/
theorem C95_ucontext_any_schedule (n : Nat) : ∃ s X b, Reachable s ∧ NoEarlyDestroy s ∧ X.Nodup ∧ X.length = n ∧ Pool s 0 X b 0 ∧ ∀ p : List Var, (∀ x ∈ p, x ∈ X) →
    ∃ s' c', run s (handoffs 0 p s.nextVar) = .ok s' ∧ Pool s' 0 X b c' ∧ ∀ d, Member s' X c' d ↔ d ≤ n := by
  obtain ⟨s, X, b, h, he, hp, hnd, hl, -, -, hm⟩ := C95_ucontext_any_number n
  refine ⟨s, X, b, h, he, hnd, hl, hp, fun p hX => ?_⟩
  obtain ⟨s', c', h1, h2, h3, -⟩ := C95_ucontext_pool h he hp p hX
  exact ⟨s', c', h1, h2, fun d => (h3 d).trans (hm d)⟩

end Verif.UFiber
