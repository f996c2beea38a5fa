import Verif.UCont.PoolMT

/-! # C95: groups of any size exist (as `Verif/Fiber/PoolAny.lean`) -/

namespace Verif.UCont
open Verif.Fiber (CtxId Var Tid Kind Exc Mode UKind Status Event upd upd_apply)
open State

/-- main calls `callcc`; the function of the new context (parameter `v + 1`; `v` is the temporary of `callcc`) resumes main, where `callcc` returns object `v + 2` -/
def growPool (t : Tid) (v : Var) : List (Tid × Op) := [(t, .callcc [] .success), (t, .resume (v + 1)), (t, .tick)]

theorem pool_grow {s : State} {t : Tid} {X : List Var} {b : Stacks} {c : CtxId} (h : Reachable s) (hp : Pool s t X b c) :
    ∃ s' b', run s (growPool t s.nextVar) = .ok s' ∧ Pool s' t ((s.nextVar + 2) :: X) b' c ∧ s'.nextVar = s.nextVar + 3 ∧ (∀ y ∈ X, y < s.nextVar) ∧
      (∀ d, Member s' ((s.nextVar + 2) :: X) c d ↔ d = s.nextCtx ∨ Member s X c d) ∧ s'.nextCtx = s.nextCtx + 1 ∧
      b' s.nextCtx = (.fn, [s.nextVar + 1], [.entryRun]) ∧ s'.val (s.nextVar + 1) = none ∧ (∀ e, e ≠ s.nextCtx → e ≠ c → b' e = b e) ∧ (∀ y, y < s.nextVar → s'.val y = s.val y) ∧ s'.caps = s.caps ∧ s'.root = upd s.root s.nextCtx false := by
  obtain ⟨hu, hu1', hu2', hw⟩ := hp
  have hi := (reachable_facts h).inv
  obtain ⟨n, hn⟩ : ∃ n, n = s.nextCtx := ⟨_, rfl⟩
  obtain ⟨v, hv⟩ : ∃ v, v = s.nextVar := ⟨_, rfl⟩
  have hcn : n ≠ c := fun e => by
    have h1 : s.status c = .absent := (hi.ci.absent c).2 (by rw [← e, hn]; exact Nat.le_refl _)
    rw [show s.status c = .running t from (hi.ci.curRun _ _).1 hu.1] at h1; cases h1
  have hXd : ∀ y ∈ X, ∀ d, s.val y = some d → d ≠ n ∧ d ≠ c := fun y hy d hd => by
    obtain ⟨-, d', hd', hr', -⟩ := hw y hy
    have : d = d' := by rw [show s.val y = some d' from hd'] at hd; exact (Option.some.inj hd).symm
    subst this
    have hsd : s.status d = .suspended := by
      rcases (hi.vi.valid y d hd).1 with h | h
      · exact h
      · have := hi.ci.fTerm d h
        rw [abs_frames, show s.frames d = _ from hr'] at this; simp [Frame.abs] at this
    refine ⟨fun e => ?_, UFiber.susp_ne hi hu.1 hsd⟩
    have h1 : s.status d = .absent := (hi.ci.absent d).2 (by rw [e, hn]; exact Nat.le_refl _)
    rw [hsd] at h1; cases h1
  have hXv : ∀ y ∈ X, y < v := fun y hy => by
    rw [hv]
    refine Nat.lt_of_not_le fun hle => ?_
    have hk : s.kind y = .dead := hi.oi.fresh y hle
    have := (hw y hy).1
    simp [Handle, hk] at this
  have hhn : ∀ y, v ≤ y → s.hidden y = false := fun y hy => by
    cases e : s.hidden y with
    | false => rfl
    | true => exact absurd (hidden_empty h _ e).1 (Nat.not_lt.2 (by rw [← hv]; exact hy))
  have n01 : v + 1 ≠ v := Nat.succ_ne_self _
  have n02 : v + 2 ≠ v := Nat.ne_of_gt (Nat.lt_add_of_pos_right (by decide))
  have n12 : v + 1 ≠ v + 2 := Nat.ne_of_lt (Nat.lt_succ_self _)
  -- `callcc`
  have e1 : step s t (.callcc [] .success) = s.doCallcc t c (b c).1 (b c).2.1 (b c).2.2 [] := by
    simp only [step, hu.1, hu.2, userStep, List.all_nil, if_true]
  simp [State.doCallcc, State.capture, State.addLog, State.newVar, State.setFrames, State.doResume, State.switchTo, State.setVal, hu.1, State.arrive, upd_apply, hcn, ← hn, ← hv] at e1
  obtain ⟨s2, hs2⟩ : ∃ s2 : State, step s t (.callcc [] .success) = .ok s2 := ⟨_, e1⟩
  have a0 := Res.ok.inj (e1.symm.trans hs2)
  have b1 : s2.cur t = some n := by rw [← a0]; simp
  have b1' : ∀ t', t' ≠ t → s2.cur t' = s.cur t' := by rw [← a0]; intro t' ht; simp [ht]
  have b2 : ∀ d, s2.frames d = if d = n then [.user .fn [v + 1] .normal, .entryRun] else if d = c then .resume :: .callcc v .waiting (b c).1 (b c).2.1 :: (b c).2.2 else s.frames d := by
    rw [← a0]; intro d
    simp only [upd_apply]
    by_cases h1 : d = n
    · simp [h1]
    · simp only [if_neg h1]; try (split <;> rfl)
  have b3 : ∀ y, s2.val y = if y = v + 1 then some c else if y = v then none else s.val y := by
    rw [← a0]; intro y; simp only [upd_apply]; grind
  have b4 : ∀ y, s2.kind y = if y = v + 1 then .loc n else if y = v then .loc c else s.kind y := by
    rw [← a0]; intro y; simp only [upd_apply]
  have b5 : s2.nextVar = v + 2 := by rw [← a0]
  have b10 : s2.caps = s.caps := by rw [← a0]
  have b11 : s2.root = upd s.root n false := by rw [← a0]
  have b6 : s2.nextCtx = n + 1 := by rw [← a0]
  have b7 : s2.status c = .suspended := by rw [← a0]; simp [Ne.symm hcn]
  have b8 : s2.unw = upd s.unw n false ∧ s2.ontop = upd s.ontop n none := by rw [← a0]; exact ⟨rfl, rfl⟩
  have b9 : s2.hidden = upd s.hidden v true := by rw [← a0]
  have w1 : s2.unw c = false := by rw [b8.1]; simp [Ne.symm hcn, hu1']
  have w2 : s2.ontop c = none := by rw [b8.2]; simp [Ne.symm hcn, hu2']
  clear a0 e1
  have h2 : Reachable s2 := h.step hs2
  -- the context resumes main
  have hu2 : UserCode s2 t n .fn [v + 1] [.entryRun] := ⟨b1, by rw [b2, if_pos rfl]⟩
  have ax : s2.accessible (v + 1) = true := handle_accessible ⟨.inr (.inl ⟨n, by rw [b4, if_pos rfl]⟩), by rw [b9]; simp [hhn _ (Nat.le_succ v)]⟩
  have e3 : step s2 t (.resume (v + 1)) = s2.doResume t n (v + 1) := by simp only [step, hu2.1, hu2.2, userStep, ax, if_true]
  simp [State.doResume, b3, b7, State.switchTo, State.setFrames, State.setVal, b1, State.arrive, State.newVar, upd_apply, Ne.symm hcn, b2, b5, w1, w2] at e3
  obtain ⟨s3, hs3⟩ : ∃ s3 : State, step s2 t (.resume (v + 1)) = .ok s3 := ⟨_, e3⟩
  have a0 := Res.ok.inj (e3.symm.trans hs3)
  have c1 : s3.cur t = some c := by rw [← a0]; simp
  have c2 : ∀ d, s3.frames d = if d = c then .callcc v (.returning (v + 2)) (b c).1 (b c).2.1 :: (b c).2.2 else if d = n then [.resume, .user .fn [v + 1] .normal, .entryRun] else s.frames d := by
    rw [← a0]; intro d
    simp only [upd_apply, b2]
    by_cases h1 : d = c
    · simp [h1]
    · simp only [if_neg h1]; try (split <;> rfl)
  have c3 : ∀ y, s3.val y = if y = v + 2 then some n else if y = v + 1 then none else if y = v then none else s.val y := by
    rw [← a0]; intro y; simp only [upd_apply, b3]; grind
  have c4 : ∀ y, s3.kind y = if y = v + 2 then .loc c else if y = v + 1 then .loc n else if y = v then .loc c else s.kind y := by
    rw [← a0]; intro y; simp only [upd_apply, b4]
  have c5 : s3.nextVar = v + 3 := by rw [← a0]
  have c10 : s3.caps = s.caps := by rw [← a0]; exact b10
  have c11 : s3.root = upd s.root n false := by rw [← a0]; exact b11
  have c6 : s3.nextCtx = n + 1 := by rw [← a0]; exact b6
  have c8 : s3.unw = upd s.unw n false ∧ s3.ontop = upd s.ontop n none := by
    rw [← b8.1, ← b8.2, ← a0]; exact ⟨rfl, rfl⟩
  have c9 : s3.hidden = upd s.hidden v true := by rw [← b9, ← a0]
  clear a0 e3
  -- `callcc` returns
  have v0 : s3.val v = none := by rw [c3]; simp [Ne.symm n01]
  have f0 : s3.frames c = .callcc v (.returning (v + 2)) (b c).1 (b c).2.1 :: (b c).2.2 := by rw [c2, if_pos rfl]
  have e4 : step s3 t .tick = (s3.setFrames c (.user (b c).1 ((v + 2) :: (b c).2.1) .normal :: (b c).2.2)).destroyVar t c v := by
    simp only [step, c1, f0]
  simp only [State.destroyVar, State.setFrames, v0, State.kill] at e4
  obtain ⟨s4, hs4⟩ : ∃ s4 : State, step s3 t .tick = .ok s4 := ⟨_, e4⟩
  have a0 := Res.ok.inj (e4.symm.trans hs4)
  have d1 : s4.cur t = some c := by rw [← a0]; exact c1
  have d2 : ∀ d, s4.frames d = if d = c then .user (b c).1 ((v + 2) :: (b c).2.1) .normal :: (b c).2.2 else if d = n then [.resume, .user .fn [v + 1] .normal, .entryRun] else s.frames d := by
    rw [← a0]; intro d
    simp only [upd_apply, c2]
    by_cases h1 : d = c
    · simp [h1]
    · simp only [if_neg h1]
  have d5 : s4.nextVar = v + 3 := by rw [← a0]; exact c5
  have d10 : s4.caps = s.caps := by rw [← a0]; exact c10
  have d11 : s4.root = upd s.root n false := by rw [← a0]; exact c11
  have d6 : s4.nextCtx = n + 1 := by rw [← a0]; exact c6
  have d8 : s4.unw = upd s.unw n false ∧ s4.ontop = upd s.ontop n none := by rw [← c8.1, ← c8.2, ← a0]; exact ⟨rfl, rfl⟩
  have d9 : ∀ y, y ≠ v → s4.hidden y = s.hidden y := fun y hy => by
    rw [← a0]; simp [c9, hy]
  have val_gone : s4.val (v + 1) = none := by rw [← a0]; simp [upd_apply, c3]
  have val_new : s4.val (v + 2) = some n := by rw [← a0]; simp [upd_apply, c3, n02]
  have kind_new : s4.kind (v + 2) = .loc c := by rw [← a0]; simp [upd_apply, c4, n02]
  have val_old : ∀ y, y < v → s4.val y = s.val y ∧ s4.kind y = s.kind y := fun y hy => by
    have m0 : y ≠ v := Nat.ne_of_lt hy
    have m1 : y ≠ v + 1 := Nat.ne_of_lt (Nat.lt_succ_of_lt hy)
    have m2 : y ≠ v + 2 := Nat.ne_of_lt (Nat.lt_succ_of_lt (Nat.lt_succ_of_lt hy))
    rw [← a0]; simp [upd_apply, c3, c4, m0, m1, m2]
  clear a0 e4
  obtain ⟨b', hb'⟩ : ∃ b' : Stacks, b' = upd (upd b n (.fn, [v + 1], [.entryRun])) c ((b c).1, (v + 2) :: (b c).2.1, (b c).2.2) := ⟨_, rfl⟩
  have hbc : b' c = ((b c).1, (v + 2) :: (b c).2.1, (b c).2.2) := by rw [hb']; simp
  have hbn : b' n = (.fn, [v + 1], [.entryRun]) := by rw [hb']; simp [hcn]
  have hbo : ∀ d, d ≠ n → d ≠ c → b' d = b d := fun d h1 h2 => by rw [hb']; simp [h1, h2]
  refine ⟨s4, b', ?_, ⟨⟨d1, ?_⟩, by rw [d8.1]; simp [Ne.symm hcn, hu1'], by rw [d8.2]; simp [Ne.symm hcn, hu2'], fun y hy => ?_⟩, by rw [← hv]; exact d5, by rw [← hv]; exact hXv, fun d => ?_, by rw [← hn]; exact d6, by rw [← hn, ← hv]; exact hbn, by rw [← hv]; exact val_gone, by rw [← hn]; exact hbo, by rw [← hv]; exact fun y hy => (val_old y hy).1, d10, by rw [← hn]; exact d11⟩
  · simp only [growPool, run, ← hv, hs2, hs3, hs4]
  · rw [hbc, d2, if_pos rfl]
  · rw [← hv] at hy
    rcases List.mem_cons.1 hy with rfl | hy
    · refine ⟨⟨.inr (.inl ⟨c, kind_new⟩), by rw [d9 _ n02]; exact hhn _ (Nat.le_add_right v 2)⟩, n, val_new, ?_, by rw [d8.1]; simp, by rw [d8.2]; simp⟩
      unfold InResume
      rw [hbn, d2, if_neg hcn, if_pos rfl]
    · obtain ⟨g1, d, hf, g3, g4, g5⟩ := hw y hy
      obtain ⟨o1, o2⟩ := val_old y (hXv y hy)
      obtain ⟨q1, q2⟩ := hXd y hy d hf
      refine ⟨?_, d, by unfold Designates at hf ⊢; rw [o1]; exact hf, ?_, by rw [d8.1]; simp [q1, g4], by rw [d8.2]; simp [q1, g5]⟩
      · unfold Handle at g1 ⊢; rw [o2, d9 y (Nat.ne_of_lt (hXv y hy))]; exact g1
      · unfold InResume at g3 ⊢
        rw [hbo _ q1 q2, d2, if_neg q2, if_neg q1]; exact g3
  · rw [← hn, ← hv]
    constructor
    · rintro (rfl | ⟨y, hy, hf⟩)
      · exact .inr (.inl rfl)
      · rcases List.mem_cons.1 hy with rfl | hy
        · replace hf : s4.val (v + 2) = some d := hf; rw [val_new] at hf; cases hf; exact .inl rfl
        · exact .inr (.inr ⟨y, hy, (val_old y (hXv y hy)).1.symm.trans hf⟩)
    · rintro (rfl | rfl | ⟨y, hy, hf⟩)
      · exact .inr ⟨v + 2, List.mem_cons_self, val_new⟩
      · exact .inl rfl
      · exact .inr ⟨y, List.mem_cons_of_mem _ hy, (val_old y (hXv y hy)).1.trans hf⟩

/-- **C95** A program can create any number of contexts that resume each other: for every `n` there is a reachable state in which main runs and `n` different objects designate `n` contexts, each waiting in `resume()`. -/
theorem C95_ucontinuation_any_number (n : Nat) : ∃ s X b, Reachable s ∧ Pool s 0 X b 0 ∧ X.Nodup ∧ X.length = n ∧ (∀ x ∈ X, x < s.nextVar) ∧ s.nextCtx = n + 1 ∧ ∀ d, Member s X 0 d ↔ d ≤ n := by
  induction n with
  | zero =>
    refine ⟨init, [], fun _ => (.main, [], []), .init, ⟨⟨rfl, rfl⟩, rfl, rfl, by simp⟩, List.nodup_nil, rfl, by simp, rfl, fun d => ?_⟩
    simp [Member]
  | succ n ih =>
    obtain ⟨s, X, b, h, hp, hnd, hl, hlt, hc, hm⟩ := ih
    obtain ⟨s', b', hr, hp', hv, hXv, hm', hc', -⟩ := pool_grow h hp
    refine ⟨s', (s.nextVar + 2) :: X, b', (steps_run hr).reachable h, hp', List.nodup_cons.2 ⟨fun hmem => ?_, hnd⟩, by simp [hl], fun x hx => ?_, by rw [hc', hc], fun d => ?_⟩
    · exact absurd (hXv _ hmem) (Nat.not_lt.2 (Nat.le_add_right _ 2))
    · rw [hv]
      rcases List.mem_cons.1 hx with rfl | hx
      · exact Nat.lt_succ_self _
      · exact Nat.lt_of_lt_of_le (hXv x hx) (Nat.le_add_right _ 3)
    · rw [hm' d, hm d, hc]
      constructor
      · rintro (rfl | h)
        · exact Nat.le_refl _
        · exact Nat.le_succ_of_le h
      · intro h
        rcases Nat.lt_or_ge n d with h1 | h1
        · exact .inl (Nat.le_antisymm h h1)
        · exact .inr h1

/-- Together: for every number of contexts and every sequence of choices among their handles there is a program that makes them resume each other in this order. -/
theorem C95_ucontinuation_any_schedule (n : Nat) : ∃ s X b, Reachable s ∧ X.Nodup ∧ X.length = n ∧ Pool s 0 X b 0 ∧ ∀ p : List Var, (∀ x ∈ p, x ∈ X) →
    ∃ s' c', run s (handoffs 0 p s.nextVar) = .ok s' ∧ Pool s' 0 X b c' ∧ ∀ d, Member s' X c' d ↔ d ≤ n := by
  obtain ⟨s, X, b, h, hp, hnd, hl, -, -, hm⟩ := C95_ucontinuation_any_number n
  refine ⟨s, X, b, h, hnd, hl, hp, fun p hX => ?_⟩
  obtain ⟨s', c', h1, h2, h3, -⟩ := C95_ucontinuation_pool h hp p hX
  exact ⟨s', c', h1, h2, fun d => (h3 d).trans (hm d)⟩

end Verif.UCont
