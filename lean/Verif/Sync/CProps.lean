import Verif.Sync.CSpec
import Verif.Sync.Props
import Verif.Cont.Hidden

/-! # C94 for `continuation` -/

namespace Verif.Sync.C
open Verif.Cont
open Verif.Fiber (CtxId Var Tid Fctx exits upd upd_apply exits_cons exits_nil)

theorem Run.reachable (r : Run) : ∀ n, n ≤ r.len → Reachable (r.st n)
  | 0, _ => r.start ▸ .init
  | n + 1, h => .step (r.reachable n (Nat.le_of_succ_le h)) (r.step n h)

theorem Run.inv (r : Run) {n : Nat} (hn : n ≤ r.len) : Fiber.Inv (r.st n).abs := Fiber.reachable_inv (reachable_spec (r.reachable n hn)).2

theorem fcapture_nextVar (s : Fiber.State) (n : CtxId) (xs : List Var) : (s.capture n xs).nextVar = s.nextVar + xs.length := by
  induction xs generalizing s with
  | nil => rfl
  | cons x xs ih => simp only [Fiber.State.capture]; rw [ih]; simp [Fiber.State.newVar, Fiber.State.setVal]; omega

theorem create_facts {s s1 : Fiber.State} {t : Tid} {xs : List Var} (hi : Fiber.Inv s) (hs : Fiber.step s t (.create xs .success) = .ok s1) :
    s1.cur = s.cur ∧ s1.frames s.nextCtx = [.entryJump] ∧ s1.val (s.nextVar + xs.length) = some ⟨s.nextCtx, 1⟩ ∧ s1.nextCtx = s.nextCtx + 1 ∧ s1.status = upd s.status s.nextCtx .suspended ∧
    ∀ c, s.cur t = some c → ∀ d, Sync.Alters s s1 d → d = c ∨ d = s.nextCtx := by
  obtain ⟨c, hc, he⟩ := Fiber.step_eff hi hs
  cases he with
  | @create k ls rest xs hf ha s2 h2 =>
    have hst := (hi.ci.curRun _ _).1 hc
    have hcn : s.nextCtx ≠ c := fun e => by have := (hi.ci.absent s.nextCtx).2 (Nat.le_refl _); rw [e, hst] at this; cases this
    have hsame := Fiber.capture_same ({ s with nextCtx := s.nextCtx + 1 }.addLog (.alloc s.nextCtx)) s.nextCtx xs
    have hcap := (cap_facts (n := s.nextCtx) (xs := xs) (s := { s with nextCtx := s.nextCtx + 1 }.addLog (.alloc s.nextCtx))
      (fun y hy => ⟨hi.oi.fresh y hy, hi.vi.deadNone _ (hi.oi.fresh y hy)⟩) ha).1
    have hn : s2.nextVar = s.nextVar + xs.length := h2 ▸ fcapture_nextVar _ _ _
    rw [← h2] at hsame hcap
    obtain ⟨e1, e2, e3, e4, e5, -⟩ := hsame
    replace e1 : s2.cur = s.cur := e1
    replace e2 : s2.status = s.status := e2
    replace e3 : s2.seq = s.seq := e3
    replace e4 : s2.frames = s.frames := e4
    replace e5 : s2.nextCtx = s.nextCtx + 1 := e5
    replace hcap : ∀ d, d ≠ s.nextCtx → s2.caps d = s.caps d := hcap
    refine ⟨e1, by simp [hcn], by simp [hn], e5, by simp only [e2], fun c' hc' d h => ?_⟩
    rw [hc] at hc'; cases hc'
    by_cases h1 : d = c
    · exact .inl h1
    · by_cases h2 : d = s.nextCtx
      · exact .inr h2
      · simp [Sync.Alters, e2, e3, e4, h1, h2, hcap d h2] at h
  | destroy h1 => cases h1

theorem enter_facts {s s1 : Fiber.State} {t : Tid} {x : Var} {f : Fctx} {c : CtxId} (hi : Fiber.Inv s) (hc : s.cur t = some c) (hv : s.val x = some f) (hf : s.frames f.ctx = [.entryJump])
    (hs : Fiber.step s t (.resume x) = .ok s1) :
    (∀ d, Sync.Alters s s1 d → d = c ∨ d = f.ctx) ∧ s1.status f.ctx = .running t ∧ s1.nextCtx = s.nextCtx ∧
    ∀ y g, s1.val y = some g → (s.val y = some g ∧ s1.kind y = s.kind y) ∨ (g.ctx = c ∧ s1.kind y = .loc f.ctx) := by
  obtain ⟨c', hc', he⟩ := Fiber.step_eff hi hs
  rw [hc] at hc'; cases hc'
  clear hs
  have hfc : f.ctx ≠ c := (Fiber.facts hi hc).2.2.2 x f hv |>.2.2
  cases he with
  | @resume k ls rest x f' s' hf' ha hv' hd =>
    rw [hv] at hv'; cases hv'
    cases hd with
    | entry h =>
      refine ⟨fun d h => ?_, by simp [Fiber.sw], rfl, fun y g h => ?_⟩
      · simp only [Sync.Alters, Fiber.sw, Fiber.State.setFrames, Fiber.State.setVal, upd_apply] at h; grind
      · simp only [Fiber.sw, Fiber.State.setFrames, Fiber.State.setVal, upd_apply] at h ⊢; grind
    | resume h => simp [Fiber.sw, hfc, hf] at h
    | dtor h => simp [Fiber.sw, hfc, hf] at h
  | destroy h1 => cases h1

/-- creation followed by resumption -/
theorem callcc_facts {s s1 s2 : Fiber.State} {t : Tid} {xs : List Var} {c : CtxId} (hi : Fiber.Inv s) (hi1 : Fiber.Inv s1) (hc : s.cur t = some c) (h1 : Fiber.step s t (.create xs .success) = .ok s1)
    (h2 : Fiber.step s1 t (.resume (s.nextVar + xs.length)) = .ok s2) : Facts (fview s) (fview s2) t c fun d => s.cur t = some d ∨ Sync.Alters s s2 d := by
  obtain ⟨a1, a2, a3, a4, a5, a6⟩ := create_facts hi h1
  have hc1 : s1.cur t = some c := a1 ▸ hc
  obtain ⟨b1, b2, b3, b4⟩ := enter_facts hi1 hc1 a3 a2 h2
  have f1 : Facts (fview s) (fview s1) t c fun d => s.cur t = some d ∨ Sync.Alters s s1 d := by
    obtain ⟨c', hc', h⟩ := step_facts hi h1
    rw [hc] at hc'; cases hc'; exact fview_facts hc h
  have f2 : Facts (fview s1) (fview s2) t c fun d => s1.cur t = some d ∨ Sync.Alters s1 s2 d := by
    obtain ⟨c', hc', h⟩ := step_facts hi1 h2
    rw [hc1] at hc'; cases hc'; exact fview_facts hc1 h
  have hab : s.status s.nextCtx = .absent := (hi.ci.absent _).2 (Nat.le_refl _)
  have hU : ∀ {d}, d = c ∨ d = s.nextCtx → s.cur t = some d ∨ Sync.Alters s s2 d := by
    rintro d (rfl | rfl)
    · exact .inl hc
    · exact .inr (.inr (.inl (by rw [b2, hab]; simp)))
  refine f1.comp f2 (fun d h => hU ?_) (fun d h => hU ?_) a1 (fun d h => ?_) (fun x f h => ?_)
  · rcases h with h | h
    · rw [hc] at h; cases h; exact .inl rfl
    · exact a6 c hc d h
  · rcases h with h | h
    · rw [hc1] at h; cases h; exact .inl rfl
    · exact b1 d h
  · rcases h with h | h
    · rw [hc] at h; cases h; exact .inl rfl
    · have : d = c ∨ d = s.nextCtx := by
        by_cases h' : Sync.Alters s s1 d
        · exact a6 c hc d h'
        · refine b1 d ?_
          simp only [Sync.Alters, not_or, ne_eq, Classical.not_not] at h'
          obtain ⟨e1, e2, e3, e4⟩ := h'
          unfold Sync.Alters at h ⊢; rw [e1, e2, e3, e4]; exact h
      refine this.imp id fun e => ⟨Nat.le_of_eq e.symm, ?_⟩
      simp only [fview]; rw [b3, a4, e]; exact Nat.lt_succ_self _
  · refine (b4 x f h).imp id fun ⟨h3, h4⟩ => ⟨.inl (by rw [h3]; exact hc1), fun e he => ?_⟩
    simp only [fview] at he; rw [h4] at he; simp at he

theorem abs_alters {s s' : State} {d : CtxId} : Sync.Alters s.abs s'.abs d ↔ Alters s s' d := Iff.rfl

theorem cstep_facts {s s' : State} {t : Tid} {op : Op} (hr : Reachable s) (hs : step s t op = .ok s') :
    ∃ c, s.cur t = some c ∧ Facts (fview s.abs) (fview s'.abs) t c fun d => s.cur t = some d ∨ Alters s s' d := by
  have hi := Fiber.reachable_inv (reachable_spec hr).2
  have h := C21_step_refines (t := t) hr (lvalue_not_ok hs) (by rw [hs]; simp)
  rw [hs] at h
  replace h : Fiber.run s.abs (fiberOps s t op) = .ok s'.abs := h
  have one : ∀ op', Fiber.run s.abs [(t, op')] = .ok s'.abs → ∃ c, s.cur t = some c ∧ Facts (fview s.abs) (fview s'.abs) t c fun d => s.cur t = some d ∨ Alters s s' d := fun op' h => by
    simp only [Fiber.run] at h
    split at h
    · next s1 h1 =>
      cases h
      obtain ⟨c, hc, hf⟩ := step_facts hi h1
      exact ⟨c, hc, fview_facts hc hf⟩
    · next h1 => exact absurd h (h1 _)
  cases op with
  | callcc xs o =>
    cases o with
    | success =>
      simp only [fiberOps, Fiber.run] at h
      split at h
      · next s1 h1 =>
        split at h
        · next s2 h2 =>
          cases h
          obtain ⟨c, hc, -⟩ := Fiber.step_eff hi h1
          exact ⟨c, hc, callcc_facts hi (Fiber.reachable_inv (.step (reachable_spec hr).2 h1)) hc h1 h2⟩
        · next h1 => exact absurd h (h1 _)
      · next h1 => exact absurd h (h1 _)
    | _ => exact one _ h
  | tick =>
    simp only [fiberOps] at h
    split at h <;> exact one _ h
  | _ => exact one _ h

/-- an execution of the continuation machine -/
def Run.abs (r : Run) : Abs where
  v n := fview (r.st n).abs
  tid := r.tid
  len := r.len
  uses := Uses r
  writes := Writes r
  good n hn := fview_good (r.inv hn)
  facts n hn := by
    obtain ⟨c, hc, hf⟩ := cstep_facts (r.reachable n (Nat.le_of_lt hn)) (r.step n hn)
    exact ⟨c, hc, .inl hc, hf⟩
  wr n x hn h h' := by
    have hid : ∀ m, m ≤ r.len → (r.st m).val x ≠ none → (r.st m).hidden x = false := fun m hm h => by
      cases e : (r.st m).hidden x with
      | false => rfl
      | true => exact absurd (hidden_empty (r.reachable m hm) x e).2 h
    exact ⟨h.imp (fun h => ⟨h.1, hid n (Nat.le_of_lt hn) h.2⟩) (fun h => ⟨h.1, hid (n + 1) hn h.2⟩), h'⟩

/-- **C94**, `continuation`: two steps that use the same context are ordered by happens-before. -/
theorem C94_continuation_uses_ordered (r : Run) {i j : Nat} {d : CtxId} (hij : i < j) (hj : j < r.len) (hi : Uses r i d) (hd : Uses r j d) : r.HB i j :=
  r.abs.ordered hij hj hi hd

theorem freed_not (r : Run) {n : Nat} {d : CtxId} (hn : n < r.len) (hl : (r.st n).status d = .freed) : ¬ Uses r n d := by
  have inv := r.inv (Nat.le_of_lt hn)
  obtain ⟨c, hc, hf⟩ := cstep_facts (r.reachable n (Nat.le_of_lt hn)) (r.step n hn)
  have hst := (inv.ci.curRun _ _).1 hc
  replace hl : (r.st n).abs.status d = .freed := hl
  intro h
  rcases hf.why d h with h | ⟨h, -⟩ | h | ⟨y, g, h2, h3, -, -⟩
  · rw [h, hst] at hl; cases hl
  · rw [(inv.ci.absent _).2 h] at hl; cases hl
  · rw [inv.ci.exitT _ _ h] at hl; cases hl
  · have := (inv.vi.valid _ _ h2).1
    rw [h3, hl] at this; cases this

theorem freed_stays (r : Run) {m : Nat} {d : CtxId} (hl : (r.st m).status d = .freed) : ∀ n, m ≤ n → n ≤ r.len → (r.st n).status d = .freed
  | 0, h, _ => by cases Nat.le_zero.1 h; exact hl
  | n + 1, h, hn => by
    rcases Nat.lt_or_eq_of_le h with h | rfl
    · have ih := freed_stays r hl n (Nat.le_of_lt_succ h) (Nat.le_of_succ_le hn)
      exact Classical.byContradiction fun h2 => freed_not r hn ih (.inr <| .inr <| .inl fun e => h2 (e.trans ih))
    · exact hl

/-- The release of the stack comes after every other use of the context, and after it the context is not used again. -/
theorem C94_continuation_release_last (r : Run) {i j : Nat} {d : CtxId} (hi : i < r.len) (hj : j < r.len) (hl : (r.st (j + 1)).status d = .freed) (hb : (r.st j).status d ≠ .freed) (hu : Uses r i d) :
    i = j ∨ r.HB i j := by
  have hd : Uses r j d := .inr <| .inr <| .inl fun e => hb (e ▸ hl)
  rcases Nat.lt_trichotomy i j with h | h | h
  · exact .inr (C94_continuation_uses_ordered r h hj hu hd)
  · exact .inl h
  · exact absurd hu (freed_not r hi (freed_stays r hl i h (Nat.le_of_lt hi)))

/-! ## Examples -/

theorem run_append (s : State) (h h' : List (Tid × Op)) : run s (h ++ h') = match run s h with | .ok s' => run s' h' | e => e := by
  induction h generalizing s with
  | nil => rfl
  | cons a h ih =>
    simp only [List.cons_append, run]
    cases step s a.1 a.2 <;> simp [ih]

/-- the execution of a history -/
def ofHist (h : List (Tid × Op)) (hok : ∀ i, i < h.length → runsOk (h.take (i + 1)) = true) : Run where
  st i := exec (h.take i)
  tid i := (h.getD i (0, .tick)).1
  op i := (h.getD i (0, .tick)).2
  len := h.length
  start := rfl
  step i hi := by
    have h1 := hok i hi
    have h0 : h.take (i + 1) = h.take i ++ [h[i]] := (List.take_append_getElem hi).symm
    have h2 : h.getD i (0, .tick) = h[i] := by simp [List.getD, hi]
    rw [h2]
    rw [h0] at h1 ⊢
    revert h1
    simp only [runsOk, exec, run_append]
    cases run init (h.take i) with
    | ok s => 
      simp only [run]
      cases step s h[i].1 h[i].2 <;> simp
    | _ => simp

/-- Thread 0 starts thread 1 and calls `callcc` (context 2); the context resumes main, which moves the continuation into object 3 on the heap. Thread 1 resumes it, and the
context returns the continuation of thread 1 (object 4): its stack is released on thread 1 in step 10. -/
def hist : List (Tid × Op) := [(0, .spawn), (0, .callcc [] .success), (0, .resume 1), (0, .tick), (0, .moveHeap 2), (1, .resume 3), (1, .retHandle 4), (1, .tick), (1, .tick), (1, .tick), (1, .tick)]

def demo : Run := ofHist hist (by decide)

example : Uses demo 2 2 ∧ Uses demo 5 2 ∧ demo.tid 2 = 0 ∧ demo.tid 5 = 1 :=
  ⟨.inl (by decide), .inr <| .inr <| .inl (by decide), rfl, rfl⟩

example : demo.HB 2 5 := C94_continuation_uses_ordered demo (d := 2) (by decide) (by decide) (.inl (by decide)) (.inr <| .inr <| .inl (by decide))

example : (demo.st 11).status 2 = .freed ∧ (demo.st 10).status 2 ≠ .freed := by decide

end Verif.Sync.C
