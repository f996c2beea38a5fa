import Verif.Sync.UCSpec
import Verif.Sync.UProps
import Verif.UCont.Empty

/-! # C94 for `continuation` on ucontext -/

namespace Verif.Sync.UC
open Verif.UCont
open Verif.Sync.U (uview uview_val uview_good US ustep_facts arr_facts)
open Verif.Fiber (CtxId Var Tid Fctx exits upd upd_apply exits_cons exits_nil)

theorem Run.reachable (r : Run) : ∀ n, n ≤ r.len → Reachable (r.st n)
  | 0, _ => r.start ▸ .init
  | n + 1, h => .step (r.reachable n (Nat.le_of_succ_le h)) (r.step n h)

theorem Run.inv (r : Run) {n : Nat} (hn : n ≤ r.len) : UFiber.Inv (r.st n).abs := (reachable_facts (r.reachable n hn)).inv

theorem fcapture_nextVar (s : UFiber.State) (n : CtxId) (xs : List Var) : (s.capture n xs).nextVar = s.nextVar + xs.length := by
  induction xs generalizing s with
  | nil => rfl
  | cons x xs ih => simp only [UFiber.State.capture]; rw [ih]; simp [UFiber.State.newVar, UFiber.State.setVal]; omega

theorem create_facts {s s1 : UFiber.State} {t : Tid} {xs : List Var} (hi : UFiber.Inv s) (hs : UFiber.step s t (.create xs .success) = .ok s1) :
    s1.cur = s.cur ∧ s1.frames s.nextCtx = [.entryJump] ∧ s1.val (s.nextVar + xs.length) = some s.nextCtx ∧ s1.nextCtx = s.nextCtx + 1 ∧ s1.status = upd s.status s.nextCtx .suspended ∧
    (∀ c, s.cur t = some c → ∀ d, U.Alters s s1 d → d = c ∨ d = s.nextCtx) ∧ ∀ x d, s.val x = some d → ∃ y, y ≠ s.nextVar + xs.length ∧ s1.val y = some d := by
  obtain ⟨c, hc, he⟩ := UFiber.step_eff hs
  cases he with
  | @create k ls rest xs hf ha s2 h2 =>
    have hst := (hi.ci.curRun _ _).1 hc
    have hcn : s.nextCtx ≠ c := fun e => by have := (hi.ci.absent s.nextCtx).2 (Nat.le_refl _); rw [e, hst] at this; cases this
    have hsame := UFiber.capture_same ({ s with nextCtx := s.nextCtx + 1 }.addLog (.alloc s.nextCtx)) s.nextCtx xs
    have hcap := (U.cap_facts (n := s.nextCtx) (xs := xs) (s := { s with nextCtx := s.nextCtx + 1 }.addLog (.alloc s.nextCtx))
      (fun y hy => ⟨hi.oi.fresh y hy, hi.vi.deadNone _ (hi.oi.fresh y hy)⟩) ha).1
    have hkeep : ∀ x d, s.val x = some d → ∃ y, y < s2.nextVar ∧ s2.val y = some d := fun x d h => h2 ▸ U.cap_keeps (s := { s with nextCtx := s.nextCtx + 1 }.addLog (.alloc s.nextCtx))
      (fun y hy => hi.vi.deadNone _ (hi.oi.fresh y hy)) h
    have hn : s2.nextVar = s.nextVar + xs.length := h2 ▸ fcapture_nextVar _ _ _
    rw [← h2] at hsame hcap
    obtain ⟨e1, e2, e3, e4, -, -, -, -, g1, g2, g3, g4, g5, -⟩ := hsame
    replace e1 : s2.cur = s.cur := e1
    replace e2 : s2.status = s.status := e2
    replace e3 : s2.frames = s.frames := e3
    replace e4 : s2.nextCtx = s.nextCtx + 1 := e4
    replace g1 : s2.root = s.root := g1
    replace g2 : s2.frm = s.frm := g2
    replace g3 : s2.ontop = s.ontop := g3
    replace g4 : s2.term = s.term := g4
    replace g5 : s2.unw = s.unw := g5
    replace hcap : ∀ d, d ≠ s.nextCtx → s2.caps d = s.caps d := hcap
    refine ⟨e1, by simp [hcn], by simp [hn], e4, by simp only [e2], fun c' hc' d h => ?_, fun x d h => ?_⟩
    · rw [hc] at hc'; cases hc'
      by_cases h1 : d = c
      · exact .inl h1
      · by_cases h2 : d = s.nextCtx
        · exact .inr h2
        · simp [U.Alters, e2, e3, g1, g2, g3, g4, g5, h1, h2, hcap d h2] at h
    · obtain ⟨y, h3, h4⟩ := hkeep x d h
      have : y ≠ s2.nextVar := Nat.ne_of_lt h3
      exact ⟨y, hn ▸ this, by simpa [this] using h4⟩
  | destroy h1 => cases h1

theorem enter_facts {s s1 : UFiber.State} {t : Tid} {x : Var} {w c : CtxId} (hi : UFiber.Inv s) (hc : s.cur t = some c) (hv : s.val x = some w) (hf : s.frames w = [.entryJump])
    (hs : UFiber.step s t (.resume x) = .ok s1) :
    (∀ d, U.Alters s s1 d → d = c ∨ d = w) ∧ s1.status w = .running t ∧ s1.nextCtx = s.nextCtx ∧
    (∀ y g, s1.val y = some g → (s.val y = some g ∧ s1.kind y = s.kind y) ∨ (g = c ∧ s1.kind y = .loc w)) ∧ ∀ y d, y ≠ x → s.val y = some d → s1.val y = some d := by
  obtain ⟨c', hc', he⟩ := UFiber.step_eff hs
  rw [hc] at hc'; cases hc'
  clear hs
  have hfv : s.val s.nextVar = none := hi.vi.deadNone _ (hi.oi.fresh _ (Nat.le_refl _))
  have hfc : w ≠ c := fun e => by
    have := (hi.vi.valid _ _ hv).1; rw [e, (hi.ci.curRun _ _).1 hc] at this; simp at this
  cases he with
  | @resume k ls rest x w' s' hf' ha hv' hsu hd =>
    rw [hv] at hv'; cases hv'
    cases hd with
    | entry h =>
      refine ⟨fun d h => ?_, by simp [UFiber.sw], rfl, fun y g h => ?_, fun y d hy h => ?_⟩
      · simp only [U.Alters, UFiber.sw, UFiber.State.setFrames, UFiber.State.setVal, upd_apply] at h; grind
      · simp only [UFiber.sw, UFiber.State.setFrames, UFiber.State.setVal, upd_apply] at h ⊢; grind
      · simp only [UFiber.sw, UFiber.State.setFrames, UFiber.State.setVal, upd_apply]; grind
    | unwind h => simp [UFiber.sw, hfc, hf] at h
    | ontop h => simp [UFiber.sw, hfc, hf] at h
    | ret h => simp [UFiber.sw, hfc, hf] at h
    | dtor h => simp [UFiber.sw, hfc, hf] at h
  | destroy h1 => cases h1

/-- creation followed by resumption -/
theorem callcc_facts {s s1 s2 : UFiber.State} {t : Tid} {xs : List Var} {c : CtxId} (hi : UFiber.Inv s) (hi1 : UFiber.Inv s1) (hc : s.cur t = some c) (h1 : UFiber.step s t (.create xs .success) = .ok s1)
    (h2 : UFiber.step s1 t (.resume (s.nextVar + xs.length)) = .ok s2) : Facts (uview s) (uview s2) t c (US s s2 t) := by
  obtain ⟨a1, a2, a3, a4, a5, a6, a7⟩ := create_facts hi h1
  have hc1 : s1.cur t = some c := a1 ▸ hc
  obtain ⟨b1, b2, b3, b4, b5⟩ := enter_facts hi1 hc1 a3 a2 h2
  have f1 : Facts (uview s) (uview s1) t c (US s s1 t) := by
    obtain ⟨c', hc', h⟩ := ustep_facts hi h1
    rw [hc] at hc'; cases hc'; exact h
  have f2 : Facts (uview s1) (uview s2) t c (US s1 s2 t) := by
    obtain ⟨c', hc', h⟩ := ustep_facts hi1 h2
    rw [hc1] at hc'; cases hc'; exact h
  have hab : s.status s.nextCtx = .absent := (hi.ci.absent _).2 (Nat.le_refl _)
  have hU : ∀ {d}, d = c ∨ d = s.nextCtx → US s s2 t d := by
    rintro d (rfl | rfl)
    · exact .inl hc
    · exact .inr (.inl (.inr (.inl (by rw [b2, hab]; simp))))
  refine f1.comp f2 (fun d h => hU ?_) (fun d h => hU ?_) a1 (fun d h => ?_) (fun x f h => ?_)
  · rcases h with h | h | ⟨⟨x, h⟩, h'⟩
    · rw [hc] at h; cases h; exact .inl rfl
    · exact a6 c hc d h
    · obtain ⟨y, -, h3⟩ := a7 x d h; exact absurd h3 (h' y)
  · rcases h with h | h | ⟨⟨x, h⟩, h'⟩
    · rw [hc1] at h; cases h; exact .inl rfl
    · exact b1 d h
    · by_cases e : x = s.nextVar + xs.length
      · rw [e, a3] at h; cases h; exact .inr rfl
      · exact absurd (b5 x d e h) (h' x)
  · have : d = c ∨ d = s.nextCtx := by
      rcases h with h | h | ⟨⟨x, h⟩, h'⟩
      · rw [hc] at h; cases h; exact .inl rfl
      · by_cases h' : U.Alters s s1 d
        · exact a6 c hc d h'
        · refine b1 d ?_
          simp only [U.Alters, not_or, ne_eq, Classical.not_not] at h'
          obtain ⟨e1, e2, e3, e4, e5, e6, e7, e8⟩ := h'
          unfold U.Alters at h ⊢; rw [e1, e2, e3, e4, e5, e6, e7, e8]; exact h
      · obtain ⟨y, h3, h4⟩ := a7 x d h
        exact absurd (b5 y d h3 h4) (h' y)
    refine this.imp id fun e => ⟨Nat.le_of_eq e.symm, ?_⟩
    simp only [uview]; rw [b3, a4, e]; exact Nat.lt_succ_self _
  · obtain ⟨h3, h4⟩ := uview_val.1 h
    refine (b4 x f.ctx h3).imp (fun ⟨a, b⟩ => ⟨uview_val.2 ⟨a, h4⟩, b⟩) fun ⟨h3, h4⟩ => ⟨.inl (by rw [h3]; exact hc1), fun e he => ?_⟩
    simp only [uview] at he; rw [h4] at he; simp at he

theorem ucstep_facts {s s' : State} {t : Tid} {op : Op} (hr : Reachable s) (hs : step s t op = .ok s') :
    ∃ c, s.cur t = some c ∧ Facts (uview s.abs) (uview s'.abs) t c fun d => s.cur t = some d ∨ Alters s s' d ∨ Consumes s s' d := by
  have F := reachable_facts hr
  have hi := F.inv
  have h := step_run_ok hr hs
  have one : ∀ op', UFiber.run s.abs [(t, op')] = .ok s'.abs → ∃ c, s.cur t = some c ∧ Facts (uview s.abs) (uview s'.abs) t c fun d => s.cur t = some d ∨ Alters s s' d ∨ Consumes s s' d := fun op' h => by
    simp only [UFiber.run] at h
    split at h
    · next s1 h1 =>
      cases h
      obtain ⟨c, hc, hf⟩ := ustep_facts hi h1
      exact ⟨c, hc, hf⟩
    · next h1 => exact absurd h (h1 _)
  cases op with
  | callcc xs o =>
    cases o with
    | success =>
      simp only [fiberOps, UFiber.run] at h
      split at h
      · next s1 h1 =>
        split at h
        · next s2 h2 =>
          cases h
          obtain ⟨c, hc, -⟩ := UFiber.step_eff h1
          have he : s1.early = false := UFiber.step_early h2 (reachable_facts (.step hr hs)).early
          exact ⟨c, hc, callcc_facts hi (UFiber.reachable_inv (.step F.reach h1) he) hc h1 h2⟩
        · next h1 => exact absurd h (h1 _)
      · next h1 => exact absurd h (h1 _)
    | _ => exact one _ h
  | tick =>
    simp only [fiberOps] at h
    split at h <;> exact one _ h
  | _ => exact one _ h

/-- an execution of the continuation machine -/
def Run.abs (r : Run) : Abs where
  v n := uview (r.st n).abs
  tid := r.tid
  len := r.len
  uses := Uses r
  writes := Writes r
  good n hn := uview_good (r.inv hn)
  facts n hn := by
    obtain ⟨c, hc, hf⟩ := ucstep_facts (r.reachable n (Nat.le_of_lt hn)) (r.step n hn)
    exact ⟨c, hc, .inl hc, hf⟩
  wr n x hn h h' := by
    have hid : ∀ m, m ≤ r.len → (uview (r.st m).abs).val x ≠ none → (r.st m).hidden x = false := fun m hm h => by
      cases e : (r.st m).hidden x with
      | false => rfl
      | true => exact absurd (by simp only [uview]; rw [show (r.st m).abs.val x = none from (hidden_empty (r.reachable m hm) x e).2]; rfl) h
    refine ⟨h.imp (fun h => ⟨h.1, hid n (Nat.le_of_lt hn) h.2⟩) (fun h => ⟨h.1, hid (n + 1) hn h.2⟩), h'.imp (fun h e => h ?_) id⟩
    simp only [uview]
    rw [show (r.st (n + 1)).abs.val x = (r.st n).abs.val x from e]

/-- **C94**, `continuation` on ucontext: two steps that use the same context — its stack or its activation record — are ordered by happens-before. -/
theorem C94_ucontinuation_uses_ordered (r : Run) {i j : Nat} {d : CtxId} (hij : i < j) (hj : j < r.len) (hi : Uses r i d) (hd : Uses r j d) : r.HB i j :=
  r.abs.ordered hij hj hi hd

theorem freed_not (r : Run) {n : Nat} {d : CtxId} (hn : n < r.len) (hl : (r.st n).status d = .freed) : ¬ Uses r n d := by
  have inv := r.inv (Nat.le_of_lt hn)
  obtain ⟨c, hc, hf⟩ := ucstep_facts (r.reachable n (Nat.le_of_lt hn)) (r.step n hn)
  have hst := (inv.ci.curRun _ _).1 hc
  replace hl : (r.st n).abs.status d = .freed := hl
  intro h
  rcases hf.why d h with h | ⟨h, -⟩ | h | ⟨y, g, h2, h3, -, -⟩
  · rw [h, hst] at hl; cases hl
  · rw [(inv.ci.absent _).2 h] at hl; cases hl
  · rw [inv.ci.exitT _ _ h] at hl; cases hl
  · have := (inv.vi.valid _ _ (uview_val.1 h2).1).1
    rw [h3, hl] at this; simp at this

theorem freed_stays (r : Run) {m : Nat} {d : CtxId} (hl : (r.st m).status d = .freed) : ∀ n, m ≤ n → n ≤ r.len → (r.st n).status d = .freed
  | 0, h, _ => by cases Nat.le_zero.1 h; exact hl
  | n + 1, h, hn => by
    rcases Nat.lt_or_eq_of_le h with h | rfl
    · have ih := freed_stays r hl n (Nat.le_of_lt_succ h) (Nat.le_of_succ_le hn)
      exact Classical.byContradiction fun h2 => freed_not r hn ih (.inr <| .inl <| .inr <| .inl fun e => h2 (e.trans ih))
    · exact hl

/-- The release of the stack comes after every other use of the context, and after it the context is not used again. -/
theorem C94_ucontinuation_release_last (r : Run) {i j : Nat} {d : CtxId} (hi : i < r.len) (hj : j < r.len) (hl : (r.st (j + 1)).status d = .freed) (hb : (r.st j).status d ≠ .freed) (hu : Uses r i d) :
    i = j ∨ r.HB i j := by
  have hd : Uses r j d := .inr <| .inl <| .inr <| .inl fun e => hb (e ▸ hl)
  rcases Nat.lt_trichotomy i j with h | h | h
  · exact .inr (C94_ucontinuation_uses_ordered r h hj hu hd)
  · exact .inl h
  · exact absurd hu (freed_not r hi (freed_stays r hl i h (Nat.le_of_lt hi)))

/-! ## Examples -/

theorem run_append (s : State) (h h' : List (Tid × Op)) : run s (h ++ h') = match run s h with | .ok s' => run s' h' | e => e := by
  induction h generalizing s with
  | nil => rfl
  | cons a h ih =>
    simp only [List.cons_append, run]
    cases step s a.1 a.2 <;> simp [ih]

/-- the execution of a history -/
def ofHist (h : List (Tid × Op)) (hok : ∀ i, i < h.length → runsOk (h.take (i + 1)) = true) : Run where
  st i := exec (h.take i)
  tid i := (h.getD i (0, .tick)).1
  op i := (h.getD i (0, .tick)).2
  len := h.length
  start := rfl
  step i hi := by
    have h1 := hok i hi
    have h0 : h.take (i + 1) = h.take i ++ [h[i]] := (List.take_append_getElem hi).symm
    have h2 : h.getD i (0, .tick) = h[i] := by simp [List.getD, hi]
    rw [h2]
    rw [h0] at h1 ⊢
    revert h1
    simp only [runsOk, exec, run_append]
    cases run init (h.take i) with
    | ok s => 
      simp only [run]
      cases step s h[i].1 h[i].2 <;> simp
    | _ => simp

/-- Thread 0 starts thread 1 and calls `callcc` (context 2); the context resumes main, which moves the continuation into object 3 on the heap. Thread 1 resumes it, and the
context returns the continuation of thread 1 (object 4); thread 1 destroys the object of the finished context (step 10), which releases the stack (step 11). -/
def hist : List (Tid × Op) := [(0, .spawn), (0, .callcc [] .success), (0, .resume 1), (0, .tick), (0, .moveHeap 2), (1, .resume 3), (1, .retHandle 4), (1, .tick), (1, .tick), (1, .tick), (1, .drop 6), (1, .tick)]

def demo : Run := ofHist hist (by decide)

example : Uses demo 2 2 ∧ Uses demo 5 2 ∧ demo.tid 2 = 0 ∧ demo.tid 5 = 1 :=
  ⟨.inl (by decide), .inr <| .inl <| .inr <| .inl (by decide), rfl, rfl⟩

example : demo.HB 2 5 := C94_ucontinuation_uses_ordered demo (d := 2) (by decide) (by decide) (.inl (by decide)) (.inr <| .inl <| .inr <| .inl (by decide))

example : (demo.st 12).status 2 = .freed ∧ (demo.st 11).status 2 ≠ .freed := by decide

end Verif.Sync.UC
