import Verif.Sync.UStep

/-! # C94 for the ucontext implementation -/

namespace Verif.Sync.U
open Verif.UFiber
open Verif.Fiber (CtxId Var Tid Op Fctx exits)

theorem Run.reachable (r : Run) : ∀ n, n ≤ r.len → Reachable (r.st n)
  | 0, _ => r.start ▸ .init
  | n + 1, h => .step (r.reachable n (Nat.le_of_succ_le h)) (r.step n h)

theorem Run.early (r : Run) (n : Nat) (hn : n ≤ r.len) : (r.st n).early = false := by
  suffices ∀ k n, n + k = r.len → (r.st n).early = false from this (r.len - n) n (Nat.add_sub_cancel' hn)
  intro k
  induction k with
  | zero => rintro n rfl; exact r.noEarly
  | succ k ih =>
    intro n h
    exact step_early (r.step n (by omega)) (ih (n + 1) (by omega))

theorem Run.inv (r : Run) {n : Nat} (hn : n ≤ r.len) : Inv (r.st n) := reachable_inv (r.reachable n hn) (r.early n hn)

theorem uview_good {s : State} (hi : Inv s) : Good (uview s) := by
  have lt : ∀ {d}, s.status d ≠ .absent → d < s.nextCtx := fun {d} h => Nat.lt_of_not_le fun hl => h ((hi.ci.absent d).2 hl)
  have cr : ∀ {t d}, (uview s).cur t = some d → s.status d = .running t := fun h => (hi.ci.curRun _ _).1 h
  have va : ∀ {x f}, (uview s).val x = some f → PtrOK s f.ctx := fun h => hi.vi.valid _ _ (uview_val.1 h).1
  have ex : ∀ {d e}, (uview s).ex d e → s.status d = .terminated := fun h => hi.ci.exitT _ _ h
  refine ⟨fun t t' d h h' => ?_, fun t d h => lt ?_, fun t d x f h h' e => ?_, fun t d e h h' => ?_, fun x f h => lt ?_, fun x y f g h h' e => ?_, fun x f e h h' => ?_, fun d e h => lt ?_, hi.ci.exitU⟩
  · have := (cr h).symm.trans (cr h'); cases this; rfl
  · rw [cr h]; simp
  · have := (va h').1; rw [e, cr h] at this; simp at this
  · have := (cr h).symm.trans (ex h'); cases this
  · rcases (va h).1 with h | h <;> rw [h] <;> simp
  · exact hi.vi.inj x y f.ctx (uview_val.1 h).1 (e ▸ (uview_val.1 h').1)
  · exact absurd h' (by simp only [uview]; rw [(va h).2 e]; exact Nat.lt_irrefl _)
  · rw [ex h]; simp

/-- an execution of the ucontext machine -/
def Run.abs (r : Run) : Abs where
  v n := uview (r.st n)
  tid := r.tid
  len := r.len
  uses := Uses r
  writes := Writes r
  good n hn := uview_good (r.inv hn)
  facts n hn := by
    obtain ⟨c, hc, hf⟩ := ustep_facts (r.inv (Nat.le_of_lt hn)) (r.step n hn)
    exact ⟨c, hc, .inl hc, hf⟩
  wr n x _ h h' := by
    refine ⟨h.imp And.left And.left, h'.imp (fun h e => h ?_) id⟩
    simp only [uview]; rw [e]

/-- **C94**, ucontext implementation: two steps that use the same context — its stack or its activation record — are ordered by happens-before. -/
theorem C94_ucontext_uses_ordered (r : Run) {i j : Nat} {d : CtxId} (hij : i < j) (hj : j < r.len) (hi : Uses r i d) (hd : Uses r j d) : r.HB i j :=
  r.abs.ordered hij hj hi hd

theorem freed_not (r : Run) {n : Nat} {d : CtxId} (hn : n < r.len) (hl : (r.st n).status d = .freed) : ¬ Uses r n d := by
  have inv := r.inv (Nat.le_of_lt hn)
  obtain ⟨c, hc, hf⟩ := ustep_facts inv (r.step n hn)
  have hst := (inv.ci.curRun _ _).1 hc
  intro h
  rcases hf.why d h with h | ⟨h, -⟩ | h | ⟨y, g, h2, h3, -, -⟩
  · rw [h, hst] at hl; cases hl
  · rw [(inv.ci.absent _).2 h] at hl; cases hl
  · rw [inv.ci.exitT _ _ h] at hl; cases hl
  · have := (inv.vi.valid _ _ (uview_val.1 h2).1).1
    rw [h3, hl] at this; simp at this

theorem freed_stays (r : Run) {m : Nat} {d : CtxId} (hl : (r.st m).status d = .freed) : ∀ n, m ≤ n → n ≤ r.len → (r.st n).status d = .freed
  | 0, h, _ => by cases Nat.le_zero.1 h; exact hl
  | n + 1, h, hn => by
    rcases Nat.lt_or_eq_of_le h with h | rfl
    · have ih := freed_stays r hl n (Nat.le_of_lt_succ h) (Nat.le_of_succ_le hn)
      exact Classical.byContradiction fun h2 => freed_not r hn ih (.inr (.inl (.inr (.inl fun e => h2 (e.trans ih)))))
    · exact hl

/-- The release of the stack (with the activation record in it) comes after every other use of the context, and after it the context is not used again. -/
theorem C94_ucontext_release_last (r : Run) {i j : Nat} {d : CtxId} (hi : i < r.len) (hj : j < r.len) (hl : (r.st (j + 1)).status d = .freed) (hb : (r.st j).status d ≠ .freed) (hu : Uses r i d) :
    i = j ∨ r.HB i j := by
  have hd : Uses r j d := .inr (.inl (.inr (.inl fun e => hb (e ▸ hl))))
  rcases Nat.lt_trichotomy i j with h | h | h
  · exact .inr (C94_ucontext_uses_ordered r h hj hu hd)
  · exact .inl h
  · exact absurd hu (freed_not r hi (freed_stays r hl i h (Nat.le_of_lt hi)))

/-! ## Examples -/

theorem run_append (s : State) (h h' : List (Tid × Op)) : run s (h ++ h') = match run s h with | .ok s' => run s' h' | e => e := by
  induction h generalizing s with
  | nil => rfl
  | cons a h ih =>
    simp only [List.cons_append, run]
    cases step s a.1 a.2 <;> simp [ih]

/-- the execution of a history -/
def ofHist (h : List (Tid × Op)) (hok : ∀ i, i < h.length → runsOk (h.take (i + 1)) = true) (he : (exec h).early = false) : Run where
  st i := exec (h.take i)
  tid i := (h.getD i (0, .tick)).1
  op i := (h.getD i (0, .tick)).2
  len := h.length
  start := rfl
  noEarly := by simpa [NoEarlyDestroy] using he
  step i hi := by
    have h1 := hok i hi
    have h0 : h.take (i + 1) = h.take i ++ [h[i]] := (List.take_append_getElem hi).symm
    have h2 : h.getD i (0, .tick) = h[i] := by simp [List.getD, hi]
    rw [h2]
    rw [h0] at h1 ⊢
    revert h1
    simp only [runsOk, exec, run_append]
    cases run init (h.take i) with
    | ok s => 
      simp only [run]
      cases step s h[i].1 h[i].2 <;> simp
    | _ => simp

/-- As in `Verif.Sync.hist`; then the fiber returns the handle of the second thread (object 4), on which its handle (object 6) is destroyed and its stack released. -/
def hist : List (Tid × Op) :=
  [(0, .spawn), (0, .create [] .success), (0, .resume 0), (0, .resume 1), (0, .moveHeap 2), (1, .resume 3), (1, .retHandle 4), (1, .tick), (1, .tick), (1, .tick), (1, .drop 6), (1, .tick)]

def demo : Run := ofHist hist (by decide) (by decide)

example : Uses demo 3 2 ∧ Uses demo 5 2 ∧ demo.tid 3 = 0 ∧ demo.tid 5 = 1 :=
  ⟨.inl (by decide), .inr (.inl (.inr (.inl (by decide)))), rfl, rfl⟩

example : demo.HB 3 11 := C94_ucontext_uses_ordered demo (d := 2) (by decide) (by decide) (.inl (by decide)) (.inr (.inl (.inr (.inl (by decide)))))

example : (demo.st 12).status 2 = .freed ∧ (demo.st 11).status 2 ≠ .freed := by decide

end Verif.Sync.U
