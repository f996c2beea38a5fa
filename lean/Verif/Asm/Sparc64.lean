import Verif.Asm.Sparc64Code

/-! # SPARC64: the switching routines meet their specification (C39) -/

namespace Verif.Asm.Sparc64

/-! ## Vocabulary -/

/-- address of the save area of the activation with stack pointer `p` -/
def area (p : W) : W := p + off A BIAS

/-- The call chain: stack pointer and local and in registers of the `n`-th activation, the innermost one having stack pointer `p`; the registers of the
innermost `ws.length` activations are in the register file, those of the others in their save areas. -/
def win (m : Mem A) : W → List Win → Nat → W × Win
  | p, [], 0 => (p, fill m p)
  | p, [], n + 1 => win m ((fill m p).i 6) [] n
  | p, w :: _, 0 => (p, w)
  | _, w :: ws, n + 1 => win m (w.i 6) ws n

/-- the call chain of the activation that executes in state `σ`; its `n`-th activation -/
def act (σ : St) (n : Nat) : W × Win := win σ.mem (σ.o 6) (⟨σ.l, σ.i⟩ :: σ.wins) n

/-- The `N` innermost activations lie above each other on the stack, each with a frame of at least `CC64FSZ` bytes; those whose registers are in the
register file are among them. -/
structure Chain (σ : St) (N : Nat) : Prop where
  cached : σ.wins.length ≤ N
  below : CC64FSZ ≤ (area (σ.o 6)).toNat
  up : ∀ n < N, (area (act σ n).1).toNat + CC64FSZ ≤ (area (act σ (n + 1)).1).toNat
  top : (area (act σ N).1).toNat + 128 ≤ 2 ^ 64

/-- the `fcontext_t` that designates the context suspended by a call with entry state `σ` -/
def fctx (σ : St) : W := σ.o 6 - off A CC64FSZ

/-- the frame of a call with entry state `σ` -/
def Frame (σ : St) (a : W) : Prop := InR a (area (fctx σ)) CC64FSZ

/-- the save area of the `n`-th activation -/
def Area (σ : St) (n : Nat) (a : W) : Prop := InR a (area (act σ n).1) 128

/-- the bytes a call with entry state `σ` may write: its frame, and the save areas of activations whose registers are in the register file -/
def Writes (σ : St) (a : W) : Prop := Frame σ a ∨ ∃ n, n ≤ σ.wins.length ∧ Area σ n a

/-- The call with entry state `σ` (of `jump_fcontext` or `ontop_fcontext`) has left its context with memory `m`. -/
def Left (e : Env) (σ : St) (m : Mem A) : Prop := (exec e jump σ).1.mem = m ∨ (exec e ontop σ).1.mem = m

/-- the bytes that have to survive while `σ` is suspended, for the resumption of its `N` innermost activations -/
def Keep (σ : St) (N : Nat) (a : W) : Prop := Frame σ a ∨ ∃ n, n ≤ N ∧ Area σ n a

/-- Between the suspension in `σ` (leaving memory `m`) and the call with entry state `τ` that switches back, the stack of the suspended
context has not been written, and what `τ` writes does not overlap it. -/
structure Intact (σ : St) (N : Nat) (m : Mem A) (τ : St) : Prop where
  mem : ∀ a, Keep σ N a → τ.mem a = m a
  apart : ∀ a, Keep σ N a → ¬ Writes τ a

/-! ## Proofs -/

theorem words_out (m : Mem A) (a x : W) (vs : List W) (h : ¬ InR x a (8 * vs.length)) (hl : 8 * vs.length ≤ 2 ^ 64) : words m a vs x = m x := by
  induction vs generalizing a with
  | nil => rfl
  | cons v vs ih =>
    simp only [List.length_cons] at h hl
    rw [words, store_out, ih]
    · intro hh; exact h (inR_off hh (by omega) (by show _ ≤ 2 ^ (8 * 8); omega))
    · omega
    · intro hh; exact h (inR_mono hh (by show 8 ≤ _; omega))

theorem off_zero (a : W) : a + off A 0 = a := BitVec.add_zero a

theorem words_load (m : Mem A) (a : W) (vs : List W) (hl : 8 * vs.length ≤ 2 ^ 64) (j : Nat) (h : j < vs.length) :
    load (words m a vs) (a + off A (8 * j)) A.k = vs[j] := by
  induction vs generalizing a j with
  | nil => simp at h
  | cons v vs ih =>
    simp only [List.length_cons] at h hl
    cases j with
    | zero => simp only [words, Nat.mul_zero, off_zero, List.getElem_cons_zero]; exact load_store_same _ _ _ _ (by decide)
    | succ j =>
      simp only [words, List.getElem_cons_succ]
      rw [load_store_out (by decide), ← ih (a + off A 8) (by omega) j (by omega), add_off_off]
      · congr 3; omega
      · intro x hx hh
        rw [← off_zero a] at hh
        exact inR_disj hx (by show _ + 8 ≤ 2 ^ (8 * 8); omega) (by decide) (.inr (by show 0 + 8 ≤ _; omega)) hh

theorem spill_out (m : Mem A) (p x : W) (w : Win) (h : ¬ InR x (area p) 128) : spill m p w x = m x := words_out _ _ _ _ h (by simp)

theorem fill_spill (m : Mem A) (p : W) (w : Win) : fill (spill m p w) p = w := by
  have h := words_load m (p + off A BIAS)
    [w.l 0, w.l 1, w.l 2, w.l 3, w.l 4, w.l 5, w.l 6, w.l 7, w.i 0, w.i 1, w.i 2, w.i 3, w.i 4, w.i 5, w.i 6, w.i 7] (by simp)
  cases w with
  | mk l i =>
    simp only [fill, Win.mk.injEq]
    refine ⟨funext fun n => ?_, funext fun n => ?_⟩
    · match n with
      | 0 => exact h 0 (by simp)
      | 1 => exact h 1 (by simp)
      | 2 => exact h 2 (by simp)
      | 3 => exact h 3 (by simp)
      | 4 => exact h 4 (by simp)
      | 5 => exact h 5 (by simp)
      | 6 => exact h 6 (by simp)
      | 7 => exact h 7 (by simp)
    · match n with
      | 0 => exact h 8 (by simp)
      | 1 => exact h 9 (by simp)
      | 2 => exact h 10 (by simp)
      | 3 => exact h 11 (by simp)
      | 4 => exact h 12 (by simp)
      | 5 => exact h 13 (by simp)
      | 6 => exact h 14 (by simp)
      | 7 => exact h 15 (by simp)

theorem fill_congr {m m' : Mem A} {p : W} (h : ∀ x, InR x (area p) 128 → m' x = m x) : fill m' p = fill m p := by
  simp only [fill, Win.mk.injEq]
  refine ⟨funext fun n => ?_, funext fun n => ?_⟩
  · exact load_agree (N := 128) h (by show _ + 8 ≤ 128; have := n.isLt; omega) (by decide)
  · exact load_agree (N := 128) h (by show _ + 8 ≤ 128; have := n.isLt; omega) (by decide)

theorem win_congr {m m' : Mem A} (n : Nat) : ∀ (p : W) (ws : List Win),
    (∀ j ≤ n, ∀ x, InR x (area (win m p ws j).1) 128 → m' x = m x) → win m' p ws n = win m p ws n := by
  induction n with
  | zero =>
    intro p ws h
    cases ws with
    | nil => simp only [win]; rw [fill_congr (m := m) (p := p) (h 0 (Nat.le_refl _))]
    | cons w ws => rfl
  | succ n ih =>
    intro p ws h
    cases ws with
    | nil =>
      simp only [win]
      rw [fill_congr (m := m) (p := p) (h 0 (Nat.zero_le _))]
      exact ih _ _ fun j hj => h (j + 1) (by omega)
    | cons w ws => exact ih _ _ fun j hj => h (j + 1) (by omega)

/-- for activations whose registers are in the register file the memory is irrelevant -/
theorem win_cached {m m' : Mem A} (ws : List Win) : ∀ (p : W) (k n : Nat), n < (ws.take k).length → win m' p (ws.take k) n = win m p ws n := by
  induction ws with
  | nil => intro p k n h; simp at h
  | cons w ws ih =>
    intro p k n h
    cases k with
    | zero => simp at h
    | succ k =>
      cases n with
      | zero => rfl
      | succ n => exact ih (w.i 6) k n (by simpa using h)

theorem spillFrom_out (m : Mem A) (x : W) (ws : List Win) : ∀ (p : W) (k : Nat), (∀ j < ws.length, ¬ InR x (area (win m p ws j).1) 128) →
    spillFrom m k p ws x = m x := by
  induction ws with
  | nil => intro p k _; cases k <;> rfl
  | cons w ws ih =>
    intro p k h
    have h' : ∀ j < ws.length, ¬ InR x (area (win m (w.i 6) ws j).1) 128 := fun j hj => h (j + 1) (by simpa using hj)
    cases k with
    | zero =>
      rw [spillFrom, spill_out _ p _ _ (h 0 (by simp)), ih _ _ h']
    | succ k => exact ih _ _ h'

/-- `Chain`, for arbitrary parts of a call chain -/
def Up (m : Mem A) (p : W) (ws : List Win) (N : Nat) : Prop :=
  (∀ n < N, (area (win m p ws n).1).toNat + CC64FSZ ≤ (area (win m p ws (n + 1)).1).toNat) ∧ (area (win m p ws N).1).toNat + 128 ≤ 2 ^ 64

theorem Up.lt {m : Mem A} {p : W} {ws : List Win} {N : Nat} (h : Up m p ws N) {i j : Nat} (hij : i < j) (hj : j ≤ N) :
    (area (win m p ws i).1).toNat + CC64FSZ ≤ (area (win m p ws j).1).toNat := by
  induction j with
  | zero => omega
  | succ j ih =>
    have h1 := h.1 j (by omega)
    by_cases hh : i = j
    · subst hh; exact h1
    · have := ih (by omega) (by omega); omega

theorem Up.le_top {m : Mem A} {p : W} {ws : List Win} {N : Nat} (h : Up m p ws N) {j : Nat} (hj : j ≤ N) :
    (area (win m p ws j).1).toNat + 128 ≤ 2 ^ 64 := by
  by_cases hh : j = N
  · subst hh; exact h.2
  · have := h.lt (i := j) (j := N) (by omega) (Nat.le_refl _); have := h.2; omega

theorem Up.apart {m : Mem A} {p : W} {ws : List Win} {N : Nat} (h : Up m p ws N) {i j : Nat} (hij : i < j) (hj : j ≤ N) {x : W}
    (hx : InR x (area (win m p ws i).1) 128) : ¬ InR x (area (win m p ws j).1) 128 :=
  inR_apart (by have := h.lt hij hj; simp only [CC64FSZ] at this; omega) (h.le_top hj) hx

theorem spillFrom_win (ws : List Win) : ∀ (m : Mem A) (p : W) (k N n : Nat), Up m p ws N → ws.length ≤ N + 1 → n ≤ N →
    win (spillFrom m k p ws) p (ws.take k) n = win m p ws n := by
  induction ws with
  | nil => intro m p k N n _ _ _; cases k <;> rfl
  | cons w ws ih =>
    intro m p k N n hu hl hn
    cases n with
    | zero =>
      cases k with
      | zero => simp only [spillFrom, List.take_zero, win, fill_spill]
      | succ k => rfl
    | succ n =>
      obtain ⟨N, rfl⟩ : ∃ M, N = M + 1 := ⟨N - 1, by omega⟩
      have hu' : Up m (w.i 6) ws N := ⟨fun j hj => hu.1 (j + 1) (by omega), hu.2⟩
      have hl' : ws.length ≤ N + 1 := by simpa using hl
      cases k with
      | succ k => exact ih m (w.i 6) k N n hu' hl' (by omega)
      | zero =>
        have key : ∀ j ≤ N, win (spillFrom m 0 (w.i 6) ws) (w.i 6) [] j = win m (w.i 6) ws j := fun j hj => by
          have := ih m (w.i 6) 0 N j hu' hl' hj
          simpa using this
        simp only [spillFrom, List.take_zero, win, fill_spill]
        rw [win_congr n _ _ (m := spillFrom m 0 (w.i 6) ws), key n (by omega)]
        intro j hj x hx
        apply spill_out
        intro hh
        rw [key j (by omega)] at hx
        exact hu.apart (i := 0) (j := j + 1) (by omega) (by omega) hh hx

theorem Chain.toUp {σ : St} {N : Nat} (h : Chain σ N) : Up σ.mem (σ.o 6) (⟨σ.l, σ.i⟩ :: σ.wins) N := ⟨h.up, h.top⟩

/-- memory when the call with entry state `σ` switches -/
def left (e : Env) (σ : St) : Mem A :=
  spillFrom (store (store (spillFrom σ.mem e.room (σ.i 6) σ.wins) (σ.o 6 + -off A CC64FSZ + off A (BIAS + 128)) A.k (σ.o 6))
    (σ.o 6 + -off A CC64FSZ + off A (BIAS + 136)) A.k (σ.o 7)) 0 (σ.o 6) (⟨σ.l, σ.i⟩ :: σ.wins.take e.room)

theorem upd_apply (f : Fin 8 → W) (n k : Fin 8) (v : W) : upd f n v k = if k = n then v else f k := rfl

theorem exec_jump (e : Env) (τ : St) : exec e jump τ =
    ({ g := τ.g, o := upd (upd (upd τ.o 6 (load (left e τ) (τ.o 0 + 0#_ + off A (BIAS + 128)) A.k)) 7 (load (left e τ) (τ.o 0 + 0#_ + off A (BIAS + 136)) A.k)) 0
        (τ.o 6 + -off A CC64FSZ + 0#_ + 0#_),
       l := (fill (left e τ) (load (left e τ) (τ.o 0 + 0#_ + off A (BIAS + 128)) A.k)).l,
       i := (fill (left e τ) (load (left e τ) (τ.o 0 + 0#_ + off A (BIAS + 128)) A.k)).i, wins := [], mem := left e τ },
     load (left e τ) (τ.o 0 + 0#_ + off A (BIAS + 136)) A.k + off A 8) := by
  simp only [exec, jump, steps, step, get, set, upd_apply, Fin.reduceEq, if_true, if_false, left]

theorem exec_ontop (e : Env) (τ : St) : exec e ontop τ =
    ({ g := τ.g, o := upd (upd (upd τ.o 6 (load (left e τ) (τ.o 0 + 0#_ + off A (BIAS + 128)) A.k)) 7 (load (left e τ) (τ.o 0 + 0#_ + off A (BIAS + 136)) A.k)) 0
        (τ.o 6 + -off A CC64FSZ + 0#_ + 0#_),
       l := (fill (left e τ) (load (left e τ) (τ.o 0 + 0#_ + off A (BIAS + 128)) A.k)).l,
       i := (fill (left e τ) (load (left e τ) (τ.o 0 + 0#_ + off A (BIAS + 128)) A.k)).i, wins := [], mem := left e τ },
     τ.o 2 + 0#_) := by
  simp only [exec, ontop, steps, step, get, set, upd_apply, Fin.reduceEq, if_true, if_false, left]

theorem add0 (x : W) : x + 0#(8 * A.k) = x := BitVec.add_zero x

theorem area_fctx (σ : St) (o : Nat) : σ.o 6 + -off A CC64FSZ + off A (BIAS + o) = area (fctx σ) + off A o := by
  rw [area, add_off_off, fctx, BitVec.sub_eq_add_neg]

theorem area_fctx_toNat {σ : St} {N : Nat} (h : Chain σ N) : (area (fctx σ)).toNat + CC64FSZ = (area (σ.o 6)).toNat := by
  have hb := h.below
  have h1 : area (σ.o 6) = area (fctx σ) + off A CC64FSZ := by
    simp only [area, fctx]
    rw [BitVec.add_assoc, BitVec.add_comm (off A BIAS), ← BitVec.add_assoc, BitVec.sub_add_cancel]
  have h2 : area (fctx σ) = area (σ.o 6) - off A CC64FSZ := by rw [h1, BitVec.add_sub_cancel]
  rw [h2, BitVec.toNat_sub_of_le]
  · have : (off A CC64FSZ).toNat = CC64FSZ := by decide
    omega
  · rw [BitVec.le_def]
    have : (off A CC64FSZ).toNat = CC64FSZ := by decide
    omega

theorem frame_apart {σ : St} {N : Nat} (h : Chain σ N) {x : W} (hx : Frame σ x) {n : Nat} (hn : n ≤ N) : ¬ Area σ n x := by
  refine inR_apart ?_ (h.toUp.le_top hn) hx
  rw [area_fctx_toNat h]
  cases n with
  | zero => exact Nat.le_refl _
  | succ n =>
    have h1 := h.toUp.lt (Nat.succ_pos n) hn
    exact Nat.le_trans (Nat.le_add_right _ _) h1

theorem slot_frame (σ : St) {o : Nat} (ho : o + 8 ≤ CC64FSZ) {x : W} (hx : InR x (area (fctx σ) + off A o) A.k) : Frame σ x :=
  inR_off hx ho (by decide)

theorem left_writes (e : Env) (σ : St) (a : W) (h : left e σ a ≠ σ.mem a) : Writes σ a := by
  apply Classical.byContradiction
  intro hw
  simp only [Writes, not_or, not_exists, not_and] at hw
  apply h
  simp only [left, area_fctx]
  rw [spillFrom_out, store_out (fun hh => hw.1 (slot_frame σ (by decide) hh)), store_out (fun hh => hw.1 (slot_frame σ (by decide) hh)), spillFrom_out]
  · intro j hj hh
    exact hw.2 (j + 1) hj hh
  · intro j hj hh
    refine hw.2 j ?_ ?_
    · simp only [List.length_cons, List.length_take] at hj; omega
    · have h2 : (⟨σ.l, σ.i⟩ :: σ.wins.take e.room : List Win) = (⟨σ.l, σ.i⟩ :: σ.wins).take (e.room + 1) := rfl
      rw [h2] at hj hh
      rw [win_cached (m := σ.mem) _ _ _ _ hj] at hh
      exact hh

theorem left_facts (e : Env) {σ : St} {N : Nat} (h : Chain σ N) :
    load (left e σ) (area (fctx σ) + off A 128) A.k = σ.o 6 ∧ load (left e σ) (area (fctx σ) + off A 136) A.k = σ.o 7 ∧
    ∀ n ≤ N, win (left e σ) (σ.o 6) [] n = act σ n := by
  have hlen : (σ.wins.take e.room).length ≤ N := by
    have := h.cached; simp only [List.length_take]; omega
  obtain ⟨m1, hm1⟩ : ∃ m1, m1 = spillFrom σ.mem e.room (σ.i 6) σ.wins := ⟨_, rfl⟩
  have h1 : ∀ n ≤ N, win m1 (σ.o 6) (⟨σ.l, σ.i⟩ :: σ.wins.take e.room) n = act σ n := fun n hn => by
    rw [hm1]
    exact spillFrom_win (⟨σ.l, σ.i⟩ :: σ.wins) σ.mem (σ.o 6) (e.room + 1) N n h.toUp (by have := h.cached; simpa using this) hn
  obtain ⟨m2, hm2⟩ : ∃ m2, m2 = store (store m1 (area (fctx σ) + off A 128) A.k (σ.o 6)) (area (fctx σ) + off A 136) A.k (σ.o 7) := ⟨_, rfl⟩
  have hl : left e σ = spillFrom m2 0 (σ.o 6) (⟨σ.l, σ.i⟩ :: σ.wins.take e.room) := by
    rw [hm2, hm1]; simp only [left, area_fctx]
  have h2 : ∀ n ≤ N, win m2 (σ.o 6) (⟨σ.l, σ.i⟩ :: σ.wins.take e.room) n = act σ n := fun n hn => by
    rw [win_congr n _ _ (m := m1), h1 n hn]
    intro j hj x hx
    rw [h1 j (by omega)] at hx
    rw [hm2, store_out, store_out]
    · exact fun hh => frame_apart h (slot_frame σ (by decide) hh) (Nat.le_trans hj hn) hx
    · exact fun hh => frame_apart h (slot_frame σ (by decide) hh) (Nat.le_trans hj hn) hx
  have hup : Up m2 (σ.o 6) (⟨σ.l, σ.i⟩ :: σ.wins.take e.room) N := by
    refine ⟨fun n hn => ?_, ?_⟩
    · rw [h2 n (by omega), h2 (n + 1) (by omega)]; exact h.up n hn
    · rw [h2 N (Nat.le_refl _)]; exact h.top
  have hfr : ∀ x, Frame σ x → left e σ x = m2 x := fun x hx => by
    rw [hl]
    apply spillFrom_out
    intro j hj hh
    have : j ≤ N := by simp only [List.length_cons] at hj; omega
    rw [h2 j this] at hh
    exact frame_apart h hx this hh
  refine ⟨?_, ?_, fun n hn => ?_⟩
  · rw [load_congr (m' := m2) (by decide) fun x hx => hfr x (slot_frame σ (by decide) hx), hm2,
      load_store_off (by decide) (by decide) (by decide), load_store_same _ _ _ _ (by decide)]
  · rw [load_congr (m' := m2) (by decide) fun x hx => hfr x (slot_frame σ (by decide) hx), hm2, load_store_same _ _ _ _ (by decide)]
  · rw [hl, ← h2 n hn]
    have := spillFrom_win (⟨σ.l, σ.i⟩ :: σ.wins.take e.room) m2 (σ.o 6) 0 N n hup (by simpa using hlen) hn
    simpa using this

theorem left_eq {e : Env} {σ : St} {m : Mem A} (h : Left e σ m) : m = left e σ := by
  rcases h with h | h
  · rw [exec_jump] at h; exact h.symm
  · rw [exec_ontop] at h; exact h.symm

/-- what the call with entry state `τ` finds when it has switched to the context suspended by `σ` -/
theorem found {e e' : Env} {σ τ : St} {m : Mem A} {N : Nat} (hL : Left e σ m) (hC : Chain σ N) (hI : Intact σ N m τ) :
    load (left e' τ) (area (fctx σ) + off A 128) A.k = σ.o 6 ∧ load (left e' τ) (area (fctx σ) + off A 136) A.k = σ.o 7 ∧
    ∀ n ≤ N, win (left e' τ) (σ.o 6) [] n = act σ n := by
  have hm := left_eq hL
  subst hm
  obtain ⟨f1, f2, f3⟩ := left_facts e hC
  have hk : ∀ a, Keep σ N a → left e' τ a = left e σ a := fun a ha => by
    rw [← hI.mem a ha]
    exact Classical.byContradiction fun hh => hI.apart a ha (left_writes e' τ a hh)
  refine ⟨?_, ?_, fun n hn => ?_⟩
  · rw [← f1]; exact load_congr (by decide) fun x hx => hk x (.inl (slot_frame σ (by decide) hx))
  · rw [← f2]; exact load_congr (by decide) fun x hx => hk x (.inl (slot_frame σ (by decide) hx))
  · rw [win_congr n _ _ (m := left e σ), f3 n hn]
    intro j hj x hx
    rw [f3 j (by omega)] at hx
    exact hk x (.inr ⟨j, by omega, hx⟩)

theorem win_fill (m : Mem A) (p : W) (n : Nat) : win m p [fill m p] n = win m p [] n := by cases n <;> rfl

/-! ## The property -/

/-- **C39, switching away and back.** A context suspended by a call `σ` of `jump_fcontext` or `ontop_fcontext` is resumed by any later
`jump_fcontext(fctx σ, data)` right behind the call (a SPARC call leaves the address of the call instruction in `%o7`), with the stack pointer, the local and
in registers, and those of all its callers (to any depth), as before; the result is `{fctx of the resuming context, data}`; only the frame
of the resuming call and the save areas of its own activations are written. -/
theorem C39_sparc64_jump {e e' : Env} {σ τ : St} {m : Mem A} {N : Nat} (hL : Left e σ m) (hC : Chain σ N) (hI : Intact σ N m τ)
    (hτ : τ.o 0 = fctx σ) :
    let r := exec e' jump τ
    r.2 = σ.o 7 + off A 8 ∧ r.1.o 6 = σ.o 6 ∧ r.1.l = σ.l ∧ r.1.i = σ.i ∧ (∀ n ≤ N, act r.1 n = act σ n) ∧
    r.1.o 0 = fctx τ ∧ r.1.o 1 = τ.o 1 ∧ r.1.g = τ.g ∧ ∀ a, r.1.mem a ≠ τ.mem a → Writes τ a := by
  obtain ⟨f1, f2, f3⟩ := found (e' := e') hL hC hI
  have ha : ∀ o, τ.o 0 + 0#_ + off A (BIAS + o) = area (fctx σ) + off A o := fun o => by
    rw [hτ, area, add_off_off, add0]
  have h0 : τ.o 6 + -off A CC64FSZ + 0#_ + 0#_ = fctx τ := by
    rw [fctx, BitVec.sub_eq_add_neg, add0, add0]
  simp only [exec_jump, ha, f1, f2, h0]
  have hw := f3 0 (Nat.zero_le _)
  simp only [win, act, Prod.mk.injEq, true_and] at hw
  refine ⟨trivial, rfl, by rw [hw], by rw [hw], fun n hn => ?_, rfl, rfl, trivial, fun a h => left_writes e' τ a h⟩
  rw [← f3 n hn, ← win_fill]
  rfl

/-- **C39, on-top calls.** Any later `ontop_fcontext(fctx σ, data, fn)` enters `fn` on the stack of the suspended context, with argument
`{fctx of the resuming context, data}`, and with stack pointer, local and in registers (of all activations) and return address of the suspended call `σ`: a
`fn` that returns as the ABI demands returns its result from the suspended call. -/
theorem C39_sparc64_ontop {e e' : Env} {σ τ : St} {m : Mem A} {N : Nat} (hL : Left e σ m) (hC : Chain σ N) (hI : Intact σ N m τ)
    (hτ : τ.o 0 = fctx σ) :
    let r := exec e' ontop τ
    r.2 = τ.o 2 ∧ r.1.o 7 = σ.o 7 ∧ r.1.o 6 = σ.o 6 ∧ r.1.l = σ.l ∧ r.1.i = σ.i ∧ (∀ n ≤ N, act r.1 n = act σ n) ∧
    r.1.o 0 = fctx τ ∧ r.1.o 1 = τ.o 1 ∧ r.1.g = τ.g ∧ ∀ a, r.1.mem a ≠ τ.mem a → Writes τ a := by
  obtain ⟨f1, f2, f3⟩ := found (e' := e') hL hC hI
  have ha : ∀ o, τ.o 0 + 0#_ + off A (BIAS + o) = area (fctx σ) + off A o := fun o => by
    rw [hτ, area, add_off_off, add0]
  have h0 : τ.o 6 + -off A CC64FSZ + 0#_ + 0#_ = fctx τ := by
    rw [fctx, BitVec.sub_eq_add_neg, add0, add0]
  simp only [exec_ontop, ha, f1, f2, h0]
  have hw := f3 0 (Nat.zero_le _)
  simp only [win, act, Prod.mk.injEq, true_and] at hw
  refine ⟨add0 _, rfl, rfl, by rw [hw], by rw [hw], fun n hn => ?_, rfl, rfl, trivial, fun a h => left_writes e' τ a h⟩
  rw [← f3 n hn, ← win_fill]
  rfl

/-! ## New contexts -/

/-- what `make_fcontext` takes for the 16 byte boundary below `top` (make line 26) -/
def below (top : W) : W := top &&& -off A 0xf

/-- start of the data of the new context -/
def cdata (σ : St) : W := below (σ.o 0) + -off A (2 * CC64FSZ)

def made (e : Env) (σ : St) : Mem A :=
  store (store (store (store (spillFrom σ.mem e.room (σ.i 6) σ.wins) (cdata σ + off A (CC64FSZ + 136)) A.k (σ.o 2))
    (cdata σ + off A (CC64FSZ + 112)) A.k 0#_) (cdata σ + off A 136) A.k (e.one + (e.tramp - e.one - off A 8)))
    (cdata σ + off A 128) A.k (cdata σ + (off A CC64FSZ - off A BIAS))

theorem exec_make (e : Env) (σ : St) : exec e make σ =
    ({ g := σ.g, o := upd (upd (upd σ.o 0 (σ.o 0 &&& -off A 0xf)) 0 (cdata σ)) 0 (cdata σ + -off A BIAS), l := σ.l, i := σ.i, wins := σ.wins.take e.room,
       mem := made e σ }, σ.o 7 + off A 8) := by
  simp only [exec, make, steps, step, get, set, upd_apply, Fin.reduceEq, if_true, if_false, made, cdata, below]

theorem exec_tramp (e : Env) (s : St) : exec e tramp s =
    ({ s with l := upd s.l 0 (load s.mem (s.o 6 + off A (BIAS + 136)) A.k), o := upd s.o 7 (e.tramp + off A 4) },
      load s.mem (s.o 6 + off A (BIAS + 136)) A.k) := by
  simp only [exec, tramp, steps, step, get, set, upd_apply, Fin.reduceEq, if_true, if_false, add0]

theorem neg15 : -off A 0xf = ~~~ (off A 14) := by decide

theorem sub_below (top : W) : top - below top = top &&& off A 14 := by
  have h : below top + (top &&& off A 14) = top := by
    rw [BitVec.add_eq_or_of_and_eq_zero]
    · apply BitVec.eq_of_getLsbD_eq
      intro i hi
      simp only [below, neg15, BitVec.getLsbD_or, BitVec.getLsbD_and, BitVec.getLsbD_not, hi, decide_true, Bool.true_and]
      cases top.getLsbD i <;> cases (off A 14).getLsbD i <;> rfl
    · apply BitVec.eq_of_getLsbD_eq
      intro i hi
      simp only [below, neg15, BitVec.getLsbD_and, BitVec.getLsbD_not, hi, decide_true, Bool.true_and]
      cases top.getLsbD i <;> cases (off A 14).getLsbD i <;> simp
  rw [← h]
  rw [show below (below top + (top &&& off A 14)) = below top by rw [h]]
  rw [BitVec.add_comm, BitVec.add_sub_cancel]
  rw [BitVec.add_comm, h]

theorem sub_below_le (top : W) : (top - below top).toNat ≤ 14 := by
  rw [sub_below, BitVec.toNat_and]
  exact Nat.le_trans Nat.and_le_right (by decide)

theorem below_even {top : W} (h : top.toNat % 2 = 0) : (below top).toNat % 16 = 0 := by
  have : below top = top &&& mask A 4 := by
    apply BitVec.eq_of_getLsbD_eq
    intro i hi
    simp only [below, neg15, mask, BitVec.getLsbD_and, BitVec.getLsbD_not, hi, decide_true, Bool.true_and]
    cases i with
    | zero =>
      have : top.getLsbD 0 = false := by
        rw [BitVec.getLsbD, Nat.testBit_zero]; simp [h]
      rw [this]; rfl
    | succ i =>
      congr 2
      have h1 : (off A 14).getLsbD (i + 1) = ((14 : Nat)).testBit (i + 1) := by
        simp only [off, BitVec.getLsbD_ofNat, hi, decide_true, Bool.true_and]
      have h2 : (BitVec.ofNat (8 * A.k) (2 ^ 4 - 1)).getLsbD (i + 1) = ((15 : Nat)).testBit (i + 1) := by
        simp only [BitVec.getLsbD_ofNat, hi, decide_true, Bool.true_and]
      rw [h1, h2, Nat.testBit_succ, Nat.testBit_succ]
  rw [this, and_mask_toNat]
  have := Nat.div_add_mod top.toNat 16
  omega

theorem below_odd {top : W} (h : top.toNat % 2 = 1) : (below top).toNat % 2 = 1 := by
  have h1 : (below top).getLsbD 0 = true := by
    have h0 : top.getLsbD 0 = true := by rw [BitVec.getLsbD, Nat.testBit_zero]; simp [h]
    simp only [below, neg15, BitVec.getLsbD_and, BitVec.getLsbD_not, h0]
    decide
  rw [BitVec.getLsbD, Nat.testBit_zero] at h1
  simpa using h1

theorem area_res (σ : St) : area (cdata σ + -off A BIAS) = cdata σ := by
  rw [area, ← BitVec.sub_eq_add_neg, BitVec.sub_add_cancel]

/-- the data of the new context -/
def CData (σ : St) (a : W) : Prop := InR a (cdata σ) (2 * CC64FSZ)

theorem made_out (e : Env) (σ : St) {a : W} (h : ¬ CData σ a) : made e σ a = spillFrom σ.mem e.room (σ.i 6) σ.wins a := by
  simp only [made]
  rw [store_out, store_out, store_out, store_out]
  all_goals exact fun hh => h (inR_off hh (by decide) (by decide))

theorem made_slots (e : Env) (σ : St) :
    load (made e σ) (cdata σ + off A 128) A.k = cdata σ + (off A CC64FSZ - off A BIAS) ∧
    load (made e σ) (cdata σ + off A 136) A.k = e.tramp - off A 8 ∧
    load (made e σ) (cdata σ + off A (CC64FSZ + 112)) A.k = 0#_ ∧
    load (made e σ) (cdata σ + off A (CC64FSZ + 136)) A.k = σ.o 2 := by
  simp only [made]
  refine ⟨?_, ?_, ?_, ?_⟩
  · rw [load_store_same _ _ _ _ (by decide)]
  · rw [load_store_off (by decide) (by decide) (by decide), load_store_same _ _ _ _ (by decide)]
    generalize e.tramp = t
    generalize e.one = o
    generalize off A 8 = v
    rw [BitVec.sub_eq_add_neg, BitVec.sub_eq_add_neg t o, BitVec.add_comm t, BitVec.add_assoc, ← BitVec.add_assoc, ← BitVec.sub_eq_add_neg o,
      BitVec.sub_self, BitVec.zero_add, BitVec.sub_eq_add_neg]
  · rw [load_store_off (by decide) (by decide) (by decide), load_store_off (by decide) (by decide) (by decide), load_store_same _ _ _ _ (by decide)]
  · rw [load_store_off (by decide) (by decide) (by decide), load_store_off (by decide) (by decide) (by decide), load_store_off (by decide) (by decide) (by decide),
      load_store_same _ _ _ _ (by decide)]

/-- **C39, `make_fcontext(top, size, fn)`** returns to its caller, with stack pointer and the local and in registers of all activations as before, a
context whose data ends at `top`, rounded down by at most 14 bytes; it writes only that data and save areas of callers. -/
theorem C39_sparc64_make {e : Env} {σ : St} {N : Nat} (hC : Chain σ N) (hd : ∀ a, CData σ a → ∀ n ≤ N, ¬ Area σ n a) :
    let r := exec e make σ
    r.2 = σ.o 7 + off A 8 ∧ r.1.o 6 = σ.o 6 ∧ r.1.l = σ.l ∧ r.1.i = σ.i ∧ (∀ n ≤ N, act r.1 n = act σ n) ∧ r.1.g = σ.g ∧
    2 * CC64FSZ ≤ (σ.o 0 - area (r.1.o 0)).toNat ∧ (σ.o 0 - area (r.1.o 0)).toNat ≤ 2 * CC64FSZ + 14 ∧
    ∀ a, r.1.mem a ≠ σ.mem a → InR a (area (r.1.o 0)) (2 * CC64FSZ) ∨ ∃ n, n ≤ σ.wins.length ∧ Area σ n a := by
  simp only [exec_make]
  have hlen : (σ.wins.take e.room).length ≤ N := by
    have := hC.cached; simp only [List.length_take]; omega
  have hsz : (σ.o 0 - cdata σ).toNat = (σ.o 0 - below (σ.o 0)).toNat + 2 * CC64FSZ := by
    have h1 : σ.o 0 - cdata σ = (σ.o 0 - below (σ.o 0)) + off A (2 * CC64FSZ) := by
      rw [cdata, ← BitVec.sub_eq_add_neg]
      generalize off A (2 * CC64FSZ) = v
      generalize below (σ.o 0) = b
      rw [BitVec.sub_eq_add_neg, BitVec.sub_eq_add_neg b, BitVec.neg_add, BitVec.sub_eq_add_neg, BitVec.neg_neg, ← BitVec.add_assoc, ← BitVec.sub_eq_add_neg]
    rw [h1, BitVec.toNat_add]
    have h2 := sub_below_le (σ.o 0)
    have h3 : (off A (2 * CC64FSZ)).toNat = 2 * CC64FSZ := by decide
    rw [h3]
    apply Nat.mod_eq_of_lt
    show _ < 2 ^ (8 * 8)
    simp only [CC64FSZ]; omega
  have hres : ∀ f : Fin 8 → W, area (upd f 0 (cdata σ + -off A BIAS) 0) = cdata σ := fun f => by
    rw [upd_apply, if_pos rfl, area_res]
  simp only [hres, hsz]
  refine ⟨trivial, rfl, trivial, trivial, fun n hn => ?_, trivial, by omega, by have := sub_below_le (σ.o 0); omega, fun a ha => ?_⟩
  · have h1 := spillFrom_win (⟨σ.l, σ.i⟩ :: σ.wins) σ.mem (σ.o 6) (e.room + 1) N
    have h2 : ∀ n ≤ N, win (spillFrom σ.mem e.room (σ.i 6) σ.wins) (σ.o 6) (⟨σ.l, σ.i⟩ :: σ.wins.take e.room) n = act σ n := fun n hn =>
      h1 n hC.toUp (by have := hC.cached; simpa using this) hn
    rw [← h2 n hn]
    show win (made e σ) (σ.o 6) (⟨σ.l, σ.i⟩ :: σ.wins.take e.room) n = _
    apply win_congr
    intro j hj x hx
    rw [h2 j (by omega)] at hx
    exact made_out e σ fun hh => hd x hh j (by omega) hx
  · by_cases hc : CData σ a
    · exact .inl hc
    · refine .inr (Classical.byContradiction fun hno => ha ?_)
      simp only [not_exists, not_and] at hno
      rw [made_out e σ hc]
      apply spillFrom_out
      intro j hj hh
      exact hno (j + 1) hj hh

/-- **C39, the first activation** of a context made by `σ`, by any later `jump_fcontext(c, data)` with entry state `τ`: control goes to the trampoline, and from there
to `fn`, with argument `{fctx of the resuming context, data}` and the instruction `call _exit` (12 bytes behind the trampoline) as return address; the stack
pointer lies inside the data of the context, `CC64FSZ` bytes below its end; the chain of frame pointers ends there. -/
theorem C39_sparc64_enter {e e' : Env} {σ τ : St} (hτ : τ.o 0 = (exec e make σ).1.o 0)
    (hm : ∀ a, CData σ a → τ.mem a = (exec e make σ).1.mem a) (ha : ∀ a, CData σ a → ¬ Writes τ a) :
    let j := exec e' jump τ
    let r := exec e tramp j.1
    j.2 = e.tramp ∧ r.2 = σ.o 2 ∧ r.1.o 0 = fctx τ ∧ r.1.o 1 = τ.o 1 ∧ r.1.o 7 + off A 8 = e.tramp + off A 12 ∧ r.1.i 6 = 0#_ ∧
    area (r.1.o 6) = area (τ.o 0) + off A CC64FSZ ∧ (σ.o 0 - area (r.1.o 6)).toNat ≤ CC64FSZ + 14 ∧ CC64FSZ ≤ (σ.o 0 - area (r.1.o 6)).toNat ∧
    (∀ a, r.1.mem a ≠ τ.mem a → Writes τ a) := by
  have hm : ∀ a, CData σ a → τ.mem a = made e σ a := fun a h => by have := hm a h; rw [exec_make] at this; exact this
  have hτ' : τ.o 0 = cdata σ + -off A BIAS := by rw [hτ, exec_make]; simp only [upd_apply, if_pos]
  have hk : ∀ a, CData σ a → left e' τ a = made e σ a := fun a h => by
    rw [← hm a h]
    exact Classical.byContradiction fun hh => ha a h (left_writes e' τ a hh)
  have hl : ∀ o, o + 8 ≤ 2 * CC64FSZ → load (left e' τ) (cdata σ + off A o) A.k = load (made e σ) (cdata σ + off A o) A.k := fun o ho =>
    load_congr (by decide) fun x hx => hk x (inR_off hx ho (by decide))
  obtain ⟨s1, s2, s3, s4⟩ := made_slots e σ
  have ha : ∀ o, τ.o 0 + 0#_ + off A (BIAS + o) = cdata σ + off A o := fun o => by
    rw [hτ', add0, ← add_off_off, ← BitVec.sub_eq_add_neg, BitVec.sub_add_cancel]
  have h0 : τ.o 6 + -off A CC64FSZ + 0#_ + 0#_ = fctx τ := by
    rw [fctx, BitVec.sub_eq_add_neg, add0, add0]
  have hsp : ∀ o, cdata σ + (off A CC64FSZ - off A BIAS) + off A (BIAS + o) = cdata σ + off A (CC64FSZ + o) := fun o => by
    rw [← add_off_off, ← add_off_off, BitVec.add_assoc (cdata σ), BitVec.sub_add_cancel]
  have hsp0 : area (cdata σ + (off A CC64FSZ - off A BIAS)) = cdata σ + off A CC64FSZ := hsp 0
  have hi6 : (fill (left e' τ) (cdata σ + (off A CC64FSZ - off A BIAS))).i 6 = 0#_ := by
    have : (fill (left e' τ) (cdata σ + (off A CC64FSZ - off A BIAS))).i 6 =
        load (left e' τ) (area (cdata σ + (off A CC64FSZ - off A BIAS)) + off A (64 + 8 * 6)) A.k := rfl
    rw [this, hsp0, add_off_off]
    exact (hl _ (by decide)).trans s3
  have hj : exec e' jump τ = _ := exec_jump e' τ
  simp only [ha, hl 128 (by decide), hl 136 (by decide), s1, s2, h0] at hj
  simp only [hj, exec_tramp, upd_apply, Fin.reduceEq, if_true, if_false, hsp, hl (CC64FSZ + 136) (by decide), s4, hi6, hsp0]
  have h4 : σ.o 0 - (cdata σ + off A CC64FSZ) = (σ.o 0 - below (σ.o 0)) + off A CC64FSZ := by
    have : off A (2 * CC64FSZ) = off A CC64FSZ + off A CC64FSZ := by decide
    rw [cdata, this]
    generalize off A CC64FSZ = v
    generalize below (σ.o 0) = b
    generalize σ.o 0 = x
    rw [BitVec.neg_add, BitVec.sub_eq_add_neg (-v), ← BitVec.add_assoc, BitVec.add_assoc (b + -v), BitVec.add_comm (-v) v, ← BitVec.sub_eq_add_neg v, BitVec.sub_self,
      add0]
    rw [BitVec.sub_eq_add_neg, BitVec.neg_add, BitVec.sub_eq_add_neg (-b), BitVec.neg_neg, ← BitVec.add_assoc, ← BitVec.sub_eq_add_neg]
  have h5 : (σ.o 0 - below (σ.o 0) + off A CC64FSZ).toNat = (σ.o 0 - below (σ.o 0)).toNat + CC64FSZ := by
    rw [BitVec.toNat_add]
    have h2 := sub_below_le (σ.o 0)
    have h3 : (off A CC64FSZ).toNat = CC64FSZ := by decide
    rw [h3]
    apply Nat.mod_eq_of_lt
    show _ < 2 ^ (8 * 8)
    simp only [CC64FSZ]; omega
  rw [h4, h5]
  refine ⟨BitVec.sub_add_cancel _ _, trivial, trivial, trivial, add_off_off .., trivial, ?_, by have := sub_below_le (σ.o 0); omega, by omega, fun a h => left_writes e' τ a h⟩
  rw [hτ', area_res]

/-- **C39, alignment.** The stack pointer with which `fn` is entered is aligned as the ABI demands (`%sp + BIAS` is a multiple of 16), if `top` is even. -/
theorem C39_sparc64_aligned {e e' : Env} {σ τ : St} (hτ : τ.o 0 = (exec e make σ).1.o 0)
    (hm : ∀ a, CData σ a → τ.mem a = (exec e make σ).1.mem a) (ha : ∀ a, CData σ a → ¬ Writes τ a) (ht : (σ.o 0).toNat % 2 = 0) :
    (area ((exec e tramp (exec e' jump τ).1).1.o 6)).toNat % 16 = 0 := by
  have h := (C39_sparc64_enter (e' := e') hτ hm ha).2.2.2.2.2.2.1
  rw [h]
  have : area (τ.o 0) = cdata σ := by rw [hτ, exec_make]; simp only [upd_apply, if_pos, area_res]
  rw [this, cdata, BitVec.toNat_add, BitVec.toNat_add]
  have h1 := below_even ht
  have h2 : (-off A (2 * CC64FSZ)).toNat = 2 ^ 64 - 352 := by decide
  have h3 : (off A CC64FSZ).toNat = 176 := by decide
  rw [h2, h3]
  have h4 : 2 ^ (8 * A.k) = 2 ^ 64 := rfl
  rw [h4]
  omega

/-- **C39, a defect.** Line 26 of make_sparc64 masks with `-0xf` instead of `-0x10`: if `top` is odd, the stack pointer of the new context is odd too (the
library itself passes only multiples of 256, C41). -/
theorem C39_sparc64_misaligned {e e' : Env} {σ τ : St} (hτ : τ.o 0 = (exec e make σ).1.o 0)
    (hm : ∀ a, CData σ a → τ.mem a = (exec e make σ).1.mem a) (ha : ∀ a, CData σ a → ¬ Writes τ a) (ht : (σ.o 0).toNat % 2 = 1) :
    (area ((exec e tramp (exec e' jump τ).1).1.o 6)).toNat % 16 ≠ 0 := by
  have h := (C39_sparc64_enter (e' := e') hτ hm ha).2.2.2.2.2.2.1
  rw [h]
  have : area (τ.o 0) = cdata σ := by rw [hτ, exec_make]; simp only [upd_apply, if_pos, area_res]
  rw [this, cdata, BitVec.toNat_add, BitVec.toNat_add]
  have h1 := below_odd ht
  have h2 : (-off A (2 * CC64FSZ)).toNat = 2 ^ 64 - 352 := by decide
  have h3 : (off A CC64FSZ).toNat = 176 := by decide
  rw [h2, h3]
  have h4 : 2 ^ (8 * A.k) = 2 ^ 64 := rfl
  rw [h4]
  omega

/-! ## The hypotheses can be met -/

/-- an activation at `0x10000` with two callers at `0x20000` (in the register file) and `0x30000` (in memory) -/
def exσ : St where
  g := fun _ => 0#_
  o := fun n => if n = 6 then 0x10000#_ else if n = 0 then 0x8002#_ else 7#_
  l := fun _ => 11#_
  i := fun n => if n = 6 then 0x20000#_ else 12#_
  wins := [⟨fun _ => 13#_, fun n => if n = 6 then 0x30000#_ else 14#_⟩]
  mem := fun _ => 0#_

/-- an activation on another stack that switches back to it -/
def exτ (f : W) (m : Mem A) : St where
  g := fun _ => 0#_
  o := fun n => if n = 6 then 0x50000#_ else if n = 0 then f else 21#_
  l := fun _ => 22#_
  i := fun _ => 23#_
  wins := []
  mem := m

theorem exτ_o0 (f : W) (m : Mem A) : (exτ f m).o 0 = f := rfl
theorem exτ_mem (f : W) (m : Mem A) : (exτ f m).mem = m := rfl
theorem exτ_l0 (f : W) (m : Mem A) : (exτ f m).l 0 = 22#_ := rfl

theorem exσ_act : (act exσ 0).1 = 0x10000#_ ∧ (act exσ 1).1 = 0x20000#_ ∧ (act exσ 2).1 = 0x30000#_ := ⟨rfl, rfl, rfl⟩

theorem exσ_chain : Chain exσ 2 := by
  refine ⟨by decide, by decide, fun n hn => ?_, ?_⟩
  · obtain ⟨h0, h1, h2⟩ := exσ_act
    match n, hn with
    | 0, _ => rw [h0, h1]; decide
    | 1, _ => rw [h1, h2]; decide
  · rw [exσ_act.2.2]; decide

theorem exτ_writes (f : W) (m : Mem A) {a : W} (h : Writes (exτ f m) a) : InR a (0x50000#_ + off A BIAS - off A CC64FSZ) (CC64FSZ + 128) := by
  rcases h with h | ⟨n, hn, h⟩
  · have : area (fctx (exτ f m)) = 0x50000#_ + off A BIAS - off A CC64FSZ := by
      show 0x50000#_ - off A CC64FSZ + off A BIAS = _; decide
    rw [Frame, this] at h
    exact inR_mono h (by decide)
  · have hn : n = 0 := by have : (exτ f m).wins.length = 0 := rfl; omega
    subst hn
    have : area (act (exτ f m) 0).1 = (0x50000#_ + off A BIAS - off A CC64FSZ) + off A CC64FSZ := by
      show 0x50000#_ + off A BIAS = _; decide
    rw [Area, this] at h
    exact inR_off h (by decide) (by decide)

theorem ex_intact (e : Env) : Left e exσ (exec e jump exσ).1.mem ∧ Chain exσ 2 ∧
    Intact exσ 2 (exec e jump exσ).1.mem (exτ (fctx exσ) (exec e jump exσ).1.mem) := by
  refine ⟨.inl rfl, exσ_chain, fun _ _ => by rw [exτ_mem], fun a ha hw => ?_⟩
  have hw := exτ_writes _ _ hw
  rcases ha with ha | ⟨n, hn, ha⟩
  · exact inR_apart (by decide) (by decide) ha hw
  · obtain ⟨h0, h1, h2⟩ := exσ_act
    unfold Area at ha
    rcases (by omega : n = 0 ∨ n = 1 ∨ n = 2) with rfl | rfl | rfl
    · rw [h0] at ha; exact inR_apart (by decide) (by decide) ha hw
    · rw [h1] at ha; exact inR_apart (by decide) (by decide) ha hw
    · rw [h2] at ha; exact inR_apart (by decide) (by decide) ha hw

/-- `C39_sparc64_jump`, `C39_sparc64_ontop` -/
example (e : Env) : ∃ σ τ m, Left e σ m ∧ Chain σ 2 ∧ Intact σ 2 m τ ∧ τ.o 0 = fctx σ ∧ σ.l 0 ≠ τ.l 0 ∧ σ.wins.length = 1 :=
  ⟨_, _, _, (ex_intact e).1, (ex_intact e).2.1, (ex_intact e).2.2, exτ_o0 _ _, by rw [exτ_l0]; decide, rfl⟩

/-- `C39_sparc64_make`, `C39_sparc64_enter`, `C39_sparc64_aligned`: the stack to be used ends at `0x8002` -/
example (e : Env) : Chain exσ 2 ∧ (∀ a, CData exσ a → ∀ n ≤ 2, ¬ Area exσ n a) ∧
    ∃ τ : St, τ.o 0 = (exec e make exσ).1.o 0 ∧ (∀ a, CData exσ a → τ.mem a = (exec e make exσ).1.mem a) ∧ (∀ a, CData exσ a → ¬ Writes τ a) ∧ (exσ.o 0).toNat % 2 = 0 := by
  refine ⟨exσ_chain, fun a ha n hn hh => ?_, exτ ((exec e make exσ).1.o 0) (exec e make exσ).1.mem, exτ_o0 _ _, fun _ _ => by rw [exτ_mem], fun a ha hw => ?_, by decide⟩
  · obtain ⟨h0, h1, h2⟩ := exσ_act
    unfold Area at hh
    rcases (by omega : n = 0 ∨ n = 1 ∨ n = 2) with rfl | rfl | rfl
    · rw [h0] at hh; exact inR_apart (by decide) (by decide) ha hh
    · rw [h1] at hh; exact inR_apart (by decide) (by decide) ha hh
    · rw [h2] at hh; exact inR_apart (by decide) (by decide) ha hh
  · exact inR_apart (by decide) (by decide) ha (exτ_writes _ _ hw)

/-- `C39_sparc64_misaligned`: the stack to be used ends at the odd address `0x8003` -/
example (e : Env) : ∃ σ τ : St, τ.o 0 = (exec e make σ).1.o 0 ∧ (∀ a, CData σ a → τ.mem a = (exec e make σ).1.mem a) ∧ (∀ a, CData σ a → ¬ Writes τ a) ∧
    (σ.o 0).toNat % 2 = 1 := by
  refine ⟨{ exσ with o := upd exσ.o 0 0x8003#_ }, exτ ((exec e make { exσ with o := upd exσ.o 0 0x8003#_ }).1.o 0) (exec e make { exσ with o := upd exσ.o 0 0x8003#_ }).1.mem,
    exτ_o0 _ _, fun _ _ => by rw [exτ_mem], fun a ha hw => ?_, by decide⟩
  exact inR_apart (by decide) (by decide) ha (exτ_writes _ _ hw)

end Verif.Asm.Sparc64
