import Verif.Asm.Spec

namespace Verif.Asm
variable {A : Arch}

/-- instruction that does not write memory -/
def Instr.pure : Instr A → Bool
  | .st .. => false
  | .sti .. => false
  | .fst .. => false
  | _ => true

theorem steps_pure (e : Env A) (l : List (Instr A)) (h : l.all Instr.pure = true) (s : St A) : (steps e l s).mem = s.mem := by
  induction l generalizing s with
  | nil => rfl
  | cons i l ih =>
    simp only [List.all_cons, Bool.and_eq_true] at h
    simp only [steps]
    rw [ih h.2]
    cases i <;> first | rfl | simp [Instr.pure] at h

/-- registers (of both files) an instruction may change -/
def Instr.dest : Instr A → Option (Slot A)
  | .mov d _ => some (.g d)
  | .movi d _ => some (.g d)
  | .addi d _ _ => some (.g d)
  | .andi d _ _ => some (.g d)
  | .and d _ _ => some (.g d)
  | .neg d _ => some (.g d)
  | .add d _ _ => some (.g d)
  | .sub d _ _ => some (.g d)
  | .ld d _ _ => some (.g d)
  | .st .. => none
  | .sti .. => none
  | .fld f _ _ => some (.f f)
  | .fst .. => none
  | .mfs d _ => some (.g d)
  | .mts f _ => some (.f f)
  | .mfb d _ _ _ => some (.g d)
  | .mtb f _ _ _ => some (.f f)
  | .fmov f _ => some (.f f)
  | .la d _ => some (.g d)
  | .addl d _ _ => some (.g d)

theorem steps_dest (e : Env A) (l : List (Instr A)) (x : Slot A) (h : ∀ i ∈ l, i.dest ≠ some x) (s : St A) :
    (steps e l s).get x = s.get x := by
  induction l generalizing s with
  | nil => rfl
  | cons i l ih =>
    simp only [steps]
    rw [ih (fun j hj => h j (by simp [hj]))]
    have hi := h i (by simp)
    cases x with
    | g r =>
      cases i <;> simp only [Instr.dest, ne_eq, Option.some.injEq, Slot.g.injEq, reduceCtorEq, not_false_eq_true] at hi <;>
        first | rfl | exact if_neg (Ne.symm hi)
    | f r =>
      cases i <;> simp only [Instr.dest, ne_eq, Option.some.injEq, Slot.f.injEq, reduceCtorEq, not_false_eq_true] at hi <;>
        first | rfl | exact setf_ne _ _ _ _ (Ne.symm hi)

theorem get_g (s : St A) (r : A.R) : s.get (.g r) = s.gpr r := rfl
theorem get_f (s : St A) (q : A.F) : s.get (.f q) = s.fpr q := rfl

/-- the frame at `f` in memory `m` holds the registers of `σ` -/
def Holds (σ : St A) (m : Mem A) (f : A.W) (l : List (Slot A × Nat)) : Prop :=
  ∀ x ∈ l, load m (f + off A x.2) x.1.size = σ.get x.1

theorem Holds.congr {σ : St A} {m m' : Mem A} {f : A.W} {l : List (Slot A × Nat)} {N : Nat} (h : Holds σ m f l) (hl : ∀ x ∈ l, x.2 + x.1.size ≤ N)
    (hN : N ≤ 2 ^ (8 * A.k)) (hm : ∀ a, InR a f N → m' a = m a) : Holds σ m' f l := by
  intro x hx
  rw [← h x hx]
  have := hl x hx
  exact load_congr (by omega) fun a ha => hm a (inR_off ha this hN)

theorem Holds.imp {σ σ' : St A} {m : Mem A} {f : A.W} {l : List (Slot A × Nat)} (h : Holds σ m f l) (hl : ∀ x ∈ l, σ'.get x.1 = σ.get x.1) :
    Holds σ' m f l := fun x hx => by rw [hl x hx]; exact h x hx

theorem sub_add_off (a : A.W) (n : Nat) : a - off A n + off A n = a := BitVec.sub_add_cancel _ _

theorem add_off_off (a : A.W) (n n' : Nat) : a + off A n + off A n' = a + off A (n + n') := by
  simp only [off, BitVec.ofNat_add, BitVec.add_assoc]

theorem steps_cons (e : Env A) (i : Instr A) (l : List (Instr A)) (s : St A) : steps e (i :: l) s = steps e l (step e s i) := rfl
theorem steps_nil (e : Env A) (s : St A) : steps e [] s = s := rfl

/-- load from a frame after agreement -/
theorem load_agree {m m' : Mem A} {f : A.W} {o n N : Nat} (h : ∀ a, InR a f N → m' a = m a) (hn : o + n ≤ N) (hN : N ≤ 2 ^ (8 * A.k)) :
    load m' (f + off A o) n = load m (f + off A o) n :=
  load_congr (by omega) fun a ha => h a (inR_off ha hn hN)

/-- The common save phase: allocate `fr` bytes of stack, then save. -/
theorem save_phase (e : Env A) (sp : A.R) (l : List (Slot A × Nat)) (fr : Nat) (hl : Fits A fr l) (hN : fr ≤ 2 ^ (8 * A.k))
    (hsp : ∀ x ∈ l, x.1 ≠ .g sp) (σ : St A) :
    ∃ m, steps e (.addi sp sp (-off A fr) :: saves sp l) σ = { setg σ sp (σ.gpr sp - off A fr) with mem := m } ∧
      (∀ a, ¬ InR a (σ.gpr sp - off A fr) fr → m a = σ.mem a) ∧ Holds σ m (σ.gpr sp - off A fr) l := by
  obtain ⟨m, h1, h2, -, h4⟩ := steps_saves e sp l fr hl hN (setg σ sp (σ.gpr sp - off A fr))
  have hs : (setg σ sp (σ.gpr sp - off A fr)).gpr sp = σ.gpr sp - off A fr := by simp [setg]
  rw [hs] at h2 h4
  refine ⟨m, ?_, h2, ?_⟩
  · rw [steps_cons, ← h1]
    simp only [step, ← BitVec.sub_eq_add_neg]
  · intro x hx
    rw [h4 x hx]
    have := hsp x hx
    cases hx1 : x.1 with
    | g r => rw [hx1] at this; have : r ≠ sp := fun h => this (by rw [h]); exact if_neg this
    | f q => rfl

end Verif.Asm

namespace Verif.Asm
variable {A : Arch}

/-- mask that clears the low `n` bits -/
def mask (A : Arch) (n : Nat) : A.W := ~~~ BitVec.ofNat (8 * A.k) (2 ^ n - 1)

theorem and_mask_toNat (x : A.W) (n : Nat) : (x &&& mask A n).toNat = x.toNat - x.toNat % 2 ^ n := by
  have h : x &&& mask A n = (x >>> n) <<< n := by
    apply BitVec.eq_of_getLsbD_eq
    intro i hi
    simp only [mask, BitVec.getLsbD_and, BitVec.getLsbD_not, BitVec.getLsbD_ofNat, Nat.testBit_two_pow_sub_one, hi, decide_true, Bool.true_and,
      BitVec.getLsbD_shiftLeft, BitVec.getLsbD_ushiftRight]
    by_cases hn : i < n
    · simp [hn]
    · simp [hn]
      have : n + (i - n) = i := by omega
      rw [this]
  rw [h, BitVec.toNat_shiftLeft, BitVec.toNat_ushiftRight, Nat.shiftLeft_eq, Nat.shiftRight_eq_div_pow]
  have h1 := Nat.div_add_mod x.toNat (2 ^ n)
  rw [Nat.mul_comm] at h1
  rw [Nat.mod_eq_of_lt]
  · omega
  · exact Nat.lt_of_le_of_lt (by omega) x.isLt

/-- Context data of `n` bytes placed below `top` rounded down to a multiple of `2^j`. -/
theorem align_below (top : A.W) (n j : Nat) (hn : n + 2 ^ j ≤ 2 ^ (8 * A.k)) :
    (top - ((top &&& mask A j) - off A n)).toNat = n + top.toNat % 2 ^ j := by
  have h0 := and_mask_toNat top j
  have h1 : top.toNat % 2 ^ j < 2 ^ j := Nat.mod_lt _ (Nat.two_pow_pos j)
  have h2 : top.toNat % 2 ^ j ≤ top.toNat := Nat.mod_le _ _
  have h3 := top.isLt
  have h4 : top - ((top &&& mask A j) - off A n) = (top - (top &&& mask A j)) + off A n := by
    rw [BitVec.sub_eq_add_neg, BitVec.neg_sub, BitVec.sub_eq_add_neg top]
    ac_rfl
  rw [h4, BitVec.toNat_add, BitVec.toNat_sub_of_le (by rw [BitVec.le_def, h0]; omega), h0, off, BitVec.toNat_ofNat, Nat.mod_eq_of_lt (a := n) (by omega)]
  rw [Nat.mod_eq_of_lt (by omega)]
  omega

end Verif.Asm

namespace Verif.Asm
variable {A : Arch}

/-- state `s` after the common switching phase started in `τ` -/
def SwitchFacts (sp t a0 : A.R) (LS L : List (Slot A × Nat)) (fr keep : Nat) (τ s : St A) : Prop :=
    s.gpr sp = τ.gpr a0 ∧ s.gpr t = τ.gpr sp - off A fr ∧
    (∀ x, x ≠ .g sp → x ≠ .g t → x ∉ L.map (·.1) → s.get x = τ.get x) ∧
    (∀ a, ¬ InR a (τ.gpr sp - off A fr) fr → s.mem a = τ.mem a) ∧
    (∀ y ∈ L, s.get y.1 = load τ.mem (τ.gpr a0 + off A y.2) y.1.size) ∧
    (∀ o n, o + n ≤ keep → load s.mem (τ.gpr a0 + off A o) n = load τ.mem (τ.gpr a0 + off A o) n) ∧
    Holds τ s.mem (τ.gpr sp - off A fr) LS

/-- The common switching phase: save, remember the own stack pointer in `t`, take the stack pointer from `a0`, load. -/
theorem switch_facts (e : Env A) (sp t a0 : A.R) (LS L : List (Slot A × Nat)) (fr keep : Nat) (hf : Fits A fr LS) (hN : fr ≤ 2 ^ (8 * A.k))
    (hK : keep ≤ 2 ^ (8 * A.k)) (h1 : ∀ x ∈ LS, x.1 ≠ .g sp) (h2 : ∀ x ∈ L, x.1 ≠ .g sp) (h3 : (L.map (·.1)).Nodup)
    (h4 : ∀ x ∈ L, x.2 + x.1.size ≤ keep) (h5 : t ≠ sp) (h6 : a0 ≠ sp) (h7 : a0 ≠ t) (h8 : .g t ∉ L.map (·.1)) (τ s : St A)
    (hs : s = steps e (loads sp L) (steps e [.mov t sp, .mov sp a0] (steps e (.addi sp sp (-off A fr) :: saves sp LS) τ)))
    (hd : ∀ a, InR a (τ.gpr a0) keep → ¬ InR a (τ.gpr sp - off A fr) fr) :
    SwitchFacts sp t a0 LS L fr keep τ s := by
  obtain ⟨m, m1, m2, m3⟩ := save_phase e sp LS fr hf hN h1 τ
  rw [m1] at hs
  obtain ⟨l1, l2, l3⟩ := steps_loads e sp L h2 h3 (steps e [.mov t sp, .mov sp a0] { setg τ sp (τ.gpr sp - off A fr) with mem := m })
  rw [← hs] at l1 l2 l3
  have g1 := l3 (.g sp) (by simp only [List.mem_map, not_exists, not_and]; exact fun y hy => h2 y hy)
  have g2 := l3 (.g t) h8
  simp only [get_g] at g1 g2
  simp [steps, step, setg, h5, h6, h7] at g1 g2 l1
  have hmem : ∀ a, InR a (τ.gpr a0) keep → m a = τ.mem a := fun a ha => m2 a (hd a ha)
  refine ⟨g1, g2, ?_, fun a ha => by rw [l1]; exact m2 a ha, ?_, ?_, by rw [l1]; exact m3⟩
  · intro x x1 x2 x3
    rw [l3 x x3]
    cases x with
    | g r =>
      have r1 : r ≠ sp := fun h => x1 (by rw [h])
      have r2 : r ≠ t := fun h => x2 (by rw [h])
      exact (if_neg r1).trans ((if_neg r2).trans (if_neg r1))
    | f q => rfl
  · intro y hy
    rw [l2 y hy]
    have e1 : (steps e [.mov t sp, .mov sp a0] { setg τ sp (τ.gpr sp - off A fr) with mem := m }).mem = m := rfl
    have e2 : (steps e [.mov t sp, .mov sp a0] { setg τ sp (τ.gpr sp - off A fr) with mem := m }).gpr sp = τ.gpr a0 := by
      simp [steps, step, setg, h6, h7]
    rw [e1, e2]
    exact load_agree hmem (h4 y hy) hK
  · intro o n hon
    rw [l1]
    exact load_agree hmem hon hK


/-- a byte of the `n` bytes at offset `o` is a byte of the region -/
theorem changed_store {m : Mem A} {b a : A.W} {o n N : Nat} {v : BitVec (8 * n)} (h : store m (b + off A o) n v a ≠ m a) (hn : o + n ≤ N)
    (hN : N ≤ 2 ^ (8 * A.k)) : InR a b N := by
  by_cases hh : InR a (b + off A o) n
  · exact inR_off hh hn hN
  · exact absurd (store_out hh) h

/-- load at one offset after a store at another -/
theorem load_store_off {m : Mem A} {b : A.W} {o n o' n' : Nat} {v : BitVec (8 * n)} (hw : o + n ≤ 2 ^ (8 * A.k)) (hw' : o' + n' ≤ 2 ^ (8 * A.k))
    (hd : o' + n' ≤ o ∨ o + n ≤ o') : load (store m (b + off A o) n v) (b + off A o') n' = load m (b + off A o') n' :=
  load_store_out (by omega) fun _ hx => inR_disj hx hw' hw hd

/-- rounding down to a multiple of `2^j` and adding a multiple of `2^j` gives a multiple of `2^j` -/
theorem mask_add_mod (x : A.W) (n j : Nat) (hj : j ≤ 8 * A.k) (hn : n % 2 ^ j = 0) : ((x &&& mask A j) + off A n).toNat % 2 ^ j = 0 := by
  have hd : 2 ^ j ∣ 2 ^ (8 * A.k) := Nat.pow_dvd_pow 2 hj
  rw [BitVec.toNat_add, Nat.mod_mod_of_dvd _ hd, and_mask_toNat, off, BitVec.toNat_ofNat, Nat.add_mod, Nat.mod_mod_of_dvd _ hd, hn]
  have h1 := Nat.div_add_mod x.toNat (2 ^ j)
  have : x.toNat - x.toNat % 2 ^ j = 2 ^ j * (x.toNat / 2 ^ j) := by omega
  rw [this]
  simp


/-- regions that do not wrap around and lie one above the other are disjoint -/
theorem inR_apart {a b b' : A.W} {n n' : Nat} (h1 : b.toNat + n ≤ b'.toNat) (h2 : b'.toNat + n' ≤ 2 ^ (8 * A.k)) (h : InR a b n) : ¬ InR a b' n' := by
  unfold InR at *
  intro h'
  rw [BitVec.toNat_sub] at h h'
  have ha := a.isLt
  have hb := b.isLt
  have hb' := b'.isLt
  have key : ∀ x, x < 2 ^ (8 * A.k) → (2 ^ (8 * A.k) - x + a.toNat) % 2 ^ (8 * A.k) = if x ≤ a.toNat then a.toNat - x else 2 ^ (8 * A.k) - x + a.toNat := by
    intro x hx
    split
    · have e : 2 ^ (8 * A.k) - x + a.toNat = (a.toNat - x) + 2 ^ (8 * A.k) := by omega
      rw [e, Nat.add_mod_right, Nat.mod_eq_of_lt (by omega)]
    · exact Nat.mod_eq_of_lt (by omega)
  rw [key _ hb] at h
  rw [key _ hb'] at h'
  split at h <;> split at h' <;> omega

end Verif.Asm
