import Verif.Asm.Lemmas

/-!
# Symbolic execution, proved sound

For straight-line code that accesses memory only relative to a few *bases* (own frame, frame of the target, result object, ...), the
function `run` computes the final registers as symbolic values over the initial state.  `run_sound` proves it correct, so the proofs
about a port reduce to evaluating `run` on its instruction list.  (No code of `/repo` is modelled in this file.)
-/

namespace Verif.Asm
variable {A : Arch}

/-- building blocks of symbolic words: initial register, initial special register, word of the initial memory at offset `o` of base `i`,
base address, address of a label, zero; negated register, difference of registers, masked register; the same for words of the initial memory -/
inductive Atom (A : Arch)
  | reg (r : A.R)
  | spec (q : A.F)
  | ld (i o : Nat)
  | base (i : Nat)
  | lab (l : A.Lab)
  | zero
  | neg (r : A.R)
  | sub (r r' : A.R)
  | msk (r : A.R) (w : A.W)
  | nld (i o : Nat)
  | sld (i o i' o' : Nat)
  | mld (i o : Nat) (c w : A.W)
  deriving DecidableEq

/-- atom plus constant -/
structure Sv (A : Arch) where
  at' : Atom A
  w : A.W
  deriving DecidableEq

/-- symbolic content of a special register: initial content of `q`, content of the initial memory, truncated word -/
inductive Fv (A : Arch)
  | init (q : A.F)
  | ld (i o : Nat)
  | ofG (v : Sv A)
  deriving DecidableEq

inductive Val (A : Arch)
  | w (v : Sv A)
  | f (q : A.F) (v : Fv A)
  deriving DecidableEq

def Val.size : Val A → Nat
  | .w _ => A.k
  | .f q _ => A.fb q

/-- What is known about the bases: values known to be addresses relative to a base, extent that may be written, extent that may be
read, and for which pairs a write relative to the first does not change what is read relative to the second. -/
structure SCfg (A : Arch) where
  known : List (Atom A × Nat × A.W)
  wr : Nat → Nat × Nat
  rd : Nat → Nat
  D : Nat → Nat → Bool

structure SSt (A : Arch) where
  gpr : A.R → Sv A
  fpr : A.F → Fv A
  /-- writes, latest first: base, offset, value -/
  log : List (Nat × Nat × Val A)
  valid : Nat → Bool

def SSt.init : SSt A := { gpr := fun r => ⟨.reg r, 0#_⟩, fpr := fun q => .init q, log := [], valid := fun _ => true }

variable (C : SCfg A)

/-- the base and offset of an address -/
def SCfg.addr (v : Sv A) : Option (Nat × A.W) :=
  match v.at' with
  | .base i => some (i, v.w)
  | a => match C.known.find? (fun x => x.1 = a) with
    | some x => some (x.2.1, x.2.2 + v.w)
    | none => none

/-- what the log says about `n` bytes at offset `o` of base `i`: unchanged (`some none`), a value, or unknown (`none`) -/
def look (i o n : Nat) : List (Nat × Nat × Val A) → Option (Option (Val A))
  | [] => some none
  | (j, o', v) :: l =>
    if j = i then
      if o' = o ∧ v.size = n then some (some v)
      else if o' + v.size ≤ o ∨ o + n ≤ o' then look i o n l
      else none
    else look i o n l

def SSt.setg (z : SSt A) (r : A.R) (v : Sv A) : SSt A := { z with gpr := fun x => if x = r then v else z.gpr x }
def SSt.setf (z : SSt A) (f : A.F) (v : Fv A) : SSt A := { z with fpr := fun x => if x = f then v else z.fpr x }

def SCfg.store (z : SSt A) (b : Sv A) (o : Nat) (v : Val A) : Option (SSt A) :=
  match C.addr b with
  | none => none
  | some (i, w) =>
    let o' := (w + off A o).toNat
    if (C.wr i).1 ≤ o' ∧ o' + v.size ≤ (C.wr i).2 then
      some { z with log := (i, o', v) :: z.log, valid := fun j => z.valid j && (i == j || C.D i j) }
    else none

def SCfg.load (z : SSt A) (b : Sv A) (o n : Nat) : Option (Nat × Nat × Option (Val A)) :=
  match C.addr b with
  | none => none
  | some (i, w) =>
    let o' := (w + off A o).toNat
    if o' + n ≤ C.rd i ∧ z.valid i = true then
      match look i o' n z.log with
      | none => none
      | some v => some (i, o', v)
    else none

def SCfg.step (z : SSt A) : Instr A → Option (SSt A)
  | .mov d r => some (z.setg d (z.gpr r))
  | .movi d i => some (z.setg d ⟨.zero, i⟩)
  | .addi d r i => some (z.setg d ⟨(z.gpr r).at', (z.gpr r).w + i⟩)
  | .andi d r i => match z.gpr r with
    | ⟨.reg r', w⟩ => if w = 0#_ then some (z.setg d ⟨.msk r' i, 0#_⟩) else none
    | ⟨.ld j o, w⟩ => some (z.setg d ⟨.mld j o w i, 0#_⟩)
    | _ => none
  | .and .. => none
  | .neg d r => match z.gpr r with
    | ⟨.reg r', w⟩ => some (z.setg d ⟨.neg r', -w⟩)
    | ⟨.ld i o, w⟩ => some (z.setg d ⟨.nld i o, -w⟩)
    | _ => none
  | .add d r r' => match z.gpr r, z.gpr r' with
    | ⟨.reg a, w⟩, ⟨.neg b, w'⟩ => some (z.setg d ⟨.sub a b, w + w'⟩)
    | ⟨.ld i o, w⟩, ⟨.nld j p, w'⟩ => some (z.setg d ⟨.sld i o j p, w + w'⟩)
    | _, _ => none
  | .sub d r r' => match z.gpr r, z.gpr r' with
    | ⟨.reg a, w⟩, ⟨.reg b, w'⟩ => some (z.setg d ⟨.sub a b, w - w'⟩)
    | _, _ => none
  | .ld d b o =>
    match C.load z (z.gpr b) o A.k with
    | some (i, o', none) => some (z.setg d ⟨.ld i o', 0#_⟩)
    | some (_, _, some (.w v)) => some (z.setg d v)
    | _ => none
  | .st r b o => C.store z (z.gpr b) o (.w (z.gpr r))
  | .sti i b o => C.store z (z.gpr b) o (.w ⟨.zero, i⟩)
  | .fld f b o =>
    match C.load z (z.gpr b) o (A.fb f) with
    | some (i, o', none) => some (z.setf f (.ld i o'))
    | some (_, _, some (.f q v)) => if q = f then some (z.setf f v) else none
    | _ => none
  | .fst f b o => C.store z (z.gpr b) o (.f f (z.fpr f))
  | .mfs d f => match z.fpr f with
    | .init q => if q = f then some (z.setg d ⟨.spec q, 0#_⟩) else none
    | _ => none
  | .mts f r => some (z.setf f (.ofG (z.gpr r)))
  | .mfb d f b l => if z.gpr b = ⟨.lab l, 0#_⟩ then (match z.fpr f with
    | .init q => if q = f then some (z.setg d ⟨.spec q, 0#_⟩) else none
    | _ => none) else none
  | .mtb f r b l => if z.gpr b = ⟨.lab l, 0#_⟩ then some (z.setf f (.ofG (z.gpr r))) else none
  | .fmov f g => match z.fpr g with
    | .init q => if A.fb q = A.fb f ∧ q = g then some (z.setf f (.init q)) else none
    | .ld i o => if A.fb g = A.fb f then some (z.setf f (.ld i o)) else none
    | .ofG _ => none
  | .la d l => some (z.setg d ⟨.lab l, 0#_⟩)
  | .addl d l l' => if (z.gpr d).at' = .lab l' then some (z.setg d ⟨.lab l, (z.gpr d).w⟩) else none

def SCfg.run : List (Instr A) → SSt A → Option (SSt A)
  | [], z => some z
  | i :: is, z => match C.step z i with
    | some z' => SCfg.run is z'
    | none => none

/-! ## Meaning -/

/-- interpretation: initial state, base addresses, labels -/
structure Itp (A : Arch) where
  σ : St A
  β : Nat → A.W
  e : Env A

variable (I : Itp A)

def Itp.atom : Atom A → A.W
  | .reg r => I.σ.gpr r
  | .spec q => (I.σ.fpr q).setWidth _
  | .ld i o => Asm.load I.σ.mem (I.β i + off A o) A.k
  | .base i => I.β i
  | .lab l => I.e l
  | .zero => 0#_
  | .neg r => -I.σ.gpr r
  | .sub r r' => I.σ.gpr r - I.σ.gpr r'
  | .msk r w => I.σ.gpr r &&& w
  | .nld i o => -Asm.load I.σ.mem (I.β i + off A o) A.k
  | .sld i o j p => Asm.load I.σ.mem (I.β i + off A o) A.k - Asm.load I.σ.mem (I.β j + off A p) A.k
  | .mld i o c w => (Asm.load I.σ.mem (I.β i + off A o) A.k + c) &&& w

def Itp.sv (v : Sv A) : A.W := I.atom v.at' + v.w

def Itp.fv (q : A.F) : Fv A → BitVec (8 * A.fb q)
  | .init q' => (I.σ.fpr q').setWidth _
  | .ld i o => Asm.load I.σ.mem (I.β i + off A o) (A.fb q)
  | .ofG v => (I.sv v).setWidth _

def Itp.val : (v : Val A) → BitVec (8 * v.size)
  | .w v => I.sv v
  | .f q v => I.fv q v

/-- the assumptions expressed by the configuration hold -/
structure Itp.Ok (C : SCfg A) (I : Itp A) : Prop where
  known : ∀ x ∈ C.known, I.atom x.1 = I.β x.2.1 + x.2.2
  disj : ∀ i j, C.D i j = true → ∀ a, InR a (I.β i + off A (C.wr i).1) ((C.wr i).2 - (C.wr i).1) → ¬ InR a (I.β j) (C.rd j)
  wr : ∀ i, (C.wr i).2 ≤ 2 ^ (8 * A.k)
  rd : ∀ i, C.rd i ≤ 2 ^ (8 * A.k)

/-- symbolic and concrete state correspond -/
structure Rel (C : SCfg A) (I : Itp A) (z : SSt A) (s : St A) : Prop where
  gpr : ∀ r, s.gpr r = I.sv (z.gpr r)
  fpr : ∀ q, s.fpr q = I.fv q (z.fpr q)
  same : ∀ i o n, z.valid i = true → o + n ≤ C.rd i → look i o n z.log = some none →
    Asm.load s.mem (I.β i + off A o) n = Asm.load I.σ.mem (I.β i + off A o) n
  wrote : ∀ i o v, z.valid i = true → o + v.size ≤ C.rd i → look i o v.size z.log = some (some v) →
    Asm.load s.mem (I.β i + off A o) v.size = I.val v
  frame : ∀ a, s.mem a ≠ I.σ.mem a → ∃ i, (∃ x ∈ z.log, x.1 = i) ∧ InR a (I.β i + off A (C.wr i).1) ((C.wr i).2 - (C.wr i).1)

theorem Rel.init (C : SCfg A) (I : Itp A) : Rel C I SSt.init I.σ where
  gpr r := by simp [SSt.init, Itp.sv, Itp.atom]
  fpr q := by simp [SSt.init, Itp.fv]
  same _ _ _ _ _ _ := rfl
  wrote _ _ _ _ _ h := by simp [SSt.init, look] at h
  frame a h := absurd rfl h

variable {C I}

theorem Itp.Ok.addr (h : I.Ok C) {v : Sv A} {i w} (hv : C.addr v = some (i, w)) : I.sv v = I.β i + w := by
  unfold SCfg.addr at hv
  unfold Itp.sv
  split at hv
  · rename_i j hj
    simp only [Option.some.injEq, Prod.mk.injEq] at hv
    rw [hj, ← hv.1, ← hv.2]; rfl
  · split at hv
    · rename_i x hx
      simp only [Option.some.injEq, Prod.mk.injEq] at hv
      have h1 := List.find?_some hx
      have h2 := h.known _ (List.mem_of_find?_eq_some hx)
      simp only [decide_eq_true_eq] at h1
      rw [← hv.1, ← hv.2, ← h1, h2, BitVec.add_assoc]
    · simp at hv

theorem off_toNat (w : A.W) : off A w.toNat = w := by simp [off]

theorem rel_store (h : I.Ok C) {z z' : SSt A} {s : St A} (hr : Rel C I z s) {b : A.R} {o : Nat} {v : Val A}
    (hs : C.store z (z.gpr b) o v = some z') :
    Rel C I z' { s with mem := Asm.store s.mem (s.gpr b + off A o) v.size (I.val v) } := by
  unfold SCfg.store at hs
  split at hs
  · simp at hs
  · rename_i i w hi
    simp only at hs
    have ha : s.gpr b + off A o = I.β i + off A (w + off A o).toNat := by
      rw [off_toNat, hr.gpr, h.addr hi, BitVec.add_assoc]
    rw [ha]
    split at hs
    · rename_i hb
      generalize (w + off A o).toNat = o' at *
      simp only [Option.some.injEq] at hs
      subst hs
      have hw := h.wr i
      have hin : ∀ a, InR a (I.β i + off A o') v.size → InR a (I.β i + off A (C.wr i).1) ((C.wr i).2 - (C.wr i).1) := by
        intro a hh
        have e : I.β i + off A o' = I.β i + off A (C.wr i).1 + off A (o' - (C.wr i).1) := by
          rw [add_off_off]; congr 2; omega
        rw [e] at hh
        exact inR_off hh (by omega) (by omega)
      refine ⟨hr.gpr, hr.fpr, ?_, ?_, ?_⟩
      · intro j p n hv hp hl
        simp only [Bool.and_eq_true, Bool.or_eq_true, beq_iff_eq] at hv
        have hrd := h.rd j
        simp only [look] at hl
        by_cases hij : i = j
        · subst hij
          simp only [if_true] at hl
          split at hl
          · simp at hl
          · split at hl
            · rw [load_store_off (by omega) (by omega) (by omega)]
              exact hr.same i p n hv.1 hp hl
            · simp at hl
        · rw [if_neg hij] at hl
          have hD : C.D i j = true := by simpa [hij] using hv.2
          rw [load_store_out (by omega) ?_]
          · exact hr.same j p n hv.1 hp hl
          · intro x hx hx'
            exact h.disj i j hD x (hin x hx') (inR_off hx hp (by omega))
      · intro j p u hv hp hl
        simp only [Bool.and_eq_true, Bool.or_eq_true, beq_iff_eq] at hv
        have hrd := h.rd j
        simp only [look] at hl
        by_cases hij : i = j
        · subst hij
          simp only [if_true] at hl
          split at hl
          · rename_i heq
            simp only [Option.some.injEq] at hl
            subst hl
            rw [heq.1]
            exact load_store_same _ _ _ _ (by omega)
          · split at hl
            · rw [load_store_off (by omega) (by omega) (by omega)]
              exact hr.wrote i p u hv.1 hp hl
            · simp at hl
        · rw [if_neg hij] at hl
          have hD : C.D i j = true := by simpa [hij] using hv.2
          rw [load_store_out (by omega) ?_]
          · exact hr.wrote j p u hv.1 hp hl
          · intro x hx hx'
            exact h.disj i j hD x (hin x hx') (inR_off hx hp (by omega))
      · intro a ha
        simp only at ha
        by_cases hh : InR a (I.β i + off A o') v.size
        · exact ⟨i, ⟨_, List.mem_cons_self, rfl⟩, hin a hh⟩
        · rw [store_out hh] at ha
          obtain ⟨j, ⟨x, hx, hxj⟩, hj⟩ := hr.frame a ha
          exact ⟨j, ⟨x, List.mem_cons_of_mem _ hx, hxj⟩, hj⟩
    · simp at hs

theorem rel_load (h : I.Ok C) {z : SSt A} {s : St A} (hr : Rel C I z s) {b : A.R} {o n : Nat} {i o' r}
    (hs : C.load z (z.gpr b) o n = some (i, o', r)) : s.gpr b + off A o = I.β i + off A o' ∧ z.valid i = true ∧ o' + n ≤ C.rd i ∧
      look i o' n z.log = some r := by
  unfold SCfg.load at hs
  split at hs
  · simp at hs
  · rename_i j w hj
    simp only at hs
    split at hs
    · rename_i hb
      split at hs
      · simp at hs
      · rename_i v hv
        simp only [Option.some.injEq, Prod.mk.injEq] at hs
        obtain ⟨rfl, rfl, rfl⟩ := hs
        refine ⟨?_, hb.2, hb.1, hv⟩
        rw [off_toNat, hr.gpr, h.addr hj, BitVec.add_assoc]
    · simp at hs

theorem look_size {i o n : Nat} {l : List (Nat × Nat × Val A)} {v : Val A} (h : look i o n l = some (some v)) : v.size = n := by
  induction l with
  | nil => simp [look] at h
  | cons x l ih =>
    obtain ⟨j, o', u⟩ := x
    simp only [look] at h
    split at h
    · split at h
      · rename_i hh; simp only [Option.some.injEq] at h; rw [← h]; exact hh.2
      · split at h
        · exact ih h
        · simp at h
    · exact ih h

theorem rel_setg {z : SSt A} {s : St A} (hr : Rel C I z s) (r : A.R) (v : Sv A) : Rel C I (z.setg r v) (setg s r (I.sv v)) where
  gpr x := by simp only [setg, SSt.setg]; split <;> simp [hr.gpr]
  fpr := hr.fpr
  same := hr.same
  wrote := hr.wrote
  frame := hr.frame

theorem rel_setf {z : SSt A} {s : St A} (hr : Rel C I z s) (q : A.F) (v : Fv A) : Rel C I (z.setf q v) (setf s q (I.fv q v)) where
  gpr := hr.gpr
  fpr x := by
    simp only [setf, SSt.setf]
    by_cases hx : x = q
    · subst hx; simp
    · simp [hx, hr.fpr]
  same := hr.same
  wrote := hr.wrote
  frame := hr.frame

theorem load_cast (m : Mem A) (a : A.W) {n n' : Nat} (h : n = n') : (load m a n).setWidth (8 * n') = load m a n' := by subst h; simp

theorem step_sound (h : I.Ok C) {z z' : SSt A} {s : St A} (hr : Rel C I z s) (i : Instr A) (hs : C.step z i = some z') :
    Rel C I z' (step I.e s i) := by
  cases i with
  | mov d r => simp only [SCfg.step, Option.some.injEq] at hs; subst hs; simp only [step, hr.gpr r]; exact rel_setg hr _ _
  | movi d i =>
    simp only [SCfg.step, Option.some.injEq] at hs; subst hs
    have := rel_setg hr d (⟨.zero, i⟩ : Sv A)
    simpa [step, Itp.sv, Itp.atom] using this
  | addi d r i =>
    simp only [SCfg.step, Option.some.injEq] at hs; subst hs
    have := rel_setg hr d (⟨(z.gpr r).at', (z.gpr r).w + i⟩ : Sv A)
    simp only [step, hr.gpr r]
    simpa [Itp.sv, BitVec.add_assoc] using this
  | andi d r i =>
    simp only [SCfg.step] at hs
    split at hs
    · rename_i r' w hq
      split at hs
      · rename_i hw
        simp only [Option.some.injEq] at hs; subst hs
        have := rel_setg hr d (⟨.msk r' i, 0#_⟩ : Sv A)
        simp only [step, hr.gpr r, hq]
        simpa [Itp.sv, Itp.atom, hw] using this
      · simp at hs
    · rename_i j o w hq
      simp only [Option.some.injEq] at hs; subst hs
      have := rel_setg hr d (⟨.mld j o w i, 0#_⟩ : Sv A)
      simp only [step, hr.gpr r, hq]
      simpa [Itp.sv, Itp.atom] using this
    · simp at hs
  | and d r i => simp [SCfg.step] at hs
  | neg d r =>
    simp only [SCfg.step] at hs
    split at hs
    · rename_i r' w hq
      simp only [Option.some.injEq] at hs; subst hs
      have := rel_setg hr d (⟨.neg r', -w⟩ : Sv A)
      simp only [step, hr.gpr r, hq]
      have e1 : -I.sv ⟨.reg r', w⟩ = I.sv ⟨.neg r', -w⟩ := by simp only [Itp.sv, Itp.atom]; grind
      rw [e1]
      exact this
    · rename_i i o w hq
      simp only [Option.some.injEq] at hs; subst hs
      have := rel_setg hr d (⟨.nld i o, -w⟩ : Sv A)
      simp only [step, hr.gpr r, hq]
      have e1 : -I.sv ⟨.ld i o, w⟩ = I.sv ⟨.nld i o, -w⟩ := by
        simp only [Itp.sv, Itp.atom]; generalize Asm.load I.σ.mem _ A.k = x; grind
      rw [e1]
      exact this
    · simp at hs
  | add d r r' =>
    simp only [SCfg.step] at hs
    split at hs
    · rename_i a w b w' hq hq'
      simp only [Option.some.injEq] at hs; subst hs
      have := rel_setg hr d (⟨.sub a b, w + w'⟩ : Sv A)
      simp only [step, hr.gpr r, hr.gpr r', hq, hq']
      have e1 : I.sv ⟨.reg a, w⟩ + I.sv ⟨.neg b, w'⟩ = I.sv ⟨.sub a b, w + w'⟩ := by simp only [Itp.sv, Itp.atom]; grind
      rw [e1]
      exact this
    · rename_i i o w j p w' hq hq'
      simp only [Option.some.injEq] at hs; subst hs
      have := rel_setg hr d (⟨.sld i o j p, w + w'⟩ : Sv A)
      simp only [step, hr.gpr r, hr.gpr r', hq, hq']
      have e1 : I.sv ⟨.ld i o, w⟩ + I.sv ⟨.nld j p, w'⟩ = I.sv ⟨.sld i o j p, w + w'⟩ := by
        simp only [Itp.sv, Itp.atom]
        generalize Asm.load I.σ.mem (I.β i + off A o) A.k = x
        generalize Asm.load I.σ.mem (I.β j + off A p) A.k = y
        grind
      rw [e1]
      exact this
    · simp at hs
  | sub d r r' =>
    simp only [SCfg.step] at hs
    split at hs
    · rename_i a w b w' hq hq'
      simp only [Option.some.injEq] at hs; subst hs
      have := rel_setg hr d (⟨.sub a b, w - w'⟩ : Sv A)
      simp only [step, hr.gpr r, hr.gpr r', hq, hq']
      have e1 : I.sv ⟨.reg a, w⟩ - I.sv ⟨.reg b, w'⟩ = I.sv ⟨.sub a b, w - w'⟩ := by simp only [Itp.sv, Itp.atom]; grind
      rw [e1]
      exact this
    · simp at hs
  | ld d b o =>
    simp only [SCfg.step] at hs
    split at hs
    · rename_i j o' hl
      simp only [Option.some.injEq] at hs; subst hs
      obtain ⟨e1, e2, e3, e4⟩ := rel_load h hr hl
      have := rel_setg hr d (⟨.ld j o', 0#_⟩ : Sv A)
      simp only [step, e1, hr.same j o' A.k e2 e3 e4]
      simpa [Itp.sv, Itp.atom] using this
    · rename_i j o' v hl
      simp only [Option.some.injEq] at hs; subst hs
      obtain ⟨e1, e2, e3, e4⟩ := rel_load h hr hl
      have := rel_setg hr d v
      have e5 := hr.wrote j o' (.w v) e2 e3 e4
      simp only [step, e1]
      simp only [Val.size] at e5
      rw [e5]
      exact this
    · simp at hs
  | st r b o =>
    simp only [SCfg.step] at hs
    have := rel_store h hr hs
    simpa [step, Val.size, Itp.val, hr.gpr r] using this
  | sti i b o =>
    simp only [SCfg.step] at hs
    have := rel_store h hr hs
    simpa [step, Val.size, Itp.val, Itp.sv, Itp.atom] using this
  | fld f b o =>
    simp only [SCfg.step] at hs
    split at hs
    · rename_i j o' hl
      simp only [Option.some.injEq] at hs; subst hs
      obtain ⟨e1, e2, e3, e4⟩ := rel_load h hr hl
      have := rel_setf hr f (Fv.ld j o')
      simp only [step, e1, hr.same j o' _ e2 e3 e4]
      exact this
    · rename_i j o' q v hl
      split at hs
      · rename_i hq
        subst hq
        simp only [Option.some.injEq] at hs; subst hs
        obtain ⟨e1, e2, e3, e4⟩ := rel_load h hr hl
        have := rel_setf hr q v
        have e5 := hr.wrote j o' (.f q v) e2 e3 e4
        simp only [step, e1]
        simp only [Val.size] at e5
        rw [e5]
        exact this
      · simp at hs
    · simp at hs
  | fst f b o =>
    simp only [SCfg.step] at hs
    have := rel_store h hr hs
    simpa [step, Val.size, Itp.val, hr.fpr f] using this
  | mfs d f =>
    simp only [SCfg.step] at hs
    split at hs
    · rename_i q hq
      split at hs
      · rename_i hqf
        subst hqf
        simp only [Option.some.injEq] at hs; subst hs
        have := rel_setg hr d (⟨.spec q, 0#_⟩ : Sv A)
        simp only [step, hr.fpr q, hq]
        simpa [Itp.sv, Itp.atom, Itp.fv] using this
      · simp at hs
    · simp at hs
  | mts f r =>
    simp only [SCfg.step, Option.some.injEq] at hs; subst hs
    have := rel_setf hr f (.ofG (z.gpr r))
    simpa [step, Itp.fv, hr.gpr r] using this
  | mfb d f b l =>
    simp only [SCfg.step] at hs
    split at hs
    · rename_i hb
      have hb' : s.gpr b = I.e l := by rw [hr.gpr b, hb]; exact BitVec.add_zero _
      split at hs
      · rename_i q hq
        split at hs
        · rename_i hqf
          subst hqf
          simp only [Option.some.injEq] at hs; subst hs
          have := rel_setg hr d (⟨.spec q, 0#_⟩ : Sv A)
          simp only [step, hr.fpr q, hq, hb', if_true]
          simpa [Itp.sv, Itp.atom, Itp.fv] using this
        · simp at hs
      · simp at hs
    · simp at hs
  | mtb f r b l =>
    simp only [SCfg.step] at hs
    split at hs
    · rename_i hb
      have hb' : s.gpr b = I.e l := by rw [hr.gpr b, hb]; exact BitVec.add_zero _
      simp only [Option.some.injEq] at hs; subst hs
      have := rel_setf hr f (.ofG (z.gpr r))
      simp only [step, hb', if_true]
      simpa [Itp.fv, hr.gpr r] using this
    · simp at hs
  | fmov f g =>
    simp only [SCfg.step] at hs
    split at hs
    · rename_i q hq
      split at hs
      · rename_i hqf
        obtain ⟨h1, rfl⟩ := hqf
        simp only [Option.some.injEq] at hs; subst hs
        have := rel_setf hr f (.init q)
        simp only [step, hr.fpr q, hq]
        simpa [Itp.fv] using this
      · simp at hs
    · rename_i j o hq
      split at hs
      · rename_i hqf
        simp only [Option.some.injEq] at hs; subst hs
        have := rel_setf hr f (.ld j o)
        simp only [step, hr.fpr g, hq]
        simp only [Itp.fv] at this ⊢
        rw [load_cast _ _ hqf]
        exact this
      · simp at hs
    · simp at hs
  | la d l =>
    simp only [SCfg.step, Option.some.injEq] at hs; subst hs
    have := rel_setg hr d (⟨.lab l, 0#_⟩ : Sv A)
    simpa [step, Itp.sv, Itp.atom] using this
  | addl d l l' =>
    simp only [SCfg.step] at hs
    split at hs
    · rename_i hl
      simp only [Option.some.injEq] at hs; subst hs
      have := rel_setg hr d (⟨.lab l, (z.gpr d).w⟩ : Sv A)
      simp only [step, hr.gpr d]
      have e1 : I.sv (z.gpr d) + (I.e l - I.e l') = I.sv ⟨.lab l, (z.gpr d).w⟩ := by
        simp only [Itp.sv, hl, Itp.atom]
        grind
      rw [e1]
      exact this
    · simp at hs

theorem run_sound (h : I.Ok C) (is : List (Instr A)) {z z' : SSt A} {s : St A} (hr : Rel C I z s) (hs : C.run is z = some z') :
    Rel C I z' (steps I.e is s) := by
  induction is generalizing z s with
  | nil => simp only [SCfg.run, Option.some.injEq] at hs; subst hs; exact hr
  | cons i is ih =>
    simp only [SCfg.run] at hs
    split at hs
    · rename_i z1 h1
      exact ih (step_sound h hr i h1) hs
    · simp at hs

end Verif.Asm

namespace Verif.Asm
variable {A : Arch} {C : SCfg A} {I : Itp A}

/-- final symbolic state of a run from the initial state -/
def SCfg.fin (C : SCfg A) (is : List (Instr A)) (h : (C.run is SSt.init).isSome = true) : SSt A := (C.run is SSt.init).get h

theorem fin_rel (h : I.Ok C) (is : List (Instr A)) (hs : (C.run is SSt.init).isSome = true) : Rel C I (C.fin is hs) (steps I.e is I.σ) :=
  run_sound h is (Rel.init C I) (by simp [SCfg.fin])

/-- register content, from the symbolic state -/
theorem Rel.reg {z : SSt A} {s : St A} (h : Rel C I z s) {r : A.R} {v : Sv A} (hv : z.gpr r = v) : s.gpr r = I.sv v := by rw [h.gpr, hv]

/-- a word written relative to a base -/
theorem Rel.word {z : SSt A} {s : St A} (h : Rel C I z s) {i o : Nat} {v : Sv A} (h1 : z.valid i = true) (h2 : o + A.k ≤ C.rd i)
    (h3 : look i o A.k z.log = some (some (.w v))) : load s.mem (I.β i + off A o) A.k = I.sv v := h.wrote i o (.w v) h1 h2 h3

theorem Rel.special {z : SSt A} {s : St A} (h : Rel C I z s) {i o : Nat} {q : A.F} {v : Fv A} (h1 : z.valid i = true) (h2 : o + A.fb q ≤ C.rd i)
    (h3 : look i o (A.fb q) z.log = some (some (.f q v))) : load s.mem (I.β i + off A o) (A.fb q) = I.fv q v := h.wrote i o (.f q v) h1 h2 h3

end Verif.Asm
