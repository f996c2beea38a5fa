import Verif.Asm.X86_64CetCode
import Verif.Asm.Sym

/-!
# Shadow stacks (Intel CET) for x86_64

The shadow stack instructions used by `{jump,ontop,make}_x86_64_sysv_elf_gas.S` under `BOOST_CONTEXT_SHADOW_STACK`, after the description in the Intel manual (64-bit mode).
A shadow stack lives in memory `sh` that ordinary instructions cannot write and that shadow stack instructions alone read and write; `call` pushes the return address on
both stacks, `ret` compares them.  A faulting instruction yields `none`.

Simplification: access rights of the shadow stack pages are not modelled (`sh` is total), nor are supervisor shadow stacks and 32-bit mode.
-/

namespace Verif.Asm.X86_64Cet

/-- clear the low `n` bits -/
def clr (n : Nat) (x : A.W) : A.W := x - BitVec.ofNat _ (x.toNat % 2 ^ n)

/-- machine state: registers (with `ssp`) and memory, shadow stack memory, carry flag (set by `rstorssp`, read by `saveprevssp`) -/
structure CSt where
  s : St A
  sh : Mem A
  cf : Bool

/-- the shadow stack pointer -/
abbrev CSt.ssp (c : CSt) : A.W := c.s.gpr Verif.Asm.X86_64Cet.ssp

/-- One instruction.
* `rstorssp`: the operand must be 8-aligned and hold a *restore token*: the address behind it, with bit 0 set (64-bit mode) and bit 1 clear; the token is replaced by a
  *previous-ssp token*: the current `ssp` with bits 0 and 1 set; `ssp` becomes the address of the operand; CF is bit 2 of the restore token.
* `saveprevssp`: pops the previous-ssp token (bit 1 must be set, CF clear), writes four zero bytes below the previous `ssp` and a restore token into the next aligned word below.
* `call`: pushes the address behind it on both stacks; `rip` (not read by any later instruction before it is written again) is set to that address too, which is of no importance. -/
def cstep (e : Env A) (c : CSt) : CI → Option CSt
  | .i x => some { c with s := step e c.s x }
  | .rdssp r => some { c with s := setg c.s r c.ssp }
  | .rstorssp b o =>
    let a := c.s.gpr b + o
    let t : A.W := load c.sh a A.k
    if a.toNat % 8 = 0 ∧ t.toNat % 4 = 1 ∧ clr 3 (clr 1 t - off A 8) = a then
      some { s := setg c.s ssp a, sh := store c.sh a A.k (clr 2 c.ssp + off A 3), cf := decide (t.toNat / 4 % 2 = 1) }
    else none
  | .saveprev =>
    let t : A.W := load c.sh c.ssp A.k
    let o := clr 2 t
    if c.ssp.toNat % 8 = 0 ∧ c.cf = false ∧ t.toNat / 2 % 2 = 1 then
      some { c with s := setg c.s ssp (c.ssp + off A 8), sh := store (store c.sh (o - off A 4) 4 0#_) (clr 3 o - off A 8) A.k (clr 1 o + off A 1) }
    else none
  | .incssp r => some { c with s := setg c.s ssp (c.ssp + off A (8 * ((c.s.gpr r).toNat % 256))) }
  | .call l => some { c with
      s := { setg (setg (setg c.s rip (e l)) rsp (c.s.gpr rsp - off A 8)) ssp (c.ssp - off A 8) with mem := store c.s.mem (c.s.gpr rsp - off A 8) A.k (e l) }
      sh := store c.sh (c.ssp - off A 8) A.k (e l) }
  | .ret =>
    if load c.sh c.ssp A.k = load c.s.mem (c.s.gpr rsp) A.k then
      some { c with s := setg (setg (setg c.s rip (load c.s.mem (c.s.gpr rsp) A.k)) rsp (c.s.gpr rsp + off A 8)) ssp (c.ssp + off A 8) }
    else none

/-- a sequence of instructions -/
def crun (e : Env A) : List CI → CSt → Option CSt
  | [], c => some c
  | x :: l, c => (cstep e c x).bind (crun e l)

/-- a routine that ends with a jump to the address in `r` -/
def cexec (e : Env A) (l : List CI) (r : A.R) (c : CSt) : Option (CSt × A.W) := (crun e l c).map fun c' => (c', c'.s.gpr r)

theorem crun_append (e : Env A) (l l' : List CI) (c : CSt) : crun e (l ++ l') c = (crun e l c).bind (crun e l') := by
  induction l generalizing c with
  | nil => rfl
  | cons x l ih =>
    simp only [List.cons_append, crun]
    cases h : cstep e c x with
    | none => rfl
    | some c' => simp [ih]

/-! ## What remains if the shadow stack memory is forgotten -/

/-- the effect on registers (with `ssp`) and memory, in instructions of the base machine, if no fault occurs (and the operand of `incsspq` is 1) -/
def erase : CI → List (Instr A)
  | .i x => [x]
  | .rdssp r => [.mov r ssp]
  | .rstorssp b o => [.addi ssp b o]
  | .saveprev => [.addi ssp ssp (off A 8)]
  | .incssp _ => [.addi ssp ssp (off A 8)]
  | .call l => [.la rip l, .addi rsp rsp (-off A 8), .st rip rsp 0, .addi ssp ssp (-off A 8)]
  | .ret => [.ld rip rsp 0, .addi rsp rsp (off A 8), .addi ssp ssp (off A 8)]

def E (l : List CI) : List (Instr A) := l.flatMap erase

def CI.simple : CI → Bool
  | .i _ => true
  | .rdssp _ => true
  | _ => false

theorem crun_simple (e : Env A) (l : List CI) (h : l.all CI.simple = true) (c : CSt) : crun e l c = some { c with s := steps e (E l) c.s } := by
  induction l generalizing c with
  | nil => rfl
  | cons x l ih =>
    simp only [List.all_cons, Bool.and_eq_true] at h
    cases x <;> simp only [CI.simple, Bool.false_eq_true, false_and] at h
    · simp only [crun, cstep, Option.bind_some, ih h.2, E, List.flatMap_cons, erase, List.cons_append, List.nil_append, steps]
    · simp only [crun, cstep, Option.bind_some, ih h.2, E, List.flatMap_cons, erase, List.cons_append, List.nil_append, steps, step]

theorem clr_of {n : Nat} {x : A.W} (h : x.toNat % 2 ^ n = 0) : clr n x = x := by
  rw [clr, h]; exact BitVec.sub_zero x

theorem tn (x : A.W) : x.toNat < 2 ^ 64 := x.isLt

/-- shadow stack memory after `rstorssp -8(T); saveprevssp` at `ssp = o` -/
def sw (sh : Mem A) (T o : A.W) : Mem A :=
  store (store (store sh (T - off A 8) A.k (o + off A 3)) (o - off A 4) 4 0#_) (o - off A 8) A.k (o + off A 1)

/-- `t` is accepted by `rstorssp` at address `T - 8`, and has bit 2 clear -/
def TokOk (sh : Mem A) (T : A.W) : Prop := (T - off A 8).toNat % 8 = 0 ∧ (load sh (T - off A 8) A.k : A.W).toNat % 4 = 1 ∧
  clr 3 (clr 1 (load sh (T - off A 8) A.k) - off A 8) = T - off A 8 ∧ (load sh (T - off A 8) A.k : A.W).toNat / 4 % 2 = 0

instance (sh : Mem A) (T : A.W) : Decidable (TokOk sh T) := by unfold TokOk; infer_instance

theorem switch (e : Env A) (b : A.R) (c : CSt) (ho : c.ssp.toNat % 8 = 0) :
    crun e [.rstorssp b (-off A 8), .saveprev] c = if TokOk c.sh (c.s.gpr b) then
      some { s := steps e [.addi ssp b (-off A 8), .addi ssp ssp (off A 8)] c.s, sh := sw c.sh (c.s.gpr b) c.ssp, cf := false } else none := by
  obtain ⟨T, hT⟩ : ∃ T, T = c.s.gpr b := ⟨_, rfl⟩
  obtain ⟨o, hoo⟩ : ∃ o, o = c.ssp := ⟨_, rfl⟩
  rw [← hT]
  have h1 : c.s.gpr b + -off A 8 = T - off A 8 := by rw [hT, BitVec.sub_eq_add_neg]
  rw [← hoo] at ho
  have ho2 : clr 2 o = o := clr_of (by omega)
  have h3 : (o + off A 3).toNat = o.toNat + 3 := by
    rw [BitVec.toNat_add]
    have h3 : (off A 3).toNat = 3 := by decide
    rw [h3]
    have := tn o
    show (o.toNat + 3) % 2 ^ 64 = _
    omega
  have hp : clr 2 (o + off A 3) = o := by
    have h4 : (o + off A 3).toNat % 2 ^ 2 = 3 := by rw [h3]; omega
    rw [clr, h4]
    exact BitVec.add_sub_cancel o (off A 3)
  have hb : (o + off A 3).toNat / 2 % 2 = 1 := by rw [h3]; omega
  simp only [crun, cstep, h1, ← hoo, ho2]
  by_cases ht : TokOk c.sh T
  · rw [if_pos ht, if_pos ⟨ht.1, ht.2.1, ht.2.2.1⟩]
    simp only [Option.bind_some, CSt.ssp, setg_gpr, if_true, load_store_same _ _ _ _ (show A.k ≤ 2 ^ (8 * A.k) by decide), hb, hp]
    rw [if_pos ⟨ht.1, by simp [ht.2.2.2], trivial⟩]
    simp only [clr_of (n := 3) (show o.toNat % 2 ^ 3 = 0 from ho), clr_of (n := 1) (show o.toNat % 2 ^ 1 = 0 by omega), Option.bind_some, steps, step, setg_gpr, h1, if_true]
    simp [ht.2.2.2, sw]
  · rw [if_neg ht]
    split
    · rename_i h
      simp only [Option.bind_some, CSt.ssp, setg_gpr, if_true]
      rw [if_neg]
      · rfl
      · intro hh
        refine ht ⟨h.1, h.2.1, h.2.2, ?_⟩
        have := hh.2.1
        simp only [decide_eq_false_iff_not] at this
        omega
    · rfl

theorem toNat_add {x : A.W} {n : Nat} (h : x.toNat % 8 = 0) (hn : n < 8) : (x + off A n).toNat = x.toNat + n := by
  rw [BitVec.toNat_add]
  have h3 : (off A n).toNat = n := by
    show n % 2 ^ 64 = n
    exact Nat.mod_eq_of_lt (by omega)
  rw [h3]
  have := tn x
  show (x.toNat + n) % 2 ^ 64 = _
  omega

theorem sub8_mod {x : A.W} (h : x.toNat % 8 = 0) : (x - off A 8).toNat % 8 = 0 := by
  rw [BitVec.toNat_sub]
  have h3 : (off A 8).toNat = 8 := by decide
  rw [h3]
  have := tn x
  show (2 ^ 64 - 8 + x.toNat) % 2 ^ 64 % 8 = 0
  omega

/-- a restore token, as the kernel or `saveprevssp` writes it: the address behind it plus 1 -/
theorem tokOk {sh : Mem A} {T : A.W} (hT : T.toNat % 8 = 0) (h : load sh (T - off A 8) A.k = T + off A 1) : TokOk sh T := by
  have h1 := toNat_add hT (show 1 < 8 by decide)
  have h2 : clr 1 (T + off A 1) = T := by
    have h4 : (T + off A 1).toNat % 2 ^ 1 = 1 := by rw [h1]; omega
    rw [clr, h4]
    exact BitVec.add_sub_cancel T (off A 1)
  refine ⟨sub8_mod hT, ?_, ?_, ?_⟩
  · rw [h, h1]; omega
  · rw [h, h2]; exact clr_of (sub8_mod hT)
  · rw [h, h1]; omega

/-- the token left behind -/
theorem sw_token (sh : Mem A) (T o : A.W) : load (sw sh T o) (o - off A 8) A.k = o + off A 1 := load_store_same _ _ _ _ (by decide)

theorem sw_frame {sh : Mem A} {T o a : A.W} (h : sw sh T o a ≠ sh a) : InR a (T - off A 8) 8 ∨ InR a (o - off A 8) 8 := by
  by_cases h1 : InR a (o - off A 8) 8
  · exact .inr h1
  · by_cases h2 : InR a (T - off A 8) 8
    · exact .inl h2
    · exfalso
      apply h
      rw [sw, store_out (n := A.k) h1, store_out, store_out (n := A.k) h2]
      intro h4
      apply h1
      have e1 : o - off A 4 = o - off A 8 + off A 4 := by
        have : off A 8 = off A 4 + off A 4 := by decide
        rw [this]
        generalize off A 4 = x
        grind
      rw [e1] at h4
      exact inR_off h4 (by decide) (by decide)

end Verif.Asm.X86_64Cet
