import Verif.Asm.Mips64Code
import Verif.Asm.RegPort

/-! # MIPS64 n64: the switching routines meet their specification (C36) -/

namespace Verif.Asm.Mips64

/-- n64: arguments in a0, a1, a2, results in v0, v1; return address in ra; callee-saved s0-s7, fp (s8), sp, gp, and f24-f31 on hard-float targets; sp is a
multiple of 16.  `gp` is *not* in the list `saved`: see `C36_mips64_gp_not_saved` below -/
def port (hf : Bool) : Port A where
  jump := jump hf
  ontop := ontop hf
  make := make hf
  tramp := none
  finish := Lab.finish
  sp := sp
  saved := [s 0, s 1, s 2, s 3, s 4, s 5, s 6, s 7, fp]
  fsaved := if hf then [f 24, f 25, f 26, f 27, f 28, f 29, f 30, f 31] else []
  ra s := s.gpr ra
  spRet s := s.gpr sp
  argF s := s.gpr (a 0)
  argD s := s.gpr (a 1)
  argFn s := s.gpr (a 2)
  slot _ _ := False
  resF _ s := s.gpr (v 0)
  resD _ s := s.gpr (v 1)
  inF s := s.gpr (a 0)
  inD s := s.gpr (a 1)
  oinF s := s.gpr (a 0)
  oinD s := s.gpr (a 1)
  fctx s := s.gpr sp - off A 0xa0
  frame := 0xa0
  keep := 0xa0
  tslot _ _ := False
  oarea _ _ := False
  ok _ := True
  argTop s := s.gpr (a 0)
  argMFn s := s.gpr (a 2)
  resM s := s.gpr (v 0)
  mspRet s := s.gpr sp
  mscratch := 0
  mkeep := 0xa0
  mslot _ _ := False
  aligned w := w.toNat % 16 = 0

/-! ## Proofs -/

def LG : List (Slot A × Nat) := [
  (.g (s 0), 0x40), (.g (s 1), 0x48), (.g (s 2), 0x50), (.g (s 3), 0x58), (.g (s 4), 0x60), (.g (s 5), 0x68),
  (.g (s 6), 0x70), (.g (s 7), 0x78), (.g fp, 0x80), (.g ra, 0x90)]

def LF (hf : Bool) : List (Slot A × Nat) := if hf then [
  (.f (f 24), 0x0), (.f (f 25), 0x8), (.f (f 26), 0x10), (.f (f 27), 0x18), (.f (f 28), 0x20), (.f (f 29), 0x28),
  (.f (f 30), 0x30), (.f (f 31), 0x38)] else []

def L (hf : Bool) : List (Slot A × Nat) := LF hf ++ LG

def LS (hf : Bool) : List (Slot A × Nat) := LG ++ [(.g ra, 0x98)] ++ LF hf

theorem jumpIs_eq (hf : Bool) : jumpIs hf = .addi sp sp (-off A 0xa0) :: saves sp (LS hf) ++ [.mov (v 0) sp, .mov sp (a 0)] ++ loads sp (L hf) ++
    [.ld (t 9) sp 0x98, .addi sp sp (off A 0xa0), .mov (a 0) (v 0), .mov (v 1) (a 1)] := by cases hf <;> rfl

theorem ontopIs_eq (hf : Bool) : ontopIs hf = .addi sp sp (-off A 0xa0) :: saves sp (LS hf) ++ [.mov (t 0) sp, .mov sp (a 0)] ++ loads sp (L hf) ++
    [.mov (t 9) (a 2), .addi sp sp (off A 0xa0), .mov (a 0) (t 0)] := by cases hf <;> rfl

def S (hf : Bool) : RegPort (port hf) where
  t := (v 0)
  t' := (t 0)
  a0 := (a 0)
  a1 := (a 1)
  a2 := (a 2)
  LS := LS hf
  L := L hf
  T := [.ld (t 9) sp 0x98, .addi sp sp (off A 0xa0), .mov (a 0) (v 0), .mov (v 1) (a 1)]
  T' := [.mov (t 9) (a 2), .addi sp sp (off A 0xa0), .mov (a 0) (t 0)]
  rj := (t 9)
  rj' := (t 9)
  fr := 0xa0
  mres := 0xa0
  oPC := 0x98
  oRA := 0x90
  jump_eq := congrArg (Code.jmp · (t 9)) (jumpIs_eq hf)
  ontop_eq := congrArg (Code.jmp · (t 9)) (ontopIs_eq hf)
  pureT := rfl
  pureT' := rfl
  fits := by revert hf; decide
  word := by decide
  frmk := by decide
  spLS := by revert hf; decide
  spL := by revert hf; decide
  sub := by revert hf; decide
  nodup := by revert hf; decide
  ne := by revert hf; decide
  nt := by revert hf; decide
  conv := ⟨rfl, rfl, rfl, rfl, rfl, rfl, rfl, rfl, rfl, rfl, rfl, rfl, rfl, rfl, rfl, rfl, rfl⟩
  spRet := rfl
  tail := by
    intro e s
    have h : ∀ r ∈ (port hf).saved, r ≠ a 0 ∧ r ≠ v 1 ∧ r ≠ t 9 ∧ r ≠ sp := by simp only [port]; decide
    refine ⟨rfl, rfl, fun r hr => ?_, fun _ _ => rfl, fun _ => rfl, fun _ => rfl, rfl, rfl, rfl⟩
    have := h r hr
    simp_all [exec, steps, step, setg, port]
  tail' := by
    intro e s
    have h : ∀ r ∈ (port hf).saved, r ≠ a 0 ∧ r ≠ t 9 ∧ r ≠ sp := by simp only [port]; decide
    refine ⟨rfl, rfl, fun r hr => ?_, fun _ _ => rfl, rfl, rfl, rfl⟩
    have := h r hr
    simp_all [exec, steps, step, setg, port]
  inL := by revert hf; decide
  ra := ra
  ra_eq := rfl
  raLS := by revert hf; decide
  make := by
    intro e σ
    have h : ∀ r ∈ (port hf).saved, r ≠ v 0 ∧ r ≠ v 1 ∧ r ≠ t 9 := by simp only [port]; decide
    have hand : σ.gpr (a 0) &&& mask A 4 = mask A 4 &&& σ.gpr (a 0) := BitVec.and_comm _ _
    have hm : (exec e (port hf).make σ).1.mem = store (store (store σ.mem ((σ.gpr (a 0) &&& mask A 4) - off A 0xa0 + off A 0x98) A.k (σ.gpr (a 2)))
        ((σ.gpr (a 0) &&& mask A 4) - off A 0xa0 + off A 0x88) A.k (σ.gpr gp))
        ((σ.gpr (a 0) &&& mask A 4) - off A 0xa0 + off A 0x90) A.k (e Lab.finish) := by
      rw [BitVec.sub_eq_add_neg, hand]; rfl
    rw [hm]
    have hres : (port hf).resM (exec e (port hf).make σ).1 = (σ.gpr (a 0) &&& mask A 4) - off A 0xa0 := by
      rw [BitVec.sub_eq_add_neg, hand]; rfl
    generalize hc : (σ.gpr (a 0) &&& mask A 4) - off A 0xa0 = c at *
    refine ⟨rfl, hres, rfl, fun r hr => ?_, fun _ => rfl, fun y ha => ?_, ?_, ?_⟩
    · have := h r hr
      simp_all [exec, steps, step, setg, port, make, makeIs]
    · by_cases h2 : store (store σ.mem (c + off A 0x98) A.k (σ.gpr (a 2))) (c + off A 0x88) A.k (σ.gpr gp) y = σ.mem y
      · rw [← h2] at ha; exact changed_store ha (by decide) (by decide)
      · by_cases h1 : store σ.mem (c + off A 0x98) A.k (σ.gpr (a 2)) y = σ.mem y
        · rw [← h1] at h2; exact changed_store h2 (by decide) (by decide)
        · exact changed_store h1 (by decide) (by decide)
    · rw [load_store_off (by decide) (by decide) (by decide), load_store_off (by decide) (by decide) (by decide), load_store_same _ _ _ _ (by decide)]
      rfl
    · rw [load_store_same _ _ _ _ (by decide)]
      rfl

/-- **C36**, switching -/
theorem C36_mips64_jump (hf : Bool) : (port hf).JumpSpec := (S hf).jumpSpec
/-- **C36**, on-top calls -/
theorem C36_mips64_ontop (hf : Bool) : (port hf).OntopSpec := (S hf).ontopSpec
/-- **C36**, new contexts -/
theorem C36_mips64_make (hf : Bool) : (port hf).MakeSpec := (S hf).makeSpec

/-- The hypotheses of `C36_mips64_jump` and `C36_mips64_ontop` are met by a context suspended at `sp = 0x10000` and a resumer with different
register contents. -/
example (e : Env A) (hf : Bool) : ∃ σ τ m, (port hf).Left e σ m ∧ (port hf).Intact σ m τ ∧ (port hf).argF τ = (port hf).fctx σ ∧ σ.gpr (s 0) ≠ τ.gpr (s 0) := by
  obtain ⟨τ, m, h⟩ := (S hf).inhabited e ⟨fun _ => 0x10000#_, fun _ => 0#_, fun _ => 0#_⟩ ⟨fun _ => 5#_, fun _ => 0#_, fun _ => 0#_⟩ 0x20000#_
    (by decide +revert) (by decide +revert)
  exact ⟨_, τ, m, h.1, h.2.1, h.2.2.1, by rw [h.2.2.2.2 (s 0) (by cases hf <;> decide) (by cases hf <;> decide)]; decide⟩

/-- The hypotheses of `C36_mips64_make` are met by a caller at `sp = 0x10000` and a stack whose top is the odd address `0xf123`. -/
example (e : Env A) (hf : Bool) (σ : St A) (h1 : σ.gpr (a 0) = 0xf123#_) (h2 : σ.gpr sp = 0x10000#_) :=
  (S hf).make_inhabited e σ σ 0x20000#_ (by show _ ≤ BitVec.toNat (σ.gpr (a 0)); rw [h1]; decide +revert)
    (by show BitVec.toNat (σ.gpr (a 0)) ≤ BitVec.toNat (σ.gpr sp); rw [h1, h2]; decide) (by show BitVec.toNat (σ.gpr sp) + _ + _ ≤ _; rw [h2]; decide +revert) rfl

/-- **C36**, a gap: n64 demands that `gp` is preserved across calls, but `jump_fcontext` neither saves nor restores it; a resumed context finds the
`gp` of the resumer.  (Harmless while all contexts run code of one module.) -/
theorem C36_mips64_gp_not_saved (e : Env A) (hf : Bool) : ∃ σ τ m, (port hf).Left e σ m ∧ (port hf).Intact σ m τ ∧
    (port hf).argF τ = (port hf).fctx σ ∧ (exec e (port hf).jump τ).1.gpr gp ≠ σ.gpr gp := by
  obtain ⟨τ, m, h⟩ := (S hf).inhabited e ⟨fun _ => 0x10000#_, fun _ => 0#_, fun _ => 0#_⟩ ⟨fun _ => 5#_, fun _ => 0#_, fun _ => 0#_⟩ 0x20000#_
    (by decide +revert) (by decide +revert)
  refine ⟨_, τ, m, h.1, h.2.1, h.2.2.1, ?_⟩
  have h1 : (exec e (port hf).jump τ).1.get (.g gp) = τ.get (.g gp) := by
    apply steps_dest
    cases hf <;> decide
  rw [← get_g, h1, get_g, h.2.2.2.2 gp (by cases hf <;> decide) (by cases hf <;> decide)]
  decide

end Verif.Asm.Mips64
