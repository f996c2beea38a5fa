import Verif.Asm.Arm64Code
import Verif.Asm.RegPort

/-! # ARM64 AAPCS: the switching routines meet their specification (C31) -/

namespace Verif.Asm.Arm64

/-- AAPCS64: arguments and results in x0, x1, x2; return address in x30; callee-saved x19-x29, sp, d8-d15; sp is a multiple of 16 -/
def port : Port A where
  jump := jump
  ontop := ontop
  make := make
  tramp := none
  finish := Lab.finish
  sp := sp
  saved := [x 19, x 20, x 21, x 22, x 23, x 24, x 25, x 26, x 27, x 28, x 29]
  fsaved := [d 8, d 9, d 10, d 11, d 12, d 13, d 14, d 15]
  ra s := s.gpr (x 30)
  spRet s := s.gpr sp
  argF s := s.gpr (x 0)
  argD s := s.gpr (x 1)
  argFn s := s.gpr (x 2)
  slot _ _ := False
  resF _ s := s.gpr (x 0)
  resD _ s := s.gpr (x 1)
  inF s := s.gpr (x 0)
  inD s := s.gpr (x 1)
  oinF s := s.gpr (x 0)
  oinD s := s.gpr (x 1)
  fctx s := s.gpr sp - off A 0xb0
  frame := 0xb0
  keep := 0xb0
  tslot _ _ := False
  oarea _ _ := False
  ok _ := True
  argTop s := s.gpr (x 0)
  argMFn s := s.gpr (x 2)
  resM s := s.gpr (x 0)
  mspRet s := s.gpr sp
  mscratch := 0
  mkeep := 0xb0
  mslot _ _ := False
  aligned w := w.toNat % 16 = 0

/-! ## Proofs -/

def L : List (Slot A × Nat) := [
  (.f (d 8), 0x0), (.f (d 9), 0x8), (.f (d 10), 0x10), (.f (d 11), 0x18), (.f (d 12), 0x20), (.f (d 13), 0x28), 
  (.f (d 14), 0x30), (.f (d 15), 0x38), (.g (x 19), 0x40), (.g (x 20), 0x48), (.g (x 21), 0x50), (.g (x 22), 0x58), 
  (.g (x 23), 0x60), (.g (x 24), 0x68), (.g (x 25), 0x70), (.g (x 26), 0x78), (.g (x 27), 0x80), (.g (x 28), 0x88), 
  (.g (x 29), 0x90), (.g (x 30), 0x98)]

def LS : List (Slot A × Nat) := L ++ [(.g (x 30), 0xa0)]

def S : RegPort port where
  t := (x 4)
  t' := (x 4)
  a0 := (x 0)
  a1 := (x 1)
  a2 := (x 2)
  LS := LS
  L := L
  T := [.mov (x 0) (x 4), .ld (x 4) sp 0xa0, .addi sp sp (off A 0xb0)]
  T' := [.mov (x 0) (x 4), .addi sp sp (off A 0xb0)]
  rj := (x 4)
  rj' := (x 2)
  fr := 0xb0
  mres := 0xb0
  oPC := 0xa0
  oRA := 0x98
  jump_eq := rfl
  ontop_eq := rfl
  pureT := rfl
  pureT' := rfl
  fits := by decide
  word := by decide
  frmk := by decide
  spLS := by decide
  spL := by decide
  sub := by decide
  nodup := by decide
  ne := by decide
  nt := by decide
  conv := ⟨rfl, rfl, rfl, rfl, rfl, rfl, rfl, rfl, rfl, rfl, rfl, rfl, rfl, rfl, rfl, rfl, rfl⟩
  spRet := rfl
  tail := by
    intro e s
    have h : ∀ r ∈ port.saved, r ≠ x 0 ∧ r ≠ x 4 ∧ r ≠ sp := by decide
    refine ⟨rfl, rfl, fun r hr => ?_, fun _ _ => rfl, fun _ => rfl, fun _ => rfl, rfl, rfl, rfl⟩
    have := h r hr
    simp_all [exec, steps, step, setg, port]
  tail' := by
    intro e s
    have h : ∀ r ∈ port.saved, r ≠ x 0 ∧ r ≠ sp := by decide
    refine ⟨rfl, rfl, fun r hr => ?_, fun _ _ => rfl, rfl, rfl, rfl⟩
    have := h r hr
    simp_all [exec, steps, step, setg, port]
  inL := by decide
  ra := (x 30)
  ra_eq := rfl
  raLS := by decide
  make := by
    intro e σ
    have h : ∀ r ∈ port.saved, r ≠ x 0 ∧ r ≠ x 1 := by decide
    have hm : (exec e port.make σ).1.mem = store (store σ.mem ((σ.gpr (x 0) &&& mask A 4) - off A 0xb0 + off A 0xa0) A.k (σ.gpr (x 2)))
        ((σ.gpr (x 0) &&& mask A 4) - off A 0xb0 + off A 0x98) A.k (e Lab.finish) := by
      rw [BitVec.sub_eq_add_neg]; rfl
    rw [hm]
    generalize hc : (σ.gpr (x 0) &&& mask A 4) - off A 0xb0 = c
    refine ⟨rfl, hc ▸ (BitVec.sub_eq_add_neg _ _).symm, rfl, fun r hr => ?_, fun _ => rfl, fun y ha => ?_, ?_, ?_⟩
    · have := h r hr
      simp_all [exec, steps, step, setg, port, make, makeIs]
    · by_cases hh : store σ.mem (c + off A 0xa0) A.k (σ.gpr (x 2)) y = σ.mem y
      · rw [← hh] at ha; exact changed_store ha (by decide) (by decide)
      · exact changed_store hh (by decide) (by decide)
    · rw [load_store_off (by decide) (by decide) (by decide), load_store_same _ _ _ _ (by decide)]
      rfl
    · rw [load_store_same _ _ _ _ (by decide)]
      rfl

/-- **C31**, switching -/
theorem C31_arm64_jump : port.JumpSpec := S.jumpSpec
/-- **C31**, on-top calls -/
theorem C31_arm64_ontop : port.OntopSpec := S.ontopSpec
/-- **C31**, new contexts -/
theorem C31_arm64_make : port.MakeSpec := S.makeSpec

/-- The hypotheses of `C31_arm64_jump` and `C31_arm64_ontop` are met by a context suspended at `sp = 0x10000` and a resumer with different
register contents. -/
example (e : Env A) : ∃ σ τ m, port.Left e σ m ∧ port.Intact σ m τ ∧ port.argF τ = port.fctx σ ∧ σ.gpr (x 19) ≠ τ.gpr (x 19) := by
  obtain ⟨τ, m, h⟩ := S.inhabited e ⟨fun _ => 0x10000#_, fun _ => 0#_, fun _ => 0#_⟩ ⟨fun _ => 5#_, fun _ => 0#_, fun _ => 0#_⟩ 0x20000#_
    (by decide) (by decide)
  exact ⟨_, τ, m, h.1, h.2.1, h.2.2.1, by rw [h.2.2.2.2 (x 19) (by decide) (by decide)]; decide⟩

/-- The hypotheses of `C31_arm64_make` are met by a caller at `sp = 0x10000` and a stack whose top is the odd address `0xf123`. -/
example (e : Env A) (σ : St A) (h1 : σ.gpr (x 0) = 0xf123#_) (h2 : σ.gpr sp = 0x10000#_) :=
  S.make_inhabited e σ σ 0x20000#_ (by show _ ≤ BitVec.toNat (σ.gpr (x 0)); rw [h1]; decide)
    (by show BitVec.toNat (σ.gpr (x 0)) ≤ BitVec.toNat (σ.gpr sp); rw [h1, h2]; decide) (by show BitVec.toNat (σ.gpr sp) + _ + _ ≤ _; rw [h2]; decide) rfl

end Verif.Asm.Arm64
