import Verif.Asm.LoongArch64Code
import Verif.Asm.RegPort

/-! # LoongArch64 SysV (lp64d): the switching routines meet their specification (C33) -/

namespace Verif.Asm.LoongArch64

/-- LoongArch psABI: arguments and results in a0, a1, a2; return address in ra; callee-saved s0-s8, fp, sp, fs0-fs7; sp is a multiple of 16 -/
def port : Port A where
  jump := jump
  ontop := ontop
  make := make
  tramp := none
  finish := Lab.finish
  sp := sp
  saved := [s 0, s 1, s 2, s 3, s 4, s 5, s 6, s 7, s 8, fp]
  fsaved := [fs 0, fs 1, fs 2, fs 3, fs 4, fs 5, fs 6, fs 7]
  ra s := s.gpr ra
  spRet s := s.gpr sp
  argF s := s.gpr (a 0)
  argD s := s.gpr (a 1)
  argFn s := s.gpr (a 2)
  slot _ _ := False
  resF _ s := s.gpr (a 0)
  resD _ s := s.gpr (a 1)
  inF s := s.gpr (a 0)
  inD s := s.gpr (a 1)
  oinF s := s.gpr (a 0)
  oinD s := s.gpr (a 1)
  fctx s := s.gpr sp - off A 0xa0
  frame := 0xa0
  keep := 0xa0
  tslot _ _ := False
  oarea _ _ := False
  ok _ := True
  argTop s := s.gpr (a 0)
  argMFn s := s.gpr (a 2)
  resM s := s.gpr (a 0)
  mspRet s := s.gpr sp
  mscratch := 0
  mkeep := 0xa0
  mslot _ _ := False
  aligned w := w.toNat % 16 = 0

/-! ## Proofs -/

def L : List (Slot A × Nat) := [
  (.f (fs 0), 0x0), (.f (fs 1), 0x8), (.f (fs 2), 0x10), (.f (fs 3), 0x18), (.f (fs 4), 0x20), (.f (fs 5), 0x28), 
  (.f (fs 6), 0x30), (.f (fs 7), 0x38), (.g (s 0), 0x40), (.g (s 1), 0x48), (.g (s 2), 0x50), (.g (s 3), 0x58), 
  (.g (s 4), 0x60), (.g (s 5), 0x68), (.g (s 6), 0x70), (.g (s 7), 0x78), (.g (s 8), 0x80), (.g fp, 0x88), (.g ra, 0x90)]

def LS : List (Slot A × Nat) := L ++ [(.g ra, 0x98)]

def S : RegPort port where
  t := (a 2)
  t' := (a 3)
  a0 := (a 0)
  a1 := (a 1)
  a2 := (a 2)
  LS := LS
  L := L
  T := [.mov (a 0) (a 2), .ld (a 2) sp 0x98, .addi sp sp (off A 0xa0)]
  T' := [.mov (a 0) (a 3), .addi sp sp (off A 0xa0)]
  rj := (a 2)
  rj' := (a 2)
  fr := 0xa0
  mres := 0xa0
  oPC := 0x98
  oRA := 0x90
  jump_eq := rfl
  ontop_eq := rfl
  pureT := rfl
  pureT' := rfl
  fits := by decide
  word := by decide
  frmk := by decide
  spLS := by decide
  spL := by decide
  sub := by decide
  nodup := by decide
  ne := by decide
  nt := by decide
  conv := ⟨rfl, rfl, rfl, rfl, rfl, rfl, rfl, rfl, rfl, rfl, rfl, rfl, rfl, rfl, rfl, rfl, rfl⟩
  spRet := rfl
  tail := by
    intro e s
    have h : ∀ r ∈ port.saved, r ≠ a 0 ∧ r ≠ a 2 ∧ r ≠ sp := by decide
    refine ⟨rfl, rfl, fun r hr => ?_, fun _ _ => rfl, fun _ => rfl, fun _ => rfl, rfl, rfl, rfl⟩
    have := h r hr
    simp_all [exec, steps, step, setg, port]
  tail' := by
    intro e s
    have h : ∀ r ∈ port.saved, r ≠ a 0 ∧ r ≠ sp := by decide
    refine ⟨rfl, rfl, fun r hr => ?_, fun _ _ => rfl, rfl, rfl, rfl⟩
    have := h r hr
    simp_all [exec, steps, step, setg, port]
  inL := by decide
  ra := ra
  ra_eq := rfl
  raLS := by decide
  make := by
    intro e σ
    have h : ∀ r ∈ port.saved, r ≠ a 0 ∧ r ≠ a 4 := by decide
    have hm : (exec e port.make σ).1.mem = store (store σ.mem ((σ.gpr (a 0) &&& mask A 4) - off A 0xa0 + off A 0x98) A.k (σ.gpr (a 2)))
        ((σ.gpr (a 0) &&& mask A 4) - off A 0xa0 + off A 0x90) A.k (e Lab.finish) := by
      rw [BitVec.sub_eq_add_neg]; rfl
    rw [hm]
    generalize hc : (σ.gpr (a 0) &&& mask A 4) - off A 0xa0 = c
    refine ⟨rfl, hc ▸ (BitVec.sub_eq_add_neg _ _).symm, rfl, fun r hr => ?_, fun _ => rfl, fun y ha => ?_, ?_, ?_⟩
    · have := h r hr
      simp_all [exec, steps, step, setg, port, make, makeIs]
    · by_cases hh : store σ.mem (c + off A 0x98) A.k (σ.gpr (a 2)) y = σ.mem y
      · rw [← hh] at ha; exact changed_store ha (by decide) (by decide)
      · exact changed_store hh (by decide) (by decide)
    · rw [load_store_off (by decide) (by decide) (by decide), load_store_same _ _ _ _ (by decide)]
      rfl
    · rw [load_store_same _ _ _ _ (by decide)]
      rfl

/-- **C33**, switching -/
theorem C33_loongarch64_jump : port.JumpSpec := S.jumpSpec
/-- **C33**, on-top calls -/
theorem C33_loongarch64_ontop : port.OntopSpec := S.ontopSpec
/-- **C33**, new contexts -/
theorem C33_loongarch64_make : port.MakeSpec := S.makeSpec

/-- The hypotheses of `C33_loongarch64_jump` and `C33_loongarch64_ontop` are met by a context suspended at `sp = 0x10000` and a resumer with different
register contents. -/
example (e : Env A) : ∃ σ τ m, port.Left e σ m ∧ port.Intact σ m τ ∧ port.argF τ = port.fctx σ ∧ σ.gpr (s 0) ≠ τ.gpr (s 0) := by
  obtain ⟨τ, m, h⟩ := S.inhabited e ⟨fun _ => 0x10000#_, fun _ => 0#_, fun _ => 0#_⟩ ⟨fun _ => 5#_, fun _ => 0#_, fun _ => 0#_⟩ 0x20000#_
    (by decide) (by decide)
  exact ⟨_, τ, m, h.1, h.2.1, h.2.2.1, by rw [h.2.2.2.2 (s 0) (by decide) (by decide)]; decide⟩

/-- The hypotheses of `C33_loongarch64_make` are met by a caller at `sp = 0x10000` and a stack whose top is the odd address `0xf123`. -/
example (e : Env A) (σ : St A) (h1 : σ.gpr (a 0) = 0xf123#_) (h2 : σ.gpr sp = 0x10000#_) :=
  S.make_inhabited e σ σ 0x20000#_ (by show _ ≤ BitVec.toNat (σ.gpr (a 0)); rw [h1]; decide)
    (by show BitVec.toNat (σ.gpr (a 0)) ≤ BitVec.toNat (σ.gpr sp); rw [h1, h2]; decide) (by show BitVec.toNat (σ.gpr sp) + _ + _ ≤ _; rw [h2]; decide) rfl

end Verif.Asm.LoongArch64
