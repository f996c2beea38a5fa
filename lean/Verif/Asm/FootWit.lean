import Verif.Asm.MicroWit
import Verif.Asm.FootMore
import Verif.Asm.FootI386
import Verif.Asm.FootDesc
import Verif.Asm.FootI386Pe
import Verif.Asm.ManyWit
import Verif.Asm.ManyMore
import Verif.Asm.ManyWin

/-! # The hypotheses of C81 and C82 are met: in every port two threads can be in the middle of switches at the same time -/

namespace Verif.Asm
namespace Micro
open Many

/-- For a port with these specifications there is an execution in which context 1, on a thread of its own, is in the middle of a switch to context 3 while context 0
switches to context 2 and is resumed from there by a context whose callee-saved registers differ (the hypotheses of `C82`'s `resume`). -/
def Overlap {A : Arch} {P : Port A} (X : Extra P) (D : Reads A) : Prop := ∀ e : Env A,
  ∃ M₀ M₁ M₂ M₃ σ τ, MReach X D e M₀ ∧ MStep X D e M₀ (.done 0 (.jump 2) σ) M₁ ∧ MAway X D e 0 (fun _ => True) M₁ M₂ ∧ MStep X D e M₂ (.done 2 (.jump 0) τ) M₃ ∧
    (∃ r ∈ P.saved, τ.gpr r ≠ σ.gpr r) ∧ ∃ σ₁ r₁ i c, M₀.ctx 1 = some (.busy 1 (.jump 3) σ₁ (P.jump :: P.stub) r₁ (c :: P.stub)) ∧
    M₃.ctx 1 = M₀.ctx 1 ∧ P.jump.first = some (i, c)

theorem Overlap.of {A : Arch} {P : Port A} {X : Extra P} {f : Env A → St A → A.W} (hJ : P.JumpSpec) (hO : X.OntopS f) (hM : X.MakeS) (F : Footprint X {})
    (L : Local X {}) (C : Calls X) (hmok : ∀ e σ, X.mok e σ) (hj : P.jump.first ≠ none) : Overlap X {} :=
  fun e => overlap hJ hO hM F L C (fun _ _ _ _ => hmok _ _) (fun _ _ _ _ _ h => h.elim) hj e

section
variable (hf vfp : Bool)
example (cfg : X86_64.Cfg) (hg : cfg.guard = false) : Overlap (X86_64.extra cfg) {} := .of (X86_64.C30_x86_64_jump cfg) (fun _ => X86_64.C30_x86_64_ontop cfg)
  (fun e σ _ => X86_64.C30_x86_64_make cfg hg e σ) (X86_64.C81_x86_64 cfg hg) (X86_64.loc cfg) (c_x86_64 cfg) (fun _ _ => trivial)
  (by obtain ⟨_ | _, _ | _⟩ := cfg <;> exact Option.some_ne_none _)
example (cfg : X86_64Macho.Cfg) : Overlap (X86_64Macho.extra cfg) {} := .of (X86_64Macho.C58_x86_64_macho_jump cfg) (fun _ => X86_64Macho.C58_x86_64_macho_ontop cfg)
  (fun e σ _ => X86_64Macho.C58_x86_64_macho_make cfg e σ) (X86_64Macho.C81_x86_64_macho cfg) (X86_64Macho.loc cfg) (c_x86_64_macho cfg) (fun _ _ => trivial)
  (by obtain ⟨_ | _⟩ := cfg <;> exact Option.some_ne_none _)
example : Overlap Arm64.extra {} := .of Arm64.C31_arm64_jump (fun _ => Arm64.C31_arm64_ontop) (fun e σ _ => Arm64.C31_arm64_make e σ) Arm64.C81_arm64 Arm64.loc c_arm64
  (fun _ _ => trivial) (Option.some_ne_none _)
example : Overlap RiscV64.extra {} := .of RiscV64.C32_riscv64_jump (fun _ => RiscV64.C32_riscv64_ontop) (fun e σ _ => RiscV64.C32_riscv64_make e σ) RiscV64.C81_riscv64
  RiscV64.loc c_riscv64 (fun _ _ => trivial) (Option.some_ne_none _)
example : Overlap LoongArch64.extra {} := .of LoongArch64.C33_loongarch64_jump (fun _ => LoongArch64.C33_loongarch64_ontop)
  (fun e σ _ => LoongArch64.C33_loongarch64_make e σ) LoongArch64.C81_loongarch64 LoongArch64.loc c_loongarch64 (fun _ _ => trivial) (Option.some_ne_none _)
example : Overlap (Mips64.extra hf) {} := .of (Mips64.C36_mips64_jump hf) (fun _ => Mips64.C36_mips64_ontop hf)
  (fun e σ _ => Mips64.C36_mips64_make hf e σ) (Mips64.C81_mips64 hf) (Mips64.loc hf) (c_mips64 hf) (fun _ _ => trivial) (by cases hf <;> exact Option.some_ne_none _)
example : Overlap Ppc64.extra {} := .of Ppc64.C57_ppc64_jump (fun _ => Ppc64.C57_ppc64_ontop)
  (fun e σ _ => Ppc64.C57_ppc64_make e σ) Ppc64.C81_ppc64 Ppc64.loc c_ppc64 (fun _ _ => trivial) (Option.some_ne_none _)
example : Overlap Ppc32b.extra {} := .of Ppc32b.C38_ppc32b_jump (fun _ => Ppc32b.C38_ppc32b_ontop)
  (fun e σ _ => Ppc32b.C38_ppc32b_make e σ) Ppc32b.C81_ppc32b Ppc32b.loc c_ppc32b (fun _ _ => trivial) (Option.some_ne_none _)
example : Overlap (Arm32.extra vfp) {} := .of (Arm32.C35_arm_jump vfp) (fun _ => Arm32.C35_arm_ontop vfp)
  (fun e σ _ => Arm32.C35_arm_make vfp e σ) (Arm32.C81_arm vfp) (Arm32.loc vfp) (c_arm32 vfp) (fun _ _ => trivial) (by cases vfp <;> exact Option.some_ne_none _)
example : Overlap (ArmMacho.extra vfp) {} := .of (ArmMacho.C60_arm_macho_jump vfp) (fun _ => ArmMacho.C60_arm_macho_ontop vfp)
  (fun e σ _ => ArmMacho.C60_arm_macho_make vfp e σ) (ArmMacho.C81_arm_macho vfp) (ArmMacho.loc vfp) (c_arm_macho vfp) (fun _ _ => trivial) (by cases vfp <;> exact Option.some_ne_none _)
example : Overlap (Mips32.extra hf) {} := .of (Mips32.C36_mips32_jump hf) (fun _ => Mips32.C36_mips32_ontop hf)
  (fun e σ _ => Mips32.C36_mips32_make hf e σ) (Mips32.C81_mips32 hf) (Mips32.loc hf) (c_mips32 hf) (fun _ _ => trivial) (by cases hf <;> exact Option.some_ne_none _)
example : Overlap Ppc32.extra {} := .of Ppc32.C38_ppc32_jump (fun _ => Ppc32.C38_ppc32_ontop)
  (fun e σ _ => Ppc32.C38_ppc32_make e σ) Ppc32.C81_ppc32 Ppc32.loc c_ppc32 (fun _ _ => trivial) (Option.some_ne_none _)
example : Overlap S390x.extra {} := .of S390x.C37_s390x_jump (fun _ => S390x.C37_s390x_ontop)
  (fun e σ _ => S390x.C37_s390x_make e σ) S390x.C81_s390x S390x.loc c_s390x (fun _ _ => trivial) (Option.some_ne_none _)
example : Overlap Ppc32Macho.extra {} := .of (f := fun e _ => e Ppc32Macho.Lab.tail) (Ppc32Macho.S 2).jumpSpec (fun _ e σ τ m h1 h2 h3 => by
    obtain ⟨t1, t2⟩ := (Ppc32Macho.S 2).ontopSpecTo e σ τ m h1 h2 h3
    exact ⟨t1.trans (BitVec.add_zero _), t2⟩)
  (fun e σ _ => Ppc32Macho.C78_ppc32_macho_make e σ) Ppc32Macho.C81_ppc32_macho Ppc32Macho.loc c_ppc32_macho (fun _ _ => trivial) (Option.some_ne_none _)
example : Overlap ArmPe.extra {} := .of ArmPe.C64_arm_pe_jump (f := fun _ τ => ArmPe.port.argFn τ) (fun h => h.elim)
  (fun e σ _ => ArmPe.C64_arm_pe_make e σ) ArmPe.C81_arm_pe ArmPe.loc c_arm_pe (fun _ _ => trivial) (Option.some_ne_none _)
example : Overlap Arm64Pe.extra {} := .of Arm64Pe.C63_arm64_pe_jump (f := fun _ τ => Arm64Pe.port.argFn τ) (fun h => h.elim)
  (fun e σ _ => Arm64Pe.C63_arm64_pe_make e σ) Arm64Pe.C81_arm64_pe Arm64Pe.loc c_arm64_pe (fun _ _ => trivial) (Option.some_ne_none _)
example : Overlap Arm64Macho.extra {} := .of Arm64Macho.C59_arm64_macho_jump (fun _ => Arm64Macho.C59_arm64_macho_ontop)
  (fun e σ _ => Arm64Macho.C59_arm64_macho_make e σ) Arm64Macho.C81_arm64_macho Arm64Macho.both.2 c_arm64_macho (fun _ _ => trivial) (Option.some_ne_none _)
example (cfg : X86_64Pe.Cfg) : Overlap (X86_64Pe.extra cfg) {} := .of (X86_64Pe.C62_x86_64_pe_jump cfg) (fun _ => X86_64Pe.C62_x86_64_pe_ontop cfg)
  (fun e σ _ => X86_64Pe.C62_x86_64_pe_make cfg e σ) (X86_64Pe.C81_x86_64_pe cfg) (X86_64Pe.loc cfg) (c_x86_64_pe cfg) (fun _ _ => trivial)
  (by obtain ⟨_ | _⟩ := cfg <;> exact Option.some_ne_none _)

theorem args_blk {a : I386.A.W} (h : InR a (spOf I386.A 0) 0x10) : blk 0 a := by
  have := inR_toNat h (by decide)
  have e1 : (spOf I386.A 0).toNat = 0x18000 := by decide
  unfold blk; omega
theorem args_blk' {a : I386Macho.A.W} (h : InR a (spOf I386Macho.A 0) 0x10) : blk 0 a := by
  have := inR_toNat h (by decide)
  have e1 : (spOf I386Macho.A 0).toNat = 0x18000 := by decide
  unfold blk; omega
example (cfg : I386.Cfg) : Overlap (I386.extra cfg) I386.reads := fun e => overlap (I386.C34_i386_jump cfg) (fun _ => I386.C34_i386_ontop cfg)
  (fun e σ _ => I386.C34_i386_make cfg e σ) (I386.C81_i386 cfg) (I386.loc cfg) (c_i386 cfg) (fun _ _ _ _ => trivial) (fun _ _ _ _ _ h => args_blk h)
  (by obtain ⟨_ | _, _ | _⟩ := cfg <;> exact Option.some_ne_none _) e
example (cfg : I386Macho.Cfg) : Overlap (I386Macho.extra cfg) I386Macho.reads := fun e => overlap (I386Macho.C61_i386_macho_jump cfg)
  (fun _ => I386Macho.C61_i386_macho_ontop cfg) (fun e σ _ => I386Macho.C61_i386_macho_make cfg e σ) (I386Macho.C81_i386_macho cfg) (I386Macho.loc cfg)
  (c_i386_macho cfg) (fun _ _ _ _ => trivial) (fun _ _ _ _ _ h => args_blk' h) (by obtain ⟨_ | _⟩ := cfg <;> exact Option.some_ne_none _) e
/-- the descriptor of the entry function is on the creator's stack -/
theorem desc_blk {A : Arch} {a : A.W} {n : Nat} (h : InR a (spOf A 0) n) (hn : n ≤ 0x10) (hs : (spOf A 0).toNat = 0x18000 ∧ 0x18010 ≤ 2 ^ (8 * A.k)) : blk 0 a := by
  have := inR_toNat h (by omega)
  unfold blk; omega
example (x : Bool) : Overlap (Ppc64v1.extra x) Ppc64v1.reads := fun e => overlap (Ppc64v1.jumpF x) (fun _ => Ppc64v1.C76_ppc64v1_ontop x)
  (fun e σ _ => Ppc64v1.makeF x e σ) (Ppc64v1.C81_ppc64v1 x) (Ppc64v1.loc x) (c_ppc64v1 x) (fun _ _ _ _ => trivial)
  (fun _ _ _ _ _ h => desc_blk (A := Ppc64v1.A) (n := 16) h (by decide) (by decide)) (by cases x <;> exact Option.some_ne_none _) e
example : Overlap Ppc32Xcoff.extra Ppc32Xcoff.reads := fun e => overlap Ppc32Xcoff.jumpF (fun _ => Ppc32Xcoff.C77_ppc32_xcoff_ontop)
  (fun e σ _ => Ppc32Xcoff.makeF e σ) Ppc32Xcoff.C81_ppc32_xcoff Ppc32Xcoff.loc c_ppc32_xcoff (fun _ _ _ _ => trivial)
  (fun _ _ _ _ _ h => desc_blk (A := Ppc32Xcoff.A) (n := 8) h (by decide) (by decide)) (Option.some_ne_none _) e

theorem win_size' (t : I386Pe.A.W) (x : I386Pe.A.W) (m : Mem I386Pe.A) (a : I386Pe.A.W) {j : Nat} (hj : j = 2 ∨ j = 3) (ht : t = topOf I386Pe.A j)
    (h : InR a (I386Pe.ctxOf (winCall m (spOf I386Pe.A 0) t x)) (t - I386Pe.ctxOf (winCall m (spOf I386Pe.A 0) t x)).toNat) : InR a (topOf I386Pe.A j - off I386Pe.A 0x50) 0x50 := by
  have h1 : I386Pe.ctxOf (winCall m (spOf I386Pe.A 0) t x) = topOf I386Pe.A j - off I386Pe.A 0x50 := by
    rw [I386Pe.ctxOf, winCall_to, ht]
    rcases hj with rfl | rfl <;> decide
  rw [h1, ht] at h
  have h2 : (topOf I386Pe.A j - (topOf I386Pe.A j - off I386Pe.A 0x50)).toNat = 0x50 := by rcases hj with rfl | rfl <;> decide
  rwa [h2] at h

theorem win_chain (m : Mem I386Pe.A) (sp t x : I386Pe.A.W) :
    I386Pe.Chain (winCall m sp t x).mem (I386Pe.seh (winCall m sp t x)) [sp + off I386Pe.A 0x30] := by
  have : I386Pe.seh (winCall m sp t x) = sp + off I386Pe.A 0x30 := BitVec.setWidth_eq _
  rw [this]; exact .last _ (winCall_rec sp t x m)

/-- i386 Windows, with a chain of one record on the stack of the creator -/
example (cfg : I386Pe.Cfg) (N : Nat) (hN : 1 ≤ N) : Overlap (I386Pe.extra cfg N) I386Pe.reads := fun e => overlap (I386Pe.C67_i386_pe_jump cfg N)
  (fun _ => I386Pe.C67_i386_pe_ontop cfg N) (I386Pe.makeS cfg N) (I386Pe.C81_i386_pe cfg N) (I386Pe.loc cfg N) (c_i386_pe cfg N hN)
  (fun e m j hj => by
    show ∃ l : List I386Pe.A.W, l.length ≤ N ∧ _
    refine ⟨[spOf I386Pe.A 0 + off I386Pe.A 0x30], hN, ?_⟩
    rw [I386Pe.foot_res]
    refine ⟨win_chain _ _ _ _, ?_, ?_⟩
    · intro a ha hb
      have hc : InR a (spOf I386Pe.A 0) 0x10 := hb
      clear hb
      have ha : InR a _ (I386Pe.arg (winCall m (spOf I386Pe.A 0) (topOf I386Pe.A j) 0#_) 4 - _).toNat := ha
      rw [winCall_to] at ha
      have ha := win_size' _ _ _ _ hj rfl ha
      rcases hj with rfl | rfl
      · exact inR_apart (by decide) (by decide) hc ha
      · exact inR_apart (by decide) (by decide) hc ha
    · intro r hr a ha hb
      rw [List.mem_singleton.1 hr] at hb
      have ha : InR a _ (I386Pe.arg (winCall m (spOf I386Pe.A 0) (topOf I386Pe.A j) 0#_) 4 - _).toNat := ha
      rw [winCall_to] at ha
      have ha := win_size' _ _ _ _ hj rfl ha
      rcases hj with rfl | rfl
      · exact inR_apart (by decide) (by decide) hb ha
      · exact inR_apart (by decide) (by decide) hb ha)
  (fun e m t x a h => by
    have h : InR a (spOf I386Pe.A 0) 0x10 ∨ ∃ l, I386Pe.Chain (winCall m (spOf I386Pe.A 0) t x).mem (I386Pe.seh (winCall m (spOf I386Pe.A 0) t x)) l ∧ ∃ r ∈ l, InR a r 8 := h
    rcases h with h | ⟨l, h1, r, h2, h3⟩
    · exact desc_blk (A := I386Pe.A) (n := 0x10) h (by decide) (by decide)
    · rw [I386Pe.chain_det h1 (win_chain _ _ _ _), List.mem_singleton] at h2
      rw [h2] at h3
      have := inR_toNat h3 (by decide)
      have e1 : (spOf I386Pe.A 0 + off I386Pe.A 0x30).toNat = 0x18030 := by decide
      unfold blk; omega)
  (by obtain ⟨_ | _⟩ := cfg <;> exact Option.some_ne_none _) e
end

end Micro
end Verif.Asm
