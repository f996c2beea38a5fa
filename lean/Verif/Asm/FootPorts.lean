import Verif.Asm.FootSym
import Verif.Asm.MicroSpec
import Verif.Asm.ManyPorts

/-! # What the routines access, and switches instruction by instruction: ports that pass everything in registers (C81, C82) -/

namespace Verif.Asm

namespace Arm64
theorem sane : A.Sane := ⟨by decide, fun f => by show 8 ≤ _; decide⟩
theorem mf : port.MakeFoot (x 0) 4 S.mres := .of (mi := makeIs) (mr := x 30) rfl (by decide) sane.1 (by decide +kernel)
theorem fj : ((S.K.C S.fr (0, 0)).run jumpIs SSt.init).isSome = true := by decide +kernel
theorem fo : ((S.K.C S.fr (0, 0)).run ontopIs SSt.init).isSome = true := by decide +kernel
theorem fe : ((S.K.C S.mres (0, 0)).run jumpIs SSt.init).isSome = true := by decide +kernel
theorem C81_arm64 : Footprint extra {} := S.footprint extra {} rfl rfl rfl mf fj fo fe
theorem loc : Local extra {} := S.loc extra sane (fun _ h => h) (fun _ h => h) (fun h => by simp only [port, h]; trivial) (fun h => by simp only [port, h]; trivial) (fun _ h => h)
theorem C82_arm64 : Micro.Spec extra {} fun _ τ => port.argFn τ := Micro.C82_of_footprints C31_arm64_jump (fun _ => C31_arm64_ontop) (fun e σ _ => C31_arm64_make e σ) C81_arm64 loc
end Arm64

namespace RiscV64
theorem sane : A.Sane := ⟨by decide, fun f => by show 8 ≤ _; decide⟩
theorem mf : port.MakeFoot (a 0) 4 S.mres := .of (mi := makeIs) (mr := ra) rfl (by decide) sane.1 (by decide +kernel)
theorem fj : ((S.K.C S.fr (0, 0)).run jumpIs SSt.init).isSome = true := by decide +kernel
theorem fo : ((S.K.C S.fr (0, 0)).run ontopIs SSt.init).isSome = true := by decide +kernel
theorem fe : ((S.K.C S.mres (0, 0)).run jumpIs SSt.init).isSome = true := by decide +kernel
theorem C81_riscv64 : Footprint extra {} := S.footprint extra {} rfl rfl rfl mf fj fo fe
theorem loc : Local extra {} := S.loc extra sane (fun _ h => h) (fun _ h => h) (fun h => by simp only [port, h]; trivial) (fun h => by simp only [port, h]; trivial) (fun _ h => h)
theorem C82_riscv64 : Micro.Spec extra {} fun _ τ => port.argFn τ := Micro.C82_of_footprints C32_riscv64_jump (fun _ => C32_riscv64_ontop) (fun e σ _ => C32_riscv64_make e σ) C81_riscv64 loc
end RiscV64

namespace LoongArch64
theorem sane : A.Sane := ⟨by decide, fun f => by show 8 ≤ _; decide⟩
theorem mf : port.MakeFoot (a 0) 4 S.mres := .of (mi := makeIs) (mr := ra) rfl (by decide) sane.1 (by decide +kernel)
theorem fj : ((S.K.C S.fr (0, 0)).run jumpIs SSt.init).isSome = true := by decide +kernel
theorem fo : ((S.K.C S.fr (0, 0)).run ontopIs SSt.init).isSome = true := by decide +kernel
theorem fe : ((S.K.C S.mres (0, 0)).run jumpIs SSt.init).isSome = true := by decide +kernel
theorem C81_loongarch64 : Footprint extra {} := S.footprint extra {} rfl rfl rfl mf fj fo fe
theorem loc : Local extra {} := S.loc extra sane (fun _ h => h) (fun _ h => h) (fun h => by simp only [port, h]; trivial) (fun h => by simp only [port, h]; trivial) (fun _ h => h)
theorem C82_loongarch64 : Micro.Spec extra {} fun _ τ => port.argFn τ :=
  Micro.C82_of_footprints C33_loongarch64_jump (fun _ => C33_loongarch64_ontop) (fun e σ _ => C33_loongarch64_make e σ) C81_loongarch64 loc
end LoongArch64

namespace Mips64
theorem sane : A.Sane := ⟨by decide, fun f => by show 8 ≤ _; decide⟩
theorem mf (hf : Bool) : (port hf).MakeFoot (a 0) 4 (S hf).mres := by
  intro e σ _ y
  obtain ⟨c, hc⟩ : ∃ c, c = (σ.gpr (a 0) &&& mask A 4) - off A (S hf).mres := ⟨_, rfl⟩
  rw [← hc]
  have e1 : (mask A 4 &&& σ.gpr (a 0)) + -off A 0xa0 = c := by
    rw [hc, BitVec.sub_eq_add_neg, BitVec.and_comm]; rfl
  refine ⟨fun h => ?_, fun h => ?_⟩
  · have h : False ∨ False ∨ False ∨ False ∨ False ∨ False ∨ False ∨ False := h
    simp at h
  · have h : False ∨ False ∨ False ∨ InR y ((mask A 4 &&& σ.gpr (a 0)) + -off A 0xa0 + off A 0x98) A.k ∨ InR y ((mask A 4 &&& σ.gpr (a 0)) + -off A 0xa0 + off A 0x88) A.k ∨ False ∨
      InR y ((mask A 4 &&& σ.gpr (a 0)) + -off A 0xa0 + off A 0x90) A.k ∨ False := h
    rw [e1] at h
    simp only [false_or, or_false] at h
    rcases h with h | h | h
    · exact inR_off h (by show _ ≤ 0xa0; decide) (by show 0xa0 ≤ _; decide)
    · exact inR_off h (by show _ ≤ 0xa0; decide) (by show 0xa0 ≤ _; decide)
    · exact inR_off h (by show _ ≤ 0xa0; decide) (by show 0xa0 ≤ _; decide)
theorem fj (hf : Bool) : (((S hf).K.C (S hf).fr (0, 0)).run (jumpIs hf) SSt.init).isSome = true := by revert hf; decide +kernel
theorem fo (hf : Bool) : (((S hf).K.C (S hf).fr (0, 0)).run (ontopIs hf) SSt.init).isSome = true := by revert hf; decide +kernel
theorem fe (hf : Bool) : (((S hf).K.C (S hf).mres (0, 0)).run (jumpIs hf) SSt.init).isSome = true := by revert hf; decide +kernel
theorem C81_mips64 (hf : Bool) : Footprint (extra hf) {} := (S hf).footprint (extra hf) {} rfl rfl rfl (mf hf) (fj hf) (fo hf) (fe hf)
theorem loc (hf : Bool) : Local (extra hf) {} :=
  (S hf).loc (extra hf) sane (fun _ h => h) (fun _ h => h) (fun h => by simp only [port, h]; trivial) (fun h => by simp only [port, h]; trivial) (fun _ h => h)
theorem C82_mips64 (hf : Bool) : Micro.Spec (extra hf) {} fun _ τ => (port hf).argFn τ :=
  Micro.C82_of_footprints (C36_mips64_jump hf) (fun _ => C36_mips64_ontop hf) (fun e σ _ => C36_mips64_make hf e σ) (C81_mips64 hf) (loc hf)
end Mips64

namespace Ppc64
theorem sane : A.Sane := ⟨by decide, fun f => by cases f <;> exact Nat.le_trans (show _ ≤ 8 by first | exact Nat.le_refl _ | decide) (show 8 ≤ _ by decide)⟩
theorem mf : port.MakeFoot M.top M.j M.msz := .of (mi := makeIs) (mr := lr) rfl (by decide) sane.1 (by decide +kernel)
theorem C81_ppc64 : Footprint extra {} := M.footprint extra {} rfl mf (.inl ⟨rfl, rfl⟩)
theorem loc : Local extra {} := M.loc extra sane (fun _ h => h) (fun _ h => h) (fun h => by simp only [port, h]; trivial) (fun _ h => h)
theorem C82_ppc64 : Micro.Spec extra {} fun _ τ => port.argFn τ := Micro.C82_of_footprints C57_ppc64_jump (fun _ => C57_ppc64_ontop) (fun e σ _ => C57_ppc64_make e σ) C81_ppc64 loc
end Ppc64

namespace Ppc32b
theorem sane : A.Sane := ⟨by decide, fun f => by cases f <;> exact Nat.le_trans (show _ ≤ 8 by first | exact Nat.le_refl _ | decide) (show 8 ≤ _ by decide)⟩
theorem mf : port.MakeFoot M.top M.j M.msz := .of (mi := makeIs) (mr := lr) rfl (by decide) sane.1 (by decide +kernel)
theorem C81_ppc32b : Footprint extra {} := M.footprint extra {} rfl mf (.inr ⟨_, _, rfl⟩)
theorem loc : Local extra {} := M.loc extra sane (fun _ h => h) (fun _ h => h) (fun h => by simp only [port, h]; trivial) (fun _ h => h)
theorem C82_ppc32b : Micro.Spec extra {} fun e _ => e Lab.tail := Micro.C82_of_footprints C38_ppc32b_jump (fun _ => C38_ppc32b_ontop) (fun e σ _ => C38_ppc32b_make e σ) C81_ppc32b loc
end Ppc32b

end Verif.Asm
