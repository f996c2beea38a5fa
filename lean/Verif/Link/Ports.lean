import Verif.Link.Round
import Verif.Asm.ManyWit
import Verif.Asm.ManyMacho
import Verif.Asm.ManyMore
import Verif.Asm.ManyWin

/-! # The library on the machine: the ports (C80) -/

namespace Verif.Link

open Verif.Asm Verif.Asm.Many

/-! ## The ports -/

/-- **C80** -/
theorem C80_x86_64 (cfg : X86_64.Cfg) (hg : cfg.guard = false) : Spec (X86_64.extra cfg) fun _ τ => (X86_64.port cfg).argFn τ :=
  C80_of_specs _ (X86_64.C30_x86_64_jump cfg) (X86_64.C30_x86_64_ontop cfg) (X86_64.C30_x86_64_make cfg hg)
theorem C80_i386 (cfg : I386.Cfg) : Spec (I386.extra cfg) fun _ τ => (I386.port cfg).argFn τ :=
  C80_of_specs _ (I386.C34_i386_jump cfg) (I386.C34_i386_ontop cfg) (I386.C34_i386_make cfg)
theorem C80_arm64 : Spec Arm64.extra fun _ τ => Arm64.port.argFn τ := C80_of_specs _ Arm64.C31_arm64_jump Arm64.C31_arm64_ontop Arm64.C31_arm64_make
theorem C80_riscv64 : Spec RiscV64.extra fun _ τ => RiscV64.port.argFn τ :=
  C80_of_specs _ RiscV64.C32_riscv64_jump RiscV64.C32_riscv64_ontop RiscV64.C32_riscv64_make
theorem C80_loongarch64 : Spec LoongArch64.extra fun _ τ => LoongArch64.port.argFn τ :=
  C80_of_specs _ LoongArch64.C33_loongarch64_jump LoongArch64.C33_loongarch64_ontop LoongArch64.C33_loongarch64_make
theorem C80_arm (vfp : Bool) : Spec (Arm32.extra vfp) fun _ τ => (Arm32.port vfp).argFn τ :=
  C80_of_specs _ (Arm32.C35_arm_jump vfp) (Arm32.C35_arm_ontop vfp) (Arm32.C35_arm_make vfp)
theorem C80_mips64 (hf : Bool) : Spec (Mips64.extra hf) fun _ τ => (Mips64.port hf).argFn τ :=
  C80_of_specs _ (Mips64.C36_mips64_jump hf) (Mips64.C36_mips64_ontop hf) (Mips64.C36_mips64_make hf)
theorem C80_mips32 (hf : Bool) : Spec (Mips32.extra hf) fun _ τ => (Mips32.port hf).argFn τ :=
  C80_of_specs _ (Mips32.C36_mips32_jump hf) (Mips32.C36_mips32_ontop hf) (Mips32.C36_mips32_make hf)
theorem C80_s390x : Spec S390x.extra fun _ τ => S390x.port.argFn τ := C80_of_specs _ S390x.C37_s390x_jump S390x.C37_s390x_ontop S390x.C37_s390x_make
theorem C80_ppc32 : Spec Ppc32.extra fun e _ => e Ppc32.Lab.tail := C80_of_specs _ Ppc32.C38_ppc32_jump Ppc32.C38_ppc32_ontop Ppc32.C38_ppc32_make
theorem C80_ppc32b : Spec Ppc32b.extra fun e _ => e Ppc32b.Lab.tail := C80_of_specs _ Ppc32b.C38_ppc32b_jump Ppc32b.C38_ppc32b_ontop Ppc32b.C38_ppc32b_make
/-- PowerPC 64 without the floating point registers, which `jump_fcontext` does not save (see `C57_ppc64_fprs_violated`) -/
theorem C80_ppc64 : Spec Ppc64.extra fun _ τ => Ppc64.port.argFn τ :=
  C80_of_specs _ Ppc64.C57_ppc64_jump Ppc64.C57_ppc64_ontop Ppc64.C57_ppc64_make

theorem C80_x86_64_macho (cfg : X86_64Macho.Cfg) : Spec (X86_64Macho.extra cfg) fun _ τ => (X86_64Macho.port cfg).argFn τ :=
  C80_of_specs _ (X86_64Macho.C58_x86_64_macho_jump cfg) (X86_64Macho.C58_x86_64_macho_ontop cfg) (X86_64Macho.C58_x86_64_macho_make cfg)
theorem C80_i386_macho (cfg : I386Macho.Cfg) : Spec (I386Macho.extra cfg) fun _ τ => (I386Macho.port cfg).argFn τ :=
  C80_of_specs _ (I386Macho.C61_i386_macho_jump cfg) (I386Macho.C61_i386_macho_ontop cfg) (I386Macho.C61_i386_macho_make cfg)
theorem C80_arm64_macho : Spec Arm64Macho.extra fun _ τ => Arm64Macho.port.argFn τ :=
  C80_of_specs _ Arm64Macho.C59_arm64_macho_jump Arm64Macho.C59_arm64_macho_ontop Arm64Macho.C59_arm64_macho_make
theorem C80_arm_macho (vfp : Bool) : Spec (ArmMacho.extra vfp) fun _ τ => (ArmMacho.port vfp).argFn τ :=
  C80_of_specs _ (ArmMacho.C60_arm_macho_jump vfp) (ArmMacho.C60_arm_macho_ontop vfp) (ArmMacho.C60_arm_macho_make vfp)
theorem C80_x86_64_pe (cfg : X86_64Pe.Cfg) : Spec (X86_64Pe.extra cfg) fun _ τ => (X86_64Pe.port cfg).argFn τ :=
  C80_of_specs _ (X86_64Pe.C62_x86_64_pe_jump cfg) (X86_64Pe.C62_x86_64_pe_ontop cfg) (X86_64Pe.C62_x86_64_pe_make cfg)
/-- PowerPC 64 with function descriptors, without the floating point registers (see `C76_ppc64v1_fprs_violated`) and the TOC pointer -/
theorem C80_ppc64v1 (x : Bool) : Spec (Ppc64v1.extra x) fun e τ => load (exec e (Ppc64v1.port x).ontop τ).1.mem ((Ppc64v1.port x).argFn τ) 8 :=
  C80_of_specs _ (Ppc64v1.jumpF x) (Ppc64v1.C76_ppc64v1_ontop x) (Ppc64v1.makeF x)
/-- PowerPC 32 AIX, without r13 (see `C77_ppc32_xcoff_r13_violated`) and the TOC pointer -/
theorem C80_ppc32_xcoff : Spec Ppc32Xcoff.extra fun e τ => load (exec e Ppc32Xcoff.port.ontop τ).1.mem (Ppc32Xcoff.port.argFn τ) 4 :=
  C80_of_specs _ Ppc32Xcoff.jumpF Ppc32Xcoff.C77_ppc32_xcoff_ontop Ppc32Xcoff.makeF
/-- PowerPC 32 Darwin, with stack pointers that are only multiples of 4 (see `C78_ppc32_macho_misaligned`) -/
theorem C80_ppc32_macho : Spec Ppc32Macho.extra fun e _ => e Ppc32Macho.Lab.tail :=
  C80_of_specs _ (Ppc32Macho.S 2).jumpSpec (fun e σ τ m h1 h2 h3 => by
    obtain ⟨t1, t2⟩ := (Ppc32Macho.S 2).ontopSpecTo e σ τ m h1 h2 h3
    exact ⟨t1.trans (BitVec.add_zero _), t2⟩) Ppc32Macho.C78_ppc32_macho_make

/-- i386 Windows, for exception handler chains of at most `N` records; `N` is arbitrary -/
theorem C80_i386_pe (cfg : I386Pe.Cfg) (N : Nat) : Spec (I386Pe.extra cfg N) fun _ τ => (I386Pe.port cfg N).argFn τ :=
  C80_of_calls _ (I386Pe.C67_i386_pe_jump cfg N) (fun _ => I386Pe.C67_i386_pe_ontop cfg N) (I386Pe.makeS cfg N)
/-- ARM64 Windows, for histories without on-top calls: no `resume_with`, no end and no destruction of a fiber that has been resumed (see `C63_arm64_pe_ontop_violated`) -/
theorem C80_arm64_pe : Spec Arm64Pe.extra fun _ τ => Arm64Pe.port.argFn τ :=
  C80_of_calls _ Arm64Pe.C63_arm64_pe_jump (fun h => h.elim) (fun e σ _ => Arm64Pe.C63_arm64_pe_make e σ)
/-- ARM Windows, for histories without on-top calls (see `C64_arm_pe_ontop_violated`), without d8-d15 (see `C64_arm_pe_fprs_violated`) -/
theorem C80_arm_pe : Spec ArmPe.extra fun _ τ => ArmPe.port.argFn τ :=
  C80_of_calls _ ArmPe.C64_arm_pe_jump (fun h => h.elim) (fun e σ _ => ArmPe.C64_arm_pe_make e σ)

example (cfg : X86_64.Cfg) (hg : cfg.guard = false) := inhabited (X86_64.C30_x86_64_make cfg hg) (c_x86_64 cfg)
example (cfg : I386.Cfg) := inhabited (I386.C34_i386_make cfg) (c_i386 cfg)
example := inhabited Arm64.C31_arm64_make c_arm64
example := inhabited RiscV64.C32_riscv64_make c_riscv64
example := inhabited LoongArch64.C33_loongarch64_make c_loongarch64
example (hf : Bool) := inhabited (Mips64.C36_mips64_make hf) (c_mips64 hf)
example := inhabited Ppc64.C57_ppc64_make c_ppc64
example := inhabited Ppc32b.C38_ppc32b_make c_ppc32b
example (vfp : Bool) := inhabited (Arm32.C35_arm_make vfp) (c_arm32 vfp)
example (hf : Bool) := inhabited (Mips32.C36_mips32_make hf) (c_mips32 hf)
example := inhabited S390x.C37_s390x_make c_s390x
example := inhabited Ppc32.C38_ppc32_make c_ppc32
example (cfg : X86_64Macho.Cfg) := inhabited (X86_64Macho.C58_x86_64_macho_make cfg) (c_x86_64_macho cfg)
example (cfg : I386Macho.Cfg) := inhabited (I386Macho.C61_i386_macho_make cfg) (c_i386_macho cfg)
example := inhabited Arm64Macho.C59_arm64_macho_make c_arm64_macho
example (vfp : Bool) := inhabited (ArmMacho.C60_arm_macho_make vfp) (c_arm_macho vfp)
example (cfg : X86_64Pe.Cfg) := inhabited (X86_64Pe.C62_x86_64_pe_make cfg) (c_x86_64_pe cfg)
example (x : Bool) := inhabited (Ppc64v1.makeF x) (c_ppc64v1 x)
example := inhabited Ppc32Xcoff.makeF c_ppc32_xcoff
example := inhabited Ppc32Macho.C78_ppc32_macho_make c_ppc32_macho
example (cfg : I386Pe.Cfg) (N : Nat) (hN : 1 ≤ N) := inhabited_of (I386Pe.makeS cfg N) (c_i386_pe cfg N hN)
example := inhabited Arm64Pe.C63_arm64_pe_make c_arm64_pe
example := inhabited ArmPe.C64_arm_pe_make c_arm_pe

end Verif.Link
