import Verif.Link.Order
import Verif.Link.Ports
import Verif.Link.Cont

/-! # Comparison of `fiber` and `continuation` objects: the ports (C90) -/

namespace Verif.Link

open Verif.Asm Verif.Asm.Many

local macro "pos" : tactic => `(tactic| first | decide | exact Nat.succ_pos _ | decide +revert)

/-- **C90** -/
theorem C90_x86_64 (cfg : X86_64.Cfg) (hg : cfg.guard = false) : OrderSpec (X86_64.extra cfg) :=
  C90_of_specs _ (by pos) (by pos) (X86_64.C30_x86_64_jump cfg) (X86_64.C30_x86_64_ontop cfg) (X86_64.C30_x86_64_make cfg hg)
theorem C90_i386 (cfg : I386.Cfg) : OrderSpec (I386.extra cfg) :=
  C90_of_specs _ (by pos) (by pos) (I386.C34_i386_jump cfg) (I386.C34_i386_ontop cfg) (I386.C34_i386_make cfg)
theorem C90_arm64 : OrderSpec Arm64.extra := C90_of_specs _ (by pos) (by pos) Arm64.C31_arm64_jump Arm64.C31_arm64_ontop Arm64.C31_arm64_make
theorem C90_riscv64 : OrderSpec RiscV64.extra :=
  C90_of_specs _ (by pos) (by pos) RiscV64.C32_riscv64_jump RiscV64.C32_riscv64_ontop RiscV64.C32_riscv64_make
theorem C90_loongarch64 : OrderSpec LoongArch64.extra :=
  C90_of_specs _ (by pos) (by pos) LoongArch64.C33_loongarch64_jump LoongArch64.C33_loongarch64_ontop LoongArch64.C33_loongarch64_make
theorem C90_arm (vfp : Bool) : OrderSpec (Arm32.extra vfp) :=
  C90_of_specs _ (by pos) (by pos) (Arm32.C35_arm_jump vfp) (Arm32.C35_arm_ontop vfp) (Arm32.C35_arm_make vfp)
theorem C90_mips64 (hf : Bool) : OrderSpec (Mips64.extra hf) :=
  C90_of_specs _ (by pos) (by pos) (Mips64.C36_mips64_jump hf) (Mips64.C36_mips64_ontop hf) (Mips64.C36_mips64_make hf)
theorem C90_mips32 (hf : Bool) : OrderSpec (Mips32.extra hf) :=
  C90_of_specs _ (by pos) (by pos) (Mips32.C36_mips32_jump hf) (Mips32.C36_mips32_ontop hf) (Mips32.C36_mips32_make hf)
theorem C90_s390x : OrderSpec S390x.extra := C90_of_specs _ (by pos) (by pos) S390x.C37_s390x_jump S390x.C37_s390x_ontop S390x.C37_s390x_make
theorem C90_ppc32 : OrderSpec Ppc32.extra := C90_of_specs _ (by pos) (by pos) Ppc32.C38_ppc32_jump Ppc32.C38_ppc32_ontop Ppc32.C38_ppc32_make
theorem C90_ppc32b : OrderSpec Ppc32b.extra := C90_of_specs _ (by pos) (by pos) Ppc32b.C38_ppc32b_jump Ppc32b.C38_ppc32b_ontop Ppc32b.C38_ppc32b_make
/-- PowerPC 64 without the floating point registers, which `jump_fcontext` does not save (see `C57_ppc64_fprs_violated`) -/
theorem C90_ppc64 : OrderSpec Ppc64.extra :=
  C90_of_specs _ (by pos) (by pos) Ppc64.C57_ppc64_jump Ppc64.C57_ppc64_ontop Ppc64.C57_ppc64_make

theorem C90_x86_64_macho (cfg : X86_64Macho.Cfg) : OrderSpec (X86_64Macho.extra cfg) :=
  C90_of_specs _ (by pos) (by pos) (X86_64Macho.C58_x86_64_macho_jump cfg) (X86_64Macho.C58_x86_64_macho_ontop cfg) (X86_64Macho.C58_x86_64_macho_make cfg)
theorem C90_i386_macho (cfg : I386Macho.Cfg) : OrderSpec (I386Macho.extra cfg) :=
  C90_of_specs _ (by pos) (by pos) (I386Macho.C61_i386_macho_jump cfg) (I386Macho.C61_i386_macho_ontop cfg) (I386Macho.C61_i386_macho_make cfg)
theorem C90_arm64_macho : OrderSpec Arm64Macho.extra :=
  C90_of_specs _ (by pos) (by pos) Arm64Macho.C59_arm64_macho_jump Arm64Macho.C59_arm64_macho_ontop Arm64Macho.C59_arm64_macho_make
theorem C90_arm_macho (vfp : Bool) : OrderSpec (ArmMacho.extra vfp) :=
  C90_of_specs _ (by pos) (by pos) (ArmMacho.C60_arm_macho_jump vfp) (ArmMacho.C60_arm_macho_ontop vfp) (ArmMacho.C60_arm_macho_make vfp)
theorem C90_x86_64_pe (cfg : X86_64Pe.Cfg) : OrderSpec (X86_64Pe.extra cfg) :=
  C90_of_specs _ (by pos) (by pos) (X86_64Pe.C62_x86_64_pe_jump cfg) (X86_64Pe.C62_x86_64_pe_ontop cfg) (X86_64Pe.C62_x86_64_pe_make cfg)
/-- PowerPC 64 with function descriptors, without the floating point registers (see `C76_ppc64v1_fprs_violated`) and the TOC pointer -/
theorem C90_ppc64v1 (x : Bool) : OrderSpec (Ppc64v1.extra x) :=
  C90_of_specs _ (by pos) (by pos) (Ppc64v1.jumpF x) (Ppc64v1.C76_ppc64v1_ontop x) (Ppc64v1.makeF x)
/-- PowerPC 32 AIX, without r13 (see `C77_ppc32_xcoff_r13_violated`) and the TOC pointer -/
theorem C90_ppc32_xcoff : OrderSpec Ppc32Xcoff.extra :=
  C90_of_specs _ (by pos) (by pos) Ppc32Xcoff.jumpF Ppc32Xcoff.C77_ppc32_xcoff_ontop Ppc32Xcoff.makeF
/-- PowerPC 32 Darwin, with stack pointers that are only multiples of 4 (see `C78_ppc32_macho_misaligned`) -/
theorem C90_ppc32_macho : OrderSpec Ppc32Macho.extra :=
  C90_of_specs _ (by pos) (by pos) (Ppc32Macho.S 2).jumpSpec (fun e σ τ m h1 h2 h3 => by
    obtain ⟨t1, t2⟩ := (Ppc32Macho.S 2).ontopSpecTo e σ τ m h1 h2 h3
    exact ⟨t1.trans (BitVec.add_zero _), t2⟩) Ppc32Macho.C78_ppc32_macho_make

/-- i386 Windows, for exception handler chains of at most `N` records; `N` is arbitrary -/
theorem C90_i386_pe (cfg : I386Pe.Cfg) (N : Nat) : OrderSpec (I386Pe.extra cfg N) :=
  C90_of_calls _ (by pos) (by pos) (I386Pe.C67_i386_pe_jump cfg N) (fun _ => I386Pe.C67_i386_pe_ontop cfg N) (I386Pe.makeS cfg N)
/-- ARM64 Windows, for histories without on-top calls: no `resume_with`, no end and no destruction of a fiber that has been resumed (see `C63_arm64_pe_ontop_violated`) -/
theorem C90_arm64_pe : OrderSpec Arm64Pe.extra :=
  C90_of_calls _ (g := fun _ τ => Arm64Pe.port.argFn τ) (by pos) (by pos) Arm64Pe.C63_arm64_pe_jump (fun h => h.elim) (fun e σ _ => Arm64Pe.C63_arm64_pe_make e σ)
/-- ARM Windows, for histories without on-top calls (see `C64_arm_pe_ontop_violated`), without d8-d15 (see `C64_arm_pe_fprs_violated`) -/
theorem C90_arm_pe : OrderSpec ArmPe.extra :=
  C90_of_calls _ (g := fun _ τ => ArmPe.port.argFn τ) (by pos) (by pos) ArmPe.C64_arm_pe_jump (fun h => h.elim) (fun e σ _ => ArmPe.C64_arm_pe_make e σ)


/-! The hypotheses are met on every port. -/

example (cfg : X86_64.Cfg) (hg : cfg.guard = false) := order_inhabited (fun e σ _ => X86_64.C30_x86_64_make cfg hg e σ) (c_x86_64 cfg)
example (cfg : I386.Cfg) := order_inhabited (fun e σ _ => I386.C34_i386_make cfg e σ) (c_i386 cfg)
example := order_inhabited (fun e σ _ => Arm64.C31_arm64_make e σ) c_arm64
example := order_inhabited (fun e σ _ => RiscV64.C32_riscv64_make e σ) c_riscv64
example := order_inhabited (fun e σ _ => LoongArch64.C33_loongarch64_make e σ) c_loongarch64
example (hf : Bool) := order_inhabited (fun e σ _ => Mips64.C36_mips64_make hf e σ) (c_mips64 hf)
example := order_inhabited (fun e σ _ => Ppc64.C57_ppc64_make e σ) c_ppc64
example := order_inhabited (fun e σ _ => Ppc32b.C38_ppc32b_make e σ) c_ppc32b
example (vfp : Bool) := order_inhabited (fun e σ _ => Arm32.C35_arm_make vfp e σ) (c_arm32 vfp)
example (hf : Bool) := order_inhabited (fun e σ _ => Mips32.C36_mips32_make hf e σ) (c_mips32 hf)
example := order_inhabited (fun e σ _ => S390x.C37_s390x_make e σ) c_s390x
example := order_inhabited (fun e σ _ => Ppc32.C38_ppc32_make e σ) c_ppc32
example (cfg : X86_64Macho.Cfg) := order_inhabited (fun e σ _ => X86_64Macho.C58_x86_64_macho_make cfg e σ) (c_x86_64_macho cfg)
example (cfg : I386Macho.Cfg) := order_inhabited (fun e σ _ => I386Macho.C61_i386_macho_make cfg e σ) (c_i386_macho cfg)
example := order_inhabited (fun e σ _ => Arm64Macho.C59_arm64_macho_make e σ) c_arm64_macho
example (vfp : Bool) := order_inhabited (fun e σ _ => ArmMacho.C60_arm_macho_make vfp e σ) (c_arm_macho vfp)
example (cfg : X86_64Pe.Cfg) := order_inhabited (fun e σ _ => X86_64Pe.C62_x86_64_pe_make cfg e σ) (c_x86_64_pe cfg)
example (x : Bool) := order_inhabited (fun e σ _ => Ppc64v1.makeF x e σ) (c_ppc64v1 x)
example := order_inhabited (fun e σ _ => Ppc32Xcoff.makeF e σ) c_ppc32_xcoff
example := order_inhabited (fun e σ _ => Ppc32Macho.C78_ppc32_macho_make e σ) c_ppc32_macho
example (cfg : I386Pe.Cfg) (N : Nat) (hN : 1 ≤ N) := order_inhabited (I386Pe.makeS cfg N) (c_i386_pe cfg N hN)
example := order_inhabited (fun e σ _ => Arm64Pe.C63_arm64_pe_make e σ) c_arm64_pe
example := order_inhabited (fun e σ _ => ArmPe.C64_arm_pe_make e σ) c_arm_pe

/-! ## `continuation` -/

section
open Verif.Cont
variable {A : Arch} {P : Port A} {X : Extra P} {e : Env A} {W : Nat → A.W → Prop} {c c' : Cfg A} {E E' : Enc A}

theorem cont_run_refines {h : List (Fiber.Tid × Cont.Op)} : ∀ {s s' : Cont.State}, Cont.Reachable s → Cont.run s h = .ok s' → ∃ h', Fiber.run s.abs h' = .ok s'.abs := by
  induction h with
  | nil => intro s s' _ hr; simp only [Cont.run, Cont.Res.ok.injEq] at hr; exact ⟨[], by rw [hr]; rfl⟩
  | cons a h ih =>
    obtain ⟨t, op⟩ := a
    intro s s' h0 hr
    simp only [Cont.run] at hr
    split at hr
    · rename_i s1 hs1
      obtain ⟨h', hh'⟩ := ih (.step h0 hs1) hr
      have := C21_step_refines (op := op) (t := t) h0 (lvalue_not_ok hs1) (by rw [hs1]; simp)
      refine ⟨fiberOps s t op ++ h', ?_⟩
      rw [run_append, this, hs1]
      exact hh'
    · exact absurd hr (by rename_i r hr2; intro h; exact hr2 _ h)

/-- **C90**, `continuation_fcontext.hpp` 344-364 -/
theorem C90_cont_bool (S : OrderSpec X) {s : Cont.State} (hr : Cont.Reachable s) (hat : At X e W c E s.abs) (hz : ∀ i, live c i → ¬ c.stk i 0#_) (x : Fiber.Var) :
    (toBool E s.abs x = true ↔ ∃ f, s.val x = some f) ∧ (isEmpty E s.abs x = true ↔ s.val x = none) := S.bool (reachable_spec hr).2 hat hz x

theorem C90_cont_total (S : OrderSpec X) {s : Cont.State} (hr : Cont.Reachable s) (hat : At X e W c E s.abs) {x y f g} (hxy : x ≠ y) (hx : s.val x = some f) (hy : s.val y = some g) :
    less E s.abs x y = !less E s.abs y x := S.total (reachable_spec hr).2 hat x y f g hxy hx hy

theorem C90_cont_stable (S : OrderSpec X) {s s' : Cont.State} {l} (h : List (Fiber.Tid × Cont.Op)) (hr : Cont.Reachable s) (hat : At X e W c E s.abs) (hh : Cont.run s h = .ok s')
    (hl : PTrace s.abs l s'.abs) (hf : Follow X e W c E l c' E') {x y} (hx : s'.val x = s.val x) (hy : s'.val y = s.val y) :
    less E' s'.abs x y = less E s.abs x y ∧ output E' s'.abs x = output E s.abs x := by
  obtain ⟨h', hh'⟩ := cont_run_refines hr hh
  exact S.stable h' (reachable_spec hr).2 hat hh' hl hf x y hx hy

end

end Verif.Link
