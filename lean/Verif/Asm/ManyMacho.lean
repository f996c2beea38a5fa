import Verif.Asm.ManyWit
import Verif.Asm.X86_64Macho
import Verif.Asm.I386Macho
import Verif.Asm.ArmMacho
import Verif.Asm.Arm64Macho

/-! # Any number of contexts, any sequence of switches: the Mach-O ports (C40) -/

namespace Verif.Asm

namespace X86_64Macho

def extra (cfg : Cfg) : Extra (port cfg) where
  fp := 0x40
  tk := 0
  null _ := False
  nn _ := True
  frame := by show 0x38 ≤ _; omega
  keep := by show 0x40 ≤ _; omega
  tk1 := by omega
  tk2 := by omega
  oarea σ a h := h.elim
  ok s T _ _ _ _ _ := trivial
  told _ _ _ _ _ _ _ _ _ a h := h.elim
  fresh e σ τ _ _ _ _ hd := by
    refine ⟨fun a h => h.elim, fun a h => ?_⟩
    have hd : ∀ a, InR a (τ.gpr rdi) 0x40 → ¬ InR a (τ.gpr rsp - off A 0x38) 0x38 := hd
    show InR a (τ.gpr rdi) 0x40
    obtain ⟨h1, h2, h3⟩ := jump_restore cfg
    have hr := fin_rel (I_ok true e τ (fun _ => hd)) _ h1
    obtain ⟨s, hs⟩ : ∃ s, s = steps (I e τ).e (jumpIs cfg) (I e τ).σ := ⟨_, rfl⟩
    have hx : exec e (port cfg).jump τ = (s, s.gpr r8) := by rw [hs]; rfl
    rw [← hs] at hr
    have hsp : s.gpr rsp = τ.gpr rdi + off A 0x40 := by rw [hr.reg h2.sp]; simp [Itp.sv, Itp.atom, I]
    have hen : ((port cfg).enter e τ).1.mem = store s.mem (τ.gpr rdi + off A 0x38) A.k (s.gpr rbp) := by
      show (exec e (tramp cfg) (exec e (port cfg).jump τ).1).1.mem = _
      rw [hx]
      show store s.mem (s.gpr rsp + -off A 8 + off A 0) A.k (s.gpr rbp) = _
      rw [hsp, off_pop]
      simp [off]
    rw [hen, hx] at h
    by_cases hh : InR a (τ.gpr rdi + off A 0x38) A.k
    · exact inR_off hh (by decide) (by decide)
    · exact absurd (store_out hh) h

end X86_64Macho

namespace I386Macho

theorem jump_sp (cfg : Cfg) : ∃ h, (CE.fin (jumpIs cfg) h).gpr esp = ⟨.ld 0 0x1c, off A 0x1c⟩ := by
  obtain ⟨_ | _⟩ := cfg <;> exact ⟨by decide +kernel, by decide +kernel⟩

def extra (cfg : Cfg) : Extra (port cfg) where
  fp := 0x28
  tk := 0x24
  null _ := False
  nn _ := True
  frame := by show 0x18 ≤ _; omega
  keep := by show 0x1c ≤ _; omega
  tk1 := by omega
  tk2 := by show 0x24 ≤ 0x24; omega
  oarea σ a h := by
    have h : InR a (σ.gpr esp + off A 4) 8 := h
    rw [← fr] at h
    exact inR_off h (by decide) (by decide)
  ok s T hf hs hn ht hts := fun a h1 h2 => (hf a h2).1 (ht a h1)
  told _ _ _ _ _ _ _ _ _ a h := h.elim
  fresh e σ τ _ hp ha hmem hdj := by
    refine ⟨fun a h => h.elim, fun a h => ?_⟩
    have hdj : ∀ a, InR a (arg τ 4) 0x24 → ¬ InR a (τ.gpr esp - off A 0x18) 0x18 := hdj
    show InR a (arg τ 4) 0x24
    obtain ⟨h1, h2⟩ := jump_sp cfg
    have hr := fin_rel (IE_ok e τ hdj) _ h1
    obtain ⟨s, hs⟩ : ∃ s, s = steps (I e τ).e (jumpIs cfg) (I e τ).σ := ⟨_, rfl⟩
    have hx : exec e (port cfg).jump τ = (s, s.gpr ecx) := by rw [hs]; rfl
    rw [← hs] at hr
    obtain ⟨c, hc⟩ : ∃ c, c = arg τ 4 := ⟨_, rfl⟩
    have hsp : s.gpr esp = c + off A 0x1c := by
      rw [hr.reg h2, hc]
      show load τ.mem (τ.gpr esp - off A 0x18 + off A (0x18 + 4)) A.k + _ = _
      rw [fr]
    rw [← hc]
    have hen : ((port cfg).enter e τ).1.mem = store (store (store s.mem (c + off A 0x1c) A.k (s.gpr eax)) (c + off A 0x20) A.k (s.gpr edx))
        (c + off A 0x18) A.k (s.gpr ebp) := by
      show (exec e (tramp cfg) (exec e (port cfg).jump τ).1).1.mem = _
      rw [hx]
      show store (store (store s.mem (s.gpr esp + off A 0) A.k (s.gpr eax)) (s.gpr esp + off A 4) A.k (s.gpr edx)) (s.gpr esp + -off A 4 + off A 0) A.k (s.gpr ebp) = _
      rw [hsp]
      have q1 : c + off A 0x1c + off A 0 = c + off A 0x1c := BitVec.add_zero _
      have q2 : c + off A 0x1c + off A 4 = c + off A 0x20 := add_off_off _ _ _
      have q3 : c + off A 0x1c + -off A 4 + off A 0 = c + off A 0x18 := by
        rw [BitVec.add_assoc, BitVec.add_assoc]; congr 1
      rw [q1, q2, q3]
    rw [hen, hx] at h
    by_cases g1 : InR a (c + off A 0x18) A.k
    · exact inR_off g1 (by decide) (by decide)
    by_cases g2 : InR a (c + off A 0x20) A.k
    · exact inR_off g2 (by decide) (by decide)
    by_cases g3 : InR a (c + off A 0x1c) A.k
    · exact inR_off g3 (by decide) (by decide)
    rw [store_out g1, store_out g2, store_out g3] at h
    exact absurd rfl h

end I386Macho

def Arm64Macho.extra : Extra Arm64Macho.port := .reg _ rfl rfl rfl rfl
def ArmMacho.extra (vfp : Bool) : Extra (ArmMacho.port vfp) := .slot (ArmMacho.M vfp) rfl (by revert vfp; decide) (by revert vfp; decide)

/-- **C40** -/
theorem C40_x86_64_macho (cfg : X86_64Macho.Cfg) : Many.Spec (X86_64Macho.extra cfg) fun _ τ => (X86_64Macho.port cfg).argFn τ :=
  Many.C40_of_specs _ (X86_64Macho.C58_x86_64_macho_jump cfg) (X86_64Macho.C58_x86_64_macho_ontop cfg) (X86_64Macho.C58_x86_64_macho_make cfg)
theorem C40_i386_macho (cfg : I386Macho.Cfg) : Many.Spec (I386Macho.extra cfg) fun _ τ => (I386Macho.port cfg).argFn τ :=
  Many.C40_of_specs _ (I386Macho.C61_i386_macho_jump cfg) (I386Macho.C61_i386_macho_ontop cfg) (I386Macho.C61_i386_macho_make cfg)
theorem C40_arm64_macho : Many.Spec Arm64Macho.extra fun _ τ => Arm64Macho.port.argFn τ :=
  Many.C40_of_specs _ Arm64Macho.C59_arm64_macho_jump Arm64Macho.C59_arm64_macho_ontop Arm64Macho.C59_arm64_macho_make
theorem C40_arm_macho (vfp : Bool) : Many.Spec (ArmMacho.extra vfp) fun _ τ => (ArmMacho.port vfp).argFn τ :=
  Many.C40_of_specs _ (ArmMacho.C60_arm_macho_jump vfp) (ArmMacho.C60_arm_macho_ontop vfp) (ArmMacho.C60_arm_macho_make vfp)

namespace Many

def c_x86_64_macho (cfg : X86_64Macho.Cfg) : Calls (X86_64Macho.extra cfg) :=
  .regs X86_64Macho.rdi X86_64Macho.rdi X86_64Macho.rdi 0x38 4 0x40 (by decide) (by show 0x40 ≤ 0x400 ∧ 0x38 ≤ 0x400 ∧ 0 + 8 ≤ 0x400 ∧ 0x40 ≤ 0x400; decide)
    (fun _ h => h.elim) (by show X86_64Macho.rdi ≠ X86_64Macho.rsp ∧ X86_64Macho.rdi ≠ X86_64Macho.rsp ∧ _; decide)
    rfl rfl rfl (fun _ _ h => h.elim) (fun _ _ => trivial) (by decide)
    (fun e σ => by
      show (exec e (X86_64Macho.make cfg) σ).1.gpr X86_64Macho.rax = X86_64Macho.ctxOf σ
      rw [X86_64Macho.make_pre]
      have := steps_dest e ((X86_64Macho.makeIs cfg).drop 3) (.g X86_64Macho.rax) (by obtain ⟨_ | _⟩ := cfg <;> decide) (setg σ X86_64Macho.rax (X86_64Macho.ctxOf σ))
      simp only [get_g] at this
      rw [this]; simp [setg])
    ⟨X86_64Macho.rbx, by simp [X86_64Macho.port], by show X86_64Macho.rbx ≠ X86_64Macho.rsp ∧ _; decide⟩

def c_i386_macho (cfg : I386Macho.Cfg) : Calls (I386Macho.extra cfg) where
  mok _ _ := trivial
  call m sp _ to x := I386Macho.mk m sp to x
  fr := 0x18
  k := by decide
  sz := by show 0x28 ≤ 0x400 ∧ 0x18 ≤ 0x400 ∧ 4 + 4 ≤ 0x400 ∧ 0x24 ≤ 0x400; decide
  null _ h := h.elim
  mem m sp h to x a ha := I386Macho.mk_mem _ _ _ _ _ fun h => ha (inR_mono h (by decide))
  sp _ _ _ _ _ := rfl
  fctx _ _ _ _ _ := rfl
  argF _ _ _ _ _ := I386Macho.mk_to _ _ _ _
  res e m sp t x := by
    obtain ⟨σ, hσ⟩ : ∃ σ, σ = I386Macho.mk m sp t x := ⟨_, rfl⟩
    rw [← hσ, I386Macho.make_res]
    show (I386Macho.arg σ 4 - I386Macho.ctxOf σ).toNat ≤ _
    rw [I386Macho.ctx_size]
    omega
  argTop _ _ _ _ := I386Macho.mk_to _ _ _ _
  slot m sp h to x a ha := ha.elim
  nn _ _ _ _ _ _ := trivial
  diff := ⟨I386Macho.ebx, by simp [I386Macho.port], fun _ _ _ _ _ => rfl⟩

def c_arm64_macho : Calls Arm64Macho.extra :=
  .regs (Arm64.x 0) (Arm64.x 0) (Arm64.x 0) 0xb0 4 0xb0 (by decide) (by show max 0xb0 0xb0 ≤ 0x400 ∧ 0xb0 ≤ 0x400 ∧ 0 + 8 ≤ 0x400 ∧ 0xb0 ≤ 0x400; decide) (fun _ h => h.elim)
    (by decide) rfl rfl rfl (fun _ _ h => h.elim) (fun _ _ => trivial) (by decide) (fun e σ => (Arm64.S.make e σ).2.1) ⟨Arm64.x 19, by decide, by decide⟩

def c_arm_macho (vfp : Bool) : Calls (ArmMacho.extra vfp) :=
  .regs (ArmMacho.a 2) (ArmMacho.a 1) (ArmMacho.a 1) 0x70 4 0x7c (by decide) (by show 0x70 ≤ 0x400 ∧ 0x70 ≤ 0x400 ∧ 0 + 4 ≤ 0x400 ∧ 0x7c ≤ 0x400; decide)
    (fun a h => slot_null (by decide) a h.2) (by cases vfp <;> decide) rfl rfl rfl (fun _ _ h => ⟨by decide, inR_mono h (by decide)⟩)
    (fun _ h _ => h.resolve_left (by decide)) (by decide) (fun e σ => ((ArmMacho.M vfp).make e σ _ rfl).2.1) ⟨ArmMacho.v 1, by cases vfp <;> decide, by cases vfp <;> decide⟩

example (cfg : X86_64Macho.Cfg) := inhabited (X86_64Macho.C58_x86_64_macho_make cfg) (c_x86_64_macho cfg)
example (cfg : I386Macho.Cfg) := inhabited (I386Macho.C61_i386_macho_make cfg) (c_i386_macho cfg)
example := inhabited Arm64Macho.C59_arm64_macho_make c_arm64_macho
example (vfp : Bool) := inhabited (ArmMacho.C60_arm_macho_make vfp) (c_arm_macho vfp)

end Many

end Verif.Asm
