import Verif.Asm.Many
import Verif.Asm.X86_64
import Verif.Asm.I386
import Verif.Asm.Arm64
import Verif.Asm.Arm32
import Verif.Asm.RiscV64
import Verif.Asm.LoongArch64
import Verif.Asm.Mips64
import Verif.Asm.Mips32
import Verif.Asm.S390x
import Verif.Asm.Ppc32
import Verif.Asm.Ppc32b
import Verif.Asm.Ppc64

/-! # Any number of contexts, any sequence of switches: the ports (C40) -/

namespace Verif.Asm

section
variable {A : Arch}

/-- ports that return `transfer_t` in registers and have no stub -/
def Extra.reg (P : Port A) (h1 : P.tslot = fun _ _ => False) (h2 : P.ok = fun _ => True) (h3 : P.tramp = none) (h4 : P.oarea = fun _ _ => False) : Extra P where
  fp := max P.frame P.keep
  tk := 0
  null _ := False
  nn _ := True
  frame := by omega
  keep := by omega
  tk1 := by omega
  tk2 := by omega
  oarea σ a h := by rw [h4] at h; exact h.elim
  ok s T _ _ _ _ _ := by rw [h2]; trivial
  told _ _ _ _ _ _ _ _ _ a h := by rw [h1] at h; exact h.elim
  fresh e σ τ _ _ _ _ _ := by
    refine ⟨fun a h => ?_, fun a h => ?_⟩
    · rw [h1] at h; exact h.elim
    · rw [Port.enter, h3] at h; exact absurd rfl h

/-- ports that return `transfer_t` through a result object -/
def Extra.slot {P : Port A} {S : SlotJump P} (M : SlotMake S) (h4 : P.oarea = fun _ _ => False) (hN : S.K.N ≤ M.msz) (hh : M.hid + 2 * A.k ≤ M.msz) : Extra P where
  fp := S.K.N
  tk := S.K.N
  null a := S.K.nz = true ∧ InR a 0#_ (2 * A.k)
  nn s := S.K.nz = true → s.gpr S.K.h ≠ 0#_
  frame := by rw [S.conv.2.1]; exact Nat.le_refl _
  keep := by rw [S.conv.2.2.1]; exact Nat.le_refl _
  tk1 := Nat.le_refl _
  tk2 := by rw [M.conv.2.2.1]; exact hN
  oarea σ a h := by rw [h4] at h; exact h.elim
  ok s T hf hs hn ht hts := by
    obtain ⟨c1, c2, c3, c4, c5, c6, c7, c8, c9, c10, c11, c12⟩ := S.conv
    rw [c1] at hf hs
    rw [c7] at hs
    rw [c4] at ht
    rw [c8] at hts
    rw [c9]
    refine ⟨fun a h1 h2 => (hf a h2).1 (ht a h1), fun a h1 h2 => ?_, hs, hn⟩
    rcases hts a h1 with h3 | h3
    · exact (hf a h2).1 h3
    · exact (hf a h2).2 h3
  told e σ τ m hl hok ht hm ha a h := by
    obtain ⟨c1, c2, c3, c4, c5, c6, c7, c8, c9, c10, c11, c12⟩ := S.conv
    have hf := S.left hok hl
    rw [c1, c4] at ha
    have ha : τ.gpr S.K.to = S.K.own σ := ha
    rw [c1, c3] at hm
    have e1 : S.K.thid τ = σ.gpr S.K.h := by
      show load τ.mem (τ.gpr S.K.to + off A S.K.oH) A.k = _
      rw [ha, ← hf.h]; exact load_agree hm S.wf.oH S.wf.N
    rw [c8] at h
    rw [c7]
    show InR a (σ.gpr S.K.h) (2 * A.k)
    rw [← e1]; exact h
  fresh e σ τ _ hp ha hmem hd := by
    obtain ⟨c1, c2, c3, c4, c5, c6, c7, c8, c9, c10, c11, c12⟩ := S.conv
    obtain ⟨d1, d2, d3, d4, d5, d6⟩ := M.conv
    obtain ⟨w1, w2, w3, w4, w5, w6, w7, w8, w9, w10, w11⟩ := M.sz
    have hw : M.msz ≤ 2 ^ (8 * A.k) := by have : 0 < 2 ^ M.j := Nat.two_pow_pos _; omega
    obtain ⟨c, hcc⟩ : ∃ c, c = (σ.gpr M.top &&& mask A M.j) - off A M.msz := ⟨_, rfl⟩
    obtain ⟨m1, m2, m3, m4, m5, m6, m7, m8, m9⟩ := M.make e σ c hcc
    rw [m2] at ha
    rw [ha, d3] at hmem ⊢
    rw [c4] at ha
    have ha' : τ.gpr S.K.to = c := ha
    have hth : S.K.thid τ = if S.K.nz then 0#_ else c + off A M.hid := by
      show load τ.mem (τ.gpr S.K.to + off A S.K.oH) A.k = _
      rw [ha', ← m9]; exact load_agree hmem w11 hw
    refine ⟨fun a h => ?_, fun a h => ?_⟩
    · rw [c8] at h
      have h : InR a (S.K.thid τ) (2 * A.k) := h
      rw [hth] at h
      split at h
      · rename_i hz; exact .inr ⟨hz, h⟩
      · exact .inl (inR_off h hh hw)
    · rw [Port.enter, d2] at h; exact absurd rfl h

end

namespace X86_64

def extra (cfg : Cfg) : Extra (port cfg) where
  fp := 0x48
  tk := 0
  null _ := False
  nn _ := True
  frame := by show 0x40 ≤ _; omega
  keep := by show 0x48 ≤ _; omega
  tk1 := by omega
  tk2 := by omega
  oarea σ a h := h.elim
  ok s T _ _ _ _ _ := trivial
  told _ _ _ _ _ _ _ _ _ a h := h.elim
  fresh e σ τ _ _ _ _ hd := by
    refine ⟨fun a h => h.elim, fun a h => ?_⟩
    have hd : ∀ a, InR a (τ.gpr rdi) 0x48 → ¬ InR a (τ.gpr rsp - off A 0x40) 0x40 := hd
    show InR a (τ.gpr rdi) 0x48
    obtain ⟨h1, h2, h3⟩ := jump_restore cfg
    have hr := fin_rel (I_ok true e τ (fun _ => hd)) _ h1
    obtain ⟨s, hs⟩ : ∃ s, s = steps (I e τ).e (jumpIs cfg) (I e τ).σ := ⟨_, rfl⟩
    have hx : exec e (port cfg).jump τ = (s, s.gpr r8) := by rw [hs]; rfl
    rw [← hs] at hr
    have hsp : s.gpr rsp = τ.gpr rdi + off A 0x48 := by rw [hr.reg h2.sp]; simp [Itp.sv, Itp.atom, I]
    have hen : ((port cfg).enter e τ).1.mem = store s.mem (τ.gpr rdi + off A 0x40) A.k (s.gpr rbp) := by
      show (exec e (tramp cfg) (exec e (port cfg).jump τ).1).1.mem = _
      rw [hx]
      show store s.mem (s.gpr rsp + -off A 8 + off A 0) A.k (s.gpr rbp) = _
      rw [hsp, off_pop]
      simp [off]
    rw [hen, hx] at h
    by_cases hh : InR a (τ.gpr rdi + off A 0x40) A.k
    · exact inR_off hh (by decide) (by decide)
    · exact absurd (store_out hh) h

end X86_64

namespace I386

theorem jump_sp (cfg : Cfg) : ∃ h, (CE.fin (jumpIs cfg) h).gpr esp = ⟨.ld 0 0x24, off A 0x24⟩ := by
  obtain ⟨_ | _, _ | _⟩ := cfg <;> exact ⟨by decide +kernel, by decide +kernel⟩

def extra (cfg : Cfg) : Extra (port cfg) where
  fp := 0x30
  tk := 0x2c
  null _ := False
  nn _ := True
  frame := by show 0x1c ≤ _; omega
  keep := by show 0x24 ≤ _; omega
  tk1 := by omega
  tk2 := by show 0x2c ≤ 0x2c; omega
  oarea σ a h := by
    have h : InR a (σ.gpr esp + off A 8) 8 := h
    rw [← fr] at h
    exact inR_off h (by decide) (by decide)
  ok s T hf hs hn ht hts := by
    refine ⟨fun a h1 h2 => (hf a h2).1 (ht a h1), fun a h1 h2 => ?_, hs⟩
    rcases hts a h1 with h3 | h3
    · exact (hf a h2).1 h3
    · exact h3
  told e σ τ m hl hok ht hm ha a h := by
    have hf := left_frame hok hl
    have ha : arg τ 8 = σ.gpr esp - off A 0x1c := ha
    have hm : ∀ a, InR a (σ.gpr esp - off A 0x1c) 0x24 → τ.mem a = m a := hm
    have e1 : thid τ = arg σ 4 := by
      show load τ.mem (arg τ 8 + off A 0x20) A.k = _
      rw [ha, ← hf.h]; exact load_agree hm (by decide) (by decide)
    show InR a (arg σ 4) 8
    rw [← e1]; exact h
  fresh e σ τ _ hp ha hmem hdj := by
    have hres : (port cfg).resM (exec e (port cfg).make σ).1 = ctxOf σ := by
      show (exec e (make cfg) σ).1.gpr eax = ctxOf σ
      rw [make_pre]
      have := steps_dest e ((makeIs cfg).drop 5) (.g eax) (by obtain ⟨_ | _, _ | _⟩ := cfg <;> decide) (pre σ)
      simp only [get_g] at this
      rw [this]
      have n1 : eax ≠ ecx := by decide
      simp [pre, setg, n1]
    have hsz : ((port cfg).argTop σ - ctxOf σ).toNat = 0x3c + (arg σ 4 - off A 8).toNat % 16 := ctx_size σ
    rw [hres, hsz] at hp
    rw [hres] at ha
    obtain ⟨m1, m2, m3, m4, m5, m6, -, -, -⟩ := make_facts cfg e σ (fun a ha => hp a (inR_mono ha (by omega)))
    have ha' : arg τ 8 = ctxOf σ := ha
    rw [ha] at hmem hdj ⊢
    have hmem : ∀ a, InR a (ctxOf σ) 0x2c → τ.mem a = (exec e (make cfg) σ).1.mem a := hmem
    have hdj : ∀ a, InR a (ctxOf σ) 0x2c → ¬ InR a (τ.gpr esp - off A 0x1c) 0x1c := hdj
    have hth : thid τ = arg τ 8 + off A 0xc := by
      show load τ.mem (arg τ 8 + off A 0x20) A.k = _
      rw [ha', ← m6]; exact load_agree hmem (by decide) (by decide)
    refine ⟨fun a h => ?_, fun a h => ?_⟩
    · have h : InR a (thid τ) 8 := h
      rw [hth, ha'] at h
      exact .inl (inR_off h (show 0xc + 8 ≤ 0x2c by decide) (show 0x2c ≤ 2 ^ (8 * A.k) by decide))
    · show InR a (ctxOf σ) 0x2c
      obtain ⟨h1, h2⟩ := jump_sp cfg
      have hok := IE_ok e τ hth (by rw [ha']; exact hdj)
      have hr := fin_rel hok _ h1
      obtain ⟨s, hs⟩ : ∃ s, s = steps (I e τ).e (jumpIs cfg) (I e τ).σ := ⟨_, rfl⟩
      have hx : exec e (port cfg).jump τ = (s, s.gpr ecx) := by rw [hs]; rfl
      rw [← hs] at hr
      have hsp : s.gpr esp = ctxOf σ + off A 0x24 := by
        rw [hr.reg h2]
        show load τ.mem (τ.gpr esp - off A 0x1c + off A (0x1c + 8)) A.k + _ = _
        rw [fr]; show arg τ 8 + _ = _; rw [ha']
      have hen : ((port cfg).enter e τ).1.mem = store (store (store s.mem (ctxOf σ + off A 0x24) A.k (s.gpr edi)) (ctxOf σ + off A 0x28) A.k (s.gpr esi))
          (ctxOf σ + off A 0x20) A.k (s.gpr ebp) := by
        show (exec e (tramp cfg) (exec e (port cfg).jump τ).1).1.mem = _
        rw [hx]
        show store (store (store s.mem (s.gpr esp + off A 0) A.k (s.gpr edi)) (s.gpr esp + off A 4) A.k (s.gpr esi)) (s.gpr esp + -off A 4 + off A 0) A.k (s.gpr ebp) = _
        rw [hsp]
        have q1 : ctxOf σ + off A 0x24 + off A 0 = ctxOf σ + off A 0x24 := BitVec.add_zero _
        have q2 : ctxOf σ + off A 0x24 + off A 4 = ctxOf σ + off A 0x28 := add_off_off _ _ _
        have q3 : ctxOf σ + off A 0x24 + -off A 4 + off A 0 = ctxOf σ + off A 0x20 := by
          rw [BitVec.add_assoc, BitVec.add_assoc]; congr 1
        rw [q1, q2, q3]
      rw [hen, hx] at h
      by_cases g1 : InR a (ctxOf σ + off A 0x20) A.k
      · exact inR_off g1 (by decide) (by decide)
      by_cases g2 : InR a (ctxOf σ + off A 0x28) A.k
      · exact inR_off g2 (by decide) (by decide)
      by_cases g3 : InR a (ctxOf σ + off A 0x24) A.k
      · exact inR_off g3 (by decide) (by decide)
      rw [store_out g1, store_out g2, store_out g3] at h
      exact absurd rfl h

end I386

namespace Ppc32b

theorem jump_sp : ((K.C 256 (248, 256)).fin jumpIs ej1).gpr (r 1) = ⟨.reg (r 3), off A 240⟩ := by decide +kernel

def extra : Extra port where
  fp := 248
  tk := 0
  null _ := False
  nn _ := True
  frame := by show 248 ≤ _; omega
  keep := by show 248 ≤ _; omega
  tk1 := by omega
  tk2 := by omega
  oarea σ a h := h.elim
  ok s T _ _ _ _ _ := trivial
  told _ _ _ _ _ _ _ _ _ a h := h.elim
  fresh e σ τ _ _ _ _ hd := by
    refine ⟨fun a h => h.elim, fun a h => ?_⟩
    have hd : ∀ a, InR a (τ.gpr (r 3)) 256 → ¬ InR a (τ.gpr (r 1) - off A 240) 248 := hd
    show InR a (τ.gpr (r 3)) 256
    have hr := fin_rel (RCfg.I_ok wf 256 (248, 256) (by decide) (by decide) e τ hd) jumpIs ej1
    obtain ⟨s, hs⟩ : ∃ s, s = steps (K.I e τ).e jumpIs (K.I e τ).σ := ⟨_, rfl⟩
    have hx : exec e port.jump τ = (s, s.gpr ctr) := by rw [hs]; rfl
    rw [← hs] at hr
    have hsp : s.gpr (r 1) = τ.gpr (r 3) + off A 240 := by rw [hr.reg jump_sp]; rfl
    have hen : (port.enter e τ).1.mem = store (store s.mem (τ.gpr (r 3) + off A 248) A.k (s.gpr (r 3))) (τ.gpr (r 3) + off A 252) A.k (s.gpr (r 4)) := by
      show (exec e tramp (exec e port.jump τ).1).1.mem = _
      rw [hx]
      show store (store s.mem (s.gpr (r 1) + off A 8) A.k (s.gpr (r 3))) (s.gpr (r 1) + off A 0xc) A.k (s.gpr (r 4)) = _
      rw [hsp]
      have q1 : τ.gpr (r 3) + off A 240 + off A 8 = τ.gpr (r 3) + off A 248 := add_off_off _ _ _
      have q2 : τ.gpr (r 3) + off A 240 + off A 0xc = τ.gpr (r 3) + off A 252 := add_off_off _ _ _
      rw [q1, q2]
    rw [hen, hx] at h
    by_cases g1 : InR a (τ.gpr (r 3) + off A 252) A.k
    · exact inR_off g1 (by decide) (by decide)
    by_cases g2 : InR a (τ.gpr (r 3) + off A 248) A.k
    · exact inR_off g2 (by decide) (by decide)
    rw [store_out g1, store_out g2] at h
    exact absurd rfl h

end Ppc32b

def Arm64.extra : Extra Arm64.port := .reg _ rfl rfl rfl rfl
def RiscV64.extra : Extra RiscV64.port := .reg _ rfl rfl rfl rfl
def LoongArch64.extra : Extra LoongArch64.port := .reg _ rfl rfl rfl rfl
def Mips64.extra (hf : Bool) : Extra (Mips64.port hf) := .reg _ rfl rfl rfl rfl
def Ppc64.extra : Extra Ppc64.port := .reg _ rfl rfl rfl rfl
def Arm32.extra (vfp : Bool) : Extra (Arm32.port vfp) := .slot (Arm32.M vfp) rfl (by revert vfp; decide) (by revert vfp; decide)
def Mips32.extra (hf : Bool) : Extra (Mips32.port hf) := .slot (Mips32.M hf) rfl (by revert hf; decide) (by revert hf; decide)
def S390x.extra : Extra S390x.port := .slot S390x.M rfl (by decide) (by decide)
def Ppc32.extra : Extra Ppc32.port := .slot Ppc32.M rfl (by decide) (by decide)

/-! ## The ports -/

/-- **C40** -/
theorem C40_x86_64 (cfg : X86_64.Cfg) (hg : cfg.guard = false) : Many.Spec (X86_64.extra cfg) fun _ τ => (X86_64.port cfg).argFn τ :=
  Many.C40_of_specs _ (X86_64.C30_x86_64_jump cfg) (X86_64.C30_x86_64_ontop cfg) (X86_64.C30_x86_64_make cfg hg)
theorem C40_i386 (cfg : I386.Cfg) : Many.Spec (I386.extra cfg) fun _ τ => (I386.port cfg).argFn τ :=
  Many.C40_of_specs _ (I386.C34_i386_jump cfg) (I386.C34_i386_ontop cfg) (I386.C34_i386_make cfg)
theorem C40_arm64 : Many.Spec Arm64.extra fun _ τ => Arm64.port.argFn τ := Many.C40_of_specs _ Arm64.C31_arm64_jump Arm64.C31_arm64_ontop Arm64.C31_arm64_make
theorem C40_riscv64 : Many.Spec RiscV64.extra fun _ τ => RiscV64.port.argFn τ :=
  Many.C40_of_specs _ RiscV64.C32_riscv64_jump RiscV64.C32_riscv64_ontop RiscV64.C32_riscv64_make
theorem C40_loongarch64 : Many.Spec LoongArch64.extra fun _ τ => LoongArch64.port.argFn τ :=
  Many.C40_of_specs _ LoongArch64.C33_loongarch64_jump LoongArch64.C33_loongarch64_ontop LoongArch64.C33_loongarch64_make
theorem C40_arm (vfp : Bool) : Many.Spec (Arm32.extra vfp) fun _ τ => (Arm32.port vfp).argFn τ :=
  Many.C40_of_specs _ (Arm32.C35_arm_jump vfp) (Arm32.C35_arm_ontop vfp) (Arm32.C35_arm_make vfp)
theorem C40_mips64 (hf : Bool) : Many.Spec (Mips64.extra hf) fun _ τ => (Mips64.port hf).argFn τ :=
  Many.C40_of_specs _ (Mips64.C36_mips64_jump hf) (Mips64.C36_mips64_ontop hf) (Mips64.C36_mips64_make hf)
theorem C40_mips32 (hf : Bool) : Many.Spec (Mips32.extra hf) fun _ τ => (Mips32.port hf).argFn τ :=
  Many.C40_of_specs _ (Mips32.C36_mips32_jump hf) (Mips32.C36_mips32_ontop hf) (Mips32.C36_mips32_make hf)
theorem C40_s390x : Many.Spec S390x.extra fun _ τ => S390x.port.argFn τ := Many.C40_of_specs _ S390x.C37_s390x_jump S390x.C37_s390x_ontop S390x.C37_s390x_make
theorem C40_ppc32 : Many.Spec Ppc32.extra fun e _ => e Ppc32.Lab.tail := Many.C40_of_specs _ Ppc32.C38_ppc32_jump Ppc32.C38_ppc32_ontop Ppc32.C38_ppc32_make
theorem C40_ppc32b : Many.Spec Ppc32b.extra fun e _ => e Ppc32b.Lab.tail := Many.C40_of_specs _ Ppc32b.C38_ppc32b_jump Ppc32b.C38_ppc32b_ontop Ppc32b.C38_ppc32b_make
/-- PowerPC 64 without the floating point registers, which `jump_fcontext` does not save (see `C57_ppc64_fprs_violated`) -/
theorem C57_ppc64_many : Many.Spec Ppc64.extra fun _ τ => Ppc64.port.argFn τ :=
  Many.C40_of_specs _ Ppc64.C57_ppc64_jump Ppc64.C57_ppc64_ontop Ppc64.C57_ppc64_make

end Verif.Asm
