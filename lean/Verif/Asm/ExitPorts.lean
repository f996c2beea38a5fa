import Verif.Asm.Exit
import Verif.Asm.ManyPorts
import Verif.Asm.ManyMacho
import Verif.Asm.ManyMore
import Verif.Asm.ManyWin

/-! # A context function that returns: the ports (C92) -/

namespace Verif.Asm

namespace Arm64

/-- `finish`, make_arm64_aapcs_elf_gas.S:78-82 (`mov x0, #0; bl _exit`); the same in make_arm64_aapcs_macho_gas.S:78-82 -/
def finish : Stub A := { is := fun nxt => [.movi (x 0) 0#_, .movi (x 30) nxt], to := .sym }

/-- AAPCS64: first parameter in x0 -/
def void : VoidConv port := { vret := fun s => s.gpr sp, arg := fun s => s.gpr (x 0), lo := 0, hi := 0 }

/-- **C92**, ARM64 -/
theorem C92_arm64 : port.ExitSpec void finish :=
  .of_make C31_arm64_make (.plain (fun _ => rfl) (fun _ _ _ => rfl) (fun _ _ _ => rfl) (fun _ _ _ => rfl) rfl)

/-- The hypotheses of `C92_arm64` are met: the stack of the new context ends at the odd address `0xf123`, the caller of `make_fcontext` has `sp = 0x10000`, and the context function
returns at once. -/
example (e : Env A) (σ : St A) (h1 : σ.gpr (x 0) = 0xf123#_) (h2 : σ.gpr sp = 0x10000#_) : ∃ τ ρ pc, port.argF τ = port.resM (exec e port.make σ).1 ∧
    (∀ a, InR a (port.argF τ) port.mkeep → τ.mem a = (exec e port.make σ).1.mem a) ∧ (∀ a, InR a (port.argF τ) port.mkeep → ¬ InR a (port.fctx τ) port.frame) ∧
    port.ReturnedTo (void.vret (port.enter e τ).1) (port.enter e τ).1 ρ pc ∧ ρ.gpr (x 0) = 42#_ := by
  obtain ⟨_, τ, _, t1, t2, t3⟩ := S.make_inhabited e σ σ 0x20000#_ (by show _ ≤ BitVec.toNat (σ.gpr (x 0)); rw [h1]; decide)
    (by show BitVec.toNat (σ.gpr (x 0)) ≤ BitVec.toNat (σ.gpr sp); rw [h1, h2]; decide) (by show BitVec.toNat (σ.gpr sp) + _ + _ ≤ _; rw [h2]; decide) rfl
  obtain ⟨ε, hε⟩ : ∃ ε, ε = (port.enter e τ).1 := ⟨_, rfl⟩
  refine ⟨τ, ?_⟩
  rw [← hε]
  obtain ⟨ρ, r1, _, r3⟩ := void.returns ε (x 0) (by decide) (by decide) (by decide)
  exact ⟨ρ, _, t1, t2, t3, r1, r3⟩

end Arm64

namespace Arm64Macho

/-- **C92**, ARM64 Darwin: the stub is that of ARM64 ELF -/
theorem C92_arm64_macho : port.ExitSpec { vret := fun s => s.gpr Arm64.sp, arg := fun s => s.gpr (Arm64.x 0), lo := 0, hi := 0 } Arm64.finish :=
  .of_make C59_arm64_macho_make (.plain (fun _ => rfl) (fun _ _ _ => rfl) (fun _ _ _ => rfl) (fun _ _ _ => rfl) rfl)

end Arm64Macho

namespace Arm64Pe

/-- `finish`, make_arm64_aapcs_pe_armclang.S:107-111 and make_arm64_aapcs_pe_armasm.asm (`mov x0, #0; bl _exit`) -/
def finish : Stub A := { is := fun nxt => [.movi (x 0) 0#_, .movi (x 30) nxt], to := .sym }

def void : VoidConv port := { vret := fun s => s.gpr sp, arg := fun s => s.gpr (x 0), lo := 0, hi := 0 }

/-- **C92**, ARM64 Windows -/
theorem C92_arm64_pe : port.ExitSpec void finish :=
  .of_make C63_arm64_pe_make (.plain (fun _ => rfl) (fun _ _ _ => rfl) (fun _ _ _ => rfl) (fun _ _ _ => rfl) rfl)

end Arm64Pe

namespace Arm32

/-- `finish`, make_arm_aapcs_elf_gas.S:74-78 (`mov a1, #0; bl _exit`) -/
def finish : Stub A := { is := fun nxt => [.movi (a 1) 0#_, .movi lr nxt], to := .sym }

/-- AAPCS: first parameter in a1 (r0) -/
def void (vfp : Bool) : VoidConv (port vfp) := { vret := fun s => s.gpr sp, arg := fun s => s.gpr (a 1), lo := 0, hi := 0 }

/-- **C92**, ARM -/
theorem C92_arm (vfp : Bool) : (port vfp).ExitSpec (void vfp) finish :=
  .of_make (C35_arm_make vfp) (.plain (fun _ => rfl) (fun _ _ _ => rfl) (fun _ _ _ => rfl) (fun _ _ _ => rfl) rfl)

end Arm32

namespace ArmMacho

/-- `finish`, make_arm_aapcs_macho_gas.S:68-72 -/
def finish : Stub A := { is := fun nxt => [.movi (a 1) 0#_, .movi lr nxt], to := .sym }

def void (vfp : Bool) : VoidConv (port vfp) := { vret := fun s => s.gpr sp, arg := fun s => s.gpr (a 1), lo := 0, hi := 0 }

/-- **C92**, ARM Darwin -/
theorem C92_arm_macho (vfp : Bool) : (port vfp).ExitSpec (void vfp) finish :=
  .of_make (C60_arm_macho_make vfp) (.plain (fun _ => rfl) (fun _ _ _ => rfl) (fun _ _ _ => rfl) (fun _ _ _ => rfl) rfl)

end ArmMacho

namespace ArmPe

/-- `finish`, make_arm_aapcs_pe_armasm.asm:70-74 -/
def finish : Stub A := { is := fun nxt => [.movi (a 1) 0#_, .movi lr nxt], to := .sym }

def void : VoidConv port := { vret := fun s => s.gpr sp, arg := fun s => s.gpr (a 1), lo := 0, hi := 0 }

/-- **C92**, ARM Windows -/
theorem C92_arm_pe : port.ExitSpec void finish :=
  .of_make C64_arm_pe_make (.plain (fun _ => rfl) (fun _ _ _ => rfl) (fun _ _ _ => rfl) (fun _ _ _ => rfl) rfl)

end ArmPe

namespace RiscV64

/-- `finish`, make_riscv64_sysv_elf_gas.S:84-88 (`li a0, 0; tail _exit@plt`) -/
def finish : Stub A := { is := fun _ => [.movi (a 0) 0#_], to := .sym }

def void : VoidConv port := { vret := fun s => s.gpr sp, arg := fun s => s.gpr (a 0), lo := 0, hi := 0 }

/-- **C92**, RISC-V -/
theorem C92_riscv64 : port.ExitSpec void finish :=
  .of_make C32_riscv64_make (.plain (fun _ => rfl) (fun _ _ _ => rfl) (fun _ _ _ => rfl) (fun _ _ _ => rfl) rfl)

end RiscV64

namespace LoongArch64

/-- `finish`, make_loongarch64_sysv_elf_gas.S:65-69 (`li.d $a0, 0; b %plt(_exit)`) -/
def finish : Stub A := { is := fun _ => [.movi (a 0) 0#_], to := .sym }

def void : VoidConv port := { vret := fun s => s.gpr sp, arg := fun s => s.gpr (a 0), lo := 0, hi := 0 }

/-- **C92**, LoongArch -/
theorem C92_loongarch64 : port.ExitSpec void finish :=
  .of_make C33_loongarch64_make (.plain (fun _ => rfl) (fun _ _ _ => rfl) (fun _ _ _ => rfl) (fun _ _ _ => rfl) rfl)

end LoongArch64

namespace S390x

/-- `finish`, make_s390x_sysv_elf_gas.S:101-106 (`lghi %r2,0; brasl %r14,_exit@PLT`) -/
def finish : Stub A := { is := fun nxt => [.movi (r 2) 0#_, .movi (r 14) nxt], to := .sym }

def void : VoidConv port := { vret := fun s => s.gpr (r 15), arg := fun s => s.gpr (r 2), lo := 0, hi := 0 }

/-- **C92**, s390x -/
theorem C92_s390x : port.ExitSpec void finish :=
  .of_make C37_s390x_make (.plain (fun _ => rfl) (fun _ _ _ => rfl) (fun _ _ _ => rfl) (fun _ _ _ => rfl) rfl)

end S390x

section
variable {A : Arch} {P : Port A} {C : VoidConv P} {S : Stub A}

/-- a stub that leaves the stack pointer at the one the context function was entered with, and writes words only there and above -/
theorem Port.StubOk.call (hlo : C.lo = 0) (ht : S.to = .sym)
    (h : ∀ e (ε ρ : St A) nxt, ρ.gpr P.sp = C.vret ε → (steps e (S.is nxt) ρ).gpr P.sp = ε.gpr P.sp ∧ C.arg (steps e (S.is nxt) ρ) = 0#_ ∧
      ∀ a, (steps e (S.is nxt) ρ).mem a ≠ ρ.mem a → InR a (ε.gpr P.sp) C.hi) : P.StubOk C S := by
  intro e σ ε ρ x nxt hal hsr _
  obtain ⟨h1, h2, h3⟩ := h e ε ρ nxt hsr
  refine ⟨by simp only [Stub.run, ht], h2, ?_, ?_, fun a ha => ?_⟩
  · show P.aligned ((steps e (S.is nxt) ρ).gpr P.sp)
    rw [h1]; exact hal
  · show (ε.gpr P.sp - (steps e (S.is nxt) ρ).gpr P.sp).toNat ≤ C.lo
    rw [h1, BitVec.sub_self]; exact Nat.zero_le _
  · have := h3 a ha
    rw [hlo, Nat.zero_add]
    have h0 : ε.gpr P.sp - off A 0 = ε.gpr P.sp := by simp [off]
    rw [h0]; exact this

theorem add_off_neg (a : A.W) (n : Nat) : a + off A n + -off A n = a := by
  rw [BitVec.add_assoc a, BitVec.add_right_neg, BitVec.add_zero]

theorem add_neg_off (a : A.W) (n : Nat) : a + -off A n + off A n = a := by
  generalize off A n = y; grind

theorem add_sub_cancel' (a b : A.W) : a + (b - a) = b := by grind

theorem add_off_zero (a : A.W) : a + off A 0 = a := by simp [off]

/-- a write of `n` bytes at `b + o` -/
theorem store_in {m : Mem A} {b a : A.W} {o n hi : Nat} {v : BitVec (8 * n)} (h : store m (b + off A o) n v a ≠ m a) (hh : o + n ≤ hi) (hw : hi ≤ 2 ^ (8 * A.k)) : InR a b hi :=
  Classical.byContradiction fun hn => h (store_out fun hr => hn (inR_off hr hh hw))

end

namespace X86_64

/-- `finish`, make_x86_64_sysv_elf_gas.S:151-156 (`xorq %rdi, %rdi; call _exit@PLT`; the call pushes the address of the next instruction) -/
def finish : Stub A := { is := fun nxt => [.movi rdi 0#_, .addi rsp rsp (-off A 8), .sti nxt rsp 0], to := .sym }

/-- System V: a return pops the return address; first parameter in rdi -/
def void (cfg : Cfg) : VoidConv (port cfg) := { vret := fun s => s.gpr rsp + off A 8, arg := fun s => s.gpr rdi, lo := 0, hi := 8 }

/-- **C92**, x86_64 -/
theorem C92_x86_64 (cfg : Cfg) (hg : cfg.guard = false) : (port cfg).ExitSpec (void cfg) finish := by
  refine .of_make (C30_x86_64_make cfg hg) (.call rfl rfl fun e ε ρ nxt h => ?_)
  have hs : ρ.gpr rsp + -off A 8 = ε.gpr rsp := by rw [show ρ.gpr rsp = ε.gpr rsp + off A 8 from h]; exact add_off_neg _ 8
  refine ⟨hs, rfl, fun a ha => ?_⟩
  have ha : store ρ.mem (ρ.gpr rsp + -off A 8 + off A 0) A.k nxt a ≠ ρ.mem a := ha
  rw [hs] at ha
  exact store_in (hi := 8) ha (by decide) (by decide)

/-- The same for x86_64 (the first activation: see the last example of `X86_64.lean`). -/
example (cfg : Cfg) (ε : St A) : ∃ ρ, (port cfg).ReturnedTo (ε.gpr rsp + off A 8) ε ρ ((port cfg).ra ε) ∧ ρ.mem = ε.mem ∧ ρ.gpr rax = 42#_ :=
  (void cfg).returns ε rax (by simp [port]) (by simp [port]) (by simp [port])

end X86_64

namespace X86_64Macho

/-- `finish`, make_x86_64_sysv_macho_gas.S:72-76 (`xorq %rdi, %rdi; call __exit`) -/
def finish : Stub A := { is := fun nxt => [.movi rdi 0#_, .addi rsp rsp (-off A 8), .sti nxt rsp 0], to := .sym }

def void (cfg : Cfg) : VoidConv (port cfg) := { vret := fun s => s.gpr rsp + off A 8, arg := fun s => s.gpr rdi, lo := 0, hi := 8 }

/-- **C92**, x86_64 Darwin -/
theorem C92_x86_64_macho (cfg : Cfg) : (port cfg).ExitSpec (void cfg) finish := by
  refine .of_make (C58_x86_64_macho_make cfg) (.call rfl rfl fun e ε ρ nxt h => ?_)
  have hs : ρ.gpr rsp + -off A 8 = ε.gpr rsp := by rw [show ρ.gpr rsp = ε.gpr rsp + off A 8 from h]; exact add_off_neg _ 8
  refine ⟨hs, rfl, fun a ha => ?_⟩
  have ha : store ρ.mem (ρ.gpr rsp + -off A 8 + off A 0) A.k nxt a ≠ ρ.mem a := ha
  rw [hs] at ha
  exact store_in (hi := 8) ha (by decide) (by decide)

end X86_64Macho

section
variable {A : Arch}

/-- the stack pointer after `andq $-32` and the push -/
theorem and_push (hk : A.k = 8) (w : A.W) (h : (w + off A 8).toNat % 16 = 0) :
    ((w + off A 8) &&& mask A 5) + -off A 8 = w ∨ ((w + off A 8) &&& mask A 5) + -off A 8 = w - off A 16 := by
  have h0 := and_mask_toNat (A := A) (w + off A 8) 5
  have h2 : (w + off A 8).toNat % 2 ^ 5 = 0 ∨ (w + off A 8).toNat % 2 ^ 5 = 16 := by omega
  have hl := (w + off A 8).isLt
  rcases h2 with h2 | h2
  · left
    have : (w + off A 8) &&& mask A 5 = w + off A 8 := BitVec.eq_of_toNat_eq (by rw [h0, h2]; rfl)
    rw [this]; exact add_off_neg w 8
  · right
    have : (w + off A 8) &&& mask A 5 = w + off A 8 - off A 16 := by
      apply BitVec.eq_of_toNat_eq
      rw [h0, h2, BitVec.toNat_sub]
      generalize (w + off A 8).toNat = n at *
      simp only [off, BitVec.toNat_ofNat]
      rw [hk] at *
      omega
    rw [this]
    generalize off A 8 = y
    generalize off A 16 = z
    grind

theorem push_facts (hk : A.k = 8) {w v : A.W} (h : (w + off A 8).toNat % 16 = 0) (hv : v = ((w + off A 8) &&& mask A 5) + -off A 8) :
    (v + off A 8).toNat % 16 = 0 ∧ (w - v).toNat ≤ 16 ∧ ∀ (m : Mem A) (nxt : A.W) a, store m (v + off A 0) A.k nxt a ≠ m a → InR a (w - off A 16) 24 := by
  have h24 : 24 ≤ 2 ^ (8 * A.k) := by rw [hk]; decide
  rcases and_push hk w h with hp | hp
  · rw [← hv] at hp
    rw [hp]
    refine ⟨h, by rw [BitVec.sub_self]; exact Nat.zero_le _, fun m nxt a ha => ?_⟩
    have q : w + off A 0 = (w - off A 16) + off A 16 := by
      rw [add_off_zero]; generalize off A 16 = z; grind
    rw [q] at ha
    exact store_in ha (by omega) h24
  · rw [← hv] at hp
    rw [hp]
    refine ⟨?_, ?_, fun m nxt a ha => store_in ha (by omega) h24⟩
    · have : w - off A 16 + off A 8 = (w + off A 8) - off A 16 := by generalize off A 16 = z; generalize off A 8 = y; grind
      rw [this, BitVec.toNat_sub]
      generalize (w + off A 8).toNat = n at *
      simp only [off, BitVec.toNat_ofNat]
      rw [hk]
      omega
    · have : w - (w - off A 16) = off A 16 := by generalize off A 16 = z; grind
      rw [this, off, BitVec.toNat_ofNat]
      exact Nat.mod_le _ _

end

namespace X86_64Pe

/-- `finish`, make_x86_64_ms_pe_masm.asm:156-160 (`xor rcx, rcx; call _exit`) -/
def finishMasm : Stub A := { is := fun nxt => [.movi rcx 0#_, .addi rsp rsp (-off A 8), .sti nxt rsp 0], to := .sym }

/-- `finish`, make_x86_64_ms_pe_gas.asm:159-167 and make_x86_64_ms_pe_clang_gas.S:159-167 (`andq $-32, %rsp; xorq %rcx, %rcx; call _exit`) -/
def finish : Stub A := { is := fun nxt => [.andi rsp rsp (mask A 5), .movi rcx 0#_, .addi rsp rsp (-off A 8), .sti nxt rsp 0], to := .sym }

/-- Microsoft x64: first parameter in rcx -/
def void (cfg : Cfg) : VoidConv (port cfg) := { vret := fun s => s.gpr rsp + off A 8, arg := fun s => s.gpr rcx, lo := 0, hi := 8 }

/-- the same for the stub of the GNU and clang assemblers, which aligns the stack pointer further -/
def void' (cfg : Cfg) : VoidConv (port cfg) := { vret := fun s => s.gpr rsp + off A 8, arg := fun s => s.gpr rcx, lo := 16, hi := 8 }

/-- **C92**, x86_64 Windows, MASM -/
theorem C92_x86_64_pe_masm (cfg : Cfg) : (port cfg).ExitSpec (void cfg) finishMasm := by
  refine .of_make (C62_x86_64_pe_make cfg) (.call rfl rfl fun e ε ρ nxt h => ?_)
  have hs : ρ.gpr rsp + -off A 8 = ε.gpr rsp := by rw [show ρ.gpr rsp = ε.gpr rsp + off A 8 from h]; exact add_off_neg _ 8
  refine ⟨hs, rfl, fun a ha => ?_⟩
  have ha : store ρ.mem (ρ.gpr rsp + -off A 8 + off A 0) A.k nxt a ≠ ρ.mem a := ha
  rw [hs] at ha
  exact store_in (hi := 8) ha (by decide) (by decide)

/-- **C92**, x86_64 Windows, GNU and clang assemblers -/
theorem C92_x86_64_pe (cfg : Cfg) : (port cfg).ExitSpec (void' cfg) finish := by
  refine .of_make (C62_x86_64_pe_make cfg) fun e σ ε ρ x nxt hal hsr _ => ?_
  have hsr : ρ.gpr rsp = ε.gpr rsp + off A 8 := hsr
  obtain ⟨v, hv⟩ : ∃ v : A.W, v = ((ε.gpr rsp + off A 8) &&& mask A 5) + -off A 8 := ⟨_, rfl⟩
  obtain ⟨h1, h2, h3⟩ := push_facts rfl hal hv
  have hsp : (steps e (finish.is nxt) ρ).gpr rsp = v := by
    show (ρ.gpr rsp &&& mask A 5) + -off A 8 = v
    rw [hsr, hv]
  have hm : (steps e (finish.is nxt) ρ).mem = store ρ.mem (v + off A 0) A.k nxt := by
    show store ρ.mem ((ρ.gpr rsp &&& mask A 5) + -off A 8 + off A 0) A.k nxt = _
    rw [hsr, hv]
  refine ⟨rfl, rfl, ?_, ?_, fun a ha => ?_⟩
  · show ((steps e (finish.is nxt) ρ).gpr rsp + off A 8).toNat % 16 = 0
    rw [hsp]; exact h1
  · show (ε.gpr rsp - (steps e (finish.is nxt) ρ).gpr rsp).toNat ≤ 16
    rw [hsp]; exact h2
  · have ha : (steps e (finish.is nxt) ρ).mem a ≠ ρ.mem a := ha
    rw [hm] at ha
    exact h3 _ _ _ ha

end X86_64Pe

section
variable {A : Arch} {P : Port A} {C : VoidConv P} {S : Stub A}

/-- the end of a stub on i386: `movl %eax, (%esp)` with eax = 0, then the call -/
theorem arg_call (hk : A.k = 4) {m m' : Mem A} {w v nxt : A.W} (hw : w = v + off A 4) (hm' : m' = store (store m (w + off A 0) A.k 0#_) (w + -off A 4 + off A 0) A.k nxt) :
    w + -off A 4 = v ∧ load m' (v + off A 4) A.k = 0#_ ∧ ∀ a, m' a ≠ m a → InR a v 8 := by
  have hv : w + -off A 4 = v := by rw [hw]; exact add_off_neg _ 4
  rw [hv, hw] at hm'
  have q : v + off A 4 + off A 0 = v + off A 4 := add_off_zero _
  rw [q] at hm'
  have h32 : 8 ≤ 2 ^ (8 * A.k) := by rw [hk]; decide
  refine ⟨hv, ?_, fun a ha => ?_⟩
  · rw [hm', load_store_off (by rw [hk]; decide) (by rw [hk]; decide) (by rw [hk]; omega), load_store_same _ _ _ _ (by rw [hk]; decide)]
  · rw [hm'] at ha
    by_cases h1 : InR a (v + off A 0) A.k
    · exact inR_off h1 (by omega) h32
    by_cases h2 : InR a (v + off A 4) A.k
    · exact inR_off h2 (by omega) h32
    rw [store_out h1, store_out h2] at ha
    exact absurd rfl ha

end

namespace I386

/-- `finish`, make_i386_sysv_elf_gas.S:102-113 (`call 3f; 3: popl %ebx; addl $_GLOBAL_OFFSET_TABLE_+[.-3b], %ebx; xorl %eax, %eax; movl %eax, (%esp); call _exit@PLT`); `l` is the
address of the label 3 and `got` that of the global offset table, which the procedure linkage table expects in ebx -/
def finish (l got : A.W) : Stub A :=
  { is := fun nxt => [.addi esp esp (-off A 4), .sti l esp 0, .ld ebx esp 0, .addi esp esp (off A 4), .addi ebx ebx (got - l), .movi eax 0#_, .st eax esp 0,
      .addi esp esp (-off A 4), .sti nxt esp 0], to := .sym }

/-- System V i386: a return pops the return address; first parameter at esp + 4 -/
def void (cfg : Cfg) : VoidConv (port cfg) := { vret := fun s => s.gpr esp + off A 4, arg := fun s => arg s 4, lo := 0, hi := 8 }

/-- **C92**, i386 -/
theorem C92_i386 (cfg : Cfg) (l got : A.W) : (port cfg).ExitSpec (void cfg) (finish l got) := by
  refine .of_make (C34_i386_make cfg) (.call rfl rfl fun e ε ρ nxt h => ?_)
  have h : ρ.gpr esp = ε.gpr esp + off A 4 := h
  obtain ⟨w, hw⟩ : ∃ w : A.W, w = ρ.gpr esp := ⟨_, rfl⟩
  have q : w + -off A 4 + off A 4 = w := add_neg_off w 4
  have hsp : (steps e ((finish l got).is nxt) ρ).gpr esp = w + -off A 4 := by
    show ρ.gpr esp + -off A 4 + off A 4 + -off A 4 = _
    rw [← hw, q]
  have hm : (steps e ((finish l got).is nxt) ρ).mem = store (store (store ρ.mem (w + -off A 4 + off A 0) A.k l) (w + off A 0) A.k 0#_) (w + -off A 4 + off A 0) A.k nxt := by
    show store (store (store ρ.mem (ρ.gpr esp + -off A 4 + off A 0) A.k l) (ρ.gpr esp + -off A 4 + off A 4 + off A 0) A.k 0#_)
      (ρ.gpr esp + -off A 4 + off A 4 + -off A 4 + off A 0) A.k nxt = _
    rw [← hw, q]
  obtain ⟨m, hmm⟩ : ∃ m, m = store ρ.mem (w + -off A 4 + off A 0) A.k l := ⟨_, rfl⟩
  rw [← hmm] at hm
  obtain ⟨h1, h2, h3⟩ := arg_call (A := A) rfl (hw.trans h) hm
  refine ⟨hsp.trans h1, ?_, fun a ha => ?_⟩
  · show load (steps e ((finish l got).is nxt) ρ).mem ((steps e ((finish l got).is nxt) ρ).gpr esp + off A 4) A.k = _
    rw [hsp.trans h1]; exact h2
  · show InR a (ε.gpr esp) 8
    by_cases hx : (steps e ((finish l got).is nxt) ρ).mem a = m a
    · rw [hx, hmm, h1] at ha
      exact store_in (hi := 8) ha (by decide) (by decide)
    · exact h3 a hx

/-- **C92**, i386: `_exit` is entered, through the procedure linkage table, with the address of the global offset table in ebx -/
theorem C92_i386_got (l got : A.W) (e : Env A) (x nxt : A.W) (ρ : St A) : ((finish l got).run e x nxt ρ).1.gpr ebx = got := by
  simp only [Stub.run, finish, steps, step]
  simp only [setg, reduceCtorEq, if_false, if_true]
  rw [load_store_same _ _ _ _ (by decide)]
  exact add_sub_cancel' (A := A) l got

end I386

namespace I386Macho

/-- `finish`, make_i386_sysv_macho_gas.S:85-90 (`xorl %eax, %eax; movl %eax, (%esp); call __exit`) -/
def finish : Stub A := { is := fun nxt => [.movi eax 0#_, .st eax esp 0, .addi esp esp (-off A 4), .sti nxt esp 0], to := .sym }

def void (cfg : Cfg) : VoidConv (port cfg) := { vret := fun s => s.gpr esp + off A 4, arg := fun s => arg s 4, lo := 0, hi := 8 }

/-- **C92**, i386 Darwin -/
theorem C92_i386_macho (cfg : Cfg) : (port cfg).ExitSpec (void cfg) finish := by
  refine .of_make (C61_i386_macho_make cfg) (.call rfl rfl fun e ε ρ nxt h => ?_)
  have h : ρ.gpr esp = ε.gpr esp + off A 4 := h
  obtain ⟨h1, h2, h3⟩ := arg_call (A := A) (m := ρ.mem) (w := ρ.gpr esp) (v := ε.gpr esp) (nxt := nxt) rfl h rfl
  have hsp : (steps e (finish.is nxt) ρ).gpr esp = ε.gpr esp := h1
  refine ⟨hsp, ?_, h3⟩
  show load (steps e (finish.is nxt) ρ).mem ((steps e (finish.is nxt) ρ).gpr esp + off A 4) A.k = _
  rw [hsp]; exact h2

end I386Macho

namespace I386Pe

/-- `finish`, make_i386_ms_pe_gas.asm:141-147, make_i386_ms_pe_clang_gas.S:141-147 and make_i386_ms_pe_masm.asm:132-137 (`xorl %eax, %eax; movl %eax, (%esp); call __exit`) -/
def finish : Stub A := { is := fun nxt => [.movi eax 0#_, .st eax esp 0, .addi esp esp (-off A 4), .sti nxt esp 0], to := .sym }

/-- cdecl; `mok`: see `MakeOk` (the chain of exception handlers of the caller of `make_fcontext` ends after at most `N` records) -/
def void (cfg : Cfg) (N : Nat) : VoidConv (port cfg N) :=
  { vret := fun s => s.gpr esp + off A 4, arg := fun s => arg s 4, lo := 0, hi := 8, mok := (extra cfg N).mok }

/-- **C92**, i386 Windows -/
theorem C92_i386_pe (cfg : Cfg) (N : Nat) : (port cfg N).ExitSpec (void cfg N) finish := by
  refine .of (makeS cfg N) (.call rfl rfl fun e ε ρ nxt h => ?_)
  have h : ρ.gpr esp = ε.gpr esp + off A 4 := h
  obtain ⟨h1, h2, h3⟩ := arg_call (A := A) (m := ρ.mem) (w := ρ.gpr esp) (v := ε.gpr esp) (nxt := nxt) rfl h rfl
  have hsp : (steps e (finish.is nxt) ρ).gpr esp = ε.gpr esp := h1
  refine ⟨hsp, ?_, h3⟩
  show load (steps e (finish.is nxt) ρ).mem ((steps e (finish.is nxt) ρ).gpr esp + off A 4) A.k = _
  rw [hsp]; exact h2

end I386Pe

end Verif.Asm
