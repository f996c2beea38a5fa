import Verif.Mem.Layout
import Verif.Asm.ManyMore
import Verif.Asm.ManyWin
import Verif.Asm.ManyMacho
import Verif.Asm.ManyWit
import Verif.Asm.FootDesc
import Verif.Asm.FootI386
import Verif.Asm.FootI386Pe
import Verif.Asm.FootX86

/-!
# The stack a new fiber starts on (C83)

Joins the address computations of `create_fiber1/2`, `create_context1/2` (`Mem/Layout.lean`) and the machine code of `make_fcontext` and of the first switch to the new
context (`Asm/*`): what they place where in the memory the allocator (or the user, `preallocated`) has supplied.
-/

namespace Verif.Link.Stack
open Verif.Asm Verif.Mem

/-- The memory `[lo, hi)` is a new stack and `p` is what the creating function computes for it (`n` is the size of the control block):
`create_fiber1`, `create_context1` with a stack from an allocator (fiber_fcontext.hpp lines 167-188, continuation_fcontext.hpp lines 170-191), or
`create_fiber2`, `create_context2` with the part below `sp` of a stack supplied by the user (lines 210-229 and 213-232) -/
inductive Created {w : Nat} (n : BitVec w) : Place w → Nat → Nat → Prop
  | alloc (sctx : StackCtx w) : sctx.size.toNat ≤ sctx.sp.toNat → Created n (create1 sctx n) (sctx.sp.toNat - sctx.size.toNat) sctx.sp.toNat
  | prealloc (pa : Prealloc w) : pa.sctx.size.toNat ≤ pa.sctx.sp.toNat → Created n (create2 pa n) (pa.sctx.sp.toNat - pa.sctx.size.toNat) pa.sp.toNat

theorem Created.placed {w : Nat} {n : BitVec w} {p : Place w} {lo hi : Nat} (h : Created n p lo hi) (hs : lo + n.toNat + 319 ≤ hi) : WellPlaced p n.toNat lo hi := by
  cases h with
  | alloc sctx h0 => exact C41_placement sctx n h0 (by omega)
  | prealloc pa h0 => exact (C47_placement pa n h0 (by omega)).1

variable {A : Arch} {P : Port A}

/-- `τ` is the entry state of the first `jump_fcontext` to the context that the call `σ` of `make_fcontext` has made: its data is as `make_fcontext` left it, and the frame
of the call does not overlap it -/
structure First (P : Port A) (e : Env A) (σ τ : St A) : Prop where
  to : P.argF τ = P.resM (exec e P.make σ).1
  kept : ∀ a, InR a (P.argF τ) P.mkeep → τ.mem a = (exec e P.make σ).1.mem a
  apart : ∀ a, InR a (P.argF τ) P.mkeep → ¬ InR a (P.fctx τ) P.frame

/-- **C83.**  `home` is the number of bytes, from the stack pointer a function is entered with upwards, that the calling convention lets the function use: return address, linkage
area, register save area, arguments.

Let `[lo, hi)` be a stack with room for the control block, 64 + 255 bytes of gap and alignment, the context data and 64 bytes of alignment, on which the caller of
`make_fcontext` does not run, and let `make_fcontext` be called with the top address computed by the creating function.  Then
* the context data lies in the usable stack, in its last `mkeep + 64` bytes;
* `make_fcontext` writes, apart from its own stack frame, only there; in particular it does not write to the control block;
* the first switch to the new context writes, apart from the frame of the calling context, only there;
* the context function is entered with a stack pointer below which all of `[lo, hi)` but `n + 383 + mkeep` bytes is available;
* and what it may use above that stack pointer ends below the control block. -/
def StackSpec (X : Extra P) (home : Nat) : Prop :=
  ∀ (e : Env A) (σ : St A) (n : BitVec (8 * A.k)) (p : Place (8 * A.k)) (lo hi : Nat),
    Created n p lo hi → lo + n.toNat + 383 + P.mkeep ≤ hi → P.argTop σ = p.top → X.mok e σ →
    (∀ a, In a lo hi → ¬ InR a (σ.gpr P.sp - off A P.mscratch) (P.mscratch + A.k)) →
    (hi ≤ (P.resM (exec e P.make σ).1).toNat + n.toNat + 383 + P.mkeep ∧ (P.resM (exec e P.make σ).1).toNat + P.mkeep ≤ p.top.toNat) ∧
    (∀ a, (exec e P.make σ).1.mem a ≠ σ.mem a →
      In a (P.resM (exec e P.make σ).1).toNat p.top.toNat ∨ InR a (σ.gpr P.sp - off A P.mscratch) P.mscratch) ∧
    (∀ a, In a p.storage.toNat (p.storage.toNat + n.toNat) → (exec e P.make σ).1.mem a = σ.mem a) ∧
    ∀ τ, First P e σ τ →
      (∀ a, (P.enter e τ).1.mem a ≠ τ.mem a → InR a (P.fctx τ) P.frame ∨ In a (P.resM (exec e P.make σ).1).toNat p.top.toNat) ∧
      hi ≤ ((P.enter e τ).1.gpr P.sp).toNat + n.toNat + 383 + P.mkeep ∧
      ((P.enter e τ).1.gpr P.sp).toNat + home ≤ p.storage.toNat

theorem sub_small {w : Nat} {a b : BitVec w} (h : (a - b).toNat ≤ a.toNat) : b.toNat + (a - b).toNat = a.toNat := by
  have h1 := a.isLt
  have h2 := b.isLt
  rw [BitVec.toNat_sub] at h ⊢
  by_cases hc : b.toNat ≤ a.toNat
  · rw [show 2 ^ w - b.toNat + a.toNat = (a.toNat - b.toNat) + 2 ^ w by omega, Nat.add_mod_right, Nat.mod_eq_of_lt (by omega)]; omega
  · rw [Nat.mod_eq_of_lt (by omega)] at h; omega

/-- `a` lies in the bytes from `b` to `c` -/
theorem inR_in {a b c : BitVec w} (hbc : b.toNat ≤ c.toNat) (h : (a - b).toNat < c.toNat - b.toNat) : b.toNat ≤ a.toNat ∧ a.toNat < c.toNat := by
  have h1 := a.isLt
  have h2 := b.isLt
  have h3 := c.isLt
  rw [BitVec.toNat_sub] at h
  by_cases hc : b.toNat ≤ a.toNat
  · rw [show 2 ^ w - b.toNat + a.toNat = (a.toNat - b.toNat) + 2 ^ w by omega, Nat.add_mod_right, Nat.mod_eq_of_lt (by omega)] at h; omega
  · rw [Nat.mod_eq_of_lt (by omega)] at h; omega

/-- the distance of the context data from the address passed to `make_fcontext` -/
def Bound (X : Extra P) : Prop := ∀ e σ, X.mok e σ →
  P.mkeep ≤ (P.argTop σ - P.resM (exec e P.make σ).1).toNat ∧ (P.argTop σ - P.resM (exec e P.make σ).1).toNat ≤ P.mkeep + 64

theorem Bound.of {X : Extra P} (j m : Nat) (h1 : m + 2 ^ j ≤ 2 ^ (8 * A.k)) (h2 : P.mkeep ≤ m) (h3 : m + 2 ^ j ≤ P.mkeep + 65)
    (h : ∀ e σ, P.resM (exec e P.make σ).1 = (P.argTop σ &&& mask A j) - off A m) : Bound X := fun e σ _ => by
  rw [h, align_below _ _ _ h1]
  have : (P.argTop σ).toNat % 2 ^ j < 2 ^ j := Nat.mod_lt _ (Nat.two_pow_pos j)
  omega

theorem Bound.of' {X : Extra P} (j m d : Nat) (h1 : m + d + 2 ^ j ≤ 2 ^ (8 * A.k)) (h2 : P.mkeep ≤ m) (h3 : m + d + 2 ^ j ≤ P.mkeep + 65)
    (h : ∀ e σ, P.resM (exec e P.make σ).1 = ((P.argTop σ - off A d) &&& mask A j) - off A m) : Bound X := fun e σ _ => by
  rw [h]
  have h4 := align_below (P.argTop σ - off A d) m j (by omega)
  obtain ⟨y, hy⟩ : ∃ y, y = ((P.argTop σ - off A d) &&& mask A j) - off A m := ⟨_, rfl⟩
  rw [← hy] at h4 ⊢
  have h5 : P.argTop σ - y = (P.argTop σ - off A d - y) + off A d := by
    generalize P.argTop σ = x; generalize off A d = z; grind
  have h6 : (P.argTop σ - off A d).toNat % 2 ^ j < 2 ^ j := Nat.mod_lt _ (Nat.two_pow_pos j)
  have h7 : (off A d).toNat = d := by rw [off, BitVec.toNat_ofNat, Nat.mod_eq_of_lt]; have := Nat.two_pow_pos j; omega
  rw [h5, BitVec.toNat_add, h4, h7, Nat.mod_eq_of_lt (by omega)]
  omega

theorem StackSpec.of {X : Extra P} {home : Nat} (hM : X.MakeS) (hB : Bound X)
    (hh : ∀ e σ τ, X.mok e σ → First P e σ τ → P.mkeep ≤ (P.argTop σ - P.argF τ).toNat → ((P.enter e τ).1.gpr P.sp - P.argF τ).toNat ≤ (P.argTop σ - P.argF τ).toNat →
      ((P.enter e τ).1.gpr P.sp - P.argF τ).toNat + home ≤ (P.argTop σ - P.argF τ).toNat + 64) : StackSpec X home := by
  intro e σ n p lo hi hc hs ht hm hd
  have hp := hc.placed (by omega)
  obtain ⟨w1, w2, w3, w4, w5, w6⟩ := hp
  obtain ⟨b1, b2⟩ := hB e σ hm
  have hM := hM e σ hm
  obtain ⟨c, hcd⟩ : ∃ c, c = P.resM (exec e P.make σ).1 := ⟨_, rfl⟩
  have hf := fun τ h => hh e σ τ hm h
  rw [← hcd, ht] at hM b1 b2
  rw [ht] at hf
  have b3 := sub_small (a := p.top) (b := c) (by omega)
  have hin : ∀ a, InR a c (p.top - c).toNat → In a c.toNat p.top.toNat := fun a h => inR_in (by omega) (by show (a - c).toNat < _; unfold InR at h; omega)
  obtain ⟨-, -, m3, m4⟩ := hM fun a h => hd a (by have := hin a h; unfold In at this ⊢; omega)
  rw [← hcd]
  rw [← hcd, ht] at m3
  have m3' : ∀ a, (exec e P.make σ).1.mem a ≠ σ.mem a → In a c.toNat p.top.toNat ∨ InR a (σ.gpr P.sp - off A P.mscratch) P.mscratch :=
    fun a h => (m3 a h).imp (hin a) id
  refine ⟨⟨by omega, by omega⟩, m3', fun a h => Classical.byContradiction fun hne => ?_, fun τ h => ?_⟩
  · rcases m3' a hne with h' | h'
    · unfold In at h h'; omega
    · refine hd a ?_ (inR_mono h' (by omega))
      unfold In at h ⊢; omega
  · obtain ⟨-, -, -, -, -, -, s1, s2, s3⟩ := m4 τ h.to h.kept h.apart
    have hf := hf τ h
    rw [h.to, ← hcd, ht] at s1
    rw [h.to, ← hcd] at s2 s3 hf
    have hf := hf (by omega) s1
    obtain ⟨q, hq⟩ : ∃ q, q = (P.enter e τ).1.gpr P.sp := ⟨_, rfl⟩
    rw [← hq] at s1 hf ⊢
    have hqc : c.toNat + (q - c).toNat = q.toNat := by
      have h1 : c + (q - c) = q := by rw [BitVec.add_comm]; exact BitVec.sub_add_cancel _ _
      have h2 : (c + (q - c)).toNat = c.toNat + (q - c).toNat := by
        rw [BitVec.toNat_add, Nat.mod_eq_of_lt]
        have := p.top.isLt; omega
      rw [← h2, h1]
    refine ⟨fun a ha => (s2 a ha).imp id fun hs => hin a (inR_mono (s3 a hs) (by omega)), by omega, by omega⟩

/-- when what the function may use above its stack pointer is no more than the gap -/
theorem StackSpec.gap {X : Extra P} {home : Nat} (hM : X.MakeS) (hB : Bound X) (h : home ≤ 64) : StackSpec X home :=
  .of hM hB fun _ _ _ _ _ _ _ => by omega

/-- the stack pointer at the first activation, for the ports without trampoline whose contexts are described by `SlotMake` -/
theorem SlotMake.sp_first {S : SlotJump P} (M : SlotMake S) {e : Env A} {σ τ : St A} (h : First P e σ τ) : ((P.enter e τ).1.gpr P.sp - P.argF τ).toNat ≤ M.spo := by
  obtain ⟨s, hx, hr, -⟩ := M.entry (σ := σ) h.to h.kept h.apart
  obtain ⟨c1, c2, c3, c4, c5, c6, c7, c8, c9, c10, c11, c12⟩ := S.conv
  rw [hx, c10, c4]
  show (s.gpr S.K.sp - τ.gpr S.K.to).toNat ≤ _
  have hsp : s.gpr S.K.sp = τ.gpr S.K.to + off A M.spo := by rw [hr.reg M.sp]; rfl
  rw [hsp, show τ.gpr S.K.to + off A M.spo - τ.gpr S.K.to = off A M.spo from by rw [BitVec.add_comm, BitVec.add_sub_cancel]]
  rw [off, BitVec.toNat_ofNat]; exact Nat.mod_le _ _

theorem StackSpec.slot {X : Extra P} {S : SlotJump P} (M : SlotMake S) {home : Nat} (hM : X.MakeS) (hB : Bound X) (h : M.spo + home ≤ P.mkeep + 64) : StackSpec X home :=
  .of hM hB fun _ _ _ _ hf h1 _ => by have := SlotMake.sp_first M hf; omega

theorem SymMake.sp_first {S : SymPort P} (M : SymMake S) {e : Env A} {σ τ : St A} (h : First P e σ τ) : ((P.enter e τ).1.gpr P.sp - P.argF τ).toNat ≤ M.spo := by
  obtain ⟨c1, c2, c3, c4, c5, c6, c7, c8, c9, c10, c11, c12⟩ := S.conv
  obtain ⟨d1, d3, d4, d5, d6⟩ := M.conv
  obtain ⟨w1, w2, w3, w4, w5, w6, w7, w8, w9, w10, w11, w12⟩ := M.sz
  have hw : M.msz ≤ 2 ^ (8 * A.k) := by have : 0 < 2 ^ M.j := Nat.two_pow_pos _; omega
  have hd := h.apart
  rw [c1, c2, c4, d3] at hd
  have hok : (S.K.I e τ).Ok (S.K.C M.msz M.mw) := RCfg.I_ok S.wf M.msz M.mw hw w8 e τ hd
  have hr := fin_rel hok (S.ji ++ M.ti) M.e1
  obtain ⟨s, hs⟩ : ∃ s, s = steps (S.K.I e τ).e (S.ji ++ M.ti) (S.K.I e τ).σ := ⟨_, rfl⟩
  have hx : P.enter e τ = (s, s.gpr M.er) := by rw [hs]; exact M.enter e τ
  rw [← hs] at hr
  rw [hx, c10, c4]
  show (s.gpr S.K.sp - τ.gpr S.K.to).toNat ≤ _
  have hsp : s.gpr S.K.sp = τ.gpr S.K.to + off A M.spo := by rw [hr.reg M.sp]; rfl
  rw [hsp, show τ.gpr S.K.to + off A M.spo - τ.gpr S.K.to = off A M.spo from by rw [BitVec.add_comm, BitVec.add_sub_cancel]]
  rw [off, BitVec.toNat_ofNat]; exact Nat.mod_le _ _

theorem StackSpec.sym {X : Extra P} {S : SymPort P} (M : SymMake S) {home : Nat} (hM : X.MakeS) (hB : Bound X) (h : M.spo + home ≤ P.mkeep + 64) : StackSpec X home :=
  .of hM hB fun _ _ _ _ hf h1 _ => by have := SymMake.sp_first M hf; omega

/-! ## The ports -/

/-- **C83**, x86_64 System V: return address -/
theorem C83_x86_64 (cfg : X86_64.Cfg) (hg : cfg.guard = false) : StackSpec (X86_64.extra cfg) 8 := .gap (fun e σ _ => X86_64.C30_x86_64_make cfg hg e σ) (.of 4 0x48 (by decide) (by show 0x48 ≤ _; decide) (by show _ ≤ 0x48 + 65; decide) fun e σ => by rw [BitVec.sub_eq_add_neg]; obtain ⟨_ | _, _ | _⟩ := cfg <;> rfl) (by decide)
/-- **C83**, x86_64 Mach-O: return address -/
theorem C83_x86_64_macho (cfg : X86_64Macho.Cfg) : StackSpec (X86_64Macho.extra cfg) 8 := .gap (fun e σ _ => X86_64Macho.C58_x86_64_macho_make cfg e σ) (.of 4 0x40 (by decide) (by show 0x40 ≤ _; decide) (by show _ ≤ 0x40 + 65; decide) fun e σ => by rw [BitVec.sub_eq_add_neg]; rfl) (by decide)
/-- **C83**, x86_64 Windows: return address and the home space of the four register arguments -/
theorem C83_x86_64_pe (cfg : X86_64Pe.Cfg) : StackSpec (X86_64Pe.extra cfg) 40 := .gap (fun e σ _ => X86_64Pe.C62_x86_64_pe_make cfg e σ) (.of 4 0x150 (by decide) (by show 0x150 ≤ _; decide) (by show _ ≤ 0x150 + 65; decide) fun e σ => X86_64Pe.make_res cfg e σ) (by decide)
/-- **C83**, i386 System V: return address and the argument -/
theorem C83_i386 (cfg : I386.Cfg) : StackSpec (I386.extra cfg) 12 := .gap (fun e σ _ => I386.C34_i386_make cfg e σ) (.of' 4 0x34 8 (by decide) (by show 0x2c ≤ _; decide) (by show _ ≤ 0x2c + 65; decide) fun e σ => I386.make_res cfg e σ) (by decide)
/-- **C83**, i386 Mach-O: return address and the argument -/
theorem C83_i386_macho (cfg : I386Macho.Cfg) : StackSpec (I386Macho.extra cfg) 12 := .gap (fun e σ _ => I386Macho.C61_i386_macho_make cfg e σ) (.of' 4 0x34 8 (by decide) (by show 0x24 ≤ _; decide) (by show _ ≤ 0x24 + 65; decide) fun e σ => I386Macho.make_res cfg e σ) (by decide)
/-- **C83**, i386 Windows: return address and the argument -/
theorem C83_i386_pe (cfg : I386Pe.Cfg) (N : Nat) : StackSpec (I386Pe.extra cfg N) 12 := .gap (I386Pe.makeS cfg N) (.of' 4 0x40 8 (by decide) (by show 0x40 ≤ _; decide) (by show _ ≤ 0x40 + 65; decide) fun e σ =>
    (I386Pe.foot_res cfg N e σ).trans (congrArg (fun y => (y &&& mask I386Pe.A 4) - off I386Pe.A 0x40) (BitVec.sub_eq_add_neg ..).symm)) (by decide)
/-- **C83**, AArch64: nothing -/
theorem C83_arm64 : StackSpec Arm64.extra 0 := .gap (fun e σ _ => Arm64.C31_arm64_make e σ) (.of 4 0xb0 (by decide) (by decide) (by decide) fun e σ => by rw [BitVec.sub_eq_add_neg]; rfl) (by decide)
/-- **C83**, AArch64 Mach-O: nothing -/
theorem C83_arm64_macho : StackSpec Arm64Macho.extra 0 := .gap (fun e σ _ => Arm64Macho.C59_arm64_macho_make e σ) (.of 4 0xb0 (by decide) (by decide) (by decide) fun e σ => by rw [BitVec.sub_eq_add_neg]; rfl) (by decide)
/-- **C83**, AArch64 Windows: nothing -/
theorem C83_arm64_pe : StackSpec Arm64Pe.extra 0 := .gap (fun e σ _ => Arm64Pe.C63_arm64_pe_make e σ) (.of 4 0xd0 (by decide) (by decide) (by decide) fun e σ => by rw [BitVec.sub_eq_add_neg]; rfl) (by decide)
/-- **C83**, ARM: nothing -/
theorem C83_arm (vfp : Bool) : StackSpec (Arm32.extra vfp) 0 := .gap (fun e σ _ => Arm32.C35_arm_make vfp e σ) (.of 4 0x7c (by decide) (by cases vfp <;> decide) (by cases vfp <;> decide) fun e σ => ((Arm32.M vfp).make e σ _ rfl).2.1) (by decide)
/-- **C83**, ARM Mach-O: nothing -/
theorem C83_arm_macho (vfp : Bool) : StackSpec (ArmMacho.extra vfp) 0 := .gap (fun e σ _ => ArmMacho.C60_arm_macho_make vfp e σ) (.of 4 0x7c (by decide) (by cases vfp <;> decide) (by cases vfp <;> decide) fun e σ => ((ArmMacho.M vfp).make e σ _ rfl).2.1) (by decide)
/-- **C83**, ARM Windows: nothing -/
theorem C83_arm_pe : StackSpec ArmPe.extra 0 := .gap (fun e σ _ => ArmPe.C64_arm_pe_make e σ) (.of 4 0x48 (by decide) (by decide) (by decide) fun e σ => by rw [BitVec.sub_eq_add_neg]; rfl) (by decide)
/-- **C83**, MIPS o32: the slots of the four register arguments -/
theorem C83_mips32 (hf : Bool) : StackSpec (Mips32.extra hf) 16 := .gap (fun e σ _ => Mips32.C36_mips32_make hf e σ) (.of 4 0x80 (by decide) (by cases hf <;> decide) (by cases hf <;> decide) fun e σ => ((Mips32.M hf).make e σ _ rfl).2.1) (by decide)
/-- **C83**, MIPS n64: nothing -/
theorem C83_mips64 (hf : Bool) : StackSpec (Mips64.extra hf) 0 := .gap (fun e σ _ => Mips64.C36_mips64_make hf e σ) (.of 4 0xa0 (by decide) (by cases hf <;> decide) (by cases hf <;> decide) fun e σ => ((Mips64.S hf).make e σ).2.1) (by decide)
/-- **C83**, RISC-V 64: nothing -/
theorem C83_riscv64 : StackSpec RiscV64.extra 0 := .gap (fun e σ _ => RiscV64.C32_riscv64_make e σ) (.of 4 0xd0 (by decide) (by decide) (by decide) fun e σ => by rw [BitVec.sub_eq_add_neg]; rfl) (by decide)
/-- **C83**, LoongArch 64: nothing -/
theorem C83_loongarch64 : StackSpec LoongArch64.extra 0 := .gap (fun e σ _ => LoongArch64.C33_loongarch64_make e σ) (.of 4 0xa0 (by decide) (by decide) (by decide) fun e σ => by rw [BitVec.sub_eq_add_neg]; rfl) (by decide)
/-- **C83**, s390x: the register save area of 160 bytes and the `transfer_t` passed by reference -/
theorem C83_s390x : StackSpec S390x.extra 176 := .slot S390x.M (fun e σ _ => S390x.C37_s390x_make e σ) (.of 3 0xb0 (by decide) (by decide) (by decide) fun e σ => by rw [BitVec.sub_eq_add_neg]; rfl) (by decide)
/-- **C83**, PowerPC 32 ELF: back chain and LR save word -/
theorem C83_ppc32 : StackSpec Ppc32.extra 8 := .gap (fun e σ _ => Ppc32.C38_ppc32_make e σ) (.of 4 256 (by decide) (by decide) (by decide) fun e σ => by rw [BitVec.sub_eq_add_neg]; rfl) (by decide)
/-- **C83**, PowerPC 32 ELF without `transfer_t` in registers: back chain and LR save word -/
theorem C83_ppc32b : StackSpec Ppc32b.extra 8 := .gap (fun e σ _ => Ppc32b.C38_ppc32b_make e σ) (.of 4 256 (by decide) (by decide) (by decide) fun e σ => by rw [BitVec.sub_eq_add_neg]; rfl) (by decide)
/-- **C83**, PowerPC 32 Darwin: linkage area of 24 bytes and parameter area of 32 -/
theorem C83_ppc32_macho : StackSpec Ppc32Macho.extra 56 := .gap (fun e σ _ => Ppc32Macho.C78_ppc32_macho_make e σ) (.of 4 336 (by decide) (by decide) (by decide) fun e σ => by rw [BitVec.sub_eq_add_neg]; rfl) (by decide)
/-- **C83**, PowerPC 32 AIX: linkage area of 24 bytes and parameter area of 32 -/
theorem C83_ppc32_xcoff : StackSpec Ppc32Xcoff.extra 56 := .gap (fun e σ _ => Ppc32Xcoff.makeF e σ) (.of 4 288 (by decide) (by decide) (by decide) fun e σ => Ppc32Xcoff.foot_res e σ) (by decide)
/-- **C83**, PowerPC 64 ELFv2: header of 32 bytes and parameter save area of 64 -/
theorem C83_ppc64 : StackSpec Ppc64.extra 96 := .sym Ppc64.M (fun e σ _ => Ppc64.C57_ppc64_make e σ) (.of 4 248 (by decide) (by decide) (by decide) fun e σ => by rw [BitVec.sub_eq_add_neg]; rfl) (by decide)
/-- **C83**, PowerPC 64 ELFv1 and AIX: linkage area of 48 bytes and parameter area of 64 -/
theorem C83_ppc64v1 (x : Bool) : StackSpec (Ppc64v1.extra x) 112 := .of (fun e σ _ => Ppc64v1.makeF x e σ)
  (.of 4 248 (by decide) (by cases x <;> decide) (by cases x <;> decide) fun e σ => Ppc64v1.foot_res x e σ)
  fun e σ τ _ hf h1 _ => by
    have h2 : (((Ppc64v1.port x).enter e τ).1.gpr (Ppc64v1.port x).sp - (Ppc64v1.port x).argF τ).toNat ≤ 184 :=
      SlotMake.sp_first (P := Ppc64v1.portT x) (Ppc64v1.M x) ⟨hf.to, hf.kept, hf.apart⟩
    have h1 : 248 ≤ ((Ppc64v1.port x).argTop σ - (Ppc64v1.port x).argF τ).toNat := by cases x <;> exact h1
    omega

/-! ## The hypotheses are met -/

/-- a 64 kB stack, a control block of 128 bytes, and a caller whose own stack is elsewhere, which calls `make_fcontext` and then `jump_fcontext` -/
def Met (X : Extra P) : Prop := ∀ e : Env A, ∃ (σ τ : St A) (n : BitVec (8 * A.k)) (p : Place (8 * A.k)) (lo hi : Nat),
  Created n p lo hi ∧ lo + n.toNat + 383 + P.mkeep ≤ hi ∧ P.argTop σ = p.top ∧ X.mok e σ ∧
  (∀ a, In a lo hi → ¬ InR a (σ.gpr P.sp - off A P.mscratch) (P.mscratch + A.k)) ∧ First P e σ τ

open Many in
theorem Met.of {X : Extra P} (C : Calls X) (hm : ∀ e x, X.mok e (C.call (fun _ => 0#_) (off A 0x18000) (off A 0x3f0c0) (off A 0x3f0c0) x)) : Met X := by
  intro e
  have hw : 2 ^ 32 ≤ 2 ^ (8 * A.k) := Nat.pow_le_pow_right (by omega) (by have := C.k; omega)
  have tn := @toNat_off A C.k
  have tns := @toNat_sub_off A C.k
  obtain ⟨z1, z2, z3, z4⟩ := C.sz
  obtain ⟨s0, hs0⟩ : ∃ s, s = C.call (fun _ => 0#_) (off A 0x18000) (off A 0x3f0c0) (off A 0x3f0c0) 0#_ := ⟨_, rfl⟩
  obtain ⟨d, hd⟩ : ∃ d, d = P.resM (exec e P.make s0).1 := ⟨_, rfl⟩
  have top : P.argTop s0 = off A 0x3f0c0 := by rw [hs0]; exact C.argTop _ _ _ _
  have sp0 : s0.gpr P.sp = off A 0x18000 := by rw [hs0]; exact C.sp _ _ _ _ _
  have res : (P.argTop s0 - d).toNat ≤ 0x800 := by rw [hd, hs0]; exact C.res _ _ _ _ _
  have h2 : (P.argTop s0).toNat = 0x3f0c0 := by rw [top, tn _ (by decide)]
  have hdn := sub_small (a := P.argTop s0) (b := d) (by omega)
  let sctx : StackCtx (8 * A.k) := ⟨off A 0x10000, off A 0x3f180⟩
  have q1 : sctx.size.toNat = 0x10000 := tn _ (by decide)
  have q2 : sctx.sp.toNat = 0x3f180 := tn _ (by decide)
  have q3 : (off A 0x80).toNat = 0x80 := tn _ (by decide)
  have hc : Created (off A 0x80) (create1 sctx (off A 0x80)) (sctx.sp.toNat - sctx.size.toNat) sctx.sp.toNat := .alloc sctx (by omega)
  obtain ⟨w1, w2, w3, w4, w5, w6⟩ := hc.placed (by omega)
  have ht : (create1 sctx (off A 0x80)).top = off A 0x3f0c0 := by
    apply BitVec.eq_of_toNat_eq
    rw [tn _ (by decide)]
    omega
  refine ⟨s0, C.call (exec e P.make s0).1.mem (off A 0x18000) (off A 0x18100) d 0#_, off A 0x80, _, _, _, hc, by omega, by rw [top, ht], by rw [hs0]; exact hm e _, ?_, ?_⟩
  · intro a ha hh
    rw [sp0] at hh
    have q := tns 0x18000 P.mscratch (by decide) (by omega)
    have := inR_toNat hh (by omega)
    unfold In at ha
    omega
  · have hin : ∀ a, InR a d P.mkeep → 0x3e000 ≤ a.toNat := by
      intro a ha
      have := inR_toNat ha (by omega)
      omega
    refine ⟨by rw [C.argF, hd], fun a ha => ?_, fun a ha hh => ?_⟩
    · rw [C.argF] at ha
      have h3 := hin a ha
      exact C.mem _ _ _ _ _ _ fun hh => by
        have := inR_toNat hh (by rw [tn _ (by decide)]; omega)
        rw [tn _ (by decide)] at this
        omega
    · rw [C.argF] at ha
      rw [C.fctx] at hh
      have h3 := hin a ha
      have q := tns 0x18000 C.fr (by decide) (by omega)
      have hf := X.frame
      have := inR_toNat hh (by omega)
      omega

open Many
example (cfg : X86_64.Cfg) : Met (X86_64.extra cfg) := .of (c_x86_64 cfg) fun _ _ => trivial
example (cfg : X86_64Macho.Cfg) : Met (X86_64Macho.extra cfg) := .of (c_x86_64_macho cfg) fun _ _ => trivial
example (cfg : X86_64Pe.Cfg) : Met (X86_64Pe.extra cfg) := .of (c_x86_64_pe cfg) fun _ _ => trivial
example (cfg : I386.Cfg) : Met (I386.extra cfg) := .of (c_i386 cfg) fun _ _ => trivial
example (cfg : I386Macho.Cfg) : Met (I386Macho.extra cfg) := .of (c_i386_macho cfg) fun _ _ => trivial
example : Met Arm64.extra := .of (c_arm64) fun _ _ => trivial
example : Met Arm64Macho.extra := .of (c_arm64_macho) fun _ _ => trivial
example : Met Arm64Pe.extra := .of (c_arm64_pe) fun _ _ => trivial
example (vfp : Bool) : Met (Arm32.extra vfp) := .of (c_arm32 vfp) fun _ _ => trivial
example (vfp : Bool) : Met (ArmMacho.extra vfp) := .of (c_arm_macho vfp) fun _ _ => trivial
example : Met ArmPe.extra := .of (c_arm_pe) fun _ _ => trivial
example (hf : Bool) : Met (Mips32.extra hf) := .of (c_mips32 hf) fun _ _ => trivial
example (hf : Bool) : Met (Mips64.extra hf) := .of (c_mips64 hf) fun _ _ => trivial
example : Met RiscV64.extra := .of (c_riscv64) fun _ _ => trivial
example : Met LoongArch64.extra := .of (c_loongarch64) fun _ _ => trivial
example : Met S390x.extra := .of (c_s390x) fun _ _ => trivial
example : Met Ppc32.extra := .of (c_ppc32) fun _ _ => trivial
example : Met Ppc32b.extra := .of (c_ppc32b) fun _ _ => trivial
example : Met Ppc32Macho.extra := .of (c_ppc32_macho) fun _ _ => trivial
example : Met Ppc32Xcoff.extra := .of (c_ppc32_xcoff) fun _ _ => trivial
example : Met Ppc64.extra := .of (c_ppc64) fun _ _ => trivial
example (x : Bool) : Met (Ppc64v1.extra x) := .of (c_ppc64v1 x) fun _ _ => trivial

theorem win_ctx : (((0x3f0c0#_ : I386Pe.A.W) + -off I386Pe.A 8) &&& mask I386Pe.A 4) - off I386Pe.A 0x40 = 0x3f070#_ := by decide

example (cfg : I386Pe.Cfg) (N : Nat) (hN : 1 ≤ N) : Met (I386Pe.extra cfg N) := .of (c_i386_pe cfg N hN) fun e x => by
  obtain ⟨σ, hσ⟩ : ∃ σ, σ = winCall (fun _ => 0#_) 0x18000#_ 0x3f0c0#_ x := ⟨_, rfl⟩
  show (I386Pe.extra cfg N).mok e (winCall (fun _ => 0#_) 0x18000#_ 0x3f0c0#_ x)
  rw [← hσ]
  have hres : (I386Pe.port cfg N).resM (exec e (I386Pe.port cfg N).make σ).1 = I386Pe.ctxOf σ := I386Pe.make_res cfg N e σ
  have h1 : I386Pe.arg σ 4 = 0x3f0c0#_ := by rw [hσ]; exact winCall_to _ _ _ _
  have h2 : σ.gpr I386Pe.esp = 0x18000#_ := by rw [hσ]; rfl
  have h3 : I386Pe.seh σ = 0x18030#_ := by rw [hσ]; rfl
  have h4 : load σ.mem 0x18030#_ 4 = -1#_ := by rw [hσ]; exact winCall_rec 0x18000#_ _ _ _
  have hc : I386Pe.ctxOf σ = 0x3f070#_ := by rw [I386Pe.ctxOf, h1]; exact win_ctx
  have hz : ((0x3f0c0#_ : I386Pe.A.W) - 0x3f070#_).toNat = 0x50 := by decide
  refine ⟨[0x18030#_], hN, ?_⟩
  rw [hres, hc]
  refine ⟨?_, ?_, ?_⟩
  · rw [h3]; exact .last _ h4
  · rw [h1, h2, hz]
    exact fun a ha hb => inR_apart (by decide) (by decide) hb ha
  · intro r hr
    rw [List.mem_singleton.1 hr, h1, hz]
    exact fun a ha hb => inR_apart (by decide) (by decide) hb ha

end Verif.Link.Stack
