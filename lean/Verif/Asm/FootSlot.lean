import Verif.Asm.FootSym
import Verif.Asm.MicroSpec
import Verif.Asm.ManyPorts
import Verif.Asm.ManyMacho
import Verif.Asm.ManyMore
import Verif.Asm.ManyWin

/-! # What the routines access, and switches instruction by instruction: ports that return `transfer_t` through a result object (C81, C82) -/

namespace Verif.Asm

section
variable {A : Arch} {P : Port A}

theorem SlotPort.fp (S : SlotPort P) (M : SlotMake S.toSlotJump) (X : Extra P) (D : Reads A) {jr or : A.R} (hj : P.jump = .jmp S.ji jr) (ho : P.ontop = .jmp S.oi or)
    (he : M.ei = S.ji) (hms : P.mscratch = 0) (mf : P.MakeFoot M.top M.j M.msz) : Footprint X D :=
  S.footprint X D (fun _ _ _ _ _ _ h => by rw [hj] at h; exact h) S.oi (fun _ => ⟨S.o1, S.o2.w⟩) (fun _ _ _ _ _ _ h => .inl (by rw [ho] at h; exact h))
    (M.fresh X fun _ _ _ _ _ _ h => by rw [he]; rw [hj] at h; exact h) hms M.sz.1 mf M.conv.1 (fun e σ => (M.make e σ _ rfl).2.1)

end

namespace Arm32
theorem sane : A.Sane := ⟨by decide, fun f => by cases f <;> exact Nat.le_trans (show _ ≤ 8 by first | exact Nat.le_refl _ | decide) (show 8 ≤ _ by decide)⟩
theorem mf (vfp : Bool) : (port vfp).MakeFoot (M vfp).top (M vfp).j (M vfp).msz := .of (mi := makeIs vfp) (mr := lr) rfl (by revert vfp; decide) sane.1 (by revert vfp; decide +kernel)
theorem C81_arm (vfp : Bool) : Footprint (extra vfp) {} := (S vfp).fp (M vfp) _ _ rfl rfl rfl rfl (mf vfp)
theorem loc (vfp : Bool) : Local (extra vfp) {} := (M vfp).loc _ _ sane (fun h hn hz => h ▸ hn hz) (fun _ h => h) (fun _ _ => ⟨Iff.rfl, Iff.rfl⟩) (fun _ _ h => h)
  (fun h => by simp only [port, h]; exact ⟨trivial, trivial⟩) (fun _ h => h)
theorem C82_arm (vfp : Bool) : Micro.Spec (extra vfp) {} fun _ τ => (port vfp).argFn τ :=
  Micro.C82_of_footprints (C35_arm_jump vfp) (fun _ => C35_arm_ontop vfp) (fun e σ _ => C35_arm_make vfp e σ) (C81_arm vfp) (loc vfp)
end Arm32

namespace ArmMacho
theorem sane : A.Sane := ⟨by decide, fun f => by cases f <;> exact Nat.le_trans (show _ ≤ 8 by first | exact Nat.le_refl _ | decide) (show 8 ≤ _ by decide)⟩
theorem mf (vfp : Bool) : (port vfp).MakeFoot (M vfp).top (M vfp).j (M vfp).msz := .of (mi := makeIs vfp) (mr := lr) rfl (by revert vfp; decide) sane.1 (by revert vfp; decide +kernel)
theorem C81_arm_macho (vfp : Bool) : Footprint (extra vfp) {} := (S vfp).fp (M vfp) _ _ rfl rfl rfl rfl (mf vfp)
theorem loc (vfp : Bool) : Local (extra vfp) {} := (M vfp).loc _ _ sane (fun h hn hz => h ▸ hn hz) (fun _ h => h) (fun _ _ => ⟨Iff.rfl, Iff.rfl⟩) (fun _ _ h => h)
  (fun h => by simp only [port, h]; exact ⟨trivial, trivial⟩) (fun _ h => h)
theorem C82_arm_macho (vfp : Bool) : Micro.Spec (extra vfp) {} fun _ τ => (port vfp).argFn τ :=
  Micro.C82_of_footprints (C60_arm_macho_jump vfp) (fun _ => C60_arm_macho_ontop vfp) (fun e σ _ => C60_arm_macho_make vfp e σ) (C81_arm_macho vfp) (loc vfp)
end ArmMacho

namespace Mips32
theorem sane : A.Sane := ⟨by decide, fun f => by cases f <;> exact Nat.le_trans (show _ ≤ 8 by first | exact Nat.le_refl _ | decide) (show 8 ≤ _ by decide)⟩
theorem mf (hf : Bool) : (port hf).MakeFoot (M hf).top (M hf).j (M hf).msz := by
  intro e σ _ y
  obtain ⟨c, hc⟩ : ∃ c, c = (σ.gpr (M hf).top &&& mask A (M hf).j) - off A (M hf).msz := ⟨_, rfl⟩
  rw [← hc]
  have e1 : (mask A 4 &&& σ.gpr (a 0)) + -off A 0x80 = c := by
    rw [hc, BitVec.sub_eq_add_neg, BitVec.and_comm]; rfl
  refine ⟨fun h => ?_, fun h => ?_⟩
  · have h : False ∨ False ∨ False ∨ False ∨ False ∨ False ∨ False ∨ False ∨ False ∨ False := h
    simp at h
  · have h : False ∨ False ∨ False ∨ InR y ((mask A 4 &&& σ.gpr (a 0)) + -off A 0x80 + off A 0x5c) A.k ∨ InR y ((mask A 4 &&& σ.gpr (a 0)) + -off A 0x80 + off A 0x70) A.k ∨ False ∨
      InR y ((mask A 4 &&& σ.gpr (a 0)) + -off A 0x80 + off A 0x54) A.k ∨ False ∨ InR y ((mask A 4 &&& σ.gpr (a 0)) + -off A 0x80 + off A 0x58) A.k ∨ False := h
    rw [e1] at h
    simp only [false_or, or_false] at h
    rcases h with h | h | h | h
    all_goals exact inR_off h (by show _ ≤ 0x80; decide) (by show 0x80 ≤ _; decide)
theorem C81_mips32 (hf : Bool) : Footprint (extra hf) {} := (S hf).fp (M hf) _ _ rfl rfl rfl rfl (mf hf)
theorem loc (hf : Bool) : Local (extra hf) {} := (M hf).loc _ _ sane (fun h hn hz => h ▸ hn hz) (fun _ h => h) (fun _ _ => ⟨Iff.rfl, Iff.rfl⟩)
  (fun h h' ha => by simp only [port] at ha ⊢; rw [← h, ← h']; exact ha) (fun h => by simp only [port, h]; exact ⟨trivial, trivial⟩) (fun _ h => h)
theorem C82_mips32 (hf : Bool) : Micro.Spec (extra hf) {} fun _ τ => (port hf).argFn τ :=
  Micro.C82_of_footprints (C36_mips32_jump hf) (fun _ => C36_mips32_ontop hf) (fun e σ _ => C36_mips32_make hf e σ) (C81_mips32 hf) (loc hf)
end Mips32

namespace Ppc32
theorem sane : A.Sane := ⟨by decide, fun f => by cases f <;> exact Nat.le_trans (show _ ≤ 8 by first | exact Nat.le_refl _ | decide) (show 8 ≤ _ by decide)⟩
theorem mf : port.MakeFoot M.top M.j M.msz := .of (mi := makeIs) (mr := lr) rfl (by decide) sane.1 (by decide +kernel)
theorem C81_ppc32 : Footprint extra {} := S.fp M _ _ rfl rfl rfl rfl mf
theorem loc : Local extra {} := M.loc _ _ sane (fun h hn hz => h ▸ hn hz) (fun _ h => h) (fun _ _ => ⟨Iff.rfl, Iff.rfl⟩) (fun _ _ h => h)
  (fun h => by simp only [port, h]; exact ⟨trivial, trivial⟩) (fun _ h => h)
theorem C82_ppc32 : Micro.Spec extra {} fun e _ => e Lab.tail := Micro.C82_of_footprints C38_ppc32_jump (fun _ => C38_ppc32_ontop) (fun e σ _ => C38_ppc32_make e σ) C81_ppc32 loc
end Ppc32

namespace S390x
theorem sane : A.Sane := ⟨by decide, fun f => by cases f <;> exact Nat.le_trans (show _ ≤ 8 by first | exact Nat.le_refl _ | decide) (show 8 ≤ _ by decide)⟩
theorem mf : port.MakeFoot M.top M.j M.msz := .of (mi := makeIs) (mr := r 14) rfl (by decide) sane.1 (by decide +kernel)
theorem accs_nz (x : Acc) (e : Env A) (τ : St A) (a : A.W) (h3 : (steps e jumpPre τ).gpr (r 2) ≠ 0#_) (h : port.jump.accs x e τ a) : accs x e (jumpPre ++ jumpTail) τ a := by
  have h : jump.accs x e τ a := h
  unfold jump at h
  simp only [Code.accs, h3, if_false] at h
  rw [accs_append]; exact h
theorem accs_z (x : Acc) (e : Env A) (τ : St A) (a : A.W) (h3 : (steps e jumpPre τ).gpr (r 2) = 0#_) (h : port.jump.accs x e τ a) : accs x e (jumpPre ++ (jumpZ ++ jumpTail)) τ a := by
  have h : jump.accs x e τ a := h
  unfold jump at h
  simp only [Code.accs, h3, if_true] at h
  rw [accs_append]; exact h
theorem C81_s390x : Footprint extra {} :=
  S.footprint extra {} (fun x e τ a hI hnz h => by
      obtain ⟨h1, h2⟩ := pre_r2 true
      have hr := fin_rel hI jumpPre h1
      refine accs_nz x e τ a ?_ h
      have := hr.reg h2
      rw [SlotCfg.sv_ld] at this
      intro hz
      exact hnz rfl (this.symm.trans hz))
    S.oi (fun _ => ⟨S.o1, S.o2.w⟩) (fun _ _ _ _ _ _ h => .inl h)
    (M.fresh extra fun x e τ a hI hz h => by
      obtain ⟨h1, h2⟩ := pre_r2'
      have hr := fin_rel hI jumpPre h1
      refine accs_z x e τ a ?_ h
      have := hr.reg h2
      rw [SlotCfg.sv_ld] at this
      exact this.trans (hz rfl))
    rfl M.sz.1 mf M.conv.1 (fun e σ => (M.make e σ _ rfl).2.1)
theorem loc : Local extra {} := M.loc _ _ sane (fun h hn hz => h ▸ hn hz) (fun _ h => h) (fun _ _ => ⟨Iff.rfl, Iff.rfl⟩) (fun _ _ h => h)
  (fun h => by simp only [port, h]; exact ⟨trivial, trivial⟩) (fun _ h => h)
theorem C82_s390x : Micro.Spec extra {} fun _ τ => port.argFn τ := Micro.C82_of_footprints C37_s390x_jump (fun _ => C37_s390x_ontop) (fun e σ _ => C37_s390x_make e σ) C81_s390x loc
end S390x

namespace Ppc32Macho
theorem sane : A.Sane := ⟨by decide, fun f => by cases f <;> exact Nat.le_trans (show _ ≤ 8 by first | exact Nat.le_refl _ | decide) (show 8 ≤ _ by decide)⟩
theorem mf : (prt 2).MakeFoot M.top M.j M.msz := .of (mi := makeIs) (mr := lr) rfl (by decide) sane.1 (by decide +kernel)
theorem C81_ppc32_macho : Footprint extra {} :=
  (S 2).footprint extra {} (fun _ _ _ _ _ _ h => h) (S 2).oi (fun _ => ⟨(S 2).o1, (S 2).o2.w⟩) (fun _ _ _ _ _ _ h => .inl h)
    (M.fresh extra fun x e τ a _ _ h => by
      have h : accs x e jumpIs τ a ∨ accs x e trampIs (steps e jumpIs τ) a ∨ False := h
      show accs x e (jumpIs ++ trampIs) τ a
      rw [accs_append]; exact h.imp id fun h => h.resolve_right id)
    rfl M.sz.1 mf M.conv.1 (fun e σ => (M.make e σ _ rfl).2.1)
theorem loc : Local extra {} := M.loc _ _ sane (fun _ h => h) (fun _ h => h) (fun _ _ => ⟨Iff.rfl, Iff.rfl⟩) (fun _ _ h => h)
  (fun h => by simp only [prt, h]; exact ⟨trivial, trivial⟩) (fun _ h => h)
theorem C82_ppc32_macho : Micro.Spec extra {} fun e _ => e Lab.tail :=
  Micro.C82_of_footprints (S 2).jumpSpec (fun _ e σ τ m h1 h2 h3 => by
    obtain ⟨t1, t2⟩ := (S 2).ontopSpecTo e σ τ m h1 h2 h3
    exact ⟨t1.trans (BitVec.add_zero _), t2⟩) (fun e σ _ => C78_ppc32_macho_make e σ) C81_ppc32_macho loc
end Ppc32Macho

namespace ArmPe
theorem sane : A.Sane := ⟨by decide, fun f => by cases f <;> exact Nat.le_trans (show _ ≤ 8 by first | exact Nat.le_refl _ | decide) (show 8 ≤ _ by decide)⟩
theorem mf : port.MakeFoot M.top M.j M.msz := .of (mi := makeIs) (mr := lr) rfl (by decide) sane.1 (by decide +kernel)
theorem C81_arm_pe : Footprint extra {} :=
  S.footprint extra {} (fun _ _ _ _ _ _ h => h) [] (fun h => h.elim) (fun h => h.elim) (M.fresh extra fun _ _ _ _ _ _ h => h)
    rfl M.sz.1 mf M.conv.1 (fun e σ => (M.make e σ _ rfl).2.1)
theorem loc : Local extra {} := M.loc _ _ sane (fun h hn hz => h ▸ hn hz) (fun _ h => h) (fun _ _ => ⟨Iff.rfl, Iff.rfl⟩) (fun _ _ h => h)
  (fun h => by simp only [port, h]; exact ⟨trivial, trivial⟩) (fun _ h => h)
theorem C82_arm_pe : Micro.Spec extra {} fun _ τ => port.argFn τ := Micro.C82_of_footprints C64_arm_pe_jump (fun h => h.elim) (fun e σ _ => C64_arm_pe_make e σ) C81_arm_pe loc
end ArmPe

end Verif.Asm
