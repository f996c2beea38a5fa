import Verif.Asm.ArmMachoCode
import Verif.Asm.SlotPort

/-! # ARM Mach-O: the switching routines meet their specification (C60) -/

namespace Verif.Asm.ArmMacho

/-- registers and frame layout -/
def K (vfp : Bool) : SlotCfg A where
  sp := sp
  h := a 1
  to := a 2
  d := a 3
  fn := a 4
  ra := lr
  fr := 0x70
  N := 0x70
  oH := 0x44
  oPC := 0x6c
  LG := [(v 1, 0x48), (v 2, 0x4c), (v 3, 0x50), (v 4, 0x54), (v 5, 0x58), (v 6, 0x5c), (v 7, 0x60), (v 8, 0x64), (lr, 0x68)]
  LF := if vfp then [(d 8, 0), (d 9, 8), (d 10, 0x10), (d 11, 0x18), (d 12, 0x20), (d 13, 0x28), (d 14, 0x30), (d 15, 0x38), (sjlj, 0x40)] else [(sjlj, 0x40)]
  wd f := match f with | .sjlj => true | _ => false
  nz := false

/-- AAPCS: the address of the result object in a1 (r0), arguments in a2, a3, a4 (a1, a2, a3 if the function returns a word or nothing); return address in lr;
callee-saved v1-v8 (r4-r11), sp and d8-d15 if there is a VFP unit; the thread's SjLj handler (`sjlj`) belongs to the context; sp is a multiple of 4
(the iOS ABI for ARMv6/ARMv7; AAPCS would demand 8, see `C60_arm_macho_not_aapcs`).
`ok`: see `SlotCfg.Ok` (frames and result objects do not overlap). -/
def port (vfp : Bool) : Port A where
  jump := jump vfp
  ontop := ontop vfp
  make := make vfp
  tramp := none
  finish := Lab.finish
  sp := sp
  saved := [v 1, v 2, v 3, v 4, v 5, v 6, v 7, v 8]
  fsaved := if vfp then [d 8, d 9, d 10, d 11, d 12, d 13, d 14, d 15, sjlj] else [sjlj]
  ra s := s.gpr lr
  spRet s := s.gpr sp
  argF s := s.gpr (a 2)
  argD s := s.gpr (a 3)
  argFn s := s.gpr (a 4)
  slot s x := InR x (s.gpr (a 1)) 8
  resF σ τ := load τ.mem (σ.gpr (a 1)) A.k
  resD σ τ := load τ.mem (σ.gpr (a 1) + off A 4) A.k
  inF s := s.gpr (a 1)
  inD s := s.gpr (a 2)
  oinF s := s.gpr (a 2)
  oinD s := s.gpr (a 3)
  fctx s := s.gpr sp - off A 0x70
  frame := 0x70
  keep := 0x70
  tslot s x := InR x (load s.mem (s.gpr (a 2) + off A 0x44) A.k) 8
  oarea _ _ := False
  ok := (K vfp).Ok
  argTop s := s.gpr (a 1)
  argMFn s := s.gpr (a 3)
  resM s := s.gpr (a 1)
  mspRet s := s.gpr sp
  mscratch := 0
  mkeep := 0x7c
  mslot c x := InR x (c + off A 0x70) 8
  aligned w := w.toNat % 2 ^ 2 = 0

/-! ## Proofs -/

theorem wf (vfp : Bool) : (K vfp).Wf where
  w := by decide
  N := by cases vfp <;> decide
  tw := by cases vfp <;> decide
  oH := by cases vfp <;> decide
  oPC := by cases vfp <;> decide
  LG := by cases vfp <;> decide
  LF := by cases vfp <;> decide
  via _ := rfl
  wd := by cases vfp <;> decide

theorem jump_save (vfp : Bool) : ∃ h, SlotCfg.SaveOk (K vfp) (((K vfp).C false).fin ((jumpIs vfp).take ((jumpIs vfp).length - 3)) h) := by
  cases vfp <;> exact ⟨by decide +kernel, by decide +kernel, by decide +kernel, by decide +kernel, by decide +kernel, by decide +kernel⟩

theorem ontop_save (vfp : Bool) : ∃ h, SlotCfg.SaveOk (K vfp) (((K vfp).C false).fin (ontopIs vfp) h) := by
  cases vfp <;> exact ⟨by decide +kernel, by decide +kernel, by decide +kernel, by decide +kernel, by decide +kernel, by decide +kernel⟩

theorem j1 (vfp : Bool) : (((K vfp).C true).run (jumpIs vfp) SSt.init).isSome = true := by cases vfp <;> decide +kernel
theorem o1 (vfp : Bool) : (((K vfp).C true).run (ontopIs vfp) SSt.init).isSome = true := by cases vfp <;> decide +kernel
theorem j2 (vfp : Bool) : SlotCfg.JumpOk (K vfp) pc (((K vfp).C true).fin (jumpIs vfp) (j1 vfp)) := by
  cases vfp <;> exact ⟨⟨by decide +kernel, by decide +kernel, by decide +kernel, by decide +kernel⟩, by decide +kernel, by decide +kernel, by decide +kernel, by decide +kernel⟩
theorem o2 (vfp : Bool) : SlotCfg.OntopOk (K vfp) (a 4) (((K vfp).C true).fin (ontopIs vfp) (o1 vfp)) := by
  cases vfp <;> exact ⟨⟨by decide +kernel, by decide +kernel, by decide +kernel, by decide +kernel⟩, by decide +kernel, by decide +kernel⟩

def S (vfp : Bool) : SlotPort (port vfp) where
  K := K vfp
  wf := wf vfp
  ji := jumpIs vfp
  oi := ontopIs vfp
  jr := pc
  or := a 4
  jrun _ _ _ _ := rfl
  orun _ _ := rfl
  left := SlotCfg.left_of (wf vfp) rfl rfl ((jumpIs vfp).length - 3) (ontopIs vfp).length (by cases vfp <;> rfl) (by simp) rfl
    (jump_save vfp) (by simpa using ontop_save vfp)
  j1 := j1 vfp
  o1 := o1 vfp
  j2 := j2 vfp
  o2 := o2 vfp
  conv := ⟨rfl, rfl, rfl, rfl, rfl, rfl, rfl, rfl, rfl, rfl, rfl, rfl⟩
  res := ⟨rfl, rfl⟩
  sav := by cases vfp <;> decide
  also _ _ _ _ _ _ := trivial
  oin e τ s hr := by
    have h1 : (((K vfp).C true).fin (ontopIs vfp) (o1 vfp)).gpr (a 2) = ⟨.reg (K vfp).sp, -off A (K vfp).fr⟩ := by cases vfp <;> decide +kernel
    have h2 : (((K vfp).C true).fin (ontopIs vfp) (o1 vfp)).gpr (a 3) = ⟨.reg (a 3), 0#_⟩ := by cases vfp <;> decide +kernel
    exact ⟨(hr.reg h1).trans (SlotCfg.sv_own e τ), (hr.reg h2).trans (SlotCfg.sv_reg _ _)⟩

theorem e1 (vfp : Bool) : (((K vfp).CE 0x7c 0x70 (0x70, 0x78)).run (jumpIs vfp) SSt.init).isSome = true := by cases vfp <;> decide +kernel

def M (vfp : Bool) : SlotMake (S vfp).toSlotJump where
  top := a 1
  j := 4
  msz := 0x7c
  hid := 0x70
  mw := (0x70, 0x78)
  oRA := 0x68
  spo := 0x70
  al := 2
  ei := jumpIs vfp
  er := pc
  conv := ⟨rfl, rfl, rfl, rfl, rfl, rfl⟩
  sz := by revert vfp; decide
  make := by
    intro e σ c hc
    have h : ∀ r ∈ (port vfp).saved, r ≠ a 1 ∧ r ≠ a 2 ∧ r ≠ a 3 := by simp only [port]; decide
    have hm : (exec e (port vfp).make σ).1.mem = store (store (store σ.mem (c + off A 0x6c) A.k (σ.gpr (a 3)))
        (c + off A 0x44) A.k (c + off A 0x70)) (c + off A 0x68) A.k (e Lab.finish) := by
      rw [hc, BitVec.sub_eq_add_neg]; rfl
    have hres : (port vfp).resM (exec e (port vfp).make σ).1 = c := by
      rw [hc, BitVec.sub_eq_add_neg]; rfl
    rw [hm]
    refine ⟨rfl, hres, rfl, fun r hr => ?_, fun _ _ => rfl, fun y ha => ?_, ?_, ?_, ?_⟩
    · have := h r hr
      simp_all [exec, steps, step, setg, port, make, makeIs]
    · by_cases h1 : InR y (c + off A 0x68) A.k
      · exact inR_off h1 (by decide) (by decide)
      by_cases h2 : InR y (c + off A 0x44) A.k
      · exact inR_off h2 (by decide) (by decide)
      by_cases h3 : InR y (c + off A 0x6c) A.k
      · exact inR_off h3 (by decide) (by decide)
      rw [store_out h1, store_out h2, store_out h3] at ha
      exact absurd rfl ha
    · show load _ (c + off A 0x6c) A.k = _
      rw [load_store_off (by decide) (by decide) (by decide), load_store_off (by decide) (by decide) (by decide), load_store_same _ _ _ _ (by decide)]
      rfl
    · rw [load_store_same _ _ _ _ (by decide)]
      rfl
    · show load _ (c + off A 0x44) A.k = c + off A 0x70
      rw [load_store_off (by decide) (by decide) (by decide), load_store_same _ _ _ _ (by decide)]
  erun _ _ _ _ := rfl
  e1 := e1 vfp
  pc := by revert vfp; decide +kernel
  sp := by revert vfp; decide +kernel
  ra := by revert vfp; decide +kernel
  w := by revert vfp; decide +kernel
  ein e τ s _ hr := by
    have hr : Rel ((K vfp).CE 0x7c 0x70 (0x70, 0x78)) ((K vfp).I e τ) (((K vfp).CE 0x7c 0x70 (0x70, 0x78)).fin (jumpIs vfp) (e1 vfp)) s := hr
    have h1 : (((K vfp).CE 0x7c 0x70 (0x70, 0x78)).fin (jumpIs vfp) (e1 vfp)).gpr (a 1) = ⟨.reg (K vfp).sp, -off A (K vfp).fr⟩ := by cases vfp <;> decide +kernel
    have h2 : (((K vfp).CE 0x7c 0x70 (0x70, 0x78)).fin (jumpIs vfp) (e1 vfp)).gpr (a 2) = ⟨.reg (a 3), 0#_⟩ := by cases vfp <;> decide +kernel
    exact ⟨(hr.reg h1).trans (SlotCfg.sv_own e τ), (hr.reg h2).trans (SlotCfg.sv_reg _ _)⟩

/-- **C60**, switching -/
theorem C60_arm_macho_jump (vfp : Bool) : (port vfp).JumpSpec := (S vfp).jumpSpec
/-- **C60**, on-top calls -/
theorem C60_arm_macho_ontop (vfp : Bool) : (port vfp).OntopSpec := (S vfp).ontopSpec rfl
/-- **C60**, new contexts -/
theorem C60_arm_macho_make (vfp : Bool) : (port vfp).MakeSpec := (M vfp).makeSpec

theorem entry_sjlj (vfp : Bool) : (((S vfp).K.CE (M vfp).msz (M vfp).hid (M vfp).mw).fin (M vfp).ei (M vfp).e1).fpr sjlj = .ofG ⟨.ld 1 0x40, 0#_⟩ := by
  cases vfp <;> decide +kernel

/-- what a first activation finds -/
theorem first (vfp : Bool) {e : Env A} {σ τ : St A} (ha : (port vfp).argF τ = (port vfp).resM (exec e (port vfp).make σ).1)
    (hmem : ∀ x, InR x ((port vfp).argF τ) 0x7c → τ.mem x = (exec e (port vfp).make σ).1.mem x)
    (hd : ∀ x, InR x ((port vfp).argF τ) 0x7c → ¬ InR x ((port vfp).fctx τ) 0x70) :
    ((port vfp).enter e τ).1.gpr sp = τ.gpr (a 2) + off A 0x70 ∧
    ((port vfp).enter e τ).1.fpr sjlj = load τ.mem (τ.gpr (a 2) + off A 0x40) A.k ∧ τ.gpr (a 2) = (σ.gpr (a 1) &&& mask A 4) - off A 0x7c := by
  obtain ⟨s, h1, h2, h3⟩ := (M vfp).entry (σ := σ) ha hmem hd
  rw [h1]
  refine ⟨(h2.reg (M vfp).sp), ?_, h3⟩
  have h4 := h2.fpr sjlj
  rw [entry_sjlj vfp] at h4
  refine h4.trans ?_
  show BitVec.setWidth 32 (((K vfp).I e τ).sv ⟨.ld 1 0x40, 0#_⟩) = _
  rw [SlotCfg.sv_ld]
  exact SlotCfg.load_width (A := A) (n := 4) (n' := 4) rfl _ _

/-- **C60**: the stack pointer a context function is entered with is 4 modulo 16, not the multiple of 8 AAPCS demands (the ELF port provides it). -/
theorem C60_arm_macho_not_aapcs (vfp : Bool) {e : Env A} {σ τ : St A} (ha : (port vfp).argF τ = (port vfp).resM (exec e (port vfp).make σ).1)
    (hmem : ∀ x, InR x ((port vfp).argF τ) 0x7c → τ.mem x = (exec e (port vfp).make σ).1.mem x)
    (hd : ∀ x, InR x ((port vfp).argF τ) 0x7c → ¬ InR x ((port vfp).fctx τ) 0x70) :
    (((port vfp).enter e τ).1.gpr sp).toNat % 16 = 4 := by
  obtain ⟨h1, -, h3⟩ := first vfp ha hmem hd
  rw [h1, h3]
  have : (σ.gpr (a 1) &&& mask A 4) - off A 0x7c + off A 0x70 = (σ.gpr (a 1) &&& mask A 4) + off A (2 ^ 32 - 12) := by
    rw [BitVec.sub_eq_add_neg, BitVec.add_assoc]
    congr 1
  rw [this, BitVec.toNat_add, and_mask_toNat]
  have h5 : (off A (2 ^ 32 - 12)).toNat = 2 ^ 32 - 12 := by decide
  rw [h5]
  show ((σ.gpr (a 1)).toNat - (σ.gpr (a 1)).toNat % 2 ^ 4 + (2 ^ 32 - 12)) % 2 ^ 32 % 16 = 4
  omega

/-- **C60**, a defect: `make_fcontext` does not initialise the slot of the SjLj handler; the first activation of a context installs whatever word the fresh stack
contained there as the head of the thread's list of exception handlers. -/
theorem C60_arm_macho_sjlj_uninitialised (vfp : Bool) {e : Env A} {σ τ : St A} (ha : (port vfp).argF τ = (port vfp).resM (exec e (port vfp).make σ).1)
    (hmem : ∀ x, InR x ((port vfp).argF τ) 0x7c → τ.mem x = (exec e (port vfp).make σ).1.mem x)
    (hd : ∀ x, InR x ((port vfp).argF τ) 0x7c → ¬ InR x ((port vfp).fctx τ) 0x70) :
    ((port vfp).enter e τ).1.fpr sjlj = load σ.mem ((port vfp).argF τ + off A 0x40) A.k := by
  obtain ⟨-, h2, h3⟩ := first vfp ha hmem hd
  rw [h2]
  show _ = load σ.mem (τ.gpr (a 2) + off A 0x40) A.k
  have hmem : ∀ x, InR x (τ.gpr (a 2)) 0x7c → τ.mem x = (exec e (port vfp).make σ).1.mem x := hmem
  rw [load_agree hmem (o := 0x40) (by decide) (by decide)]
  have hm : (exec e (port vfp).make σ).1.mem = store (store (store σ.mem (τ.gpr (a 2) + off A 0x6c) A.k (σ.gpr (a 3)))
      (τ.gpr (a 2) + off A 0x44) A.k (τ.gpr (a 2) + off A 0x70)) (τ.gpr (a 2) + off A 0x68) A.k (e Lab.finish) := by
    rw [h3, BitVec.sub_eq_add_neg]; rfl
  rw [hm, load_store_off (by decide) (by decide) (by decide), load_store_off (by decide) (by decide) (by decide), load_store_off (by decide) (by decide) (by decide)]

/-- The hypotheses of `C60_arm_macho_jump` and `C60_arm_macho_ontop` can be met. -/
example (e : Env A) (vfp : Bool) : ∃ σ τ m, (port vfp).Left e σ m ∧ (port vfp).Intact σ m τ ∧ (port vfp).argF τ = (port vfp).fctx σ ∧ σ.gpr (v 1) ≠ τ.gpr (v 1) := by
  obtain ⟨σ, τ, m, h1, h2, h3, h4⟩ := (S vfp).inhabited e (.inl rfl) (by revert vfp; decide) (by revert vfp; decide) (by revert vfp; decide) (by revert vfp; decide) (by revert vfp; decide)
  exact ⟨σ, τ, m, h1, h2, h3, h4 _ (by cases vfp <;> decide) (by cases vfp <;> decide) (by cases vfp <;> decide)⟩

/-- The hypotheses of `C60_arm_macho_make` can be met. -/
example (e : Env A) (vfp : Bool) := (M vfp).inhabited e (.inl rfl) (by revert vfp; decide) (by revert vfp; decide) rfl (by revert vfp; decide) (by revert vfp; decide) (by revert vfp; decide) (by revert vfp; decide)

end Verif.Asm.ArmMacho
