import Verif.Asm.Mips32Code
import Verif.Asm.SlotPort

/-! # MIPS32 o32: the switching routines meet their specification (C36) -/

namespace Verif.Asm.Mips32

/-- registers and frame layout -/
def K (hf : Bool) : SlotCfg A where
  sp := sp
  h := a 0
  to := a 1
  d := a 2
  fn := a 3
  ra := ra
  fr := 0x60
  N := 0x60
  oH := 0x54
  oPC := 0x5c
  LG := [(s 0, 0x30), (s 1, 0x34), (s 2, 0x38), (s 3, 0x3c), (s 4, 0x40), (s 5, 0x44), (s 6, 0x48), (s 7, 0x4c), (fp, 0x50), (ra, 0x58)]
  LF := if hf then [(f 20, 0), (f 22, 8), (f 24, 0x10), (f 26, 0x18), (f 28, 0x20), (f 30, 0x28)] else []
  nz := false

/-- o32: the address of the result object in a0, arguments in a1, a2, a3 (a0, a1, a2 if the function returns a word or nothing); the address of the result object is
returned in v0; return address in ra; callee-saved s0-s7, fp (s8), sp and the even registers f20-f30 on hard-float targets; sp is a multiple of 8; the caller provides
16 bytes above sp for the callee (a new context gets them from `make_fcontext`).
`ok`: see `SlotCfg.Ok` (frames and result objects do not overlap). -/
def port (hf : Bool) : Port A where
  jump := jump hf
  ontop := ontop hf
  make := make hf
  tramp := none
  finish := Lab.finish
  sp := sp
  saved := [s 0, s 1, s 2, s 3, s 4, s 5, s 6, s 7, fp]
  fsaved := if hf then [f 20, f 22, f 24, f 26, f 28, f 30] else []
  ra s := s.gpr ra
  spRet s := s.gpr sp
  argF s := s.gpr (a 1)
  argD s := s.gpr (a 2)
  argFn s := s.gpr (a 3)
  slot s x := InR x (s.gpr (a 0)) 8
  resF σ τ := load τ.mem (σ.gpr (a 0)) A.k
  resD σ τ := load τ.mem (σ.gpr (a 0) + off A 4) A.k
  inF s := s.gpr (a 0)
  inD s := s.gpr (a 1)
  oinF s := s.gpr (a 1)
  oinD s := s.gpr (a 2)
  fctx s := s.gpr sp - off A 0x60
  frame := 0x60
  keep := 0x60
  tslot s x := InR x (load s.mem (s.gpr (a 1) + off A 0x54) A.k) 8
  oarea _ _ := False
  ok := (K hf).Ok
  argTop s := s.gpr (a 0)
  argMFn s := s.gpr (a 2)
  resM s := s.gpr (v 0)
  mspRet s := s.gpr sp
  mscratch := 0
  mkeep := 0x80
  mslot c x := InR x (c + off A 0x74) 8
  aligned w := w.toNat % 2 ^ 3 = 0
  also σ τ := τ.gpr (v 0) = σ.gpr (a 0)

/-! ## Proofs -/

theorem wf (hf : Bool) : (K hf).Wf where
  w := by decide
  N := by cases hf <;> decide
  tw := by cases hf <;> decide
  oH := by cases hf <;> decide
  oPC := by cases hf <;> decide
  LG := by cases hf <;> decide
  LF := by cases hf <;> decide
  via _ := rfl

theorem jump_save (hf : Bool) : ∃ h, SlotCfg.SaveOk (K hf) (((K hf).C false).fin (jumpIs hf) h) := by
  cases hf <;> exact ⟨by decide +kernel, by decide +kernel, by decide +kernel, by decide +kernel, by decide +kernel, by decide +kernel⟩

theorem ontop_save (hf : Bool) : ∃ h, SlotCfg.SaveOk (K hf) (((K hf).C false).fin (ontopIs hf) h) := by
  cases hf <;> exact ⟨by decide +kernel, by decide +kernel, by decide +kernel, by decide +kernel, by decide +kernel, by decide +kernel⟩

theorem j1 (hf : Bool) : (((K hf).C true).run (jumpIs hf) SSt.init).isSome = true := by cases hf <;> decide +kernel
theorem o1 (hf : Bool) : (((K hf).C true).run (ontopIs hf) SSt.init).isSome = true := by cases hf <;> decide +kernel
theorem j2 (hf : Bool) : SlotCfg.JumpOk (K hf) (t 9) (((K hf).C true).fin (jumpIs hf) (j1 hf)) := by
  cases hf <;> exact ⟨⟨by decide +kernel, by decide +kernel, by decide +kernel, by decide +kernel⟩, by decide +kernel, by decide +kernel, by decide +kernel, by decide +kernel⟩
theorem o2 (hf : Bool) : SlotCfg.OntopOk (K hf) (t 9) (((K hf).C true).fin (ontopIs hf) (o1 hf)) := by
  cases hf <;> exact ⟨⟨by decide +kernel, by decide +kernel, by decide +kernel, by decide +kernel⟩, by decide +kernel, by decide +kernel⟩

def S (hf : Bool) : SlotPort (port hf) where
  K := K hf
  wf := wf hf
  ji := jumpIs hf
  oi := ontopIs hf
  jr := t 9
  or := t 9
  jrun _ _ _ _ := rfl
  orun _ _ := rfl
  left := SlotCfg.left_of (wf hf) rfl rfl (jumpIs hf).length (ontopIs hf).length (by simp) (by simp) rfl
    (by simpa using jump_save hf) (by simpa using ontop_save hf)
  j1 := j1 hf
  o1 := o1 hf
  j2 := j2 hf
  o2 := o2 hf
  conv := ⟨rfl, rfl, rfl, rfl, rfl, rfl, rfl, rfl, rfl, rfl, rfl, rfl⟩
  res := ⟨rfl, rfl⟩
  sav := by cases hf <;> decide
  also e σ τ s hr hh := by
    have h1 : (((K hf).C true).fin (jumpIs hf) (j1 hf)).gpr (v 0) = ⟨.ld 1 0x54, 0#_⟩ := by cases hf <;> decide +kernel
    show s.gpr (v 0) = σ.gpr (a 0)
    rw [hr.reg h1, SlotCfg.sv_ld]; exact hh
  oin e τ s hr := by
    have h1 : (((K hf).C true).fin (ontopIs hf) (o1 hf)).gpr (a 1) = ⟨.reg (K hf).sp, -off A (K hf).fr⟩ := by cases hf <;> decide +kernel
    have h2 : (((K hf).C true).fin (ontopIs hf) (o1 hf)).gpr (a 2) = ⟨.reg (a 2), 0#_⟩ := by cases hf <;> decide +kernel
    exact ⟨(hr.reg h1).trans (SlotCfg.sv_own e τ), (hr.reg h2).trans (SlotCfg.sv_reg _ _)⟩

theorem e1 (hf : Bool) : (((K hf).CE 0x80 0x74 (0x74, 0x7c)).run (jumpIs hf) SSt.init).isSome = true := by cases hf <;> decide +kernel

def M (hf : Bool) : SlotMake (S hf).toSlotJump where
  top := a 0
  j := 4
  msz := 0x80
  hid := 0x74
  mw := (0x74, 0x7c)
  oRA := 0x58
  spo := 0x60
  al := 3
  ei := jumpIs hf
  er := t 9
  conv := ⟨rfl, rfl, rfl, rfl, rfl, rfl⟩
  sz := by revert hf; decide
  make := by
    intro e σ c hc
    have h : ∀ r ∈ (port hf).saved, r ≠ v 0 ∧ r ≠ v 1 ∧ r ≠ t 9 ∧ r ≠ t 0 := by simp only [port]; decide
    have hand : σ.gpr (a 0) &&& mask A 4 = mask A 4 &&& σ.gpr (a 0) := BitVec.and_comm _ _
    have hm : (exec e (port hf).make σ).1.mem = store (store (store (store σ.mem (c + off A 0x5c) A.k (σ.gpr (a 2)))
        (c + off A 0x70) A.k (σ.gpr gp)) (c + off A 0x54) A.k (c + off A 0x74)) (c + off A 0x58) A.k (e Lab.finish) := by
      rw [hc, BitVec.sub_eq_add_neg, hand]; rfl
    have hres : (port hf).resM (exec e (port hf).make σ).1 = c := by
      rw [hc, BitVec.sub_eq_add_neg, hand]; rfl
    rw [hm]
    refine ⟨rfl, hres, rfl, fun r hr => ?_, fun _ _ => rfl, fun y ha => ?_, ?_, ?_, ?_⟩
    · have := h r hr
      simp_all [exec, steps, step, setg, port, make, makeIs]
    · by_cases h1 : InR y (c + off A 0x58) A.k
      · exact inR_off h1 (by decide) (by decide)
      by_cases h2 : InR y (c + off A 0x54) A.k
      · exact inR_off h2 (by decide) (by decide)
      by_cases h3 : InR y (c + off A 0x70) A.k
      · exact inR_off h3 (by decide) (by decide)
      by_cases h4 : InR y (c + off A 0x5c) A.k
      · exact inR_off h4 (by decide) (by decide)
      rw [store_out h1, store_out h2, store_out h3, store_out h4] at ha
      exact absurd rfl ha
    · show load _ (c + off A 0x5c) A.k = _
      rw [load_store_off (by decide) (by decide) (by decide), load_store_off (by decide) (by decide) (by decide), load_store_off (by decide) (by decide) (by decide),
        load_store_same _ _ _ _ (by decide)]
      rfl
    · rw [load_store_same _ _ _ _ (by decide)]
      rfl
    · show load _ (c + off A 0x54) A.k = c + off A 0x74
      rw [load_store_off (by decide) (by decide) (by decide), load_store_same _ _ _ _ (by decide)]
  erun _ _ _ _ := rfl
  e1 := e1 hf
  pc := by revert hf; decide +kernel
  sp := by revert hf; decide +kernel
  ra := by revert hf; decide +kernel
  w := by revert hf; decide +kernel
  ein e τ s _ hr := by
    have hr : Rel ((K hf).CE 0x80 0x74 (0x74, 0x7c)) ((K hf).I e τ) (((K hf).CE 0x80 0x74 (0x74, 0x7c)).fin (jumpIs hf) (e1 hf)) s := hr
    have h1 : (((K hf).CE 0x80 0x74 (0x74, 0x7c)).fin (jumpIs hf) (e1 hf)).gpr (a 0) = ⟨.reg (K hf).sp, -off A (K hf).fr⟩ := by cases hf <;> decide +kernel
    have h2 : (((K hf).CE 0x80 0x74 (0x74, 0x7c)).fin (jumpIs hf) (e1 hf)).gpr (a 1) = ⟨.reg (a 2), 0#_⟩ := by cases hf <;> decide +kernel
    exact ⟨(hr.reg h1).trans (SlotCfg.sv_own e τ), (hr.reg h2).trans (SlotCfg.sv_reg _ _)⟩

/-- **C36**, switching -/
theorem C36_mips32_jump (hf : Bool) : (port hf).JumpSpec := (S hf).jumpSpec
/-- **C36**, on-top calls -/
theorem C36_mips32_ontop (hf : Bool) : (port hf).OntopSpec := (S hf).ontopSpec rfl
/-- **C36**, new contexts -/
theorem C36_mips32_make (hf : Bool) : (port hf).MakeSpec := (M hf).makeSpec

/-- The hypotheses of `C36_mips32_jump` and `C36_mips32_ontop` can be met. -/
example (e : Env A) (hf : Bool) : ∃ σ τ m, (port hf).Left e σ m ∧ (port hf).Intact σ m τ ∧ (port hf).argF τ = (port hf).fctx σ ∧ σ.gpr (s 0) ≠ τ.gpr (s 0) := by
  obtain ⟨σ, τ, m, h1, h2, h3, h4⟩ := (S hf).inhabited e (.inl rfl) (by revert hf; decide) (by revert hf; decide) (by revert hf; decide) (by revert hf; decide) (by revert hf; decide)
  exact ⟨σ, τ, m, h1, h2, h3, h4 _ (by cases hf <;> decide) (by cases hf <;> decide) (by cases hf <;> decide)⟩

/-- The hypotheses of `C36_mips32_make` can be met. -/
example (e : Env A) (hf : Bool) := (M hf).inhabited e (.inl rfl) (by revert hf; decide) (by revert hf; decide) rfl (by revert hf; decide) (by revert hf; decide) (by revert hf; decide) (by revert hf; decide)

end Verif.Asm.Mips32
