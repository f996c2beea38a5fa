import Verif.Asm.S390xCode
import Verif.Asm.SlotPort

/-! # s390x SysV: the switching routines meet their specification (C37) -/

namespace Verif.Asm.S390x

/-- registers and frame layout -/
def K : SlotCfg A where
  sp := r 15
  h := r 2
  to := r 3
  d := r 4
  fn := r 5
  ra := r 14
  fr := 0xb0
  N := 0xb0
  oH := 0x10
  oPC := 0xa8
  LG := [(r 6, 0x18), (r 7, 0x20), (r 8, 0x28), (r 9, 0x30), (r 10, 0x38), (r 11, 0x40), (r 12, 0x48), (r 13, 0x50), (r 14, 0x58)]
  LF := [(f 8, 0x60), (f 9, 0x68), (f 10, 0x70), (f 11, 0x78), (f 12, 0x80), (f 13, 0x88), (f 14, 0x90), (f 15, 0x98), (fpc, 0xa0)]
  nz := true
  tw := (0xa0, 0xb0)

/-- s390x ELF ABI: the address of the result object in r2, arguments in r3, r4, r5 (r2, r3, r4 if the function returns a word or nothing); a structure of 16 bytes is
passed by reference; return address in r14; callee-saved r6-r13, r15 (stack pointer), f8-f15; additionally the floating point control register; r15 is a multiple of 8.
`ok`: see `SlotCfg.Ok` (frames and result objects do not overlap; the address of the result object is not null). -/
def port : Port A where
  jump := jump
  ontop := ontop
  make := make
  tramp := none
  finish := Lab.finish
  sp := r 15
  saved := [r 6, r 7, r 8, r 9, r 10, r 11, r 12, r 13]
  fsaved := [f 8, f 9, f 10, f 11, f 12, f 13, f 14, f 15, fpc]
  ra s := s.gpr (r 14)
  spRet s := s.gpr (r 15)
  argF s := s.gpr (r 3)
  argD s := s.gpr (r 4)
  argFn s := s.gpr (r 5)
  slot s x := InR x (s.gpr (r 2)) 16
  resF σ τ := load τ.mem (σ.gpr (r 2)) A.k
  resD σ τ := load τ.mem (σ.gpr (r 2) + off A 8) A.k
  inF s := load s.mem (s.gpr (r 2)) A.k
  inD s := load s.mem (s.gpr (r 2) + off A 8) A.k
  oinF s := load s.mem (s.gpr (r 3)) A.k
  oinD s := load s.mem (s.gpr (r 3) + off A 8) A.k
  fctx s := s.gpr (r 15) - off A 0xb0
  frame := 0xb0
  keep := 0xb0
  tslot s x := InR x (load s.mem (s.gpr (r 3) + off A 0x10) A.k) 16
  oarea _ _ := False
  ok := K.Ok
  argTop s := s.gpr (r 2)
  argMFn s := s.gpr (r 4)
  resM s := s.gpr (r 2)
  mspRet s := s.gpr (r 15)
  mscratch := 0
  mkeep := 0xb0
  mslot c x := InR x (c + off A 0xa0) 16
  aligned w := w.toNat % 2 ^ 3 = 0

/-! ## Proofs -/

theorem wf : K.Wf where
  w := by decide
  N := by decide
  tw := by decide
  oH := by decide
  oPC := by decide
  LG := by decide
  LF := by decide
  via _ := rfl

theorem save_nz : ∃ h, SlotCfg.SaveOk K ((K.C false).fin (jumpPre ++ jumpTail) h) :=
  ⟨by decide +kernel, by decide +kernel, by decide +kernel, by decide +kernel, by decide +kernel, by decide +kernel⟩
theorem save_z : ∃ h, SlotCfg.SaveOk K ((K.C false).fin (jumpPre ++ (jumpZ ++ jumpTail)) h) :=
  ⟨by decide +kernel, by decide +kernel, by decide +kernel, by decide +kernel, by decide +kernel, by decide +kernel⟩
theorem ontop_save : ∃ h, SlotCfg.SaveOk K ((K.C false).fin ontopIs h) :=
  ⟨by decide +kernel, by decide +kernel, by decide +kernel, by decide +kernel, by decide +kernel, by decide +kernel⟩

theorem left {e : Env A} {σ : St A} {m : Mem A} (hok : port.ok σ) (hl : port.Left e σ m) : SlotCfg.Frame K σ m (K.own σ) := by
  have hI := SlotCfg.I_ok wf false e σ hok (by simp)
  rcases hl with h | h
  · have : m = (steps e (jumpPre ++ jumpTail) σ).mem ∨ m = (steps e (jumpPre ++ (jumpZ ++ jumpTail)) σ).mem := by
      rw [← h]
      show (exec e jump σ).1.mem = _ ∨ (exec e jump σ).1.mem = _
      unfold jump
      rw [steps_append, steps_append]
      simp only [exec]
      split
      · exact .inr rfl
      · exact .inl rfl
    rcases this with rfl | rfl
    · obtain ⟨h1, h2⟩ := save_nz; exact SlotCfg.frame_of wf (fin_rel hI _ h1) h2
    · obtain ⟨h1, h2⟩ := save_z; exact SlotCfg.frame_of wf (fin_rel hI _ h1) h2
  · obtain ⟨h1, h2⟩ := ontop_save
    rw [← h]; exact SlotCfg.frame_of wf (fin_rel hI _ h1) h2

theorem pre_r2 (b : Bool) : ∃ h, ((K.C b).fin jumpPre h).gpr (r 2) = ⟨.ld 1 0x10, 0#_⟩ := by cases b <;> exact ⟨by decide +kernel, by decide +kernel⟩

theorem j1 : ((K.C true).run (jumpPre ++ jumpTail) SSt.init).isSome = true := by decide +kernel
theorem o1 : ((K.C true).run ontopIs SSt.init).isSome = true := by decide +kernel
theorem j2 : SlotCfg.JumpOk K (r 5) ((K.C true).fin (jumpPre ++ jumpTail) j1) :=
  ⟨⟨by decide +kernel, by decide +kernel, by decide +kernel, by decide +kernel⟩, by decide +kernel, by decide +kernel, by decide +kernel, by decide +kernel⟩
theorem o2 : SlotCfg.OntopOk K (r 5) ((K.C true).fin ontopIs o1) :=
  ⟨⟨by decide +kernel, by decide +kernel, by decide +kernel, by decide +kernel⟩, by decide +kernel, by decide +kernel⟩

def S : SlotPort port where
  K := K
  wf := wf
  ji := jumpPre ++ jumpTail
  oi := ontopIs
  jr := r 5
  or := r 5
  jrun e τ hI hnz := by
    obtain ⟨h1, h2⟩ := pre_r2 true
    have hr := fin_rel hI jumpPre h1
    have h3 : (steps e jumpPre τ).gpr (r 2) ≠ 0#_ := by
      have := hr.reg h2
      rw [SlotCfg.sv_ld] at this
      show (steps (K.I e τ).e jumpPre (K.I e τ).σ).gpr (r 2) ≠ 0#_
      rw [this]; exact hnz rfl
    show exec e jump τ = _
    unfold jump
    simp only [exec, steps_append, h3, if_false]
  orun _ _ := rfl
  left := left
  j1 := j1
  o1 := o1
  j2 := j2
  o2 := o2
  conv := ⟨rfl, rfl, rfl, rfl, rfl, rfl, rfl, rfl, rfl, rfl, rfl, rfl⟩
  res := ⟨rfl, rfl⟩
  sav := by decide
  also _ _ _ _ _ _ := trivial
  oin e τ s hr := by
    have hr : Rel (K.C true) (K.I e τ) ((K.C true).fin ontopIs o1) s := hr
    have h1 : ((K.C true).fin ontopIs o1).gpr (r 3) = ⟨.reg K.sp, -off A K.fr⟩ := by decide +kernel
    have h2 : s.gpr (r 3) = K.own τ := (hr.reg h1).trans (SlotCfg.sv_own e τ)
    have h3 : ((K.C true).fin ontopIs o1).valid 0 = true := by decide +kernel
    have w1 : load s.mem (K.own τ + off A 0) A.k = _ := hr.word (i := 0) (o := 0) (v := ⟨.reg K.sp, -off A K.fr⟩) h3 (by decide) (by decide +kernel)
    have w2 : load s.mem (K.own τ + off A 8) A.k = _ := hr.word (i := 0) (o := 8) (v := ⟨.reg (r 4), 0#_⟩) h3 (by decide) (by decide +kernel)
    rw [show K.own τ + off A 0 = K.own τ from BitVec.add_zero _] at w1
    constructor
    · show load s.mem (s.gpr (r 3)) A.k = _
      rw [h2, w1]; exact SlotCfg.sv_own e τ
    · show load s.mem (s.gpr (r 3) + off A 8) A.k = _
      rw [h2, w2]; exact SlotCfg.sv_reg _ _

theorem e1 : ((K.CE 0xb0 0 (0xa0, 0xb0)).run (jumpPre ++ (jumpZ ++ jumpTail)) SSt.init).isSome = true := by decide +kernel

theorem pre_r2' : ∃ h, ((K.CE 0xb0 0 (0xa0, 0xb0)).fin jumpPre h).gpr (r 2) = ⟨.ld 1 0x10, 0#_⟩ := ⟨by decide +kernel, by decide +kernel⟩

def M : SlotMake S.toSlotJump where
  top := r 2
  j := 3
  msz := 0xb0
  hid := 0
  mw := (0xa0, 0xb0)
  oRA := 0x58
  spo := 0
  al := 3
  ei := jumpPre ++ (jumpZ ++ jumpTail)
  er := r 5
  conv := ⟨rfl, rfl, rfl, rfl, rfl, rfl⟩
  sz := by decide
  make := by
    intro e σ c hc
    have h : ∀ q ∈ port.saved, q ≠ r 1 ∧ q ≠ r 2 := by simp only [port]; decide
    have hm : (exec e port.make σ).1.mem = store (store (store (store σ.mem (c + off A 0x10) A.k (off A 0)) (c + off A 0xa0) (A.fb fpc) (σ.fpr fpc))
        (c + off A 0xa8) A.k (σ.gpr (r 4))) (c + off A 0x58) A.k (e Lab.finish) := by
      rw [hc, BitVec.sub_eq_add_neg]; rfl
    have hres : port.resM (exec e port.make σ).1 = c := by
      rw [hc, BitVec.sub_eq_add_neg]; rfl
    rw [hm]
    refine ⟨rfl, hres, rfl, fun q hq => ?_, fun _ _ => rfl, fun y ha => ?_, ?_, ?_, ?_⟩
    · have := h q hq
      simp_all [exec, steps, step, setg, port, make, makeIs]
    · by_cases h1 : InR y (c + off A 0x58) A.k
      · exact inR_off h1 (by decide) (by decide)
      by_cases h2 : InR y (c + off A 0xa8) A.k
      · exact inR_off h2 (by decide) (by decide)
      by_cases h3 : InR y (c + off A 0xa0) (A.fb fpc)
      · exact inR_off h3 (by decide) (by decide)
      by_cases h4 : InR y (c + off A 0x10) A.k
      · exact inR_off h4 (by decide) (by decide)
      rw [store_out h1, store_out h2, store_out h3, store_out h4] at ha
      exact absurd rfl ha
    · show load _ (c + off A 0xa8) A.k = _
      rw [load_store_off (by decide) (by decide) (by decide), load_store_same _ _ _ _ (by decide)]
      rfl
    · rw [load_store_same _ _ _ _ (by decide)]
      rfl
    · show load _ (c + off A 0x10) A.k = off A 0
      rw [load_store_off (by decide) (by decide) (by decide), load_store_off (by decide) (by decide) (by decide), load_store_off (by decide) (by decide) (by decide),
        load_store_same _ _ _ _ (by decide)]
  erun e τ hI hz := by
    obtain ⟨h1, h2⟩ := pre_r2'
    have hr := fin_rel hI jumpPre h1
    have h3 : (steps e jumpPre τ).gpr (r 2) = 0#_ := by
      have := hr.reg h2
      rw [SlotCfg.sv_ld] at this
      exact this.trans (hz rfl)
    show exec e jump τ = _
    unfold jump
    simp only [exec, steps_append, h3, if_true]
  e1 := e1
  pc := by decide +kernel
  sp := by decide +kernel
  ra := by decide +kernel
  w := by decide +kernel
  ein e τ s _ hr := by
    obtain ⟨z, hz⟩ : ∃ z, z = (K.CE 0xb0 0 (0xa0, 0xb0)).fin (jumpPre ++ (jumpZ ++ jumpTail)) e1 := ⟨_, rfl⟩
    have hr : Rel (K.CE 0xb0 0 (0xa0, 0xb0)) (K.I e τ) z s := by rw [hz]; exact hr
    have h1 : z.gpr (r 2) = ⟨.reg (r 3), off A 0xa0⟩ := by rw [hz]; decide +kernel
    have h2 : s.gpr (r 2) = τ.gpr (r 3) + off A 0xa0 := hr.reg h1
    have h3 : z.valid 1 = true := by rw [hz]; decide +kernel
    have w1 : load s.mem (τ.gpr (r 3) + off A 0xa0) A.k = _ := hr.word (i := 1) (o := 0xa0) (v := ⟨.reg K.sp, -off A K.fr⟩) h3 (by decide) (by rw [hz]; decide +kernel)
    have w2 : load s.mem (τ.gpr (r 3) + off A 0xa8) A.k = _ := hr.word (i := 1) (o := 0xa8) (v := ⟨.reg (r 4), 0#_⟩) h3 (by decide) (by rw [hz]; decide +kernel)
    constructor
    · show load s.mem (s.gpr (r 2)) A.k = _
      rw [h2, w1]; exact SlotCfg.sv_own e τ
    · show load s.mem (s.gpr (r 2) + off A 8) A.k = _
      rw [h2, add_off_off, w2]; exact SlotCfg.sv_reg _ _

/-- **C37**, switching -/
theorem C37_s390x_jump : port.JumpSpec := S.jumpSpec
/-- **C37**, on-top calls -/
theorem C37_s390x_ontop : port.OntopSpec := S.ontopSpec rfl
/-- **C37**, new contexts -/
theorem C37_s390x_make : port.MakeSpec := M.makeSpec

/-- The hypotheses of `C37_s390x_jump` and `C37_s390x_ontop` can be met. -/
example (e : Env A) : ∃ σ τ m, port.Left e σ m ∧ port.Intact σ m τ ∧ port.argF τ = port.fctx σ ∧ σ.gpr (r 6) ≠ τ.gpr (r 6) := by
  obtain ⟨σ, τ, m, h1, h2, h3, h4⟩ := S.inhabited e (.inr rfl) (by decide) (by decide) (by decide) (by decide) (by decide)
  exact ⟨σ, τ, m, h1, h2, h3, h4 _ (by decide) (by decide) (by decide)⟩

/-- The hypotheses of `C37_s390x_make` can be met. -/
example (e : Env A) := M.inhabited e (.inr rfl) (by decide) (by decide) rfl (by decide) (by decide) (by decide) (by decide)

end Verif.Asm.S390x
