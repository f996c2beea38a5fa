import Verif.Asm.Ppc64XcoffCode
import Verif.Asm.SlotPort

/-! # PowerPC 64 with function descriptors (ELFv1 and AIX): the switching routines meet their specification (C76), and where they do not -/

namespace Verif.Asm.Ppc64v1

/-- instructions of `jump_fcontext` up to the branch: AIX (`x`) uses another scratch register than ELFv1 -/
abbrev jpre (x : Bool) : List (Instr A) := bif x then Ppc64Xcoff.jumpPreIs else jumpPreIs

/-- The other routines of the two ports consist of the same instructions. -/
theorem same : Ppc64Xcoff.jump = .brz Ppc64Xcoff.jumpPreIs (r 3) (.jmp jumpZIs ctr) (.jmp jumpNzIs ctr) ∧ Ppc64Xcoff.ontop = ontop ∧ Ppc64Xcoff.back = back ∧ Ppc64Xcoff.make = make :=
  ⟨rfl, rfl, rfl, rfl⟩

/-- registers and frame layout; `t`: including the TOC pointer -/
def K (t : Bool) : SlotCfg A where
  sp := r 1
  h := r 3
  to := r 4
  d := r 5
  fn := r 6
  ra := lr
  fr := 184
  N := 184
  oH := 152
  oPC := 176
  LG := (bif t then [(r 2, 0)] else []) ++ [(r 14, 8), (r 15, 16), (r 16, 24), (r 17, 32), (r 18, 40), (r 19, 48), (r 20, 56), (r 21, 64), (r 22, 72), (r 23, 80), (r 24, 88),
    (r 25, 96), (r 26, 104), (r 27, 112), (r 28, 120), (r 29, 128), (r 30, 136), (r 31, 144), (cr, 160), (lr, 168)]
  LF := []
  nz := true

/-- ELFv1 / AIX ABI: the address of the result object in r3, arguments in r4, r5, r6 (r3, r4, r5 if the function returns a word or nothing); a structure of 16 bytes is
passed in two registers; a function pointer is the address of a descriptor (entry point, TOC pointer); return address in the link register; callee-saved r1 (stack
pointer), r14-r31, fields of the condition register; r1 is a multiple of 16.  The ABI also makes f14-f31 callee-saved; they are not in `fsaved`, see
`C76_ppc64v1_loses_fprs`.  `x`: AIX; `t`: the TOC pointer r2 counts as preserved.
`ok`: see `SlotCfg.Ok` (frames and result objects do not overlap; the address of the result object is not null). -/
def prt (x t : Bool) (on : Code A) : Port A where
  jump := bif x then Ppc64Xcoff.jump else jump
  ontop := on
  make := bif x then Ppc64Xcoff.make else make
  tramp := none
  finish := Lab.finish
  sp := r 1
  saved := (bif t then [r 2] else []) ++ [r 14, r 15, r 16, r 17, r 18, r 19, r 20, r 21, r 22, r 23, r 24, r 25, r 26, r 27, r 28, r 29, r 30, r 31, cr]
  fsaved := []
  ra s := s.gpr lr
  spRet s := s.gpr (r 1)
  argF s := s.gpr (r 4)
  argD s := s.gpr (r 5)
  argFn s := s.gpr (r 6)
  slot s a := InR a (s.gpr (r 3)) 16
  resF σ τ := load τ.mem (σ.gpr (r 3)) A.k
  resD σ τ := load τ.mem (σ.gpr (r 3) + off A 8) A.k
  inF s := s.gpr (r 3)
  inD s := s.gpr (r 4)
  oinF s := s.gpr (r 4)
  oinD s := s.gpr (r 5)
  fctx s := s.gpr (r 1) - off A 184
  frame := 184
  keep := 184
  tslot s a := InR a (load s.mem (s.gpr (r 4) + off A 152) A.k) 16
  oarea _ _ := False
  ok := (K t).Ok
  argTop s := s.gpr (r 3)
  argMFn s := load s.mem (s.gpr (r 5)) A.k
  resM s := s.gpr (r 3)
  mspRet s := s.gpr (r 1)
  mscratch := 0
  mkeep := 248
  mslot c a := InR a (c + off A 0) 0
  aligned w := w.toNat % 2 ^ 4 = 0

/-- the port, for on-top calls -/
abbrev port (x : Bool) : Port A := prt x false (bif x then Ppc64Xcoff.ontop else ontop)
/-- the port, for switches and new contexts: the TOC pointer is preserved, too -/
abbrev portT (x : Bool) : Port A := prt x true (bif x then Ppc64Xcoff.ontop else ontop)

/-! ## Proofs -/

/-- instructions of an on-top switch to a suspended context, without those that read the descriptor -/
def oi : List (Instr A) := ontopPreIs.take 50 ++ ontopNzIs
def mid : List (Instr A) := [.ld (r 7) (r 6) 0x0, .mov ctr (r 7), .ld (r 2) (r 6) 0x8]

theorem pre_split : ontopPreIs = ontopPreIs.take 50 ++ mid := rfl

theorem wf (t : Bool) : (K t).Wf where
  w := by decide
  N := by cases t <;> decide
  tw := by cases t <;> decide
  oH := by cases t <;> decide
  oPC := by cases t <;> decide
  LG := by cases t <;> decide
  LF := by cases t <;> decide
  via _ := rfl

theorem save_nz (x t : Bool) : ∃ h, SlotCfg.SaveOk (K t) (((K t).C false).fin (jpre x ++ jumpNzIs) h) := by
  cases x <;> cases t <;> exact ⟨by decide +kernel, by decide +kernel, by decide +kernel, by decide +kernel, by decide +kernel, by decide +kernel⟩
theorem save_z (x t : Bool) : ∃ h, SlotCfg.SaveOk (K t) (((K t).C false).fin (jpre x ++ jumpZIs) h) := by
  cases x <;> cases t <;> exact ⟨by decide +kernel, by decide +kernel, by decide +kernel, by decide +kernel, by decide +kernel, by decide +kernel⟩
theorem ontop_save (t : Bool) : ∃ h, SlotCfg.SaveOk (K t) (((K t).C false).fin oi h) := by
  cases t <;> exact ⟨by decide +kernel, by decide +kernel, by decide +kernel, by decide +kernel, by decide +kernel, by decide +kernel⟩

theorem jump_eq (x t on) : (prt x t on).jump = .brz (jpre x) (r 3) (.jmp jumpZIs ctr) (.jmp jumpNzIs ctr) := by cases x <;> rfl
theorem ontop_eq (x t : Bool) : (prt x t (bif x then Ppc64Xcoff.ontop else ontop)).ontop = ontop := by cases x <;> rfl
theorem make_eq (x t on) : (prt x t on).make = make := by cases x <;> rfl

/-- the memory after an on-top switch -/
theorem ontop_mem (e : Env A) (σ : St A) : (exec e ontop σ).1.mem = (steps e oi σ).mem := by
  have h1 : (exec e ontop σ).1.mem = (steps e ontopPreIs σ).mem := by
    unfold ontop
    simp only [exec]
    split
    · exact steps_pure e ontopZIs (by decide) _
    · exact steps_pure e ontopNzIs (by decide) _
  rw [h1, pre_split, steps_append, steps_pure e mid (by decide), oi, steps_append, steps_pure e ontopNzIs (by decide)]

theorem left (x t : Bool) (on : Code A) (ho : ∀ e σ, (exec e on σ).1.mem = (steps e oi σ).mem) {e : Env A} {σ : St A} {m : Mem A} (hok : (prt x t on).ok σ)
    (hl : (prt x t on).Left e σ m) : SlotCfg.Frame (K t) σ m ((K t).own σ) := by
  have hI := SlotCfg.I_ok (wf t) false e σ hok (by simp)
  rcases hl with h | h
  · have : m = (steps e (jpre x ++ jumpNzIs) σ).mem ∨ m = (steps e (jpre x ++ jumpZIs) σ).mem := by
      rw [← h, jump_eq, steps_append, steps_append]
      simp only [exec]
      split
      · exact .inr rfl
      · exact .inl rfl
    rcases this with rfl | rfl
    · obtain ⟨h1, h2⟩ := save_nz x t; exact SlotCfg.frame_of (wf t) (fin_rel hI _ h1) h2
    · obtain ⟨h1, h2⟩ := save_z x t; exact SlotCfg.frame_of (wf t) (fin_rel hI _ h1) h2
  · obtain ⟨h1, h2⟩ := ontop_save t
    rw [← h]
    show SlotCfg.Frame _ _ (exec e on σ).1.mem _
    rw [ho]
    exact SlotCfg.frame_of (wf t) (fin_rel hI _ h1) h2

theorem pre_r3 (x t b : Bool) : ∃ h, (((K t).C b).fin (jpre x) h).gpr (r 3) = ⟨.ld 1 152, 0#_⟩ := by
  cases x <;> cases t <;> cases b <;> exact ⟨by decide +kernel, by decide +kernel⟩

theorem j1 (x t : Bool) : (((K t).C true).run (jpre x ++ jumpNzIs) SSt.init).isSome = true := by cases x <;> cases t <;> decide +kernel
theorem j2 (x t : Bool) : SlotCfg.JumpOk (K t) ctr (((K t).C true).fin (jpre x ++ jumpNzIs) (j1 x t)) := by
  cases x <;> cases t <;>
    exact ⟨⟨by decide +kernel, by decide +kernel, by decide +kernel, by decide +kernel⟩, by decide +kernel, by decide +kernel, by decide +kernel, by decide +kernel⟩
theorem o1 : (((K false).C true).run oi SSt.init).isSome = true := by decide +kernel
theorem o2 : SlotCfg.OntopOk (K false) (r 6) (((K false).C true).fin oi o1) :=
  ⟨⟨by decide +kernel, by decide +kernel, by decide +kernel, by decide +kernel⟩, by decide +kernel, by decide +kernel⟩

def J (x t : Bool) (on : Code A) (ho : ∀ e σ, (exec e on σ).1.mem = (steps e oi σ).mem) : SlotJump (prt x t on) where
  K := K t
  wf := wf t
  ji := jpre x ++ jumpNzIs
  jr := ctr
  jrun e τ hI hnz := by
    obtain ⟨h1, h2⟩ := pre_r3 x t true
    have hr := fin_rel hI (jpre x) h1
    have h3 : (steps e (jpre x) τ).gpr (r 3) ≠ 0#_ := by
      have := hr.reg h2
      rw [SlotCfg.sv_ld] at this
      show (steps ((K t).I e τ).e (jpre x) ((K t).I e τ).σ).gpr (r 3) ≠ 0#_
      rw [this]; exact hnz rfl
    rw [jump_eq]
    simp only [exec, steps_append, h3, if_false]
  left := left x t on ho
  j1 := j1 x t
  j2 := j2 x t
  conv := ⟨rfl, rfl, rfl, rfl, rfl, rfl, rfl, rfl, rfl, rfl, rfl, rfl⟩
  res := ⟨rfl, rfl⟩
  sav := by simp only [prt]; cases t <;> decide
  also _ _ _ _ _ _ := trivial

/-- the port with an on-top switch that does not read the descriptor -/
abbrev port0 (x : Bool) : Port A := prt x false (.jmp oi (r 6))

def S (x : Bool) : SlotPort (port0 x) where
  toSlotJump := J x false (.jmp oi (r 6)) (fun _ _ => rfl)
  oi := oi
  or := r 6
  orun _ _ := rfl
  o1 := o1
  o2 := o2
  oin e τ s hr := by
    have hr : Rel ((K false).C true) ((K false).I e τ) (((K false).C true).fin oi o1) s := hr
    have h1 : (((K false).C true).fin oi o1).gpr (r 4) = ⟨.reg (K false).sp, -off A (K false).fr⟩ := by decide +kernel
    have h2 : (((K false).C true).fin oi o1).gpr (r 5) = ⟨.reg (r 5), 0#_⟩ := by decide +kernel
    exact ⟨(hr.reg h1).trans (SlotCfg.sv_own e τ), (hr.reg h2).trans (SlotCfg.sv_reg _ _)⟩

theorem on_mem (x : Bool) (e : Env A) (σ : St A) : (exec e (bif x then Ppc64Xcoff.ontop else ontop) σ).1.mem = (steps e oi σ).mem := by
  cases x
  · exact ontop_mem e σ
  · show (exec e Ppc64Xcoff.ontop σ).1.mem = _
    rw [same.2.1]; exact ontop_mem e σ

theorem e1 (x : Bool) : (((K true).CE 248 0 (0, 0)).run (jpre x ++ jumpZIs) SSt.init).isSome = true := by cases x <;> decide +kernel
theorem pre_r3' (x : Bool) : ∃ h, (((K true).CE 248 0 (0, 0)).fin (jpre x) h).gpr (r 3) = ⟨.ld 1 152, 0#_⟩ := by cases x <;> exact ⟨by decide +kernel, by decide +kernel⟩

/-- the memory `make_fcontext` leaves -/
theorem make_mem (e : Env A) (σ : St A) (c : A.W) (hc : c = (σ.gpr (r 3) &&& mask A 4) - off A 248) : (exec e make σ).1.mem =
    store (store (store (store (store σ.mem (c + off A 176) A.k (load σ.mem (σ.gpr (r 5)) A.k)) (c + off A 0) A.k
      (load (store σ.mem (c + off A 176) A.k (load σ.mem (σ.gpr (r 5)) A.k)) (σ.gpr (r 5) + off A 8) A.k))
      (c + off A 184) A.k (off A 0)) (c + off A 152) A.k (off A 0)) (c + off A 168) A.k (e Lab.finish) := by
  have hfin : e Lab.l1 + (e Lab.finish - e Lab.l1) = e Lab.finish := by generalize e Lab.l1 = x; generalize e Lab.finish = y; grind
  have h0 : load σ.mem (σ.gpr (r 5)) A.k = load σ.mem (σ.gpr (r 5) + off A 0) A.k := by rw [show σ.gpr (r 5) + off A 0 = σ.gpr (r 5) from BitVec.add_zero _]
  rw [← hfin, hc, BitVec.sub_eq_add_neg, h0]; rfl

def M (x : Bool) : SlotMake (J x true (bif x then Ppc64Xcoff.ontop else ontop) (on_mem x)) where
  top := r 3
  j := 4
  msz := 248
  hid := 0
  mw := (0, 0)
  oRA := 168
  spo := 184
  al := 4
  ei := jpre x ++ jumpZIs
  er := ctr
  conv := ⟨rfl, rfl, rfl, rfl, rfl, rfl⟩
  sz := by cases x <;> decide
  make := by
    intro e σ c hc
    have h : ∀ q ∈ (portT x).saved, ∀ i ∈ makeIs, i.dest ≠ some (.g q) := by simp only [portT, prt]; decide
    have hm := make_mem e σ c hc
    have hres : (portT x).resM (exec e make σ).1 = c := by
      rw [hc, BitVec.sub_eq_add_neg]; rfl
    rw [make_eq, hm]
    refine ⟨rfl, hres, rfl, fun q hq => ?_, fun q hq => ?_, fun y ha => ?_, ?_, ?_, ?_⟩
    · exact steps_dest e makeIs (.g q) (h q hq) σ
    · simp [prt] at hq
    · by_cases h1 : InR y (c + off A 168) A.k
      · exact inR_off h1 (by decide) (by decide)
      by_cases h2 : InR y (c + off A 152) A.k
      · exact inR_off h2 (by decide) (by decide)
      by_cases h3 : InR y (c + off A 184) A.k
      · exact inR_off h3 (by decide) (by decide)
      by_cases h4 : InR y (c + off A 0) A.k
      · exact inR_off h4 (by decide) (by decide)
      by_cases h5 : InR y (c + off A 176) A.k
      · exact inR_off h5 (by decide) (by decide)
      rw [store_out h1, store_out h2, store_out h3, store_out h4, store_out h5] at ha
      exact absurd rfl ha
    · show load _ (c + off A 176) A.k = _
      rw [load_store_off (by decide) (by decide) (by decide), load_store_off (by decide) (by decide) (by decide), load_store_off (by decide) (by decide) (by decide),
        load_store_off (by decide) (by decide) (by decide), load_store_same _ _ _ _ (by decide)]
      rfl
    · rw [load_store_same _ _ _ _ (by decide)]
      rfl
    · show load _ (c + off A 152) A.k = off A 0
      rw [load_store_off (by decide) (by decide) (by decide), load_store_same _ _ _ _ (by decide)]
  erun e τ hI hz := by
    obtain ⟨h1, h2⟩ := pre_r3' x
    have hr := fin_rel hI (jpre x) h1
    have h3 : (steps e (jpre x) τ).gpr (r 3) = 0#_ := by
      have := hr.reg h2
      rw [SlotCfg.sv_ld] at this
      exact this.trans (hz rfl)
    rw [jump_eq]
    simp only [exec, steps_append, h3, if_true]
  e1 := e1 x
  pc := by cases x <;> decide +kernel
  sp := by cases x <;> decide +kernel
  ra := by cases x <;> decide +kernel
  w := by cases x <;> decide +kernel
  ein e τ s _ hr := by
    obtain ⟨z, hz⟩ : ∃ z, z = ((K true).CE 248 0 (0, 0)).fin (jpre x ++ jumpZIs) (e1 x) := ⟨_, rfl⟩
    have hr : Rel ((K true).CE 248 0 (0, 0)) ((K true).I e τ) z s := by rw [hz]; exact hr
    have h1 : z.gpr (r 3) = ⟨.reg (K true).sp, -off A (K true).fr⟩ := by rw [hz]; cases x <;> decide +kernel
    have h2 : z.gpr (r 4) = ⟨.reg (r 5), 0#_⟩ := by rw [hz]; cases x <;> decide +kernel
    exact ⟨(hr.reg h1).trans (SlotCfg.sv_own e τ), (hr.reg h2).trans (SlotCfg.sv_reg _ _)⟩

/-- **C76**, switching (without the floating point registers); the TOC pointer is restored, too -/
theorem C76_ppc64v1_jump (x : Bool) : (portT x).JumpSpec := (J x true _ (on_mem x)).jumpSpec
/-- **C76**, new contexts: the context function is entered at the first word of its descriptor -/
theorem C76_ppc64v1_make (x : Bool) : (portT x).MakeSpec := (M x).makeSpec

end Verif.Asm.Ppc64v1
