import Verif.Asm.Ppc32XcoffCode
import Verif.Asm.SlotPort

/-! # PowerPC 32 AIX (XCOFF): the switching routines meet their specification (C77), and where they do not -/

namespace Verif.Asm.Ppc32Xcoff

/-- registers and frame layout; `t`: including the TOC pointer -/
def K (t : Bool) : SlotCfg A where
  sp := r 1
  h := r 3
  to := r 4
  d := r 5
  fn := r 6
  ra := lr
  fr := 256
  N := 256
  oH := 244
  oPC := 240
  LG := (bif t then [(r 2, 20)] else []) ++ [(cr, 4), (lr, 8), (r 14, 24), (r 15, 28), (r 16, 32), (r 17, 36), (r 18, 40), (r 19, 44), (r 20, 48), (r 21, 52), (r 22, 56), (r 23, 60), (r 24, 64), (r 25, 68), (r 26, 72), (r 27, 76), (r 28, 80), (r 29, 84), (r 30, 88), (r 31, 92)]
  LF := [(f 14, 96), (f 15, 104), (f 16, 112), (f 17, 120), (f 18, 128), (f 19, 136), (f 20, 144), (f 21, 152), (f 22, 160), (f 23, 168), (f 24, 176), (f 25, 184), (f 26, 192), (f 27, 200), (f 28, 208), (f 29, 216), (f 30, 224), (f 31, 232), (fpscr, 248)]
  nz := true
  via q := if q = fpscr then f 0 else q

/-- AIX ABI: the address of the result object in r3, arguments in r4, r5, r6 (r3, r4, r5 if the function returns a word or nothing); a structure of 8 bytes is
passed in two registers; a function pointer is the address of a descriptor (entry point, TOC pointer, environment); return address in the link register; callee-saved r1 (stack
pointer), r13-r31, f14-f31, fields of the condition register; r1 is a multiple of 16.  Additionally FPSCR is saved.  r13 is not in `saved`, see `C77_ppc32_xcoff_loses_r13`.
`t`: the TOC pointer r2 counts as preserved.
`ok`: see `SlotCfg.Ok` (frames and result objects do not overlap; the address of the result object is not null). -/
def prt (t : Bool) (on : Code A) : Port A where
  jump := jump
  ontop := on
  make := make
  tramp := none
  finish := Lab.finish
  sp := r 1
  saved := (bif t then [r 2] else []) ++ [cr, r 14, r 15, r 16, r 17, r 18, r 19, r 20, r 21, r 22, r 23, r 24, r 25, r 26, r 27, r 28, r 29, r 30, r 31]
  fsaved := [f 14, f 15, f 16, f 17, f 18, f 19, f 20, f 21, f 22, f 23, f 24, f 25, f 26, f 27, f 28, f 29, f 30, f 31, fpscr]
  ra s := s.gpr lr
  spRet s := s.gpr (r 1)
  argF s := s.gpr (r 4)
  argD s := s.gpr (r 5)
  argFn s := s.gpr (r 6)
  slot s a := InR a (s.gpr (r 3)) 8
  resF σ τ := load τ.mem (σ.gpr (r 3)) A.k
  resD σ τ := load τ.mem (σ.gpr (r 3) + off A 4) A.k
  inF s := s.gpr (r 3)
  inD s := s.gpr (r 4)
  oinF s := s.gpr (r 4)
  oinD s := s.gpr (r 5)
  fctx s := s.gpr (r 1) - off A 256
  frame := 256
  keep := 256
  tslot s a := InR a (load s.mem (s.gpr (r 4) + off A 244) A.k) 8
  oarea _ _ := False
  ok := (K t).Ok
  argTop s := s.gpr (r 3)
  argMFn s := load s.mem (s.gpr (r 5)) A.k
  resM s := s.gpr (r 3)
  mspRet s := s.gpr (r 1)
  mscratch := 0
  mkeep := 288
  mslot c a := InR a (c + off A 0) 0
  aligned w := w.toNat % 2 ^ 4 = 0

/-- the port, for on-top calls -/
abbrev port : Port A := prt false ontop
/-- the port, for switches and new contexts: the TOC pointer is preserved, too -/
abbrev portT : Port A := prt true ontop

/-! ## Proofs -/

/-- instructions of an on-top switch to a suspended context, without those that read the descriptor -/
def oi : List (Instr A) := ontopPreIs.take 90 ++ ontopNzIs
def mid : List (Instr A) := [.ld (r 7) (r 6) 0x0, .mov ctr (r 7), .ld (r 2) (r 6) 0x4]

theorem pre_split : ontopPreIs = ontopPreIs.take 90 ++ mid := rfl

theorem wf (t : Bool) : (K t).Wf where
  w := by decide
  N := by cases t <;> decide
  tw := by cases t <;> decide
  oH := by cases t <;> decide
  oPC := by cases t <;> decide
  LG := by cases t <;> decide
  LF := by cases t <;> decide
  via _ := rfl

theorem save_nz (t : Bool) : ∃ h, SlotCfg.SaveOk (K t) (((K t).C false).fin (jumpPreIs ++ jumpNzIs) h) := by
  cases t <;> exact ⟨by decide +kernel, by decide +kernel, by decide +kernel, by decide +kernel, by decide +kernel, by decide +kernel⟩
theorem save_z (t : Bool) : ∃ h, SlotCfg.SaveOk (K t) (((K t).C false).fin (jumpPreIs ++ jumpZIs) h) := by
  cases t <;> exact ⟨by decide +kernel, by decide +kernel, by decide +kernel, by decide +kernel, by decide +kernel, by decide +kernel⟩
theorem ontop_save (t : Bool) : ∃ h, SlotCfg.SaveOk (K t) (((K t).C false).fin oi h) := by
  cases t <;> exact ⟨by decide +kernel, by decide +kernel, by decide +kernel, by decide +kernel, by decide +kernel, by decide +kernel⟩


/-- the memory after an on-top switch -/
theorem on_mem (e : Env A) (σ : St A) : (exec e ontop σ).1.mem = (steps e oi σ).mem := by
  have h1 : (exec e ontop σ).1.mem = (steps e ontopPreIs σ).mem := by
    unfold ontop
    simp only [exec]
    split
    · exact steps_pure e ontopZIs (by decide) _
    · exact steps_pure e ontopNzIs (by decide) _
  rw [h1, pre_split, steps_append, steps_pure e mid (by decide), oi, steps_append, steps_pure e ontopNzIs (by decide)]

theorem left (t : Bool) (on : Code A) (ho : ∀ e σ, (exec e on σ).1.mem = (steps e oi σ).mem) {e : Env A} {σ : St A} {m : Mem A} (hok : (prt t on).ok σ)
    (hl : (prt t on).Left e σ m) : SlotCfg.Frame (K t) σ m ((K t).own σ) := by
  have hI := SlotCfg.I_ok (wf t) false e σ hok (by simp)
  rcases hl with h | h
  · have : m = (steps e (jumpPreIs ++ jumpNzIs) σ).mem ∨ m = (steps e (jumpPreIs ++ jumpZIs) σ).mem := by
      rw [← h, show (prt t on).jump = jump from rfl, jump, steps_append, steps_append]
      simp only [exec]
      split
      · exact .inr rfl
      · exact .inl rfl
    rcases this with rfl | rfl
    · obtain ⟨h1, h2⟩ := save_nz t; exact SlotCfg.frame_of (wf t) (fin_rel hI _ h1) h2
    · obtain ⟨h1, h2⟩ := save_z t; exact SlotCfg.frame_of (wf t) (fin_rel hI _ h1) h2
  · obtain ⟨h1, h2⟩ := ontop_save t
    rw [← h]
    show SlotCfg.Frame _ _ (exec e on σ).1.mem _
    rw [ho]
    exact SlotCfg.frame_of (wf t) (fin_rel hI _ h1) h2

theorem pre_r3 (t b : Bool) : ∃ h, (((K t).C b).fin jumpPreIs h).gpr (r 3) = ⟨.ld 1 244, 0#_⟩ := by
  cases t <;> cases b <;> exact ⟨by decide +kernel, by decide +kernel⟩

theorem j1 (t : Bool) : (((K t).C true).run (jumpPreIs ++ jumpNzIs) SSt.init).isSome = true := by cases t <;> decide +kernel
theorem j2 (t : Bool) : SlotCfg.JumpOk (K t) ctr (((K t).C true).fin (jumpPreIs ++ jumpNzIs) (j1 t)) := by
  cases t <;>
    exact ⟨⟨by decide +kernel, by decide +kernel, by decide +kernel, by decide +kernel⟩, by decide +kernel, by decide +kernel, by decide +kernel, by decide +kernel⟩
theorem o1 : (((K false).C true).run oi SSt.init).isSome = true := by decide +kernel
theorem o2 : SlotCfg.OntopOk (K false) (r 6) (((K false).C true).fin oi o1) :=
  ⟨⟨by decide +kernel, by decide +kernel, by decide +kernel, by decide +kernel⟩, by decide +kernel, by decide +kernel⟩

def J (t : Bool) (on : Code A) (ho : ∀ e σ, (exec e on σ).1.mem = (steps e oi σ).mem) : SlotJump (prt t on) where
  K := K t
  wf := wf t
  ji := jumpPreIs ++ jumpNzIs
  jr := ctr
  jrun e τ hI hnz := by
    obtain ⟨h1, h2⟩ := pre_r3 t true
    have hr := fin_rel hI jumpPreIs h1
    have h3 : (steps e jumpPreIs τ).gpr (r 3) ≠ 0#_ := by
      have := hr.reg h2
      rw [SlotCfg.sv_ld] at this
      show (steps ((K t).I e τ).e jumpPreIs ((K t).I e τ).σ).gpr (r 3) ≠ 0#_
      rw [this]; exact hnz rfl
    rw [show (prt t on).jump = jump from rfl, jump]
    simp only [exec, steps_append, h3, if_false]
  left := left t on ho
  j1 := j1 t
  j2 := j2 t
  conv := ⟨rfl, rfl, rfl, rfl, rfl, rfl, rfl, rfl, rfl, rfl, rfl, rfl⟩
  res := ⟨rfl, rfl⟩
  sav := by simp only [prt]; cases t <;> decide
  also _ _ _ _ _ _ := trivial

/-- the port with an on-top switch that does not read the descriptor -/
abbrev port0 : Port A := prt false (.jmp oi (r 6))

def S : SlotPort port0 where
  toSlotJump := J false (.jmp oi (r 6)) (fun _ _ => rfl)
  oi := oi
  or := r 6
  orun _ _ := rfl
  o1 := o1
  o2 := o2
  oin e τ s hr := by
    have hr : Rel ((K false).C true) ((K false).I e τ) (((K false).C true).fin oi o1) s := hr
    have h1 : (((K false).C true).fin oi o1).gpr (r 4) = ⟨.reg (K false).sp, -off A (K false).fr⟩ := by decide +kernel
    have h2 : (((K false).C true).fin oi o1).gpr (r 5) = ⟨.reg (r 5), 0#_⟩ := by decide +kernel
    exact ⟨(hr.reg h1).trans (SlotCfg.sv_own e τ), (hr.reg h2).trans (SlotCfg.sv_reg _ _)⟩

theorem e1 : (((K true).CE 288 0 (0, 0)).run (jumpPreIs ++ jumpZIs) SSt.init).isSome = true := by decide +kernel
theorem pre_r3' : ∃ h, (((K true).CE 288 0 (0, 0)).fin jumpPreIs h).gpr (r 3) = ⟨.ld 1 244, 0#_⟩ := by exact ⟨by decide +kernel, by decide +kernel⟩

/-- the memory `make_fcontext` leaves -/
theorem make_mem (e : Env A) (σ : St A) (c : A.W) (hc : c = (σ.gpr (r 3) &&& mask A 4) - off A 288) : (exec e make σ).1.mem =
    store (store (store (store (store (store σ.mem (c + off A 240) A.k (load σ.mem (σ.gpr (r 5)) A.k)) (c + off A 20) A.k
      (load (store σ.mem (c + off A 240) A.k (load σ.mem (σ.gpr (r 5)) A.k)) (σ.gpr (r 5) + off A 4) A.k))
      (c + off A 256) A.k (off A 0)) (c + off A 244) A.k (off A 0)) (c + off A 248) A.k (off A 0)) (c + off A 8) A.k (e Lab.finish) := by
  have hfin : e Lab.l1 + (e Lab.finish - e Lab.l1) = e Lab.finish := by generalize e Lab.l1 = x; generalize e Lab.finish = y; grind
  have h0 : load σ.mem (σ.gpr (r 5)) A.k = load σ.mem (σ.gpr (r 5) + off A 0) A.k := by rw [show σ.gpr (r 5) + off A 0 = σ.gpr (r 5) from BitVec.add_zero _]
  rw [← hfin, hc, BitVec.sub_eq_add_neg, h0]; rfl

def M : SlotMake (J true ontop on_mem) where
  top := r 3
  j := 4
  msz := 288
  hid := 0
  mw := (0, 0)
  oRA := 8
  spo := 256
  al := 4
  ei := jumpPreIs ++ jumpZIs
  er := ctr
  conv := ⟨rfl, rfl, rfl, rfl, rfl, rfl⟩
  sz := by decide
  make := by
    intro e σ c hc
    have h : ∀ q ∈ portT.saved, ∀ i ∈ makeIs, i.dest ≠ some (.g q) := by simp only [portT, prt]; decide
    have hf : ∀ q ∈ portT.fsaved, ∀ i ∈ makeIs, i.dest ≠ some (.f q) := by simp only [portT, prt]; decide
    have hm := make_mem e σ c hc
    have hres : portT.resM (exec e make σ).1 = c := by
      rw [hc, BitVec.sub_eq_add_neg]; rfl
    rw [show (prt true ontop).make = make from rfl, hm]
    refine ⟨rfl, hres, rfl, fun q hq => ?_, fun q hq => ?_, fun y ha => ?_, ?_, ?_, ?_⟩
    · exact steps_dest e makeIs (.g q) (h q hq) σ
    · exact steps_dest e makeIs (.f q) (hf q hq) σ
    · by_cases h1 : InR y (c + off A 8) A.k
      · exact inR_off h1 (by decide) (by decide)
      by_cases h2 : InR y (c + off A 248) A.k
      · exact inR_off h2 (by decide) (by decide)
      by_cases h3 : InR y (c + off A 244) A.k
      · exact inR_off h3 (by decide) (by decide)
      by_cases h4 : InR y (c + off A 256) A.k
      · exact inR_off h4 (by decide) (by decide)
      by_cases h5 : InR y (c + off A 20) A.k
      · exact inR_off h5 (by decide) (by decide)
      by_cases h6 : InR y (c + off A 240) A.k
      · exact inR_off h6 (by decide) (by decide)
      rw [store_out h1, store_out h2, store_out h3, store_out h4, store_out h5, store_out h6] at ha
      exact absurd rfl ha
    · show load _ (c + off A 240) A.k = _
      rw [load_store_off (by decide) (by decide) (by decide), load_store_off (by decide) (by decide) (by decide), load_store_off (by decide) (by decide) (by decide),
        load_store_off (by decide) (by decide) (by decide), load_store_off (by decide) (by decide) (by decide), load_store_same _ _ _ _ (by decide)]
      rfl
    · rw [load_store_same _ _ _ _ (by decide)]
      rfl
    · show load _ (c + off A 244) A.k = off A 0
      rw [load_store_off (by decide) (by decide) (by decide), load_store_off (by decide) (by decide) (by decide), load_store_same _ _ _ _ (by decide)]
  erun e τ hI hz := by
    obtain ⟨h1, h2⟩ := pre_r3'
    have hr := fin_rel hI jumpPreIs h1
    have h3 : (steps e jumpPreIs τ).gpr (r 3) = 0#_ := by
      have := hr.reg h2
      rw [SlotCfg.sv_ld] at this
      exact this.trans (hz rfl)
    rw [show (prt true ontop).jump = jump from rfl, jump]
    simp only [exec, steps_append, h3, if_true]
  e1 := e1
  pc := by decide +kernel
  sp := by decide +kernel
  ra := by decide +kernel
  w := by decide +kernel
  ein e τ s _ hr := by
    obtain ⟨z, hz⟩ : ∃ z, z = ((K true).CE 288 0 (0, 0)).fin (jumpPreIs ++ jumpZIs) e1 := ⟨_, rfl⟩
    have hr : Rel ((K true).CE 288 0 (0, 0)) ((K true).I e τ) z s := by rw [hz]; exact hr
    have h1 : z.gpr (r 3) = ⟨.reg (K true).sp, -off A (K true).fr⟩ := by rw [hz]; decide +kernel
    have h2 : z.gpr (r 4) = ⟨.reg (r 5), 0#_⟩ := by rw [hz]; decide +kernel
    exact ⟨(hr.reg h1).trans (SlotCfg.sv_own e τ), (hr.reg h2).trans (SlotCfg.sv_reg _ _)⟩

/-- **C77**, switching (except r13); the TOC pointer is restored, too -/
theorem C77_ppc32_xcoff_jump : portT.JumpSpec := (J true _ on_mem).jumpSpec
/-- **C77**, new contexts: the context function is entered at the first word of its descriptor -/
theorem C77_ppc32_xcoff_make : portT.MakeSpec := M.makeSpec

end Verif.Asm.Ppc32Xcoff
