import Verif.Asm.Ppc32Code
import Verif.Asm.SlotPort

/-! # PowerPC 32 SysV (Linux): the switching routines meet their specification (C38) -/

namespace Verif.Asm.Ppc32

/-- registers and frame layout; the frame includes the word of the caller's frame in which a callee saves the link register -/
def K : SlotCfg A where
  sp := r 1
  h := r 3
  to := r 4
  d := r 5
  fn := r 6
  ra := lr
  fr := 240
  N := 248
  oH := 4
  oPC := 16
  LG := [(cr, 20), (r 14, 24), (r 15, 28), (r 16, 32), (r 17, 36), (r 18, 40), (r 19, 44), (r 20, 48), (r 21, 52), (r 22, 56), (r 23, 60), (r 24, 64), (r 25, 68),
    (r 26, 72), (r 27, 76), (r 28, 80), (r 29, 84), (r 30, 88), (r 31, 92), (lr, 244)]
  LF := [(fpscr, 8), (f 14, 96), (f 15, 104), (f 16, 112), (f 17, 120), (f 18, 128), (f 19, 136), (f 20, 144), (f 21, 152), (f 22, 160), (f 23, 168), (f 24, 176),
    (f 25, 184), (f 26, 192), (f 27, 200), (f 28, 208), (f 29, 216), (f 30, 224), (f 31, 232)]
  nz := false
  via q := if q = fpscr then f 0 else q
  opc := ⟨.lab Lab.tail, 0#_⟩

/-- SVR4 ABI as used on Linux: the address of the result object in r3, arguments in r4, r5, r6, r7 (r3, r4, r5 if the function returns a word or nothing); a structure
argument is passed by reference; return address in the link register; callee-saved r1 (stack pointer), r14-r31, f14-f31, fields of the condition register;
additionally FPSCR is saved; r1 is a multiple of 16; the word at 4(r1) belongs to the callee (for its link register).
The on-top entry point is `ontop_fcontext_tail(hidden, ignored, data, fn, from)`, which takes `transfer_t{from, data}` in r7 and r5.
`ok`: see `SlotCfg.Ok` (frames and result objects do not overlap). -/
def port : Port A where
  jump := jump
  ontop := ontop
  make := make
  tramp := none
  finish := Lab.finish
  sp := r 1
  saved := [cr, r 14, r 15, r 16, r 17, r 18, r 19, r 20, r 21, r 22, r 23, r 24, r 25, r 26, r 27, r 28, r 29, r 30, r 31]
  fsaved := [fpscr, f 14, f 15, f 16, f 17, f 18, f 19, f 20, f 21, f 22, f 23, f 24, f 25, f 26, f 27, f 28, f 29, f 30, f 31]
  ra s := s.gpr lr
  spRet s := s.gpr (r 1)
  argF s := s.gpr (r 4)
  argD s := s.gpr (r 5)
  argFn s := s.gpr (r 6)
  slot s x := InR x (s.gpr (r 3)) 8
  resF σ τ := load τ.mem (σ.gpr (r 3)) A.k
  resD σ τ := load τ.mem (σ.gpr (r 3) + off A 4) A.k
  inF s := load s.mem (s.gpr (r 3)) A.k
  inD s := load s.mem (s.gpr (r 3) + off A 4) A.k
  oinF s := s.gpr (r 7)
  oinD s := s.gpr (r 5)
  fctx s := s.gpr (r 1) - off A 240
  frame := 248
  keep := 248
  tslot s x := InR x (load s.mem (s.gpr (r 4) + off A 4) A.k) 8
  oarea _ _ := False
  ok := K.Ok
  argTop s := s.gpr (r 3)
  argMFn s := s.gpr (r 5)
  resM s := s.gpr (r 3)
  mspRet s := s.gpr (r 1)
  mscratch := 0
  mkeep := 256
  mslot c x := InR x (c + off A 248) 8
  aligned w := w.toNat % 2 ^ 4 = 0

/-! ## Proofs -/

theorem wf : K.Wf where
  w := by decide
  N := by decide
  tw := by decide
  oH := by decide
  oPC := by decide
  LG := by decide
  LF := by decide
  via _ := rfl

theorem jump_save : ∃ h, SlotCfg.SaveOk K ((K.C false).fin jumpIs h) :=
  ⟨by decide +kernel, by decide +kernel, by decide +kernel, by decide +kernel, by decide +kernel, by decide +kernel⟩
theorem ontop_save : ∃ h, SlotCfg.SaveOk K ((K.C false).fin ontopIs h) :=
  ⟨by decide +kernel, by decide +kernel, by decide +kernel, by decide +kernel, by decide +kernel, by decide +kernel⟩

theorem j1 : ((K.C true).run jumpIs SSt.init).isSome = true := by decide +kernel
theorem o1 : ((K.C true).run ontopIs SSt.init).isSome = true := by decide +kernel
theorem j2 : SlotCfg.JumpOk K ctr ((K.C true).fin jumpIs j1) :=
  ⟨⟨by decide +kernel, by decide +kernel, by decide +kernel, by decide +kernel⟩, by decide +kernel, by decide +kernel, by decide +kernel, by decide +kernel⟩
theorem o2 : SlotCfg.OntopOk K npc ((K.C true).fin ontopIs o1) :=
  ⟨⟨by decide +kernel, by decide +kernel, by decide +kernel, by decide +kernel⟩, by decide +kernel, by decide +kernel⟩

def S : SlotPort port where
  K := K
  wf := wf
  ji := jumpIs
  oi := ontopIs
  jr := ctr
  or := npc
  jrun _ _ _ _ := rfl
  orun _ _ := rfl
  left := SlotCfg.left_of wf rfl rfl jumpIs.length ontopIs.length (by simp) (by simp) rfl (by simpa using jump_save) (by simpa using ontop_save)
  j1 := j1
  o1 := o1
  j2 := j2
  o2 := o2
  conv := ⟨rfl, rfl, rfl, rfl, rfl, rfl, rfl, rfl, rfl, rfl, rfl, rfl⟩
  res := ⟨rfl, rfl⟩
  sav := by decide
  also _ _ _ _ _ _ := trivial
  oin e τ s hr := by
    have hr : Rel (K.C true) (K.I e τ) ((K.C true).fin ontopIs o1) s := hr
    have h1 : ((K.C true).fin ontopIs o1).gpr (r 7) = ⟨.reg K.sp, -off A K.fr⟩ := by decide +kernel
    have h2 : ((K.C true).fin ontopIs o1).gpr (r 5) = ⟨.reg (r 5), 0#_⟩ := by decide +kernel
    exact ⟨(hr.reg h1).trans (SlotCfg.sv_own e τ), (hr.reg h2).trans (SlotCfg.sv_reg _ _)⟩

theorem e1 : ((K.CE 256 248 (248, 256)).run jumpIs SSt.init).isSome = true := by decide +kernel

def M : SlotMake S.toSlotJump where
  top := r 3
  j := 4
  msz := 256
  hid := 248
  mw := (248, 256)
  oRA := 244
  spo := 240
  al := 4
  ei := jumpIs
  er := ctr
  conv := ⟨rfl, rfl, rfl, rfl, rfl, rfl⟩
  sz := by decide
  make := by
    intro e σ c hc
    have h : ∀ q ∈ port.saved, ∀ i ∈ makeIs, i.dest ≠ some (.g q) := by simp only [port]; decide
    have hf : ∀ q ∈ port.fsaved, ∀ i ∈ makeIs, i.dest ≠ some (.f q) := by simp only [port]; decide
    have hfin : e Lab.l1 + (e Lab.finish - e Lab.l1) = e Lab.finish := by generalize e Lab.l1 = x; generalize e Lab.finish = y; grind
    obtain ⟨v, hm⟩ : ∃ v, (exec e port.make σ).1.mem = store (store (store (store (store σ.mem (c + off A 16) A.k (σ.gpr (r 5))) (c + off A 240) A.k (off A 0))
        (c + off A 8) (A.fb (f 0)) v) (c + off A 4) A.k (c + off A 248)) (c + off A 244) A.k (e Lab.finish) := by
      rw [← hfin, hc, BitVec.sub_eq_add_neg]; exact ⟨(σ.fpr fpscr).setWidth _, rfl⟩
    have hres : port.resM (exec e port.make σ).1 = c := by
      rw [hc, BitVec.sub_eq_add_neg]; rfl
    rw [hm]
    refine ⟨rfl, hres, rfl, fun q hq => ?_, fun q hq => ?_, fun y ha => ?_, ?_, ?_, ?_⟩
    · exact steps_dest e makeIs (.g q) (h q hq) σ
    · exact steps_dest e makeIs (.f q) (hf q hq) σ
    · by_cases h1 : InR y (c + off A 244) A.k
      · exact inR_off h1 (by decide) (by decide)
      by_cases h2 : InR y (c + off A 4) A.k
      · exact inR_off h2 (by decide) (by decide)
      by_cases h3 : InR y (c + off A 8) (A.fb (f 0))
      · exact inR_off h3 (by decide) (by decide)
      by_cases h4 : InR y (c + off A 240) A.k
      · exact inR_off h4 (by decide) (by decide)
      by_cases h5 : InR y (c + off A 16) A.k
      · exact inR_off h5 (by decide) (by decide)
      rw [store_out h1, store_out h2, store_out h3, store_out h4, store_out h5] at ha
      exact absurd rfl ha
    · show load _ (c + off A 16) A.k = _
      rw [load_store_off (by decide) (by decide) (by decide), load_store_off (by decide) (by decide) (by decide), load_store_off (by decide) (by decide) (by decide),
        load_store_off (by decide) (by decide) (by decide), load_store_same _ _ _ _ (by decide)]
      rfl
    · rw [load_store_same _ _ _ _ (by decide)]
      rfl
    · show load _ (c + off A 4) A.k = c + off A 248
      rw [load_store_off (by decide) (by decide) (by decide), load_store_same _ _ _ _ (by decide)]
  erun _ _ _ _ := rfl
  e1 := e1
  pc := by decide +kernel
  sp := by decide +kernel
  ra := by decide +kernel
  w := by decide +kernel
  ein e τ s hth hr := by
    obtain ⟨z, hz⟩ : ∃ z, z = (K.CE 256 248 (248, 256)).fin jumpIs e1 := ⟨_, rfl⟩
    have hr : Rel (K.CE 256 248 (248, 256)) (K.I e τ) z s := by rw [hz]; exact hr
    have h1 : z.gpr (r 3) = ⟨.ld 1 4, 0#_⟩ := by rw [hz]; decide +kernel
    have h2 : s.gpr (r 3) = τ.gpr (r 4) + off A 248 := by rw [hr.reg h1, SlotCfg.sv_ld]; exact hth rfl
    have h3 : z.valid 1 = true := by rw [hz]; decide +kernel
    have w1 : load s.mem (τ.gpr (r 4) + off A 248) A.k = _ := hr.word (i := 1) (o := 248) (v := ⟨.reg K.sp, -off A K.fr⟩) h3 (by decide) (by rw [hz]; decide +kernel)
    have w2 : load s.mem (τ.gpr (r 4) + off A 252) A.k = _ := hr.word (i := 1) (o := 252) (v := ⟨.reg (r 5), 0#_⟩) h3 (by decide) (by rw [hz]; decide +kernel)
    constructor
    · show load s.mem (s.gpr (r 3)) A.k = _
      rw [h2, w1]; exact SlotCfg.sv_own e τ
    · show load s.mem (s.gpr (r 3) + off A 4) A.k = _
      rw [h2, add_off_off, w2]; exact SlotCfg.sv_reg _ _

/-- **C38**, 32 bit Linux, switching -/
theorem C38_ppc32_jump : port.JumpSpec := S.jumpSpec
/-- **C38**, 32 bit Linux, on-top calls: control goes to `ontop_fcontext_tail`, as if it had been called in place of the suspended call -/
theorem C38_ppc32_ontop : port.OntopSpecTo fun e _ => e Lab.tail := by
  have h := S.ontopSpecTo
  intro e σ τ m h1 h2 h3
  obtain ⟨t1, t2⟩ := h e σ τ m h1 h2 h3
  exact ⟨t1.trans (BitVec.add_zero _), t2⟩
/-- **C38**, 32 bit Linux, on-top calls: the function to be executed is the fourth argument of `ontop_fcontext_tail` -/
theorem C38_ppc32_ontop_fn (e : Env A) (τ : St A) : (exec e port.ontop τ).1.gpr (r 6) = port.argFn τ :=
  steps_dest e ontopIs (.g (r 6)) (by decide) τ
/-- **C38**, 32 bit Linux, new contexts -/
theorem C38_ppc32_make : port.MakeSpec := M.makeSpec

/-- The hypotheses of `C38_ppc32_jump` and `C38_ppc32_ontop` can be met. -/
example (e : Env A) : ∃ σ τ m, port.Left e σ m ∧ port.Intact σ m τ ∧ port.argF τ = port.fctx σ ∧ σ.gpr (r 14) ≠ τ.gpr (r 14) := by
  obtain ⟨σ, τ, m, h1, h2, h3, h4⟩ := S.inhabited e (.inl rfl) (by decide) (by decide) (by decide) (by decide) (by decide)
  exact ⟨σ, τ, m, h1, h2, h3, h4 _ (by decide) (by decide) (by decide)⟩

/-- The hypotheses of `C38_ppc32_make` can be met. -/
example (e : Env A) := M.inhabited e (.inl rfl) (by decide) (by decide) rfl (by decide) (by decide) (by decide) (by decide)

end Verif.Asm.Ppc32
