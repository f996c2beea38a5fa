import Verif.Asm.Ppc32bCode
import Verif.Asm.RegSym

/-! # PowerPC 32 SysV (other than Linux): the switching routines meet their specification (C38) -/

namespace Verif.Asm.Ppc32b

/-- registers and frame layout; the frame includes the word of the caller's frame in which a callee saves the link register -/
def K : RCfg A where
  sp := r 1
  to := r 3
  d := r 4
  fn := r 5
  ra := lr
  fr := 240
  N := 248
  oPC := 16
  LG := [(cr, 20), (r 14, 24), (r 15, 28), (r 16, 32), (r 17, 36), (r 18, 40), (r 19, 44), (r 20, 48), (r 21, 52), (r 22, 56), (r 23, 60), (r 24, 64), (r 25, 68),
    (r 26, 72), (r 27, 76), (r 28, 80), (r 29, 84), (r 30, 88), (r 31, 92), (lr, 244)]
  LF := [(fpscr, 8), (f 14, 96), (f 15, 104), (f 16, 112), (f 17, 120), (f 18, 128), (f 19, 136), (f 20, 144), (f 21, 152), (f 22, 160), (f 23, 168), (f 24, 176),
    (f 25, 184), (f 26, 192), (f 27, 200), (f 28, 208), (f 29, 216), (f 30, 224), (f 31, 232)]
  via q := if q = fpscr then f 0 else q
  opc := ⟨.lab Lab.tail, 0#_⟩

/-- SVR4 ABI: arguments in r3, r4, r5, r6; `transfer_t` is returned in r3:r4 but passed by reference; return address in the link register; callee-saved r1 (stack
pointer), r14-r31, f14-f31, fields of the condition register; additionally FPSCR is saved; r1 is a multiple of 16; the word at 4(r1) belongs to the callee.
The on-top entry point is `ontop_fcontext_tail(ignored, data, fn, from)`, which takes `transfer_t{from, data}` in r6 and r4. -/
def port : Port A where
  jump := jump
  ontop := ontop
  make := make
  tramp := some (Lab.trampoline, tramp)
  finish := Lab.finish
  sp := r 1
  saved := [cr, r 14, r 15, r 16, r 17, r 18, r 19, r 20, r 21, r 22, r 23, r 24, r 25, r 26, r 27, r 28, r 29, r 30, r 31]
  fsaved := [fpscr, f 14, f 15, f 16, f 17, f 18, f 19, f 20, f 21, f 22, f 23, f 24, f 25, f 26, f 27, f 28, f 29, f 30, f 31]
  ra s := s.gpr lr
  spRet s := s.gpr (r 1)
  argF s := s.gpr (r 3)
  argD s := s.gpr (r 4)
  argFn s := s.gpr (r 5)
  slot _ _ := False
  resF _ τ := τ.gpr (r 3)
  resD _ τ := τ.gpr (r 4)
  inF s := load s.mem (s.gpr (r 3)) A.k
  inD s := load s.mem (s.gpr (r 3) + off A 4) A.k
  oinF s := s.gpr (r 6)
  oinD s := s.gpr (r 4)
  fctx s := s.gpr (r 1) - off A 240
  frame := 248
  keep := 248
  tslot _ _ := False
  oarea _ _ := False
  ok _ := True
  argTop s := s.gpr (r 3)
  argMFn s := s.gpr (r 5)
  resM s := s.gpr (r 3)
  mspRet s := s.gpr (r 1)
  mscratch := 0
  mkeep := 256
  mslot c x := InR x (c + off A 248) 8
  aligned w := w.toNat % 2 ^ 4 = 0

/-! ## Proofs -/

theorem wf : K.Wf := ⟨by decide, by decide, by decide, by decide, fun _ => rfl, by decide⟩
theorem sj : ∃ h, RCfg.SaveOk K ((K.C 0 (0, 0)).fin (jumpIs.take 46) h) := ⟨by decide +kernel, by decide +kernel, by decide +kernel, by decide +kernel, by decide +kernel⟩
theorem so : ∃ h, RCfg.SaveOk K ((K.C 0 (0, 0)).fin (ontopIs.take 46) h) := ⟨by decide +kernel, by decide +kernel, by decide +kernel, by decide +kernel, by decide +kernel⟩
theorem j1 : ((K.C K.N (0, 0)).run jumpIs SSt.init).isSome = true := by decide +kernel
theorem o1 : ((K.C K.N (0, 0)).run ontopIs SSt.init).isSome = true := by decide +kernel
theorem j2 : RCfg.RestoreOk K K.fr ((K.C K.N (0, 0)).fin jumpIs j1) := ⟨by decide +kernel, by decide +kernel, by decide +kernel, by decide +kernel⟩
theorem o2 : RCfg.RestoreOk K K.fr ((K.C K.N (0, 0)).fin ontopIs o1) := ⟨by decide +kernel, by decide +kernel, by decide +kernel, by decide +kernel⟩
theorem jpc : ((K.C K.N (0, 0)).fin jumpIs j1).gpr ctr = ⟨.ld 1 16, 0#_⟩ := by decide +kernel
theorem opc : ((K.C K.N (0, 0)).fin ontopIs o1).gpr npc = ⟨.lab Lab.tail, 0#_⟩ := by decide +kernel
theorem jr0 : ((K.C K.N (0, 0)).fin jumpIs j1).gpr (r 3) = ⟨.reg K.sp, -off A K.fr⟩ := by decide +kernel
theorem jr1 : ((K.C K.N (0, 0)).fin jumpIs j1).gpr (r 4) = ⟨.reg (r 4), 0#_⟩ := by decide +kernel
theorem or0 : ((K.C K.N (0, 0)).fin ontopIs o1).gpr (r 6) = ⟨.reg K.sp, -off A K.fr⟩ := by decide +kernel
theorem or1 : ((K.C K.N (0, 0)).fin ontopIs o1).gpr (r 4) = ⟨.reg (r 4), 0#_⟩ := by decide +kernel

def S : SymPort port where
  K := K
  wf := wf
  ji := jumpIs
  oi := ontopIs
  jr := ctr
  or := npc
  nj := 46
  no := 46
  jeq := rfl
  oeq := rfl
  pj := by decide
  po := by decide
  sj := sj
  so := so
  j1 := j1
  o1 := o1
  j2 := j2
  o2 := o2
  jpc := jpc
  opc := opc
  r0 := r 3
  r1 := r 4
  p0 := r 6
  p1 := r 4
  jr0 := jr0
  jr1 := jr1
  or0 := or0
  or1 := or1
  conv := ⟨rfl, rfl, rfl, rfl, rfl, rfl, rfl, rfl, rfl, rfl, rfl, rfl⟩
  res := ⟨rfl, rfl, rfl, rfl, rfl⟩
  sav := by decide

/-- the first activation: switch, then trampoline -/
def ei : List (Instr A) := jumpIs ++ trampIs

theorem e1 : ((K.C 256 (248, 256)).run ei SSt.init).isSome = true := by decide +kernel
theorem ej1 : ((K.C 256 (248, 256)).run jumpIs SSt.init).isSome = true := by decide +kernel
theorem ejpc : ((K.C 256 (248, 256)).fin jumpIs ej1).gpr ctr = ⟨.ld 1 16, 0#_⟩ := by decide +kernel
theorem epc : ((K.C 256 (248, 256)).fin ei e1).gpr ctr = ⟨.ld 1 248, 0#_⟩ := by decide +kernel
theorem esp : ((K.C 256 (248, 256)).fin ei e1).gpr (r 1) = ⟨.reg (r 3), off A 240⟩ := by decide +kernel
theorem era : ((K.C 256 (248, 256)).fin ei e1).gpr lr = ⟨.ld 1 244, 0#_⟩ := by decide +kernel
theorem ew : ∀ x ∈ ((K.C 256 (248, 256)).fin ei e1).log, x.1 = 0 ∨ x.1 = 1 := by decide +kernel

def M : SymMake S where
  top := r 3
  j := 4
  msz := 256
  mw := (248, 256)
  oFn := 248
  oRA := 244
  spo := 240
  al := 4
  ti := trampIs
  er := ctr
  conv := ⟨rfl, rfl, rfl, rfl, rfl⟩
  sz := by decide
  make := by
    intro e σ c hc
    have h : ∀ q ∈ port.saved, ∀ i ∈ makeIs, i.dest ≠ some (.g q) := by simp only [port]; decide
    have hf : ∀ q ∈ port.fsaved, ∀ i ∈ makeIs, i.dest ≠ some (.f q) := by simp only [port]; decide
    have hfin : e Lab.l1 + (e Lab.finish - e Lab.l1) = e Lab.finish := by generalize e Lab.l1 = x; generalize e Lab.finish = y; grind
    have htr : e Lab.l1 + (e Lab.trampoline - e Lab.l1) = e Lab.trampoline := by generalize e Lab.l1 = x; generalize e Lab.trampoline = y; grind
    obtain ⟨v, hm⟩ : ∃ v, (exec e port.make σ).1.mem = store (store (store (store (store σ.mem (c + off A 248) A.k (σ.gpr (r 5))) (c + off A 240) A.k (off A 0))
        (c + off A 8) (A.fb (f 0)) v) (c + off A 16) A.k (e Lab.trampoline)) (c + off A 244) A.k (e Lab.finish) := by
      rw [← hfin, ← htr, hc, BitVec.sub_eq_add_neg]; exact ⟨(σ.fpr fpscr).setWidth _, rfl⟩
    have hres : port.resM (exec e port.make σ).1 = c := by
      rw [hc, BitVec.sub_eq_add_neg]; rfl
    rw [hm]
    refine ⟨rfl, hres, rfl, fun q hq => ?_, fun q hq => ?_, fun y ha => ?_, ?_, ?_, ?_⟩
    · exact steps_dest e makeIs (.g q) (h q hq) σ
    · exact steps_dest e makeIs (.f q) (hf q hq) σ
    · by_cases h1 : InR y (c + off A 244) A.k
      · exact inR_off h1 (by decide) (by decide)
      by_cases h2 : InR y (c + off A 16) A.k
      · exact inR_off h2 (by decide) (by decide)
      by_cases h3 : InR y (c + off A 8) (A.fb (f 0))
      · exact inR_off h3 (by decide) (by decide)
      by_cases h4 : InR y (c + off A 240) A.k
      · exact inR_off h4 (by decide) (by decide)
      by_cases h5 : InR y (c + off A 248) A.k
      · exact inR_off h5 (by decide) (by decide)
      rw [store_out h1, store_out h2, store_out h3, store_out h4, store_out h5] at ha
      exact absurd rfl ha
    · show load _ (c + off A 248) A.k = _
      rw [load_store_off (by decide) (by decide) (by decide), load_store_off (by decide) (by decide) (by decide), load_store_off (by decide) (by decide) (by decide),
        load_store_off (by decide) (by decide) (by decide), load_store_same _ _ _ _ (by decide)]
      rfl
    · rw [load_store_same _ _ _ _ (by decide)]
      rfl
    · intro l q h
      have hl : l = Lab.trampoline := (congrArg Prod.fst (Option.some.inj h)).symm
      show load _ (c + off A 16) A.k = _
      rw [load_store_off (by decide) (by decide) (by decide), load_store_same _ _ _ _ (by decide), hl]
  enter e τ := by
    show exec e tramp (steps e jumpIs τ) = (steps e (jumpIs ++ trampIs) τ, (steps e (jumpIs ++ trampIs) τ).gpr ctr)
    rw [steps_append]; rfl
  e1 := e1
  j1 := ej1
  jpc := ejpc
  pc := epc
  sp := esp
  ra := .inl era
  w := ew
  ein e τ s hr := by
    obtain ⟨z, hz⟩ : ∃ z, z = (K.C 256 (248, 256)).fin ei e1 := ⟨_, rfl⟩
    have hr : Rel (K.C 256 (248, 256)) (K.I e τ) z s := by rw [hz]; exact hr
    have h1 : z.gpr (r 3) = ⟨.reg (r 3), off A 248⟩ := by rw [hz]; decide +kernel
    have h2 : s.gpr (r 3) = τ.gpr (r 3) + off A 248 := hr.reg h1
    have h3 : z.valid 1 = true := by rw [hz]; decide +kernel
    have w1 : load s.mem (τ.gpr (r 3) + off A 248) A.k = _ := hr.word (i := 1) (o := 248) (v := ⟨.reg K.sp, -off A K.fr⟩) h3 (by decide) (by rw [hz]; decide +kernel)
    have w2 : load s.mem (τ.gpr (r 3) + off A 252) A.k = _ := hr.word (i := 1) (o := 252) (v := ⟨.reg (r 4), 0#_⟩) h3 (by decide) (by rw [hz]; decide +kernel)
    constructor
    · show load s.mem (s.gpr (r 3)) A.k = _
      rw [h2, w1]; exact RCfg.sv_own e τ
    · show load s.mem (s.gpr (r 3) + off A 4) A.k = _
      rw [h2, add_off_off, w2]; exact SlotCfg.sv_reg _ _

/-- **C38**, 32 bit (other than Linux), switching -/
theorem C38_ppc32b_jump : port.JumpSpec := S.jumpSpec
/-- **C38**, 32 bit (other than Linux), on-top calls: control goes to `ontop_fcontext_tail`, as if it had been called in place of the suspended call -/
theorem C38_ppc32b_ontop : port.OntopSpecTo fun e _ => e Lab.tail := by
  have h := S.ontopSpecTo rfl
  intro e σ τ m h1 h2 h3
  obtain ⟨t1, t2⟩ := h e σ τ m h1 h2 h3
  exact ⟨t1.trans (BitVec.add_zero _), t2⟩
/-- **C38**, 32 bit (other than Linux), on-top calls: the function to be executed is the third argument of `ontop_fcontext_tail` -/
theorem C38_ppc32b_ontop_fn (e : Env A) (τ : St A) : (exec e port.ontop τ).1.gpr (r 5) = port.argFn τ :=
  steps_dest e ontopIs (.g (r 5)) (by decide) τ
/-- **C38**, 32 bit (other than Linux), new contexts -/
theorem C38_ppc32b_make : port.MakeSpec := M.makeSpec

/-- The hypotheses of `C38_ppc32b_jump` and `C38_ppc32b_ontop` can be met. -/
example (e : Env A) : ∃ σ τ m, port.Left e σ m ∧ port.Intact σ m τ ∧ port.argF τ = port.fctx σ ∧ σ.gpr (r 14) ≠ τ.gpr (r 14) := by
  obtain ⟨σ, τ, m, h1, h2, h3, h4⟩ := S.inhabited e (.inl rfl) (by decide) (by decide) (by decide)
  exact ⟨σ, τ, m, h1, h2, h3, h4 _ (by decide) (by decide)⟩

/-- The hypotheses of `C38_ppc32b_make` can be met. -/
example (e : Env A) := M.inhabited e (.inl rfl) (by decide) (by decide) rfl (by decide) (by decide) (by decide)

end Verif.Asm.Ppc32b
