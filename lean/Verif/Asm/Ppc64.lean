import Verif.Asm.Ppc64Code
import Verif.Asm.RegSym

/-! # PowerPC 64 ELFv2: the switching routines meet their specification (C57), and the registers they lose -/

namespace Verif.Asm.Ppc64

/-- registers and frame layout -/
def K : RCfg A where
  sp := r 1
  to := r 3
  d := r 4
  fn := r 5
  ra := lr
  fr := 184
  N := 184
  oPC := 176
  LG := [(r 14, 8), (r 15, 16), (r 16, 24), (r 17, 32), (r 18, 40), (r 19, 48), (r 20, 56), (r 21, 64), (r 22, 72), (r 23, 80), (r 24, 88), (r 25, 96),
    (r 26, 104), (r 27, 112), (r 28, 120), (r 29, 128), (r 30, 136), (r 31, 144), (cr, 160), (lr, 168)]
  LF := []

/-- ELFv2 ABI: arguments and results in r3, r4, r5; return address in the link register; callee-saved r1 (stack pointer), r14-r31, fields of the condition register;
r1 is a multiple of 16; a function entered through a pointer expects its address in r12.  The ABI also makes f14-f31 (and v20-v31) callee-saved; they are not in
`fsaved`, see `C57_ppc64_loses_fprs`.  The TOC pointer r2 is not modelled: all callers of the (hidden) routines are in the module of the routines. -/
def port : Port A where
  jump := jump
  ontop := ontop
  make := make
  tramp := none
  finish := Lab.finish
  sp := r 1
  saved := [r 14, r 15, r 16, r 17, r 18, r 19, r 20, r 21, r 22, r 23, r 24, r 25, r 26, r 27, r 28, r 29, r 30, r 31, cr]
  fsaved := []
  ra s := s.gpr lr
  spRet s := s.gpr (r 1)
  argF s := s.gpr (r 3)
  argD s := s.gpr (r 4)
  argFn s := s.gpr (r 5)
  slot _ _ := False
  resF _ τ := τ.gpr (r 3)
  resD _ τ := τ.gpr (r 4)
  inF s := s.gpr (r 3)
  inD s := s.gpr (r 4)
  oinF s := s.gpr (r 3)
  oinD s := s.gpr (r 4)
  fctx s := s.gpr (r 1) - off A 184
  frame := 184
  keep := 184
  tslot _ _ := False
  oarea _ _ := False
  ok _ := True
  argTop s := s.gpr (r 3)
  argMFn s := s.gpr (r 5)
  resM s := s.gpr (r 3)
  mspRet s := s.gpr (r 1)
  mscratch := 0
  mkeep := 248
  mslot c x := InR x (c + off A 0) 0
  aligned w := w.toNat % 2 ^ 4 = 0

/-! ## Proofs -/

theorem wf : K.Wf := ⟨by decide, by decide, by decide, by decide, fun _ => rfl, by decide⟩
theorem sj : ∃ h, RCfg.SaveOk K ((K.C 0 (0, 0)).fin (jumpIs.take 25) h) := ⟨by decide +kernel, by decide +kernel, by decide +kernel, by decide +kernel, by decide +kernel⟩
theorem so : ∃ h, RCfg.SaveOk K ((K.C 0 (0, 0)).fin (ontopIs.take 25) h) := ⟨by decide +kernel, by decide +kernel, by decide +kernel, by decide +kernel, by decide +kernel⟩
theorem j1 : ((K.C K.N (0, 0)).run jumpIs SSt.init).isSome = true := by decide +kernel
theorem o1 : ((K.C K.N (0, 0)).run ontopIs SSt.init).isSome = true := by decide +kernel
theorem j2 : RCfg.RestoreOk K K.fr ((K.C K.N (0, 0)).fin jumpIs j1) := ⟨by decide +kernel, by decide +kernel, by decide +kernel, by decide +kernel⟩
theorem o2 : RCfg.RestoreOk K K.fr ((K.C K.N (0, 0)).fin ontopIs o1) := ⟨by decide +kernel, by decide +kernel, by decide +kernel, by decide +kernel⟩
theorem jpc : ((K.C K.N (0, 0)).fin jumpIs j1).gpr ctr = ⟨.ld 1 176, 0#_⟩ := by decide +kernel
theorem opc : ((K.C K.N (0, 0)).fin ontopIs o1).gpr ctr = ⟨.reg (r 5), 0#_⟩ := by decide +kernel
theorem jr0 : ((K.C K.N (0, 0)).fin jumpIs j1).gpr (r 3) = ⟨.reg K.sp, -off A K.fr⟩ := by decide +kernel
theorem jr1 : ((K.C K.N (0, 0)).fin jumpIs j1).gpr (r 4) = ⟨.reg (r 4), 0#_⟩ := by decide +kernel
theorem or0 : ((K.C K.N (0, 0)).fin ontopIs o1).gpr (r 3) = ⟨.reg K.sp, -off A K.fr⟩ := by decide +kernel
theorem or1 : ((K.C K.N (0, 0)).fin ontopIs o1).gpr (r 4) = ⟨.reg (r 4), 0#_⟩ := by decide +kernel

def S : SymPort port where
  K := K
  wf := wf
  ji := jumpIs
  oi := ontopIs
  jr := ctr
  or := ctr
  nj := 25
  no := 25
  jeq := rfl
  oeq := rfl
  pj := by decide
  po := by decide
  sj := sj
  so := so
  j1 := j1
  o1 := o1
  j2 := j2
  o2 := o2
  jpc := jpc
  opc := opc
  r0 := r 3
  r1 := r 4
  p0 := r 3
  p1 := r 4
  jr0 := jr0
  jr1 := jr1
  or0 := or0
  or1 := or1
  conv := ⟨rfl, rfl, rfl, rfl, rfl, rfl, rfl, rfl, rfl, rfl, rfl, rfl⟩
  res := ⟨rfl, rfl, rfl, rfl, rfl⟩
  sav := by decide

theorem e1 : ((K.C 248 (0, 0)).run (jumpIs ++ []) SSt.init).isSome = true := by decide +kernel
theorem ej1 : ((K.C 248 (0, 0)).run jumpIs SSt.init).isSome = true := by decide +kernel
theorem ejpc : ((K.C 248 (0, 0)).fin jumpIs ej1).gpr ctr = ⟨.ld 1 176, 0#_⟩ := by decide +kernel
theorem epc : ((K.C 248 (0, 0)).fin (jumpIs ++ []) e1).gpr ctr = ⟨.ld 1 176, 0#_⟩ := by decide +kernel
theorem esp : ((K.C 248 (0, 0)).fin (jumpIs ++ []) e1).gpr (r 1) = ⟨.reg (r 3), off A 184⟩ := by decide +kernel
theorem era : ((K.C 248 (0, 0)).fin (jumpIs ++ []) e1).gpr lr = ⟨.ld 1 168, 0#_⟩ := by decide +kernel
theorem ew : ∀ x ∈ ((K.C 248 (0, 0)).fin (jumpIs ++ []) e1).log, x.1 = 0 ∨ x.1 = 1 := by decide +kernel

def M : SymMake S where
  top := r 3
  j := 4
  msz := 248
  mw := (0, 0)
  oFn := 176
  oRA := 168
  spo := 184
  al := 4
  ti := []
  er := ctr
  conv := ⟨rfl, rfl, rfl, rfl, rfl⟩
  sz := by decide
  make := by
    intro e σ c hc
    have h : ∀ q ∈ port.saved, ∀ i ∈ makeIs, i.dest ≠ some (.g q) := by simp only [port]; decide
    have hfin : e Lab.l1 + (e Lab.finish - e Lab.l1) = e Lab.finish := by generalize e Lab.l1 = x; generalize e Lab.finish = y; grind
    have hm : (exec e port.make σ).1.mem = store (store (store σ.mem (c + off A 176) A.k (σ.gpr (r 5))) (c + off A 184) A.k (off A 0))
        (c + off A 168) A.k (e Lab.finish) := by
      rw [← hfin, hc, BitVec.sub_eq_add_neg]; rfl
    have hres : port.resM (exec e port.make σ).1 = c := by
      rw [hc, BitVec.sub_eq_add_neg]; rfl
    rw [hm]
    refine ⟨rfl, hres, rfl, fun q hq => ?_, fun q hq => ?_, fun y ha => ?_, ?_, ?_, ?_⟩
    · exact steps_dest e makeIs (.g q) (h q hq) σ
    · simp [port] at hq
    · by_cases h1 : InR y (c + off A 168) A.k
      · exact inR_off h1 (by decide) (by decide)
      by_cases h2 : InR y (c + off A 184) A.k
      · exact inR_off h2 (by decide) (by decide)
      by_cases h3 : InR y (c + off A 176) A.k
      · exact inR_off h3 (by decide) (by decide)
      rw [store_out h1, store_out h2, store_out h3] at ha
      exact absurd rfl ha
    · show load _ (c + off A 176) A.k = _
      rw [load_store_off (by decide) (by decide) (by decide), load_store_off (by decide) (by decide) (by decide), load_store_same _ _ _ _ (by decide)]
      rfl
    · rw [load_store_same _ _ _ _ (by decide)]
      rfl
    · intro l q h; cases h
  enter _ _ := by show exec _ _ _ = _; rw [List.append_nil]; rfl
  e1 := e1
  j1 := ej1
  jpc := ejpc
  pc := epc
  sp := esp
  ra := .inl era
  w := ew
  ein e τ s hr := by
    have hr : Rel (K.C 248 (0, 0)) (K.I e τ) ((K.C 248 (0, 0)).fin (jumpIs ++ []) e1) s := hr
    have h1 : ((K.C 248 (0, 0)).fin (jumpIs ++ []) e1).gpr (r 3) = ⟨.reg K.sp, -off A K.fr⟩ := by decide +kernel
    have h2 : ((K.C 248 (0, 0)).fin (jumpIs ++ []) e1).gpr (r 4) = ⟨.reg (r 4), 0#_⟩ := by decide +kernel
    exact ⟨(hr.reg h1).trans (RCfg.sv_own e τ), (hr.reg h2).trans (SlotCfg.sv_reg _ _)⟩

/-- **C38**, 64 bit, switching (without the floating point registers) -/
theorem C57_ppc64_jump : port.JumpSpec := S.jumpSpec
/-- **C38**, 64 bit, on-top calls (without the floating point registers) -/
theorem C57_ppc64_ontop : port.OntopSpec := S.ontopSpec rfl rfl
/-- **C38**, 64 bit, new contexts -/
theorem C57_ppc64_make : port.MakeSpec := M.makeSpec
/-- **C38**, 64 bit: an on-top function finds its own address in r12 -/
theorem C57_ppc64_ontop_r12 (e : Env A) (τ : St A) : (exec e port.ontop τ).1.gpr (r 12) = (exec e port.ontop τ).2 := by
  show (steps e ontopIs τ).gpr (r 12) = (steps e ontopIs τ).gpr ctr
  have h : ontopIs.drop 46 = [.mov ctr (r 5), .mov (r 12) (r 5), .mov (r 3) (r 7), .ld (r 0) (r 1) 0xa8, .mov lr (r 0), .addi (r 1) (r 1) (off A 0xb8)] := rfl
  rw [← List.take_append_drop 46 ontopIs, steps_append, h]
  generalize steps e (List.take 46 ontopIs) τ = s
  simp only [steps, step, setg_gpr]
  rfl
/-- **C38**, 64 bit: a new context's function finds its own address in r12 -/
theorem C57_ppc64_enter_r12 (e : Env A) (τ : St A) : (exec e port.jump τ).1.gpr (r 12) = (exec e port.jump τ).2 := by
  show (steps e jumpIs τ).gpr (r 12) = (steps e jumpIs τ).gpr ctr
  have h : jumpIs.drop 48 = [.ld (r 12) (r 1) 0xb0, .mov ctr (r 12), .addi (r 1) (r 1) (off A 0xb8), .mov (r 3) (r 6)] := rfl
  rw [← List.take_append_drop 48 jumpIs, steps_append, h]
  generalize steps e (List.take 48 jumpIs) τ = s
  have h0 : ∀ (s : St A) (v : A.W), (steps e [.mov ctr (r 12), .addi (r 1) (r 1) (off A 0xb8), .mov (r 3) (r 6)] (setg s (r 12) v)).gpr (r 12) =
      (steps e [.mov ctr (r 12), .addi (r 1) (r 1) (off A 0xb8), .mov (r 3) (r 6)] (setg s (r 12) v)).gpr ctr := fun s v => rfl
  exact h0 s _

/-- The hypotheses of `C57_ppc64_jump` and `C57_ppc64_ontop` can be met. -/
example (e : Env A) : ∃ σ τ m, port.Left e σ m ∧ port.Intact σ m τ ∧ port.argF τ = port.fctx σ ∧ σ.gpr (r 14) ≠ τ.gpr (r 14) := by
  obtain ⟨σ, τ, m, h1, h2, h3, h4⟩ := S.inhabited e (.inr rfl) (by decide) (by decide) (by decide)
  exact ⟨σ, τ, m, h1, h2, h3, h4 _ (by decide) (by decide)⟩

/-- The hypotheses of `C57_ppc64_make` can be met. -/
example (e : Env A) := M.inhabited e (.inr rfl) (by decide) (by decide) rfl (by decide) (by decide) (by decide)

/-- `port` with the floating point registers the ELFv2 ABI makes callee-saved -/
def portF : Port A := { port with
  fsaved := [f 14, f 15, f 16, f 17, f 18, f 19, f 20, f 21, f 22, f 23, f 24, f 25, f 26, f 27, f 28, f 29, f 30, f 31] }

/-- **C38**, 64 bit: the routines leave all floating point registers as they are, so a resumed context finds those of the resumer. -/
theorem C57_ppc64_loses_fprs (e : Env A) (τ : St A) (q : A.F) : (exec e port.jump τ).1.fpr q = τ.fpr q := by
  refine steps_dest e jumpIs (.f q) ?_ τ
  have h : ∀ i ∈ jumpIs, (match i.dest with | some (.f _) => false | _ => true) = true := by decide
  intro i hi hq
  have := h i hi
  rw [hq] at this
  cases this

/-- **C38**, 64 bit: therefore switching does not preserve the callee-saved floating point registers. -/
theorem C57_ppc64_fprs_violated : ¬ portF.JumpSpec := by
  intro h
  obtain ⟨e, -⟩ : ∃ e : Env A, e = fun _ => 0#_ := ⟨_, rfl⟩
  obtain ⟨σ, τ, m, h1, h2, h3, -⟩ := S.inhabited e (.inr rfl) (by decide) (by decide) (by decide)
  obtain ⟨τ', hτ'⟩ : ∃ τ' : St A, τ' = { τ with fpr := fun q => ~~~ σ.fpr q } := ⟨_, rfl⟩
  have i : portF.Intact σ m τ' := by
    rw [hτ']; exact ⟨trivial, trivial, h2.tslot, h2.slot, h2.mem, h2.frame⟩
  have a : portF.argF τ' = portF.fctx σ := by rw [hτ']; exact h3
  have := (h e σ τ' m h1 i a).1.fsaved (f 14) (by simp [portF])
  rw [show (exec e portF.jump τ').1.fpr (f 14) = τ'.fpr (f 14) from C57_ppc64_loses_fprs e τ' (f 14), hτ'] at this
  have h0 : ∀ x : BitVec 64, ~~~ x ≠ x := by
    intro x hx
    have h1 := congrArg (fun v : BitVec 64 => v.getLsbD 0) hx
    simp only [BitVec.getLsbD_not] at h1
    cases h2 : x.getLsbD 0 <;> rw [h2] at h1 <;> simp at h1
  exact h0 _ this

end Verif.Asm.Ppc64
