import Verif.Asm.Arm64PeCode
import Verif.Asm.Arm64PeMasmCode
import Verif.Asm.RegSym

/-! # ARM64 Windows: the switching routines (C63), and the stack pointer `ontop_fcontext` gets wrong -/

namespace Verif.Asm.Arm64Pe

/-- registers and frame layout -/
def K : RCfg A where
  sp := sp
  to := x 0
  d := x 1
  fn := x 2
  ra := x 30
  fr := 0xd0
  N := 0xd0
  oPC := 0xc0
  LG := [(x 19, 0x40), (x 20, 0x48), (x 21, 0x50), (x 22, 0x58), (x 23, 0x60), (x 24, 0x68), (x 25, 0x70), (x 26, 0x78), (x 27, 0x80), (x 28, 0x88), (x 29, 0x90),
    (x 30, 0x98)]
  LF := [(d 8, 0), (d 9, 8), (d 10, 0x10), (d 11, 0x18), (d 12, 0x20), (d 13, 0x28), (d 14, 0x30), (d 15, 0x38), (tibBase, 0xa0), (tibLimit, 0xa8),
    (tibDealloc, 0xb0), (tibFiber, 0xb8)]
  wd f := match f with | .d _ => false | _ => true

/-- Windows on ARM64: arguments in x0, x1, x2, a `transfer_t` in x0, x1; return address in x30; callee-saved x19-x29, sp, the low halves of v8-v15; the fields of the
thread environment block that describe the stack belong to the context; sp is a multiple of 16. -/
def port : Port A where
  jump := jump
  ontop := ontop
  make := make
  tramp := some (Lab.trampoline, tramp)
  finish := Lab.finish
  sp := sp
  saved := [x 19, x 20, x 21, x 22, x 23, x 24, x 25, x 26, x 27, x 28, x 29]
  fsaved := [d 8, d 9, d 10, d 11, d 12, d 13, d 14, d 15, tibBase, tibLimit, tibDealloc, tibFiber]
  ra s := s.gpr (x 30)
  spRet s := s.gpr sp
  argF s := s.gpr (x 0)
  argD s := s.gpr (x 1)
  argFn s := s.gpr (x 2)
  slot _ _ := False
  resF _ τ := τ.gpr (x 0)
  resD _ τ := τ.gpr (x 1)
  inF s := s.gpr (x 0)
  inD s := s.gpr (x 1)
  oinF s := s.gpr (x 0)
  oinD s := s.gpr (x 1)
  fctx s := s.gpr sp - off A 0xd0
  frame := 0xd0
  keep := 0xd0
  tslot _ _ := False
  oarea _ _ := False
  ok _ := True
  argTop s := s.gpr (x 0)
  argMFn s := s.gpr (x 2)
  resM s := s.gpr (x 0)
  mspRet s := s.gpr sp
  mscratch := 0
  mkeep := 0xd0
  mslot c y := InR y (c + off A 0xc0) 0x10
  aligned w := w.toNat % 2 ^ 4 = 0

/-! ## Proofs -/

theorem wf : K.Wf := ⟨by decide, by decide, by decide, by decide, fun _ => rfl, by decide⟩
theorem sj : ∃ h, RCfg.SaveOk K ((K.C 0 (0, 0)).fin (jumpIs.take 30) h) := ⟨by decide +kernel, by decide +kernel, by decide +kernel, by decide +kernel, by decide +kernel⟩
theorem so : ∃ h, RCfg.SaveOk K ((K.C 0 (0, 0)).fin (ontopIs.take 30) h) := ⟨by decide +kernel, by decide +kernel, by decide +kernel, by decide +kernel, by decide +kernel⟩
theorem j1 : ((K.C K.N (0, 0)).run jumpIs SSt.init).isSome = true := by decide +kernel
theorem o1 : ((K.C K.N (0, 0)).run ontopIs SSt.init).isSome = true := by decide +kernel
theorem j2 : RCfg.RestoreOk K K.fr ((K.C K.N (0, 0)).fin jumpIs j1) := ⟨by decide +kernel, by decide +kernel, by decide +kernel, by decide +kernel⟩
theorem o2 : RCfg.RestoreOk K 0xc0 ((K.C K.N (0, 0)).fin ontopIs o1) := ⟨by decide +kernel, by decide +kernel, by decide +kernel, by decide +kernel⟩
theorem jpc : ((K.C K.N (0, 0)).fin jumpIs j1).gpr (x 4) = ⟨.ld 1 0xc0, 0#_⟩ := by decide +kernel
theorem opc : ((K.C K.N (0, 0)).fin ontopIs o1).gpr (x 2) = ⟨.reg (x 2), 0#_⟩ := by decide +kernel
theorem jr0 : ((K.C K.N (0, 0)).fin jumpIs j1).gpr (x 0) = ⟨.reg K.sp, -off A K.fr⟩ := by decide +kernel
theorem jr1 : ((K.C K.N (0, 0)).fin jumpIs j1).gpr (x 1) = ⟨.reg (x 1), 0#_⟩ := by decide +kernel
theorem or0 : ((K.C K.N (0, 0)).fin ontopIs o1).gpr (x 0) = ⟨.reg K.sp, -off A K.fr⟩ := by decide +kernel
theorem or1 : ((K.C K.N (0, 0)).fin ontopIs o1).gpr (x 1) = ⟨.reg (x 1), 0#_⟩ := by decide +kernel

def S : SymPort port where
  K := K
  wf := wf
  ji := jumpIs
  oi := ontopIs
  jr := x 4
  or := x 2
  nj := 30
  no := 30
  jeq := rfl
  oeq := rfl
  pj := by decide
  po := by decide
  sj := sj
  so := so
  j1 := j1
  o1 := o1
  j2 := j2
  osp := 0xc0
  o2 := o2
  jpc := jpc
  opc := opc
  r0 := x 0
  r1 := x 1
  p0 := x 0
  p1 := x 1
  jr0 := jr0
  jr1 := jr1
  or0 := or0
  or1 := or1
  conv := ⟨rfl, rfl, rfl, rfl, rfl, rfl, rfl, rfl, rfl, rfl, rfl, rfl⟩
  res := ⟨rfl, rfl, rfl, rfl, rfl⟩
  sav := by decide

theorem e1 : ((K.C 0xd0 (0xc0, 0xd0)).run (jumpIs ++ trampIs) SSt.init).isSome = true := by decide +kernel
theorem ej1 : ((K.C 0xd0 (0xc0, 0xd0)).run jumpIs SSt.init).isSome = true := by decide +kernel
theorem ejpc : ((K.C 0xd0 (0xc0, 0xd0)).fin jumpIs ej1).gpr (x 4) = ⟨.ld 1 0xc0, 0#_⟩ := by decide +kernel
theorem epc : ((K.C 0xd0 (0xc0, 0xd0)).fin (jumpIs ++ trampIs) e1).gpr (x 19) = ⟨.ld 1 0x40, 0#_⟩ := by decide +kernel
theorem esp : ((K.C 0xd0 (0xc0, 0xd0)).fin (jumpIs ++ trampIs) e1).gpr sp = ⟨.reg (x 0), off A 0xc0⟩ := by decide +kernel
theorem era : ((K.C 0xd0 (0xc0, 0xd0)).fin (jumpIs ++ trampIs) e1).gpr (x 30) = ⟨.lab Lab.finish, 0#_⟩ := by decide +kernel
theorem ew : ∀ y ∈ ((K.C 0xd0 (0xc0, 0xd0)).fin (jumpIs ++ trampIs) e1).log, y.1 = 0 ∨ y.1 = 1 := by decide +kernel
theorem etib : ∀ y ∈ [(tibBase, 0xa0), (tibLimit, 0xa8), (tibDealloc, 0xb0), (tibFiber, 0xb8)],
    ((K.C 0xd0 (0xc0, 0xd0)).fin (jumpIs ++ trampIs) e1).fpr y.1 = .ofG ⟨.ld 1 y.2, 0#_⟩ := by decide +kernel

theorem mrun : ((CMake (x 0) 4 0xd0).run makeIs SSt.init).isSome = true := by decide +kernel
/-- contents of the data of a new context -/
def made : List (Nat × Sv A) := [(0x40, ⟨.reg (x 2), 0#_⟩), (0xc0, ⟨.lab Lab.trampoline, 0#_⟩), (0x98, ⟨.lab Lab.finish, 0#_⟩), (0xa0, ⟨.reg (x 0), 0#_⟩),
  (0xa8, ⟨.sub (x 0) (x 1), 0#_⟩), (0xb0, ⟨.sub (x 0) (x 1), 0#_⟩), (0xb8, ⟨.zero, 0#_⟩)]
theorem mv : ((CMake (x 0) 4 0xd0).fin makeIs mrun).valid 0 = true := by decide +kernel
theorem mw : ∀ y ∈ made, look 0 y.1 A.k ((CMake (x 0) 4 0xd0).fin makeIs mrun).log = some (some (.w y.2)) := by decide +kernel
theorem mw0 : ∀ y ∈ ((CMake (x 0) 4 0xd0).fin makeIs mrun).log, y.1 = 0 := by decide +kernel
theorem mx0 : ((CMake (x 0) 4 0xd0).fin makeIs mrun).gpr (x 0) = ⟨.msk (x 0) (mask A 4), -off A 0xd0⟩ := by decide +kernel

theorem make_facts (e : Env A) (σ : St A) (c : A.W) (hc : c = (σ.gpr (x 0) &&& mask A 4) - off A 0xd0) :
    (exec e make σ).1.gpr (x 0) = c ∧ (∀ a, (exec e make σ).1.mem a ≠ σ.mem a → InR a c 0xd0) ∧
    ∀ o v, (o, v) ∈ made → load (exec e make σ).1.mem (c + off A o) A.k = (IMake e σ c).sv v := by
  have hr := fin_rel (IMake_ok (by decide) e σ c hc) makeIs mrun
  obtain ⟨s, hs⟩ : ∃ s, s = steps (IMake e σ c).e makeIs (IMake e σ c).σ := ⟨_, rfl⟩
  have hx : (exec e make σ).1 = s := by rw [hs]; rfl
  rw [← hs] at hr
  rw [hx]
  refine ⟨?_, ?_, ?_⟩
  · rw [hr.reg mx0, hc, BitVec.sub_eq_add_neg]; rfl
  · intro a ha
    obtain ⟨i, ⟨y, hy, rfl⟩, h2⟩ := hr.frame a ha
    rw [mw0 y hy] at h2
    have h2 : InR a (c + off A 0) 0xd0 := h2
    rwa [show c + off A 0 = c from BitVec.add_zero _] at h2
  · intro o v h
    have ho : ∀ y ∈ made, y.1 + A.k ≤ 0xd0 := by decide
    exact hr.word (i := 0) (o := o) (v := v) mv (ho _ h) (mw _ h)

theorem mstep30 (e : Env A) (σ : St A) : (steps e makeIs σ).gpr (x 30) = σ.gpr (x 30) := steps_dest e makeIs (.g (x 30)) (by decide +kernel) σ
theorem mstepsp (e : Env A) (σ : St A) : (steps e makeIs σ).gpr sp = σ.gpr sp := steps_dest e makeIs (.g sp) (by decide +kernel) σ

theorem mret (e : Env A) (σ : St A) : (exec e port.make σ).2 = σ.gpr (x 30) := by
  have h : exec e port.make σ = (steps e makeIs σ, (steps e makeIs σ).gpr (x 30)) := rfl
  rw [h, mstep30]

def M : SymMake S where
  top := x 0
  j := 4
  msz := 0xd0
  mw := (0xc0, 0xd0)
  oFn := 0x40
  oRA := 0x98
  spo := 0xc0
  al := 4
  ti := trampIs
  er := x 19
  conv := ⟨rfl, rfl, rfl, rfl, rfl⟩
  sz := by decide
  make := by
    intro e σ c hc
    have h : ∀ q ∈ port.saved, ∀ i ∈ makeIs, i.dest ≠ some (.g q) := by simp only [port]; decide
    have hf : ∀ q ∈ port.fsaved, ∀ i ∈ makeIs, i.dest ≠ some (.f q) := by simp only [port]; decide
    obtain ⟨m1, m2, m3⟩ := make_facts e σ c hc
    refine ⟨?_, m1, ?_, fun q hq => ?_, fun q hq => ?_, m2, ?_, ?_, ?_⟩
    · exact mret e σ
    · exact mstepsp e σ
    · exact steps_dest e makeIs (.g q) (h q hq) σ
    · exact steps_dest e makeIs (.f q) (hf q hq) σ
    · exact (m3 0x40 ⟨.reg (x 2), 0#_⟩ (by simp [made])).trans (BitVec.add_zero _)
    · exact (m3 0x98 ⟨.lab Lab.finish, 0#_⟩ (by simp [made])).trans (BitVec.add_zero _)
    · intro l q hq
      cases hq
      exact (m3 0xc0 ⟨.lab Lab.trampoline, 0#_⟩ (by simp [made])).trans (BitVec.add_zero _)
  enter e τ := by
    show exec e tramp (exec e jump τ).1 = _
    rw [steps_append]; rfl
  e1 := e1
  j1 := ej1
  jpc := ejpc
  pc := epc
  sp := esp
  ra := .inr era
  w := ew
  ein e τ s hr := by
    have hr : Rel (K.C 0xd0 (0xc0, 0xd0)) (K.I e τ) ((K.C 0xd0 (0xc0, 0xd0)).fin (jumpIs ++ trampIs) e1) s := hr
    have h1 : ((K.C 0xd0 (0xc0, 0xd0)).fin (jumpIs ++ trampIs) e1).gpr (x 0) = ⟨.reg K.sp, -off A K.fr⟩ := by decide +kernel
    have h2 : ((K.C 0xd0 (0xc0, 0xd0)).fin (jumpIs ++ trampIs) e1).gpr (x 1) = ⟨.reg (x 1), 0#_⟩ := by decide +kernel
    exact ⟨(hr.reg h1).trans (RCfg.sv_own e τ), (hr.reg h2).trans (SlotCfg.sv_reg _ _)⟩

/-- **C63**, switching -/
theorem C63_arm64_pe_jump : port.JumpSpec := S.jumpSpec
/-- **C63**, new contexts -/
theorem C63_arm64_pe_make : port.MakeSpec := M.makeSpec

/-- **C63**, on-top calls: everything `OntopSpec` demands, except that the stack pointer of the on-top function, and therefore (see
`C63_arm64_pe_ontop_return`) that of the suspended context after its return, is 16 bytes lower than it was in the suspended call `σ`. -/
theorem C63_arm64_pe_ontop_low {e : Env A} {σ τ : St A} {m : Mem A} (hl : port.Left e σ m) (hi : port.Intact σ m τ) (ha : port.argF τ = port.fctx σ) :
    (exec e port.ontop τ).2 = port.argFn τ ∧ (exec e port.ontop τ).1.gpr sp = σ.gpr sp - off A 0x10 ∧ port.ra (exec e port.ontop τ).1 = port.ra σ ∧
    (∀ r ∈ port.saved, (exec e port.ontop τ).1.gpr r = σ.gpr r) ∧ (∀ f ∈ port.fsaved, (exec e port.ontop τ).1.fpr f = σ.fpr f) ∧
    port.oinF (exec e port.ontop τ).1 = port.fctx τ ∧ port.oinD (exec e port.ontop τ).1 = port.argD τ ∧
    ∀ a, (exec e port.ontop τ).1.mem a ≠ τ.mem a → InR a (port.fctx τ) port.frame := by
  obtain ⟨f1, f2, f3, f4, f5, f6, f7, f8⟩ := S.ontop_facts hl hi ha
  refine ⟨f1.trans (BitVec.add_zero _), f2.trans ?_, f3, f4, f5, f6, f7, f8⟩
  show σ.gpr sp - off A (0x10 + 0xc0) + off A 0xc0 = _
  have : off A (0x10 + 0xc0) = off A 0x10 + off A 0xc0 := rfl
  rw [this]; generalize off A 0x10 = y; generalize off A 0xc0 = z; grind

/-- **C63**: a function that is entered by an on-top call and returns as the ABI demands resumes the suspended context after its call, with all its registers, but with a
stack pointer that is 16 bytes too low. -/
theorem C63_arm64_pe_ontop_return {e : Env A} {σ τ τ' : St A} {m : Mem A} {pc : A.W} (hl : port.Left e σ m) (hi : port.Intact σ m τ) (ha : port.argF τ = port.fctx σ)
    (hr : port.Returned (exec e port.ontop τ).1 τ' pc) : pc = port.ra σ ∧ τ'.gpr sp = σ.gpr sp - off A 0x10 ∧ (∀ r ∈ port.saved, τ'.gpr r = σ.gpr r) ∧
    ∀ f ∈ port.fsaved, τ'.fpr f = σ.fpr f := by
  obtain ⟨f1, f2, f3, f4, f5, -⟩ := C63_arm64_pe_ontop_low hl hi ha
  exact ⟨hr.pc.trans f3, hr.sp.trans f2, fun r h => (hr.saved r h).trans (f4 r h), fun r h => (hr.fsaved r h).trans (f5 r h)⟩

/-- The hypotheses of `C63_arm64_pe_jump` and the theorems on on-top calls can be met. -/
theorem inhabited (e : Env A) : ∃ σ τ m, port.Left e σ m ∧ port.Intact σ m τ ∧ port.argF τ = port.fctx σ ∧ σ.gpr (x 19) ≠ τ.gpr (x 19) := by
  obtain ⟨σ, τ, m, h1, h2, h3, h4⟩ := S.inhabited e (.inr rfl) (by decide) (by decide) (by decide)
  exact ⟨σ, τ, m, h1, h2, h3, h4 _ (by decide) (by decide)⟩

/-- The hypotheses of `C63_arm64_pe_make` can be met. -/
example (e : Env A) := M.inhabited e (.inr rfl) (by decide) (by decide) rfl (by decide) (by decide) (by decide)

/-- **C63**: therefore `ontop_fcontext` does not meet its specification. -/
theorem C63_arm64_pe_ontop_violated : ¬ port.OntopSpec := by
  intro h
  obtain ⟨e, -⟩ : ∃ e : Env A, e = fun _ => 0#_ := ⟨_, rfl⟩
  obtain ⟨σ, τ, m, h1, h2, h3, -⟩ := inhabited e
  have a := (h e σ τ m h1 h2 h3).2.1.spRet
  have b := (C63_arm64_pe_ontop_low h1 h2 h3).2.1
  have a : (exec e port.ontop τ).1.gpr sp = σ.gpr sp := a
  rw [a] at b
  have c : ∀ v : BitVec 64, v = v - 0x10#64 → False := by intro v hv; grind
  exact c _ b

/-- **C63**: when the function of a new context is entered, the thread environment block describes exactly the stack given to `make_fcontext`: base `top`, limit and
deallocation stack `top - size`, no fiber data. -/
theorem C63_arm64_pe_first_activation (e : Env A) (σ τ : St A) (c : A.W) (hc : c = port.resM (exec e port.make σ).1)
    (ha : port.argF τ = c) (hmem : ∀ a, InR a c port.mkeep → τ.mem a = (exec e port.make σ).1.mem a) (hdj : ∀ a, InR a c port.mkeep → ¬ InR a (port.fctx τ) port.frame) :
    (port.enter e τ).1.fpr tibBase = σ.gpr (x 0) ∧ (port.enter e τ).1.fpr tibLimit = σ.gpr (x 0) - σ.gpr (x 1) ∧
    (port.enter e τ).1.fpr tibDealloc = σ.gpr (x 0) - σ.gpr (x 1) ∧ (port.enter e τ).1.fpr tibFiber = 0#_ := by
  have hc : c = (σ.gpr (x 0) &&& mask A 4) - off A 0xd0 := hc.trans (make_facts e σ _ rfl).1
  obtain ⟨-, -, m3⟩ := make_facts e σ c hc
  obtain ⟨s, h1, hr, ld⟩ := M.entry e σ τ c hc ha hmem hdj
  have hr : Rel (K.C 0xd0 (0xc0, 0xd0)) (K.I e τ) ((K.C 0xd0 (0xc0, 0xd0)).fin (jumpIs ++ trampIs) e1) s := hr
  rw [h1]
  have key : ∀ y ∈ [(tibBase, 0xa0), (tibLimit, 0xa8), (tibDealloc, 0xb0), (tibFiber, 0xb8)], ∀ v, (y.2, v) ∈ made →
      s.fpr y.1 = ((IMake e σ c).sv v).setWidth _ := by
    intro y hy v hv
    have ho : ∀ y ∈ made, y.1 + A.k ≤ 0xd0 := by decide
    have h5 : (K.I e τ).sv ⟨.ld 1 y.2, 0#_⟩ = (IMake e σ c).sv v := (ld y.2 (ho _ hv)).trans (m3 _ _ hv)
    rw [hr.fpr, etib y hy, ← h5]
    rfl
  refine ⟨?_, ?_, ?_, ?_⟩
  · exact (key (tibBase, 0xa0) (by simp) ⟨.reg (x 0), 0#_⟩ (by simp [made])).trans ((BitVec.setWidth_eq _).trans (BitVec.add_zero _))
  · exact (key (tibLimit, 0xa8) (by simp) ⟨.sub (x 0) (x 1), 0#_⟩ (by simp [made])).trans ((BitVec.setWidth_eq _).trans (BitVec.add_zero _))
  · exact (key (tibDealloc, 0xb0) (by simp) ⟨.sub (x 0) (x 1), 0#_⟩ (by simp [made])).trans ((BitVec.setWidth_eq _).trans (BitVec.add_zero _))
  · exact (key (tibFiber, 0xb8) (by simp) ⟨.zero, 0#_⟩ (by simp [made])).trans ((BitVec.setWidth_eq _).trans (BitVec.add_zero _))

/-- **C63**: the routines for armasm consist of the same instructions. -/
theorem C63_arm64_pe_same : Arm64PeMasm.jump = jump ∧ Arm64PeMasm.ontop = ontop ∧ Arm64PeMasm.make = make ∧ Arm64PeMasm.tramp = tramp := ⟨rfl, rfl, rfl, rfl⟩

end Verif.Asm.Arm64Pe
