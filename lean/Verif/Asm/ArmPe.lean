import Verif.Asm.ArmPeCode
import Verif.Asm.RegSym

/-! # ARM (32 bit) Windows: the switching routines (C64), and what `ontop_fcontext` gets wrong -/

namespace Verif.Asm.ArmPe

/-- registers and frame layout -/
def K : SlotCfg A where
  sp := sp
  h := a 1
  to := a 2
  d := a 3
  fn := a 4
  ra := lr
  fr := 0x38
  N := 0x38
  oH := 0xc
  oPC := 0x34
  LG := [(v 1, 0x10), (v 2, 0x14), (v 3, 0x18), (v 4, 0x1c), (v 5, 0x20), (v 6, 0x24), (v 7, 0x28), (v 8, 0x2c), (lr, 0x30)]
  LF := [(tibBase, 8), (tibLimit, 4), (tibDealloc, 0)]
  wd f := match f with | .d _ => false | _ => true
  nz := false

/-- Windows on ARM: the address of the result object in a1 (r0), arguments in a2, a3, a4 (a1, a2, a3 if the function returns a word or nothing); return address in lr;
callee-saved v1-v8 (r4-r11), sp, and d8-d15, which are not in `fsaved`, see `C64_arm_pe_loses_fprs`; the fields of the thread information block that describe the stack
belong to the context; sp is a multiple of 8.  `ok`: see `SlotCfg.Ok` (frames and result objects do not overlap). -/
def port : Port A where
  jump := jump
  ontop := ontop
  make := make
  tramp := none
  finish := Lab.finish
  sp := sp
  saved := [v 1, v 2, v 3, v 4, v 5, v 6, v 7, v 8]
  fsaved := [tibBase, tibLimit, tibDealloc]
  ra s := s.gpr lr
  spRet s := s.gpr sp
  argF s := s.gpr (a 2)
  argD s := s.gpr (a 3)
  argFn s := s.gpr (a 4)
  slot s x := InR x (s.gpr (a 1)) 8
  resF σ τ := load τ.mem (σ.gpr (a 1)) A.k
  resD σ τ := load τ.mem (σ.gpr (a 1) + off A 4) A.k
  inF s := s.gpr (a 1)
  inD s := s.gpr (a 2)
  oinF s := s.gpr (a 2)
  oinD s := s.gpr (a 3)
  fctx s := s.gpr sp - off A 0x38
  frame := 0x38
  keep := 0x38
  tslot s x := InR x (load s.mem (s.gpr (a 2) + off A 0xc) A.k) 8
  oarea _ _ := False
  ok := K.Ok
  argTop s := s.gpr (a 1)
  argMFn s := s.gpr (a 3)
  resM s := s.gpr (a 1)
  mspRet s := s.gpr sp
  mscratch := 0
  mkeep := 0x48
  mslot c x := InR x (c + off A 0x38) 8
  aligned w := w.toNat % 2 ^ 3 = 0

/-! ## Proofs -/

theorem wf : K.Wf where
  w := by decide
  N := by decide
  tw := by decide
  oH := by decide
  oPC := by decide
  LG := by decide
  LF := by decide
  via _ := rfl
  wd := by decide

theorem jump_save : ∃ h, SlotCfg.SaveOk K ((K.C false).fin (jumpIs.take 47) h) :=
  ⟨by decide +kernel, by decide +kernel, by decide +kernel, by decide +kernel, by decide +kernel, by decide +kernel⟩
theorem ontop_save : ∃ h, SlotCfg.SaveOk K ((K.C false).fin (ontopIs.take 48) h) :=
  ⟨by decide +kernel, by decide +kernel, by decide +kernel, by decide +kernel, by decide +kernel, by decide +kernel⟩

theorem j1 : ((K.C true).run jumpIs SSt.init).isSome = true := by decide +kernel
theorem o1 : ((K.C true).run ontopIs SSt.init).isSome = true := by decide +kernel
theorem j2 : SlotCfg.JumpOk K pc ((K.C true).fin jumpIs j1) :=
  ⟨⟨by decide +kernel, by decide +kernel, by decide +kernel, by decide +kernel⟩, by decide +kernel, by decide +kernel, by decide +kernel, by decide +kernel⟩

def S : SlotJump port where
  K := K
  wf := wf
  ji := jumpIs
  jr := pc
  jrun _ _ _ _ := rfl
  left := SlotCfg.left_of wf rfl rfl 47 48 rfl rfl rfl jump_save ontop_save
  j1 := j1
  j2 := j2
  conv := ⟨rfl, rfl, rfl, rfl, rfl, rfl, rfl, rfl, rfl, rfl, rfl, rfl⟩
  res := ⟨rfl, rfl⟩
  sav := by decide
  also _ _ _ _ _ _ := trivial

theorem e1 : ((K.CE 0x48 0x38 (0x38, 0x40)).run jumpIs SSt.init).isSome = true := by decide +kernel
theorem epc : ((K.CE 0x48 0x38 (0x38, 0x40)).fin jumpIs e1).gpr pc = ⟨.ld 1 0x34, 0#_⟩ := by decide +kernel
theorem esp : ((K.CE 0x48 0x38 (0x38, 0x40)).fin jumpIs e1).gpr sp = ⟨.reg (a 2), off A 0x38⟩ := by decide +kernel
theorem era : ((K.CE 0x48 0x38 (0x38, 0x40)).fin jumpIs e1).gpr lr = ⟨.ld 1 0x30, 0#_⟩ := by decide +kernel
theorem ew : ∀ y ∈ ((K.CE 0x48 0x38 (0x38, 0x40)).fin jumpIs e1).log, y.1 = 0 ∨ y.1 = 1 := by decide +kernel
theorem etib : ∀ y ∈ [(tibBase, 8), (tibLimit, 4), (tibDealloc, 0)], ((K.CE 0x48 0x38 (0x38, 0x40)).fin jumpIs e1).fpr y.1 = .ofG ⟨.ld 1 y.2, 0#_⟩ := by decide +kernel

theorem mrun : ((CMake (a 1) 4 0x48).run makeIs SSt.init).isSome = true := by decide +kernel
/-- contents of the data of a new context -/
def made : List (Nat × Sv A) := [(0x34, ⟨.reg (a 3), 0#_⟩), (0xc, ⟨.msk (a 1) (mask A 4), -off A 0x48 + off A 0x38⟩), (0x30, ⟨.lab Lab.finish, 0#_⟩),
  (8, ⟨.reg (a 1), 0#_⟩), (4, ⟨.sub (a 1) (a 2), 0#_⟩), (0, ⟨.sub (a 1) (a 2), 0#_⟩)]
theorem mv : ((CMake (a 1) 4 0x48).fin makeIs mrun).valid 0 = true := by decide +kernel
theorem mw : ∀ y ∈ made, look 0 y.1 A.k ((CMake (a 1) 4 0x48).fin makeIs mrun).log = some (some (.w y.2)) := by decide +kernel
theorem mw0 : ∀ y ∈ ((CMake (a 1) 4 0x48).fin makeIs mrun).log, y.1 = 0 := by decide +kernel
theorem mx0 : ((CMake (a 1) 4 0x48).fin makeIs mrun).gpr (a 1) = ⟨.msk (a 1) (mask A 4), -off A 0x48⟩ := by decide +kernel

theorem make_facts (e : Env A) (σ : St A) (c : A.W) (hc : c = (σ.gpr (a 1) &&& mask A 4) - off A 0x48) :
    (exec e make σ).1.gpr (a 1) = c ∧ (∀ x, (exec e make σ).1.mem x ≠ σ.mem x → InR x c 0x48) ∧
    ∀ o v, (o, v) ∈ made → load (exec e make σ).1.mem (c + off A o) A.k = (IMake e σ c).sv v := by
  have hr := fin_rel (IMake_ok (by decide) e σ c hc) makeIs mrun
  obtain ⟨s, hs⟩ : ∃ s, s = steps (IMake e σ c).e makeIs (IMake e σ c).σ := ⟨_, rfl⟩
  have hx : (exec e make σ).1 = s := by rw [hs]; rfl
  rw [← hs] at hr
  rw [hx]
  refine ⟨?_, ?_, ?_⟩
  · rw [hr.reg mx0, hc, BitVec.sub_eq_add_neg]; rfl
  · intro x ha
    obtain ⟨i, ⟨y, hy, rfl⟩, h2⟩ := hr.frame x ha
    rw [mw0 y hy] at h2
    have h2 : InR x (c + off A 0) 0x48 := h2
    rwa [show c + off A 0 = c from BitVec.add_zero _] at h2
  · intro o v h
    have ho : ∀ y ∈ made, y.1 + A.k ≤ 0x48 := by decide
    exact hr.word (i := 0) (o := o) (v := v) mv (ho _ h) (mw _ h)

theorem msteplr (e : Env A) (σ : St A) : (steps e makeIs σ).gpr lr = σ.gpr lr := steps_dest e makeIs (.g lr) (by decide +kernel) σ
theorem mstepsp (e : Env A) (σ : St A) : (steps e makeIs σ).gpr sp = σ.gpr sp := steps_dest e makeIs (.g sp) (by decide +kernel) σ
theorem mret (e : Env A) (σ : St A) : (exec e port.make σ).2 = σ.gpr lr := by
  have h : exec e port.make σ = (steps e makeIs σ, (steps e makeIs σ).gpr lr) := rfl
  rw [h, msteplr]

def M : SlotMake S where
  top := a 1
  j := 4
  msz := 0x48
  hid := 0x38
  mw := (0x38, 0x40)
  oRA := 0x30
  spo := 0x38
  al := 3
  ei := jumpIs
  er := pc
  conv := ⟨rfl, rfl, rfl, rfl, rfl, rfl⟩
  sz := by decide
  make := by
    intro e σ c hc
    have h : ∀ q ∈ port.saved, ∀ i ∈ makeIs, i.dest ≠ some (.g q) := by simp only [port]; decide
    have hf : ∀ q ∈ port.fsaved, ∀ i ∈ makeIs, i.dest ≠ some (.f q) := by simp only [port]; decide
    obtain ⟨m1, m2, m3⟩ := make_facts e σ c hc
    refine ⟨mret e σ, m1, mstepsp e σ, fun q hq => ?_, fun q hq => ?_, m2, ?_, ?_, ?_⟩
    · exact steps_dest e makeIs (.g q) (h q hq) σ
    · exact steps_dest e makeIs (.f q) (hf q hq) σ
    · exact (m3 0x34 ⟨.reg (a 3), 0#_⟩ (by simp [made])).trans (BitVec.add_zero _)
    · exact (m3 0x30 ⟨.lab Lab.finish, 0#_⟩ (by simp [made])).trans (BitVec.add_zero _)
    · show _ = c + off A 0x38
      refine (m3 0xc ⟨.msk (a 1) (mask A 4), -off A 0x48 + off A 0x38⟩ (by simp [made])).trans ?_
      show (σ.gpr (a 1) &&& mask A 4) + _ = _
      rw [hc]
      generalize (σ.gpr (a 1) &&& mask A 4) = x
      generalize off A 0x48 = y
      generalize off A 0x38 = y'
      grind
  erun _ _ _ _ := rfl
  e1 := e1
  pc := epc
  sp := esp
  ra := era
  w := ew
  ein e τ s _ hr := by
    have hr : Rel (K.CE 0x48 0x38 (0x38, 0x40)) (K.I e τ) ((K.CE 0x48 0x38 (0x38, 0x40)).fin jumpIs e1) s := hr
    have h1 : ((K.CE 0x48 0x38 (0x38, 0x40)).fin jumpIs e1).gpr (a 1) = ⟨.reg K.sp, -off A K.fr⟩ := by decide +kernel
    have h2 : ((K.CE 0x48 0x38 (0x38, 0x40)).fin jumpIs e1).gpr (a 2) = ⟨.reg (a 3), 0#_⟩ := by decide +kernel
    exact ⟨(hr.reg h1).trans (SlotCfg.sv_own e τ), (hr.reg h2).trans (SlotCfg.sv_reg _ _)⟩

/-- **C64**, switching (without d8-d15; `a5` taken as a scratch register) -/
theorem C64_arm_pe_jump : port.JumpSpec := S.jumpSpec
/-- **C64**, new contexts -/
theorem C64_arm_pe_make : port.MakeSpec := M.makeSpec

/-- **C64**: when the function of a new context is entered, the thread information block describes exactly the stack given to `make_fcontext`: base `top`, limit and
deallocation stack `top - size`. -/
theorem C64_arm_pe_first_activation (e : Env A) (σ τ : St A) (ha : port.argF τ = port.resM (exec e port.make σ).1)
    (hmem : ∀ x, InR x (port.argF τ) port.mkeep → τ.mem x = (exec e port.make σ).1.mem x)
    (hd : ∀ x, InR x (port.argF τ) port.mkeep → ¬ InR x (port.fctx τ) port.frame) :
    (port.enter e τ).1.fpr tibBase = σ.gpr (a 1) ∧ (port.enter e τ).1.fpr tibLimit = σ.gpr (a 1) - σ.gpr (a 2) ∧
    (port.enter e τ).1.fpr tibDealloc = σ.gpr (a 1) - σ.gpr (a 2) := by
  obtain ⟨s, h1, hr, h3⟩ := M.entry (σ := σ) ha hmem hd
  have hr : Rel (K.CE 0x48 0x38 (0x38, 0x40)) (K.I e τ) ((K.CE 0x48 0x38 (0x38, 0x40)).fin jumpIs e1) s := hr
  have h3 : τ.gpr (a 2) = (σ.gpr (a 1) &&& mask A 4) - off A 0x48 := h3
  obtain ⟨-, -, m3⟩ := make_facts e σ (τ.gpr (a 2)) h3
  have hmem : ∀ x, InR x (τ.gpr (a 2)) 0x48 → τ.mem x = (exec e make σ).1.mem x := hmem
  rw [h1]
  have key : ∀ y ∈ [(tibBase, 8), (tibLimit, 4), (tibDealloc, 0)], ∀ v, (y.2, v) ∈ made → s.fpr y.1 = ((IMake e σ (τ.gpr (a 2))).sv v).setWidth _ := by
    intro y hy v hv
    have ho : ∀ y ∈ made, y.1 + A.k ≤ 0x48 := by decide
    have h5 : (K.I e τ).sv ⟨.ld 1 y.2, 0#_⟩ = (IMake e σ (τ.gpr (a 2))).sv v := by
      rw [SlotCfg.sv_ld, ← m3 _ _ hv]
      exact load_agree hmem (ho _ hv) (by decide)
    rw [hr.fpr, etib y hy, ← h5]
    rfl
  refine ⟨?_, ?_, ?_⟩
  · exact (key (tibBase, 8) (by simp) ⟨.reg (a 1), 0#_⟩ (by simp [made])).trans ((BitVec.setWidth_eq _).trans (BitVec.add_zero _))
  · exact (key (tibLimit, 4) (by simp) ⟨.sub (a 1) (a 2), 0#_⟩ (by simp [made])).trans ((BitVec.setWidth_eq _).trans (BitVec.add_zero _))
  · exact (key (tibDealloc, 0) (by simp) ⟨.sub (a 1) (a 2), 0#_⟩ (by simp [made])).trans ((BitVec.setWidth_eq _).trans (BitVec.add_zero _))

/-! ## On-top calls -/

theorem og : ∀ y ∈ K.LG, ((K.C true).fin ontopIs o1).gpr y.1 = ⟨.ld 1 y.2, 0#_⟩ := by decide +kernel
theorem osp : ((K.C true).fin ontopIs o1).gpr sp = ⟨.reg (a 2), off A 0x38⟩ := by decide +kernel
theorem opc : ((K.C true).fin ontopIs o1).gpr (a 4) = ⟨.reg (a 4), 0#_⟩ := by decide +kernel
theorem oh : ((K.C true).fin ontopIs o1).gpr (a 1) = ⟨.ld 1 0xc, 0#_⟩ := by decide +kernel
theorem o2 : ((K.C true).fin ontopIs o1).gpr (a 2) = ⟨.ld 1 8, 0#_⟩ := by decide +kernel
theorem o3 : ((K.C true).fin ontopIs o1).gpr (a 3) = ⟨.reg (a 3), 0#_⟩ := by decide +kernel
theorem ob : ((K.C true).fin ontopIs o1).fpr tibBase = .ofG ⟨.ld 1 0, 0#_⟩ := by decide +kernel
theorem ol : ((K.C true).fin ontopIs o1).fpr tibLimit = .ofG ⟨.ld 1 4, 0#_⟩ := by decide +kernel
theorem od : ((K.C true).fin ontopIs o1).fpr tibDealloc = .ofG ⟨.ld 1 8, 0#_⟩ := by decide +kernel
theorem ow : ∀ y ∈ ((K.C true).fin ontopIs o1).log, y.1 = 0 ∨ y.1 = 2 := by decide +kernel

/-- **C64**, what an on-top call does: control, stack pointer, return address, result object, general registers and data are as `OntopSpec` demands, but
the `fctx` the on-top function gets is the stack base of the resumed context instead of the context of the resumer (which is lost), and in the thread information block
stack base and deallocation stack of the resumed context are exchanged. -/
theorem C64_arm_pe_ontop_wrong {e : Env A} {σ τ : St A} {m : Mem A} (hl : port.Left e σ m) (hi : port.Intact σ m τ) (ha : port.argF τ = port.fctx σ) :
    (exec e port.ontop τ).2 = port.argFn τ ∧ port.spRet (exec e port.ontop τ).1 = port.spRet σ ∧ port.ra (exec e port.ontop τ).1 = port.ra σ ∧
    (exec e port.ontop τ).1.gpr (a 1) = σ.gpr (a 1) ∧ (∀ r ∈ port.saved, (exec e port.ontop τ).1.gpr r = σ.gpr r) ∧ port.oinD (exec e port.ontop τ).1 = port.argD τ ∧
    port.oinF (exec e port.ontop τ).1 = σ.fpr tibBase ∧
    (exec e port.ontop τ).1.fpr tibBase = σ.fpr tibDealloc ∧ (exec e port.ontop τ).1.fpr tibDealloc = σ.fpr tibBase ∧
    (exec e port.ontop τ).1.fpr tibLimit = σ.fpr tibLimit ∧
    ∀ x, (exec e port.ontop τ).1.mem x ≠ τ.mem x → InR x (port.fctx τ) port.frame ∨ port.slot σ x := by
  obtain ⟨t1, hf, hh, ok', ok, hd⟩ := S.target hl hi ha
  have hr := fin_rel (SlotCfg.I_ok wf true e τ ok' (fun _ => hd)) ontopIs o1
  obtain ⟨s, hs⟩ : ∃ s, s = steps (K.I e τ).e ontopIs (K.I e τ).σ := ⟨_, rfl⟩
  have hx : exec e port.ontop τ = (s, s.gpr (a 4)) := by rw [hs]; rfl
  rw [← hs] at hr
  rw [hx]
  have hf : SlotCfg.Frame K σ τ.mem (τ.gpr (a 2)) := hf
  have g : ∀ y ∈ K.LG, s.gpr y.1 = σ.gpr y.1 := fun y hy => by
    rw [hr.reg (og y hy), ← hf.g y hy, SlotCfg.sv_ld]; rfl
  have ld : ∀ f o, (f, o) ∈ K.LF → (K.I e τ).sv ⟨.ld 1 o, 0#_⟩ = (σ.fpr f).setWidth _ := fun f o h => by
    have h0 := hf.fs (f, o) h
    have hw : ∀ y ∈ K.LF, A.fb y.1 = A.k := by decide
    rw [SlotCfg.sv_ld, ← h0]
    exact (SlotCfg.load_width (hw (f, o) h) _ _).symm
  refine ⟨(hr.reg opc).trans (SlotCfg.sv_reg _ _), ?_, g (lr, 0x30) (by simp [K]), ?_, ?_, (hr.reg o3).trans (SlotCfg.sv_reg _ _), ?_, ?_, ?_, ?_, ?_⟩
  · refine (hr.reg osp).trans ?_
    show τ.gpr (a 2) + _ = _
    have t1 : τ.gpr (a 2) = K.own σ := t1
    rw [t1]; exact sub_add_off _ _
  · refine (hr.reg oh).trans ?_
    rw [SlotCfg.sv_ld]
    exact hh
  · intro r h
    obtain ⟨y, hy, rfl⟩ := List.mem_map.1 (S.sav.1 r h)
    exact g _ hy
  · exact (hr.reg o2).trans ((ld tibBase 8 (by simp [K])).trans (BitVec.setWidth_eq _))
  · rw [hr.fpr, ob]
    show BitVec.setWidth _ ((K.I e τ).sv ⟨.ld 1 0, 0#_⟩) = _
    rw [ld tibDealloc 0 (by simp [K])]
    exact (BitVec.setWidth_eq _).trans (BitVec.setWidth_eq _)
  · rw [hr.fpr, od]
    show BitVec.setWidth _ ((K.I e τ).sv ⟨.ld 1 8, 0#_⟩) = _
    rw [ld tibBase 8 (by simp [K])]
    exact (BitVec.setWidth_eq _).trans (BitVec.setWidth_eq _)
  · rw [hr.fpr, ol]
    show BitVec.setWidth _ ((K.I e τ).sv ⟨.ld 1 4, 0#_⟩) = _
    rw [ld tibLimit 4 (by simp [K])]
    exact (BitVec.setWidth_eq _).trans (BitVec.setWidth_eq _)
  · intro x h
    have := S.changed hr ow x h
    rw [hh] at this
    exact this

/-- The hypotheses of `C64_arm_pe_jump` and `C64_arm_pe_ontop_wrong` can be met. -/
theorem inhabited (e : Env A) : ∃ σ τ m, port.Left e σ m ∧ port.Intact σ m τ ∧ port.argF τ = port.fctx σ ∧ σ.gpr (v 1) ≠ τ.gpr (v 1) := by
  obtain ⟨σ, τ, m, h1, h2, h3, h4⟩ := S.inhabited e (.inl rfl) (by decide) (by decide) (by decide) (by decide) (by decide)
  exact ⟨σ, τ, m, h1, h2, h3, h4 _ (by decide) (by decide) (by decide)⟩

/-- The hypotheses of `C64_arm_pe_make` can be met. -/
example (e : Env A) := M.inhabited e (.inl rfl) (by decide) (by decide) rfl (by decide) (by decide) (by decide) (by decide)

/-- **C64**: the routines leave the registers d8-d15 as they are, so a resumed context finds those of the resumer. -/
theorem C64_arm_pe_loses_fprs (e : Env A) (τ : St A) (n : Nat) : (exec e port.jump τ).1.fpr (d n) = τ.fpr (d n) := by
  refine steps_dest e jumpIs (.f (d n)) ?_ τ
  have h : ∀ i ∈ jumpIs, (match i.dest with | some (.f (.d _)) => false | _ => true) = true := by decide
  intro i hi hq
  have := h i hi
  rw [hq] at this
  cases this

/-- **C64**: `ontop_fcontext` does not meet its specification. -/
theorem C64_arm_pe_ontop_violated : ¬ port.OntopSpec := by
  intro h
  obtain ⟨e, -⟩ : ∃ e : Env A, e = fun _ => 0#_ := ⟨_, rfl⟩
  obtain ⟨σ, τ, m, h1, h2, h3, -, h5, h6⟩ := S.inhabited' e (.inl rfl) (by decide) (by decide) (by decide) (by decide) (by decide)
  have b1 := (h e σ τ m h1 h2 h3).2.1.argF
  obtain ⟨-, -, -, -, -, -, b2, -⟩ := C64_arm_pe_ontop_wrong h1 h2 h3
  rw [b1, h6, h5] at b2
  exact absurd (show 0x20000#32 - 0x38#32 = 0#32 from b2) (by decide)

/-- `port` with the floating point registers Windows makes callee-saved -/
def portF : Port A := { port with fsaved := [d 8, d 9, d 10, d 11, d 12, d 13, d 14, d 15, tibBase, tibLimit, tibDealloc] }

/-- **C64**: switching does not preserve the callee-saved floating point registers. -/
theorem C64_arm_pe_fprs_violated : ¬ portF.JumpSpec := by
  intro h
  obtain ⟨e, -⟩ : ∃ e : Env A, e = fun _ => 0#_ := ⟨_, rfl⟩
  obtain ⟨σ, τ, m, h1, h2, h3, -, h5, -⟩ := S.inhabited' e (.inl rfl) (by decide) (by decide) (by decide) (by decide) (by decide)
  obtain ⟨τ', hτ'⟩ : ∃ τ' : St A, τ' = { τ with fpr := fun _ => 1#_ } := ⟨_, rfl⟩
  have i : portF.Intact σ m τ' := by
    rw [hτ']; exact ⟨h2.ok, h2.ok', h2.tslot, h2.slot, h2.mem, h2.frame⟩
  have b : portF.argF τ' = portF.fctx σ := by rw [hτ']; exact h3
  have := (h e σ τ' m h1 i b).1.fsaved (d 8) (by simp [portF])
  rw [show (exec e portF.jump τ').1.fpr (d 8) = τ'.fpr (d 8) from C64_arm_pe_loses_fprs e τ' 8, hτ', h5] at this
  exact absurd (show 1#64 = 0#64 from this) (by decide)

end Verif.Asm.ArmPe
