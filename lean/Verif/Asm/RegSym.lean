import Verif.Asm.SlotPort

/-!
# Ports that pass everything in registers, by symbolic execution

Proof method for PowerPC 64 (ELFv2) and PowerPC 32 (other than Linux), whose code does not have the regular shape `RegPort` needs: a `SymPort` is the list of facts
about the individual routines, most of them evaluations of the symbolic executor, from which the specifications follow.
(No code of `/repo` is modelled in this file.)
-/

namespace Verif.Asm

/-- registers and frame layout of a port -/
structure RCfg (A : Arch) where
  sp : A.R
  /-- arguments: target, data, function -/
  to : A.R
  d : A.R
  fn : A.R
  /-- return address -/
  ra : A.R
  /-- distance of the frame from the stack pointer, size of the frame, offset of the address at which the context continues -/
  fr : Nat
  N : Nat
  oPC : Nat
  LG : List (A.R × Nat)
  LF : List (A.F × Nat)
  via : A.F → A.F := id
  /-- special registers that are copied through a general register -/
  wd : A.F → Bool := fun _ => false
  /-- the address an on-top switch goes to -/
  opc : Sv A := ⟨.reg fn, 0#_⟩

namespace RCfg
variable {A : Arch} (K : RCfg A)

abbrev own (s : St A) : A.W := s.gpr K.sp - off A K.fr

/-- bases: 0 own frame, 1 data of the target (`n` bytes, of which `mw` may be written) -/
def C (n : Nat) (mw : Nat × Nat) : SCfg A where
  known := [(.reg K.sp, 0, off A K.fr), (.reg K.to, 1, 0#_)]
  wr i := if i = 0 then (0, K.N) else if i = 1 then mw else (0, 0)
  rd i := if i = 0 then K.N else if i = 1 then n else 0
  D i j := i == 0 && j == 1

def I (e : Env A) (σ : St A) : Itp A where
  σ := σ
  β i := if i = 0 then K.own σ else σ.gpr K.to
  e := e

structure Wf : Prop where
  N : K.N ≤ 2 ^ (8 * A.k)
  oPC : K.oPC + A.k ≤ K.N
  LG : ∀ x ∈ K.LG, x.2 + A.k ≤ K.N
  LF : ∀ x ∈ K.LF, x.2 + A.fb x.1 ≤ K.N
  via : ∀ f, A.fb (K.via f) = A.fb f
  wd : ∀ x ∈ K.LF, K.wd x.1 = true → A.fb x.1 = A.k := by intro _ _ h; exact absurd (show false = true from h) (by decide)

variable {K}

theorem I_ok (wf : K.Wf) (n : Nat) (mw : Nat × Nat) (hn : n ≤ 2 ^ (8 * A.k)) (hmw : mw.2 ≤ n) (e : Env A) (σ : St A)
    (h : ∀ a, InR a (σ.gpr K.to) n → ¬ InR a (K.own σ) K.N) : (K.I e σ).Ok (K.C n mw) where
  known := by
    intro x hx
    simp only [C, List.mem_cons, List.not_mem_nil, or_false] at hx
    rcases hx with rfl | rfl
    · exact (sub_add_off _ _).symm
    · exact (BitVec.add_zero _).symm
  disj := by
    intro i j hD
    simp only [C, Bool.and_eq_true, beq_iff_eq] at hD
    obtain ⟨rfl, rfl⟩ := hD
    intro a ha hx
    have ha : InR a (K.own σ + off A 0) K.N := ha
    rw [show K.own σ + off A 0 = K.own σ from BitVec.add_zero _] at ha
    exact h a hx ha
  wr i := by
    have := wf.N
    simp only [C]; repeat' split
    all_goals (try simp only); omega
  rd i := by
    have := wf.N
    simp only [C]; repeat' split
    all_goals omega

/-- a run that saves the own context -/
structure SaveOk (K : RCfg A) (z : SSt A) : Prop where
  v : z.valid 0 = true
  g : ∀ x ∈ K.LG, look 0 x.2 A.k z.log = some (some (.w ⟨.reg x.1, 0#_⟩))
  f : ∀ x ∈ K.LF, look 0 x.2 (A.fb x.1) z.log = some (some (if K.wd x.1 then .w ⟨.spec x.1, 0#_⟩ else .f (K.via x.1) (.init x.1)))
  a : look 0 K.oPC A.k z.log = some (some (.w ⟨.reg K.ra, 0#_⟩))

/-- the frame at `f` holds the context of `σ` -/
structure Frame (K : RCfg A) (σ : St A) (m : Mem A) (f : A.W) : Prop where
  g : ∀ x ∈ K.LG, load m (f + off A x.2) A.k = σ.gpr x.1
  fs : ∀ x ∈ K.LF, load m (f + off A x.2) (A.fb x.1) = σ.fpr x.1
  a : load m (f + off A K.oPC) A.k = σ.gpr K.ra

theorem sv_own (e : Env A) (τ : St A) : (K.I e τ).sv ⟨.reg K.sp, -off A K.fr⟩ = K.own τ := (BitVec.sub_eq_add_neg _ _).symm

theorem frame_of (wf : K.Wf) {n : Nat} {mw : Nat × Nat} {e : Env A} {σ s : St A} {z : SSt A} (h : Rel (K.C n mw) (K.I e σ) z s) (hz : SaveOk K z) :
    Frame K σ s.mem (K.own σ) where
  g x hx := (h.word (i := 0) (o := x.2) hz.v (wf.LG x hx) (hz.g x hx)).trans (SlotCfg.sv_reg _ _)
  fs x hx := by
    have hv := wf.via x.1
    have hk := hz.f x hx
    by_cases hw : K.wd x.1 = true
    · rw [if_pos hw] at hk
      have e1 := wf.wd x hx hw
      have := h.word (i := 0) (o := x.2) hz.v (by rw [← e1]; exact wf.LF x hx) (by rw [← e1]; exact hk)
      refine SlotCfg.load_via e1.symm (this.trans ?_)
      exact BitVec.add_zero _
    rw [if_neg hw] at hk
    have := h.special (i := 0) (o := x.2) (q := K.via x.1) hz.v (by rw [hv]; exact wf.LF x hx) (by rw [hv]; exact hk)
    simp only [Itp.fv] at this
    exact SlotCfg.load_via hv this
  a := (h.word (i := 0) (o := K.oPC) hz.v wf.oPC hz.a).trans (SlotCfg.sv_reg _ _)

/-- a complete run that restores the context at base 1, with a stack pointer `n` bytes above it -/
structure RestoreOk (K : RCfg A) (n : Nat) (z : SSt A) : Prop where
  g : ∀ x ∈ K.LG, z.gpr x.1 = ⟨.ld 1 x.2, 0#_⟩
  f : ∀ x ∈ K.LF, z.fpr x.1 = if K.wd x.1 then .ofG ⟨.ld 1 x.2, 0#_⟩ else .ld 1 x.2
  sp : z.gpr K.sp = ⟨.reg K.to, off A n⟩
  w : ∀ x ∈ z.log, x.1 = 0

end RCfg
open RCfg

structure SymPort {A : Arch} (P : Port A) where
  K : RCfg A
  wf : K.Wf
  ji : List (Instr A)
  oi : List (Instr A)
  jr : A.R
  or : A.R
  /-- number of instructions that save the context -/
  nj : Nat
  no : Nat
  jeq : P.jump = .jmp ji jr
  oeq : P.ontop = .jmp oi or
  pj : (ji.drop nj).all Instr.pure = true
  po : (oi.drop no).all Instr.pure = true
  sj : ∃ h, SaveOk K ((K.C 0 (0, 0)).fin (ji.take nj) h)
  so : ∃ h, SaveOk K ((K.C 0 (0, 0)).fin (oi.take no) h)
  j1 : ((K.C K.N (0, 0)).run ji SSt.init).isSome = true
  o1 : ((K.C K.N (0, 0)).run oi SSt.init).isSome = true
  j2 : RestoreOk K K.fr ((K.C K.N (0, 0)).fin ji j1)
  /-- stack pointer at the entry of the on-top function, relative to the target -/
  osp : Nat := K.fr
  o2 : RestoreOk K osp ((K.C K.N (0, 0)).fin oi o1)
  jpc : ((K.C K.N (0, 0)).fin ji j1).gpr jr = ⟨.ld 1 K.oPC, 0#_⟩
  opc : ((K.C K.N (0, 0)).fin oi o1).gpr or = K.opc
  /-- registers of the result, and of the parameter of an on-top function -/
  r0 : A.R
  r1 : A.R
  p0 : A.R
  p1 : A.R
  jr0 : ((K.C K.N (0, 0)).fin ji j1).gpr r0 = ⟨.reg K.sp, -off A K.fr⟩
  jr1 : ((K.C K.N (0, 0)).fin ji j1).gpr r1 = ⟨.reg K.d, 0#_⟩
  or0 : ((K.C K.N (0, 0)).fin oi o1).gpr p0 = ⟨.reg K.sp, -off A K.fr⟩
  or1 : ((K.C K.N (0, 0)).fin oi o1).gpr p1 = ⟨.reg K.d, 0#_⟩
  conv : P.fctx = K.own ∧ P.frame = K.N ∧ P.keep = K.N ∧ P.argF = (fun s => s.gpr K.to) ∧ P.argD = (fun s => s.gpr K.d) ∧
    P.argFn = (fun s => s.gpr K.fn) ∧ P.slot = (fun _ _ => False) ∧ P.tslot = (fun _ _ => False) ∧
    P.ok = (fun _ => True) ∧ P.sp = K.sp ∧ P.spRet = (fun s => s.gpr K.sp) ∧ P.ra = (fun s => s.gpr K.ra)
  res : P.resF = (fun _ τ => τ.gpr r0) ∧ P.resD = (fun _ τ => τ.gpr r1) ∧ P.oinF = (fun τ => τ.gpr p0) ∧ P.oinD = (fun τ => τ.gpr p1) ∧ P.also = fun _ _ => True
  sav : (∀ r ∈ P.saved, r ∈ K.LG.map (·.1)) ∧ (∀ r ∈ P.fsaved, r ∈ K.LF.map (·.1)) ∧ K.ra ∈ K.LG.map (·.1)

namespace SymPort
variable {A : Arch} {P : Port A} (S : SymPort P)

theorem left {e : Env A} {σ : St A} {m : Mem A} (hl : P.Left e σ m) : Frame S.K σ m (S.K.own σ) := by
  have key : ∀ (l : List (Instr A)) n, (l.drop n).all Instr.pure = true → (∃ h, SaveOk S.K ((S.K.C 0 (0, 0)).fin (l.take n) h)) →
      Frame S.K σ (steps e l σ).mem (S.K.own σ) := by
    intro l n hp ⟨h1, h2⟩
    have h3 := frame_of S.wf (fin_rel (I_ok S.wf 0 (0, 0) (Nat.zero_le _) (Nat.le_refl _) e σ (fun a h => absurd h (Nat.not_lt_zero _))) _ h1) h2
    have : (steps e l σ).mem = (steps e (l.take n) σ).mem := by
      conv => lhs; rw [← List.take_append_drop n l, steps_append]
      exact steps_pure _ _ hp _
    rw [this]; exact h3
  rcases hl with h | h
  · rw [← h, S.jeq]; exact key _ _ S.pj S.sj
  · rw [← h, S.oeq]; exact key _ _ S.po S.so

/-- what a call with entry state `τ` that targets the intact context `σ` finds -/
theorem target {e : Env A} {σ τ : St A} {m : Mem A} (hl : P.Left e σ m) (hi : P.Intact σ m τ) (ha : P.argF τ = P.fctx σ) :
    τ.gpr S.K.to = S.K.own σ ∧ Frame S.K σ τ.mem (τ.gpr S.K.to) ∧ ∀ a, InR a (τ.gpr S.K.to) S.K.N → ¬ InR a (S.K.own τ) S.K.N := by
  obtain ⟨c1, c2, c3, c4, c5, c6, c7, c8, c9, c10, c11, c12⟩ := S.conv
  obtain ⟨-, -, -, -, h4, h5⟩ := hi
  have hf := S.left hl
  rw [c1, c4] at ha
  have ha : τ.gpr S.K.to = S.K.own σ := ha
  rw [c1, c3] at h4
  rw [c1, c2, c3] at h5
  have wf := S.wf
  refine ⟨ha, ?_, by rw [ha]; exact h5⟩
  rw [ha]
  constructor
  · intro x hx; rw [← hf.g x hx]; exact load_agree h4 (wf.LG x hx) wf.N
  · intro x hx; rw [← hf.fs x hx]; exact load_agree h4 (wf.LF x hx) wf.N
  · rw [← hf.a]; exact load_agree h4 wf.oPC wf.N

theorem restored {n : Nat} {mw : Nat × Nat} {e : Env A} {σ τ s : St A} {z : SSt A} {sp : Nat} (hr : Rel (S.K.C n mw) (S.K.I e τ) z s)
    (hz : RestoreOk S.K sp z) (hf : Frame S.K σ τ.mem (τ.gpr S.K.to)) (ha : τ.gpr S.K.to = S.K.own σ) : s.gpr S.K.sp = S.K.own σ + off A sp ∧ (∀ r ∈ P.saved, s.gpr r = σ.gpr r) ∧
    (∀ f ∈ P.fsaved, s.fpr f = σ.fpr f) ∧ s.gpr S.K.ra = σ.gpr S.K.ra := by
  have g : ∀ x ∈ S.K.LG, s.gpr x.1 = σ.gpr x.1 := fun x hx => by
    rw [hr.reg (hz.g x hx), ← hf.g x hx, SlotCfg.sv_ld]; simp [RCfg.I]
  refine ⟨?_, ?_, ?_, ?_⟩
  · rw [hr.reg hz.sp]
    show τ.gpr S.K.to + _ = _
    rw [ha]
  · intro r h; obtain ⟨x, hx, rfl⟩ := List.mem_map.1 (S.sav.1 r h); exact g _ hx
  · intro f h
    obtain ⟨x, ho, rfl⟩ := List.mem_map.1 (S.sav.2.1 f h)
    rw [hr.fpr, hz.f _ ho, ← hf.fs _ ho]
    by_cases hw : S.K.wd x.1 = true
    · rw [if_pos hw]
      have e1 := S.wf.wd x ho hw
      show BitVec.setWidth _ ((S.K.I e τ).sv ⟨.ld 1 x.2, 0#_⟩) = _
      rw [SlotCfg.sv_ld]
      exact SlotCfg.load_width e1.symm _ _
    rw [if_neg hw]
    simp [Itp.fv, RCfg.I]
  · obtain ⟨x, hx, h⟩ := List.mem_map.1 S.sav.2.2; rw [← h]; exact g _ hx

theorem changed {n : Nat} {mw : Nat × Nat} {e : Env A} {τ s : St A} {z : SSt A} (hr : Rel (S.K.C n mw) (S.K.I e τ) z s) (hz : ∀ x ∈ z.log, x.1 = 0) (a : A.W)
    (h : s.mem a ≠ τ.mem a) : InR a (S.K.own τ) S.K.N := by
  obtain ⟨i, ⟨x, hx, rfl⟩, h2⟩ := hr.frame a h
  rw [hz x hx] at h2
  have h2 : InR a (S.K.own τ + off A 0) S.K.N := h2
  rw [show S.K.own τ + off A 0 = S.K.own τ from BitVec.add_zero _] at h2
  exact h2

include S

theorem jumpSpec : P.JumpSpec := by
  intro e σ τ m hl hi ha
  obtain ⟨c1, c2, c3, c4, c5, c6, c7, c8, c9, c10, c11, c12⟩ := S.conv
  obtain ⟨q1, q2, q3, q4, q5⟩ := S.res
  obtain ⟨t1, hf, hd⟩ := S.target hl hi ha
  have hr := fin_rel (I_ok S.wf S.K.N (0, 0) S.wf.N (Nat.zero_le _) e τ hd) S.ji S.j1
  obtain ⟨s, hs⟩ : ∃ s, s = steps (S.K.I e τ).e S.ji (S.K.I e τ).σ := ⟨_, rfl⟩
  have hx : exec e P.jump τ = (s, s.gpr S.jr) := by rw [hs, S.jeq]; rfl
  rw [← hs] at hr
  rw [hx]
  obtain ⟨r1, r2, r3, r4⟩ := S.restored hr S.j2 hf t1
  refine ⟨⟨?_, ?_, r2, r3⟩, ?_, ?_, ?_, ?_, ?_⟩
  · rw [hr.reg S.jpc, SlotCfg.sv_ld, c12]; exact hf.a
  · rw [c10, c11]; exact r1.trans (sub_add_off _ _)
  · rw [q1, c1]; exact (hr.reg S.jr0).trans (sv_own e τ)
  · rw [q2, c5]; exact (hr.reg S.jr1).trans (SlotCfg.sv_reg _ _)
  · intro a h; rw [c1, c2]; exact .inl (S.changed hr S.j2.w a h)
  · intro a; rw [c7, c8]
  · rw [q5]; trivial

/-- `OntopSpecTo`, except that the stack pointer of the on-top function is `osp` bytes above the target -/
theorem ontop_facts {e : Env A} {σ τ : St A} {m : Mem A} (hl : P.Left e σ m) (hi : P.Intact σ m τ) (ha : P.argF τ = P.fctx σ) :
    (exec e P.ontop τ).2 = (S.K.I e τ).sv S.K.opc ∧ (exec e P.ontop τ).1.gpr S.K.sp = S.K.own σ + off A S.osp ∧ (exec e P.ontop τ).1.gpr S.K.ra = σ.gpr S.K.ra ∧
    (∀ r ∈ P.saved, (exec e P.ontop τ).1.gpr r = σ.gpr r) ∧ (∀ f ∈ P.fsaved, (exec e P.ontop τ).1.fpr f = σ.fpr f) ∧
    P.oinF (exec e P.ontop τ).1 = P.fctx τ ∧ P.oinD (exec e P.ontop τ).1 = P.argD τ ∧
    ∀ a, (exec e P.ontop τ).1.mem a ≠ τ.mem a → InR a (P.fctx τ) P.frame := by
  obtain ⟨c1, c2, c3, c4, c5, c6, c7, c8, c9, c10, c11, c12⟩ := S.conv
  obtain ⟨q1, q2, q3, q4, q5⟩ := S.res
  obtain ⟨t1, hf, hd⟩ := S.target hl hi ha
  have hr := fin_rel (I_ok S.wf S.K.N (0, 0) S.wf.N (Nat.zero_le _) e τ hd) S.oi S.o1
  obtain ⟨s, hs⟩ : ∃ s, s = steps (S.K.I e τ).e S.oi (S.K.I e τ).σ := ⟨_, rfl⟩
  have hx : exec e P.ontop τ = (s, s.gpr S.or) := by rw [hs, S.oeq]; rfl
  rw [← hs] at hr
  rw [hx]
  obtain ⟨r1, r2, r3, r4⟩ := S.restored hr S.o2 hf t1
  refine ⟨hr.reg S.opc, r1, r4, r2, r3, ?_, ?_, ?_⟩
  · rw [q3, c1]; exact (hr.reg S.or0).trans (sv_own e τ)
  · rw [q4, c5]; exact (hr.reg S.or1).trans (SlotCfg.sv_reg _ _)
  · intro a h; rw [c1, c2]; exact S.changed hr S.o2.w a h

theorem ontopSpecTo (ho : S.osp = S.K.fr) : P.OntopSpecTo (fun e τ => (S.K.I e τ).sv S.K.opc) := by
  intro e σ τ m hl hi ha
  obtain ⟨c1, c2, c3, c4, c5, c6, c7, c8, c9, c10, c11, c12⟩ := S.conv
  obtain ⟨f1, f2, f3, f4, f5, f6, f7, f8⟩ := S.ontop_facts hl hi ha
  refine ⟨f1, ⟨?_, ?_, f4, f5, ?_, f6, f7⟩, fun a h => .inl (f8 a h), ?_⟩
  · rw [c12]; exact f3
  · rw [c11]; exact f2.trans (by rw [ho]; exact sub_add_off _ _)
  · intro a; rw [c7]
  · intro a; rw [c7, c8]

theorem ontopSpec (ho : S.osp = S.K.fr) (h : S.K.opc = ⟨.reg S.K.fn, 0#_⟩) : P.OntopSpec := by
  have := S.ontopSpecTo ho
  rw [h] at this
  intro e σ τ m hl hi ha
  obtain ⟨t1, t2⟩ := this e σ τ m hl hi ha
  refine ⟨?_, t2⟩
  rw [t1, S.conv.2.2.2.2.2.1]
  exact SlotCfg.sv_reg _ _

end SymPort

/-! ## New contexts -/

/-- `make` and the first activation (the switch, followed by the stub `ti`, if any) -/
structure SymMake {A : Arch} {P : Port A} (S : SymPort P) where
  /-- first argument, alignment, size of the data, written part, offsets of the function and of the saved return address, final stack pointer -/
  top : A.R
  j : Nat
  msz : Nat
  mw : Nat × Nat
  oFn : Nat
  oRA : Nat
  spo : Nat
  al : Nat
  ti : List (Instr A)
  er : A.R
  conv : P.argTop = (fun s => s.gpr top) ∧ P.mkeep = msz ∧ P.mspRet = (fun s => s.gpr S.K.sp) ∧
    P.mslot = (fun c a => InR a (c + off A mw.1) (mw.2 - mw.1)) ∧ P.aligned = fun w => w.toNat % 2 ^ al = 0
  sz : msz + 2 ^ j ≤ 2 ^ (8 * A.k) ∧ 2 ^ j ≤ 64 ∧ al ≤ j ∧ j ≤ 8 * A.k ∧ spo ≤ msz ∧ (msz - spo) % 2 ^ al = 0 ∧ mw.1 ≤ mw.2 ∧ mw.2 ≤ msz ∧ oRA + A.k ≤ msz ∧
    oFn + A.k ≤ msz ∧ S.K.oPC + A.k ≤ msz ∧ S.K.N ≤ msz
  make : ∀ (e : Env A) (σ : St A) (c : A.W), c = (σ.gpr top &&& mask A j) - off A msz → (exec e P.make σ).2 = σ.gpr S.K.ra ∧ P.resM (exec e P.make σ).1 = c ∧
    (exec e P.make σ).1.gpr S.K.sp = σ.gpr S.K.sp ∧ (∀ r ∈ P.saved, (exec e P.make σ).1.gpr r = σ.gpr r) ∧
    (∀ f ∈ P.fsaved, (exec e P.make σ).1.fpr f = σ.fpr f) ∧
    (∀ a, (exec e P.make σ).1.mem a ≠ σ.mem a → InR a c msz) ∧
    load (exec e P.make σ).1.mem (c + off A oFn) A.k = P.argMFn σ ∧
    load (exec e P.make σ).1.mem (c + off A oRA) A.k = e P.finish ∧
    ∀ l q, P.tramp = some (l, q) → load (exec e P.make σ).1.mem (c + off A S.K.oPC) A.k = e l
  enter : ∀ e τ, P.enter e τ = (steps e (S.ji ++ ti) τ, (steps e (S.ji ++ ti) τ).gpr er)
  e1 : ((S.K.C msz mw).run (S.ji ++ ti) SSt.init).isSome = true
  j1 : ((S.K.C msz mw).run S.ji SSt.init).isSome = true
  jpc : ((S.K.C msz mw).fin S.ji j1).gpr S.jr = ⟨.ld 1 S.K.oPC, 0#_⟩
  pc : ((S.K.C msz mw).fin (S.ji ++ ti) e1).gpr er = ⟨.ld 1 oFn, 0#_⟩
  sp : ((S.K.C msz mw).fin (S.ji ++ ti) e1).gpr S.K.sp = ⟨.reg S.K.to, off A spo⟩
  ra : ((S.K.C msz mw).fin (S.ji ++ ti) e1).gpr S.K.ra = ⟨.ld 1 oRA, 0#_⟩ ∨ ((S.K.C msz mw).fin (S.ji ++ ti) e1).gpr S.K.ra = ⟨.lab P.finish, 0#_⟩
  w : ∀ x ∈ ((S.K.C msz mw).fin (S.ji ++ ti) e1).log, x.1 = 0 ∨ x.1 = 1
  /-- the arguments of the context function -/
  ein : ∀ e τ s, Rel (S.K.C msz mw) (S.K.I e τ) ((S.K.C msz mw).fin (S.ji ++ ti) e1) s → P.inF s = S.K.own τ ∧ P.inD s = τ.gpr S.K.d

/-- a run of `make`: the base 0 is the new context, `msz` bytes below the aligned first argument -/
def CMake {A : Arch} (top : A.R) (j msz : Nat) : SCfg A where
  known := [(.msk top (mask A j), 0, off A msz)]
  wr i := if i = 0 then (0, msz) else (0, 0)
  rd i := if i = 0 then msz else 0
  D _ _ := false

def IMake {A : Arch} (e : Env A) (σ : St A) (c : A.W) : Itp A := ⟨σ, fun _ => c, e⟩

theorem IMake_ok {A : Arch} {top : A.R} {j msz : Nat} (h : msz ≤ 2 ^ (8 * A.k)) (e : Env A) (σ : St A) (c : A.W) (hc : c = (σ.gpr top &&& mask A j) - off A msz) :
    (IMake e σ c).Ok (CMake top j msz) where
  known := by
    intro x hx
    simp only [CMake, List.mem_cons, List.not_mem_nil, or_false] at hx
    subst hx
    show σ.gpr top &&& mask A j = c + off A msz
    rw [hc]; exact (sub_add_off _ _).symm
  disj := by intro _ _ hD; exact absurd hD (by simp [CMake])
  wr i := by simp only [CMake]; split <;> simp only <;> omega
  rd i := by simp only [CMake]; split <;> omega

namespace SymMake
variable {A : Arch} {P : Port A} {S : SymPort P} (M : SymMake S)

/-- the first activation of a new context, as a symbolic state -/
theorem entry (e : Env A) (σ τ : St A) (c : A.W) (hcc : c = (σ.gpr M.top &&& mask A M.j) - off A M.msz) (ha : P.argF τ = c)
    (hmem : ∀ a, InR a c P.mkeep → τ.mem a = (exec e P.make σ).1.mem a) (hd : ∀ a, InR a c P.mkeep → ¬ InR a (P.fctx τ) P.frame) :
    ∃ s, P.enter e τ = (s, s.gpr M.er) ∧ Rel (S.K.C M.msz M.mw) (S.K.I e τ) ((S.K.C M.msz M.mw).fin (S.ji ++ M.ti) M.e1) s ∧
      ∀ o, o + A.k ≤ M.msz → (S.K.I e τ).sv ⟨.ld 1 o, 0#_⟩ = load (exec e P.make σ).1.mem (c + off A o) A.k := by
  obtain ⟨c1, c2, c3, c4, -⟩ := S.conv
  obtain ⟨d1, d3, -⟩ := M.conv
  obtain ⟨w1, -, -, -, -, -, -, w8, -⟩ := M.sz
  have hw : M.msz ≤ 2 ^ (8 * A.k) := by have : 0 < 2 ^ M.j := Nat.two_pow_pos _; omega
  rw [c4] at ha
  have ha' : τ.gpr S.K.to = c := ha
  rw [d3] at hmem hd
  rw [c1, c2] at hd
  have hok : (S.K.I e τ).Ok (S.K.C M.msz M.mw) := I_ok S.wf M.msz M.mw hw w8 e τ (by rw [ha']; exact hd)
  refine ⟨_, M.enter e τ, fin_rel hok (S.ji ++ M.ti) M.e1, fun o ho => ?_⟩
  rw [← load_agree hmem ho hw, SlotCfg.sv_ld, ← ha']; rfl

include M in
theorem makeSpec : P.MakeSpec := by
  intro e σ _
  obtain ⟨c, hcc⟩ : ∃ c, c = (σ.gpr M.top &&& mask A M.j) - off A M.msz := ⟨_, rfl⟩
  obtain ⟨m1, m2, m3, m4, m5, m6, m7, m8, m9⟩ := M.make e σ c hcc
  obtain ⟨c1, c2, c3, c4, c5, c6, c7, c8, c9, c10, c11, c12⟩ := S.conv
  obtain ⟨d1, d3, d4, d5, d6⟩ := M.conv
  obtain ⟨w1, w2, w3, w4, w5, w6, w7, w8, w9, w10, w11, w12⟩ := M.sz
  have hw : M.msz ≤ 2 ^ (8 * A.k) := by have : 0 < 2 ^ M.j := Nat.two_pow_pos _; omega
  have hmod : (σ.gpr M.top).toNat % 2 ^ M.j < 2 ^ M.j := Nat.mod_lt _ (Nat.two_pow_pos _)
  have hsz : (P.argTop σ - c).toNat = M.msz + (σ.gpr M.top).toNat % 2 ^ M.j := by
    rw [d1, hcc]; exact align_below (A := A) (σ.gpr M.top) M.msz M.j w1
  rw [m2, hsz, d3]
  refine ⟨⟨by rw [c12]; exact m1, by rw [c10, d4]; exact m3, m4, m5⟩, ⟨by omega, by omega⟩, ?_, ?_⟩
  · intro a ha
    left
    exact inR_mono (m6 a ha) (by omega)
  · intro τ ha hmem hd
    rw [ha] at hmem hd ⊢
    rw [hsz]
    rw [c4] at ha
    have ha' : τ.gpr S.K.to = c := ha
    rw [c1, c2] at hd
    have ld : ∀ o, o + A.k ≤ M.msz → load τ.mem (c + off A o) A.k = load (exec e P.make σ).1.mem (c + off A o) A.k := fun o ho => load_agree hmem ho hw
    have hok : (S.K.I e τ).Ok (S.K.C M.msz M.mw) := I_ok S.wf M.msz M.mw hw w8 e τ (by rw [ha']; exact hd)
    have hr := fin_rel hok (S.ji ++ M.ti) M.e1
    have hr0 := fin_rel hok S.ji M.j1
    obtain ⟨s, hs⟩ : ∃ s, s = steps (S.K.I e τ).e (S.ji ++ M.ti) (S.K.I e τ).σ := ⟨_, rfl⟩
    have hx : P.enter e τ = (s, s.gpr M.er) := by rw [hs]; exact M.enter e τ
    rw [← hs] at hr
    obtain ⟨s0, hs0⟩ : ∃ s, s = steps (S.K.I e τ).e S.ji (S.K.I e τ).σ := ⟨_, rfl⟩
    have hx0 : exec e P.jump τ = (s0, s0.gpr S.jr) := by rw [hs0, S.jeq]; rfl
    rw [← hs0] at hr0
    rw [hx, hx0]
    have ld' : ∀ o, o + A.k ≤ M.msz → (S.K.I e τ).sv ⟨.ld 1 o, 0#_⟩ = load (exec e P.make σ).1.mem (c + off A o) A.k := by
      intro o ho
      rw [← ld o ho, SlotCfg.sv_ld, ← ha']; rfl
    have hsp : s.gpr S.K.sp = c + off A M.spo := by rw [hr.reg M.sp, ← ha']; rfl
    obtain ⟨a1, a2⟩ := M.ein e τ s hr
    refine ⟨?_, ?_, ?_, ?_, ?_, ?_, ?_, ?_, ?_⟩
    · intro l cc h; rw [hr0.reg M.jpc, ld' _ w11]; exact m9 l cc h
    · rw [hr.reg M.pc, ld' _ w10, m7]
    · rw [a1, c1]
    · rw [a2, c5]
    · rw [c12]; show s.gpr S.K.ra = _
      rcases M.ra with h | h
      · rw [hr.reg h, ld' _ w9, m8]
      · rw [hr.reg h]; exact BitVec.add_zero _
    · rw [c10, d6]
      show (s.gpr S.K.sp).toNat % 2 ^ M.al = 0
      rw [hsp]
      have h1 : c + off A M.spo = (σ.gpr M.top &&& mask A M.j) - off A (M.msz - M.spo) := by
        rw [hcc]
        have : off A M.msz = off A (M.msz - M.spo) + off A M.spo := by simp only [off, ← BitVec.ofNat_add]; congr 1; omega
        rw [this]; generalize (σ.gpr M.top &&& mask A M.j) = x; generalize off A (M.msz - M.spo) = y; generalize off A M.spo = z; grind
      have hdv : 2 ^ M.al ∣ 2 ^ M.j := Nat.pow_dvd_pow 2 w3
      have hdv' : 2 ^ M.al ∣ 2 ^ (8 * A.k) := Nat.pow_dvd_pow 2 (by omega)
      rw [h1, BitVec.toNat_sub, and_mask_toNat]
      have h2 : (off A (M.msz - M.spo)).toNat = M.msz - M.spo := by rw [off, BitVec.toNat_ofNat, Nat.mod_eq_of_lt]; have := Nat.two_pow_pos M.j; omega
      rw [h2, Nat.mod_mod_of_dvd _ hdv']
      apply Nat.mod_eq_zero_of_dvd
      apply Nat.dvd_add
      · exact Nat.dvd_sub hdv' (Nat.dvd_of_mod_eq_zero w6)
      · exact Nat.dvd_trans hdv (Nat.dvd_sub_mod _)
    · rw [c10]
      show (s.gpr S.K.sp - c).toNat ≤ _
      rw [hsp]
      have : c + off A M.spo - c = off A M.spo := by rw [BitVec.add_comm, BitVec.add_sub_cancel]
      rw [this]
      have : (off A M.spo).toNat ≤ M.spo := by rw [off, BitVec.toNat_ofNat]; exact Nat.mod_le _ _
      omega
    · intro a h
      rw [c1, c2, d5]
      obtain ⟨i, ⟨x, hx, rfl⟩, h4⟩ := hr.frame a h
      rcases M.w x hx with h0 | h0
      · rw [h0] at h4
        have h4 : InR a (S.K.own τ + off A 0) S.K.N := h4
        rw [show S.K.own τ + off A 0 = S.K.own τ from BitVec.add_zero _] at h4
        exact .inl h4
      · rw [h0] at h4
        have h4 : InR a (τ.gpr S.K.to + off A M.mw.1) (M.mw.2 - M.mw.1) := h4
        rw [ha'] at h4
        exact .inr h4
    · intro a h
      rw [d5] at h
      exact inR_off h (by omega) hw

end SymMake

/-! ## The hypotheses can be met -/

/-- a state with the given stack pointer and target, all other registers containing `x` -/
def RCfg.mk' {A : Arch} (K : RCfg A) (m : Mem A) (sp to x : Nat) : St A :=
  ⟨fun r => if r = K.sp then off A sp else if r = K.to then off A to else off A x, fun _ => 0#_, m⟩

theorem tn {A : Arch} (hk : A.k = 4 ∨ A.k = 8) (x : Nat) (hx : x < 2 ^ 32) : (off A x).toNat = x := by
  have pw : 2 ^ 32 ≤ 2 ^ (8 * A.k) := Nat.pow_le_pow_right (by decide) (by omega)
  rw [off, BitVec.toNat_ofNat, Nat.mod_eq_of_lt (by omega)]

theorem su {A : Arch} (hk : A.k = 4 ∨ A.k = 8) (x y : Nat) (h1 : x < 2 ^ 32) (h2 : y ≤ x) : (off A x - off A y).toNat = x - y := by
  rw [BitVec.toNat_sub_of_le (by rw [BitVec.le_def, tn hk _ h1, tn hk _ (by omega)]; exact h2), tn hk _ h1, tn hk _ (by omega)]

namespace SymPort
variable {A : Arch} {P : Port A} (S : SymPort P)
include S in
/-- The hypotheses of `JumpSpec` and `OntopSpec` are met by a context suspended at `sp = 0x10000` and a resumer with different register contents. -/
theorem inhabited (e : Env A) (hk : A.k = 4 ∨ A.k = 8) (hN : S.K.N ≤ 0x800) (hfr : S.K.fr ≤ S.K.N) (h2 : S.K.to ≠ S.K.sp) :
    ∃ σ τ m, P.Left e σ m ∧ P.Intact σ m τ ∧ P.argF τ = P.fctx σ ∧ ∀ r, r ≠ S.K.sp → r ≠ S.K.to → σ.gpr r ≠ τ.gpr r := by
  have pw : 2 ^ 32 ≤ 2 ^ (8 * A.k) := Nat.pow_le_pow_right (by decide) (by omega)
  obtain ⟨c1, c2, c3, c4, c5, c6, c7, c8, c9, c10, c11, c12⟩ := S.conv
  obtain ⟨σ, hσ⟩ : ∃ σ, σ = S.K.mk' (fun _ => 0#_) 0x10000 0x8000 1 := ⟨_, rfl⟩
  have e3 : σ.gpr S.K.sp = off A 0x10000 := by rw [hσ]; simp [RCfg.mk']
  have e5 : (S.K.own σ).toNat = 0x10000 - S.K.fr := by show (σ.gpr S.K.sp - _).toNat = _; rw [e3]; exact su hk _ _ (by omega) (by omega)
  obtain ⟨m, hm⟩ : ∃ m, m = (exec e P.jump σ).1.mem := ⟨_, rfl⟩
  obtain ⟨τ, hτ⟩ : ∃ τ, τ = S.K.mk' m 0x20000 (0x10000 - S.K.fr) 2 := ⟨_, rfl⟩
  have t2 : τ.gpr S.K.to = S.K.own σ := by
    rw [hτ]; simp only [RCfg.mk', h2, if_false, if_true]
    apply BitVec.eq_of_toNat_eq
    rw [e5, tn hk _ (by omega)]
  have t3 : τ.gpr S.K.sp = off A 0x20000 := by rw [hτ]; simp [RCfg.mk']
  have t6 : τ.mem = m := by rw [hτ]; rfl
  have t5 : (S.K.own τ).toNat = 0x20000 - S.K.fr := by show (τ.gpr S.K.sp - _).toNat = _; rw [t3]; exact su hk _ _ (by omega) (by omega)
  refine ⟨σ, τ, m, .inl hm.symm, ⟨by rw [c9]; trivial, by rw [c9]; trivial, ?_, ?_, ?_, ?_⟩, ?_, ?_⟩
  · rw [c8]; intro a h; exact h.elim
  · rw [c7]; intro a h; exact h.elim
  · rw [t6]; exact fun _ _ => rfl
  · rw [c1, c2, c3]; exact fun a ha => inR_apart (by rw [e5, t5]; omega) (by rw [t5]; omega) ha
  · rw [c4, c1]; exact t2
  · intro r a1 a3 h
    rw [hσ, hτ] at h
    simp only [RCfg.mk', a1, a3, if_false] at h
    have := congrArg BitVec.toNat h
    rw [tn hk _ (by omega), tn hk _ (by omega)] at this
    omega

end SymPort

/-- The hypotheses of `MakeSpec` are met by a caller at `sp = 0x10000` and a stack whose top is the odd address `0xf123`. -/
theorem SymMake.inhabited {A : Arch} {P : Port A} {S : SymPort P} (M : SymMake S) (e : Env A) (hk : A.k = 4 ∨ A.k = 8) (hN : S.K.N ≤ 0x800) (hfr : S.K.fr ≤ S.K.N)
    (hs : P.mscratch = 0) (h1 : M.top ≠ S.K.sp) (h2 : S.K.to ≠ S.K.sp) (hz : M.msz ≤ 0x800) :
    ∃ σ, (∀ a, InR a (P.resM (exec e P.make σ).1) (P.argTop σ - P.resM (exec e P.make σ).1).toNat →
      ¬ InR a (σ.gpr P.sp - off A P.mscratch) (P.mscratch + A.k)) ∧
    ∃ τ : St A, P.argF τ = P.resM (exec e P.make σ).1 ∧ (∀ a, InR a (P.argF τ) P.mkeep → τ.mem a = (exec e P.make σ).1.mem a) ∧
      (∀ a, InR a (P.argF τ) P.mkeep → ¬ InR a (P.fctx τ) P.frame) := by
  have pw : 2 ^ 32 ≤ 2 ^ (8 * A.k) := Nat.pow_le_pow_right (by decide) (by omega)
  obtain ⟨c1, c2, c3, c4, c5, c6, c7, c8, c9, c10, c11, c12⟩ := S.conv
  obtain ⟨d1, d3, d4, d5, d6⟩ := M.conv
  obtain ⟨w1, w2, -⟩ := M.sz
  obtain ⟨σ, hσ⟩ : ∃ σ : St A, σ = ⟨fun r => if r = S.K.sp then off A 0x10000 else off A 0xf123, fun _ => 0#_, fun _ => 0#_⟩ := ⟨_, rfl⟩
  have e1 : σ.gpr M.top = off A 0xf123 := by rw [hσ]; simp [h1]
  have e2 : σ.gpr S.K.sp = off A 0x10000 := by rw [hσ]; simp
  obtain ⟨c, hcc⟩ : ∃ c, c = (σ.gpr M.top &&& mask A M.j) - off A M.msz := ⟨_, rfl⟩
  obtain ⟨m1, m2, -⟩ := M.make e σ c hcc
  have hmod : (σ.gpr M.top).toNat % 2 ^ M.j < 2 ^ M.j := Nat.mod_lt _ (Nat.two_pow_pos _)
  have hsz : (P.argTop σ - c).toNat = M.msz + (σ.gpr M.top).toNat % 2 ^ M.j := by
    rw [d1, hcc]; exact align_below (A := A) (σ.gpr M.top) M.msz M.j w1
  have hc : c.toNat = 0xf123 - (σ.gpr M.top).toNat % 2 ^ M.j - M.msz := by
    have hand := and_mask_toNat (σ.gpr M.top) M.j
    rw [hcc, BitVec.toNat_sub_of_le (by rw [BitVec.le_def, tn hk _ (by omega), hand, e1, tn hk _ (by omega)]; rw [e1, tn hk _ (by omega)] at hmod; omega), tn hk _ (by omega), hand, e1, tn hk _ (by omega)]
  refine ⟨σ, ?_, S.K.mk' (exec e P.make σ).1.mem 0x20000 c.toNat 0, ?_⟩
  · rw [m2, hsz, hs, c10, e2]
    intro a ha
    have e0 : off A 0x10000 - off A 0 = off A 0x10000 := by simp [off]
    rw [e0]
    refine inR_apart ?_ ?_ ha
    · rw [hc, tn hk _ (by omega)]; omega
    · rw [tn hk _ (by omega)]; omega
  · have g1 : (S.K.mk' (exec e P.make σ).1.mem 0x20000 c.toNat 0).gpr S.K.to = c := by
      simp only [RCfg.mk', h2, if_false, if_true]
      simp [off]
    rw [c4, m2, c1, c2, d3]
    simp only [g1]
    refine ⟨trivial, fun _ _ => rfl, fun a ha => ?_⟩
    have g2 : (S.K.own (S.K.mk' (exec e P.make σ).1.mem 0x20000 c.toNat 0)).toNat = 0x20000 - S.K.fr := by
      show ((S.K.mk' (exec e P.make σ).1.mem 0x20000 c.toNat 0).gpr S.K.sp - _).toNat = _
      simp only [RCfg.mk', if_true]
      exact su hk _ _ (by omega) (by omega)
    refine inR_apart ?_ ?_ ha
    · rw [g2, hc]; omega
    · rw [g2]; omega

end Verif.Asm
