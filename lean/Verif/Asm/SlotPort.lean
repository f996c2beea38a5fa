import Verif.Asm.Sym

/-!
# Ports that return `transfer_t` through a result object

Proof method shared by ARM, MIPS32, PowerPC 32 (Linux) and s390x: the caller passes the address of the result object in a register (`h`), the routines save it in the
frame, and a switch writes the result of the resumed call to the address it finds in the resumed frame.  A `SlotPort` is the list of facts about the individual routines,
most of them evaluations of the symbolic executor, from which the specifications follow.  (No code of `/repo` is modelled in this file.)
-/

namespace Verif.Asm

/-- the registers and the frame layout of a port -/
structure SlotCfg (A : Arch) where
  sp : A.R
  /-- arguments: address of the result object, target, data, function -/
  h : A.R
  to : A.R
  d : A.R
  fn : A.R
  /-- return address -/
  ra : A.R
  /-- distance of the frame from the stack pointer, size of the frame, offset of the address of the result object -/
  fr : Nat
  N : Nat
  oH : Nat
  oPC : Nat
  LG : List (A.R × Nat)
  LF : List (A.F × Nat)
  /-- a null address of the result object has a special meaning -/
  nz : Bool
  /-- special registers that are saved and restored by way of another one (PowerPC: FPSCR by way of F0) -/
  via : A.F → A.F := id
  /-- special registers that are saved and restored by way of a general register (Mach-O ARM: the SjLj handler in thread-local storage) -/
  wd : A.F → Bool := fun _ => false
  /-- the address an on-top switch goes to -/
  opc : Sv A := ⟨.reg fn, 0#_⟩
  /-- part of the frame of the target written by a switch (s390x: argument of a new context) -/
  tw : Nat × Nat := (0, 0)

namespace SlotCfg
variable {A : Arch} (K : SlotCfg A)

/-- address of the result object of the target -/
abbrev thid (s : St A) : A.W := load s.mem (s.gpr K.to + off A K.oH) A.k
abbrev own (s : St A) : A.W := s.gpr K.sp - off A K.fr

/-- Nothing overlaps: the own frame on the one hand, the target's frame, the target's result object and the own result object on the other. -/
def Ok (s : St A) : Prop :=
  (∀ a, InR a (s.gpr K.to) K.N → ¬ InR a (K.own s) K.N) ∧ (∀ a, InR a (K.thid s) (2 * A.k) → ¬ InR a (K.own s) K.N) ∧
  (∀ a, InR a (s.gpr K.h) (2 * A.k) → ¬ InR a (K.own s) K.N) ∧ (K.nz = true → s.gpr K.h ≠ 0#_)

/-- bases: 0 own frame, 1 frame of the target, 2 result object of the target; `b`: the result object is disjoint from the frames -/
def C (b : Bool) : SCfg A where
  known := [(.reg K.sp, 0, off A K.fr), (.reg K.to, 1, 0#_), (.ld 1 K.oH, 2, 0#_)]
  wr i := if i = 0 then (0, K.N) else if i = 1 then K.tw else if i = 2 then (0, 2 * A.k) else (0, 0)
  rd i := if i = 0 then K.N else if i = 1 then K.N else if i = 2 then 2 * A.k else 0
  D i j := i == 0 && j == 1 || i == 1 && j == 0 || i == 2 && j == 0 || b && (i == 2 && j == 1 || i == 0 && j == 2)

def I (e : Env A) (σ : St A) : Itp A where
  σ := σ
  β i := if i = 0 then K.own σ else if i = 1 then σ.gpr K.to else K.thid σ
  e := e

structure Wf : Prop where
  w : 2 * A.k ≤ 2 ^ (8 * A.k)
  N : K.N ≤ 2 ^ (8 * A.k)
  tw : K.tw.1 ≤ K.tw.2 ∧ K.tw.2 ≤ K.N
  oH : K.oH + A.k ≤ K.N
  oPC : K.oPC + A.k ≤ K.N
  LG : ∀ x ∈ K.LG, x.2 + A.k ≤ K.N
  LF : ∀ x ∈ K.LF, x.2 + A.fb x.1 ≤ K.N
  via : ∀ f, A.fb (K.via f) = A.fb f
  wd : ∀ x ∈ K.LF, K.wd x.1 = true → A.fb x.1 = A.k := by intro _ _ h; exact absurd (show false = true from h) (by decide)

variable {K}

theorem I_ok (wf : K.Wf) (b : Bool) (e : Env A) (σ : St A) (h : K.Ok σ)
    (hb : b = true → ∀ a, InR a (K.thid σ) (2 * A.k) → ¬ InR a (σ.gpr K.to) K.N ∧ ¬ InR a (K.own σ) K.N) : (K.I e σ).Ok (K.C b) where
  known := by
    intro x hx
    simp only [C, List.mem_cons, List.not_mem_nil, or_false] at hx
    rcases hx with rfl | rfl | rfl
    · exact (sub_add_off _ _).symm
    · exact (BitVec.add_zero _).symm
    · exact (BitVec.add_zero _).symm
  disj := by
    intro i j hD
    have z0 : ∀ x : A.W, x + off A 0 = x := fun x => BitVec.add_zero x
    simp only [C, Bool.or_eq_true, Bool.and_eq_true, beq_iff_eq] at hD
    intro a ha hx
    rcases hD with ((⟨rfl, rfl⟩ | ⟨rfl, rfl⟩) | ⟨rfl, rfl⟩) | ⟨h1, ⟨rfl, rfl⟩ | ⟨rfl, rfl⟩⟩
    · have ha : InR a (K.own σ + off A 0) K.N := ha
      rw [z0] at ha
      exact h.1 a hx ha
    · have ha : InR a (σ.gpr K.to + off A K.tw.1) (K.tw.2 - K.tw.1) := ha
      exact h.1 a (inR_off ha (by have := wf.tw; omega) wf.N) hx
    · have ha : InR a (K.thid σ + off A 0) (2 * A.k) := ha
      rw [z0] at ha
      exact h.2.1 a ha hx
    · have ha : InR a (K.thid σ + off A 0) (2 * A.k) := ha
      rw [z0] at ha
      exact (hb h1 a ha).1 hx
    · have ha : InR a (K.own σ + off A 0) K.N := ha
      rw [z0] at ha
      exact (hb h1 a hx).2 ha
  wr i := by
    have := wf.tw; have := wf.N; have := wf.w
    simp only [C]; repeat' split
    all_goals (try simp only); omega
  rd i := by
    have := wf.N; have := wf.w
    simp only [C]; repeat' split
    all_goals omega

/-- a run that saves the own context -/
structure SaveOk (K : SlotCfg A) (z : SSt A) : Prop where
  v : z.valid 0 = true
  g : ∀ x ∈ K.LG, look 0 x.2 A.k z.log = some (some (.w ⟨.reg x.1, 0#_⟩))
  f : ∀ x ∈ K.LF, look 0 x.2 (A.fb x.1) z.log = some (some (if K.wd x.1 then .w ⟨.spec x.1, 0#_⟩ else .f (K.via x.1) (.init x.1)))
  a : look 0 K.oPC A.k z.log = some (some (.w ⟨.reg K.ra, 0#_⟩))
  h : look 0 K.oH A.k z.log = some (some (.w ⟨.reg K.h, 0#_⟩))

/-- the frame at `f` holds the context of `σ` -/
structure Frame (K : SlotCfg A) (σ : St A) (m : Mem A) (f : A.W) : Prop where
  g : ∀ x ∈ K.LG, load m (f + off A x.2) A.k = σ.gpr x.1
  fs : ∀ x ∈ K.LF, load m (f + off A x.2) (A.fb x.1) = σ.fpr x.1
  a : load m (f + off A K.oPC) A.k = σ.gpr K.ra
  h : load m (f + off A K.oH) A.k = σ.gpr K.h

theorem sv_reg (I : Itp A) (r : A.R) : I.sv ⟨.reg r, 0#_⟩ = I.σ.gpr r := BitVec.add_zero _
theorem sv_ld (I : Itp A) (i o : Nat) : I.sv ⟨.ld i o, 0#_⟩ = load I.σ.mem (I.β i + off A o) A.k := BitVec.add_zero _
theorem sv_own (e : Env A) (τ : St A) : (K.I e τ).sv ⟨.reg K.sp, -off A K.fr⟩ = K.own τ := (BitVec.sub_eq_add_neg _ _).symm

theorem load_via {m : Mem A} {a : A.W} {n n' : Nat} {v : BitVec (8 * n')} (h : n = n') (h1 : load m a n = v.setWidth (8 * n)) : load m a n' = v := by
  subst h; simpa using h1

theorem load_width {n n' : Nat} (h : n = n') (m : Mem A) (a : A.W) : (load m a n).setWidth (8 * n') = load m a n' := by
  subst h; simp

theorem frame_of (wf : K.Wf) {b : Bool} {e : Env A} {σ s : St A} {z : SSt A} (h : Rel (K.C b) (K.I e σ) z s) (hz : SaveOk K z) :
    Frame K σ s.mem (K.own σ) where
  g x hx := (h.word (i := 0) (o := x.2) hz.v (wf.LG x hx) (hz.g x hx)).trans (sv_reg _ _)
  fs x hx := by
    have hv := wf.via x.1
    have hk := hz.f x hx
    by_cases hw : K.wd x.1 = true
    · rw [if_pos hw] at hk
      have e1 := wf.wd x hx hw
      have := h.word (i := 0) (o := x.2) hz.v (by rw [← e1]; exact wf.LF x hx) (by rw [← e1]; exact hk)
      refine load_via e1.symm (this.trans ?_)
      exact BitVec.add_zero _
    rw [if_neg hw] at hk
    have := h.special (i := 0) (o := x.2) (q := K.via x.1) hz.v (by rw [hv]; exact wf.LF x hx) (by rw [hv]; exact hk)
    simp only [Itp.fv] at this
    exact load_via hv this
  a := (h.word (i := 0) (o := K.oPC) hz.v wf.oPC hz.a).trans (sv_reg _ _)
  h := (h.word (i := 0) (o := K.oH) hz.v wf.oH hz.h).trans (sv_reg _ _)

/-- a complete run that restores the context at base 1 -/
structure RestoreOk (K : SlotCfg A) (z : SSt A) : Prop where
  g : ∀ x ∈ K.LG, z.gpr x.1 = ⟨.ld 1 x.2, 0#_⟩
  f : ∀ x ∈ K.LF, z.fpr x.1 = if K.wd x.1 then .ofG ⟨.ld 1 x.2, 0#_⟩ else .ld 1 x.2
  sp : z.gpr K.sp = ⟨.reg K.to, off A K.fr⟩
  w : ∀ x ∈ z.log, x.1 = 0 ∨ x.1 = 2

/-- a complete run of `jump` -/
structure JumpOk (K : SlotCfg A) (r : A.R) (z : SSt A) : Prop extends RestoreOk K z where
  pc : z.gpr r = ⟨.ld 1 K.oPC, 0#_⟩
  v : z.valid 2 = true
  rF : look 2 0 A.k z.log = some (some (.w ⟨.reg K.sp, -off A K.fr⟩))
  rD : look 2 A.k A.k z.log = some (some (.w ⟨.reg K.d, 0#_⟩))

/-- a complete run of `ontop` -/
structure OntopOk (K : SlotCfg A) (r : A.R) (z : SSt A) : Prop extends RestoreOk K z where
  pc : z.gpr r = K.opc
  hid : z.gpr K.h = ⟨.ld 1 K.oH, 0#_⟩

end SlotCfg

open SlotCfg

/-- `jump` meets its specification -/
structure SlotJump {A : Arch} (P : Port A) where
  K : SlotCfg A
  wf : K.Wf
  /-- the instructions of a switch to a suspended context -/
  ji : List (Instr A)
  jr : A.R
  jrun : ∀ e τ, (K.I e τ).Ok (K.C true) → (K.nz = true → K.thid τ ≠ 0#_) → exec e P.jump τ = (steps e ji τ, (steps e ji τ).gpr jr)
  left : ∀ {e σ m}, P.ok σ → P.Left e σ m → Frame K σ m (K.own σ)
  j1 : ((K.C true).run ji SSt.init).isSome = true
  j2 : JumpOk K jr ((K.C true).fin ji j1)
  conv : P.fctx = K.own ∧ P.frame = K.N ∧ P.keep = K.N ∧ P.argF = (fun s => s.gpr K.to) ∧ P.argD = (fun s => s.gpr K.d) ∧
    P.argFn = (fun s => s.gpr K.fn) ∧ P.slot = (fun s a => InR a (s.gpr K.h) (2 * A.k)) ∧ P.tslot = (fun s a => InR a (K.thid s) (2 * A.k)) ∧
    P.ok = K.Ok ∧ P.sp = K.sp ∧ P.spRet = (fun s => s.gpr K.sp) ∧ P.ra = (fun s => s.gpr K.ra)
  res : P.resF = (fun σ τ => load τ.mem (σ.gpr K.h) A.k) ∧ P.resD = (fun σ τ => load τ.mem (σ.gpr K.h + off A A.k) A.k)
  sav : (∀ r ∈ P.saved, r ∈ K.LG.map (·.1)) ∧ (∀ r ∈ P.fsaved, r ∈ K.LF.map (·.1)) ∧ K.ra ∈ K.LG.map (·.1)
  also : ∀ e σ τ s, Rel (K.C true) (K.I e τ) ((K.C true).fin ji j1) s → K.thid τ = σ.gpr K.h → P.also σ s

/-- `ontop` meets its specification, too -/
structure SlotPort {A : Arch} (P : Port A) extends SlotJump P where
  oi : List (Instr A)
  or : A.R
  orun : ∀ e τ, exec e P.ontop τ = (steps e oi τ, (steps e oi τ).gpr or)
  o1 : ((K.C true).run oi SSt.init).isSome = true
  o2 : OntopOk K or ((K.C true).fin oi o1)
  /-- the arguments of an on-top function -/
  oin : ∀ e τ s, Rel (K.C true) (K.I e τ) ((K.C true).fin oi o1) s → P.oinF s = K.own τ ∧ P.oinD s = τ.gpr K.d

namespace SlotJump
variable {A : Arch} {P : Port A} (S : SlotJump P)

/-- what a call with entry state `τ` that targets the intact context `σ` finds -/
theorem target {e : Env A} {σ τ : St A} {m : Mem A} (hl : P.Left e σ m) (hi : P.Intact σ m τ) (ha : P.argF τ = P.fctx σ) :
    τ.gpr S.K.to = S.K.own σ ∧ Frame S.K σ τ.mem (τ.gpr S.K.to) ∧ S.K.thid τ = σ.gpr S.K.h ∧ S.K.Ok τ ∧ S.K.Ok σ ∧
    ∀ a, InR a (S.K.thid τ) (2 * A.k) → ¬ InR a (τ.gpr S.K.to) S.K.N ∧ ¬ InR a (S.K.own τ) S.K.N := by
  obtain ⟨c1, c2, c3, c4, c5, c6, c7, c8, c9, c10, c11, c12⟩ := S.conv
  obtain ⟨h0, h1, h2, h3, h4, h5⟩ := hi
  have hf := S.left h0 hl
  rw [c1, c4] at ha
  have ha : τ.gpr S.K.to = S.K.own σ := ha
  rw [c1, c3] at h4
  rw [c9] at h0 h1
  rw [c7, c1, c2, c3] at h3
  have wf := S.wf
  have hF : Frame S.K σ τ.mem (τ.gpr S.K.to) := by
    rw [ha]
    constructor
    · intro x hx; rw [← hf.g x hx]; exact load_agree h4 (wf.LG x hx) wf.N
    · intro x hx; rw [← hf.fs x hx]; exact load_agree h4 (wf.LF x hx) wf.N
    · rw [← hf.a]; exact load_agree h4 wf.oPC wf.N
    · rw [← hf.h]; exact load_agree h4 wf.oH wf.N
  have e1 : S.K.thid τ = σ.gpr S.K.h := hF.h
  refine ⟨ha, hF, e1, h1, h0, fun a hh => ?_⟩
  rw [e1] at hh
  rw [ha]
  exact h3 a hh

theorem restored {b : Bool} {e : Env A} {σ τ s : St A} {z : SSt A} (hr : Rel (S.K.C b) (S.K.I e τ) z s) (hz : RestoreOk S.K z)
    (hf : Frame S.K σ τ.mem (τ.gpr S.K.to)) (ha : τ.gpr S.K.to = S.K.own σ) : s.gpr S.K.sp = σ.gpr S.K.sp ∧ (∀ r ∈ P.saved, s.gpr r = σ.gpr r) ∧
    (∀ f ∈ P.fsaved, s.fpr f = σ.fpr f) ∧ s.gpr S.K.ra = σ.gpr S.K.ra := by
  have g : ∀ x ∈ S.K.LG, s.gpr x.1 = σ.gpr x.1 := fun x hx => by
    rw [hr.reg (hz.g x hx), ← hf.g x hx, sv_ld]; simp [SlotCfg.I]
  refine ⟨?_, ?_, ?_, ?_⟩
  · rw [hr.reg hz.sp]
    show τ.gpr S.K.to + _ = _
    rw [ha]; exact sub_add_off _ _
  · intro r h; obtain ⟨x, hx, rfl⟩ := List.mem_map.1 (S.sav.1 r h); exact g _ hx
  · intro f h
    obtain ⟨x, ho, rfl⟩ := List.mem_map.1 (S.sav.2.1 f h)
    rw [hr.fpr, hz.f _ ho, ← hf.fs _ ho]
    by_cases hw : S.K.wd x.1 = true
    · rw [if_pos hw]
      have e1 := S.wf.wd x ho hw
      show BitVec.setWidth _ ((S.K.I e τ).sv ⟨.ld 1 x.2, 0#_⟩) = _
      rw [sv_ld]
      exact load_width e1.symm _ _
    rw [if_neg hw]
    simp [Itp.fv, SlotCfg.I]
  · obtain ⟨x, hx, h⟩ := List.mem_map.1 S.sav.2.2; rw [← h]; exact g _ hx

theorem changed {b : Bool} {e : Env A} {τ s : St A} {z : SSt A} (hr : Rel (S.K.C b) (S.K.I e τ) z s) (hz : ∀ x ∈ z.log, x.1 = 0 ∨ x.1 = 2) (a : A.W)
    (h : s.mem a ≠ τ.mem a) : InR a (S.K.own τ) S.K.N ∨ InR a (S.K.thid τ) (2 * A.k) := by
  obtain ⟨i, ⟨x, hx, rfl⟩, h2⟩ := hr.frame a h
  rcases hz x hx with h0 | h0
  · rw [h0] at h2
    have h2 : InR a (S.K.own τ + off A 0) S.K.N := h2
    left
    rw [show S.K.own τ + off A 0 = S.K.own τ from BitVec.add_zero _] at h2
    exact h2
  · rw [h0] at h2
    have h2 : InR a (S.K.thid τ + off A 0) (2 * A.k) := h2
    right
    rw [show S.K.thid τ + off A 0 = S.K.thid τ from BitVec.add_zero _] at h2
    exact h2

include S

theorem jumpSpec : P.JumpSpec := by
  intro e σ τ m hl hi ha
  obtain ⟨c1, c2, c3, c4, c5, c6, c7, c8, c9, c10, c11, c12⟩ := S.conv
  obtain ⟨t1, hf, hh, ok', ok, hd⟩ := S.target hl hi ha
  have hok := I_ok S.wf true e τ ok' (fun _ => hd)
  have hr := fin_rel hok S.ji S.j1
  obtain ⟨s, hs⟩ : ∃ s, s = steps (S.K.I e τ).e S.ji (S.K.I e τ).σ := ⟨_, rfl⟩
  have hx : exec e P.jump τ = (s, s.gpr S.jr) := by rw [hs]; exact S.jrun e τ hok (fun h => by rw [hh]; exact ok.2.2.2 h)
  rw [← hs] at hr
  rw [hx]
  have hz := S.j2
  obtain ⟨r1, r2, r3, r4⟩ := S.restored hr hz.toRestoreOk hf t1
  have w1 : load s.mem (S.K.thid τ + off A 0) A.k = _ := hr.word (i := 2) (o := 0) hz.v (show 0 + A.k ≤ 2 * A.k by omega) hz.rF
  have w2 : load s.mem (S.K.thid τ + off A A.k) A.k = _ := hr.word (i := 2) (o := A.k) hz.v (show A.k + A.k ≤ 2 * A.k by omega) hz.rD
  rw [hh] at w1 w2
  rw [show σ.gpr S.K.h + off A 0 = σ.gpr S.K.h from BitVec.add_zero _] at w1
  refine ⟨⟨?_, ?_, r2, r3⟩, ?_, ?_, ?_, ?_, S.also e σ τ s hr hh⟩
  · rw [hr.reg hz.pc, sv_ld, c12]; exact hf.a
  · rw [c10, c11]; exact r1
  · rw [S.res.1, c1]; exact w1.trans (sv_own e τ)
  · rw [S.res.2, c5]; exact w2.trans (sv_reg _ _)
  · intro a h
    rw [c1, c2, c7]
    have := S.changed hr hz.w a h
    rw [hh] at this
    exact this
  · intro a
    rw [c7, c8]
    show InR a (S.K.thid τ) _ ↔ _
    rw [hh]

end SlotJump

namespace SlotPort
variable {A : Arch} {P : Port A} (S : SlotPort P)
include S

theorem ontopSpecTo : P.OntopSpecTo (fun e τ => (S.K.I e τ).sv S.K.opc) := by
  intro e σ τ m hl hi ha
  obtain ⟨c1, c2, c3, c4, c5, c6, c7, c8, c9, c10, c11, c12⟩ := S.conv
  obtain ⟨t1, hf, hh, ok', ok, hd⟩ := S.target hl hi ha
  have hok := I_ok S.wf true e τ ok' (fun _ => hd)
  have hr := fin_rel hok S.oi S.o1
  obtain ⟨s, hs⟩ : ∃ s, s = steps (S.K.I e τ).e S.oi (S.K.I e τ).σ := ⟨_, rfl⟩
  have hx : exec e P.ontop τ = (s, s.gpr S.or) := by rw [hs]; exact S.orun e τ
  rw [← hs] at hr
  rw [hx]
  have hz := S.o2
  obtain ⟨r1, r2, r3, r4⟩ := S.restored hr hz.toRestoreOk hf t1
  obtain ⟨a1, a2⟩ := S.oin e τ s hr
  refine ⟨?_, ⟨?_, ?_, r2, r3, ?_, ?_, ?_⟩, ?_, ?_⟩
  · exact hr.reg hz.pc
  · rw [c12]; exact r4
  · rw [c11]; exact r1
  · intro a
    rw [c7]
    show InR a (s.gpr S.K.h) _ ↔ _
    rw [hr.reg hz.hid, sv_ld]
    show InR a (S.K.thid τ) _ ↔ _
    rw [hh]
  · rw [a1, c1]
  · rw [a2, c5]
  · intro a h
    rw [c1, c2, c7]
    have := S.changed hr hz.w a h
    rw [hh] at this
    exact this.imp id .inl
  · intro a
    rw [c7, c8]
    show InR a (S.K.thid τ) _ ↔ _
    rw [hh]

theorem ontopSpec (h : S.K.opc = ⟨.reg S.K.fn, 0#_⟩) : P.OntopSpec := by
  have := S.ontopSpecTo
  rw [h] at this
  intro e σ τ m hl hi ha
  obtain ⟨t1, t2⟩ := this e σ τ m hl hi ha
  refine ⟨?_, t2⟩
  rw [t1, S.conv.2.2.2.2.2.1]
  exact sv_reg _ _

end SlotPort

/-- The part of `left` for straight-line routines: the first `n` instructions save the context, the rest does not write, or writes are covered by the executor. -/
theorem SlotCfg.left_of {A : Arch} {P : Port A} {K : SlotCfg A} (wf : K.Wf) {ji oi : List (Instr A)} {jr or : A.R} (hj : P.jump = .jmp ji jr) (ho : P.ontop = .jmp oi or)
    (nj no : Nat) (pj : (ji.drop nj).all Instr.pure = true) (po : (oi.drop no).all Instr.pure = true) (hk : P.ok = K.Ok)
    (sj : ∃ h, SaveOk K ((K.C false).fin (ji.take nj) h)) (so : ∃ h, SaveOk K ((K.C false).fin (oi.take no) h)) {e : Env A} {σ : St A} {m : Mem A}
    (hok : P.ok σ) (hl : P.Left e σ m) : Frame K σ m (K.own σ) := by
  rw [hk] at hok
  have key : ∀ (l : List (Instr A)) n, (l.drop n).all Instr.pure = true → (∃ h, SaveOk K ((K.C false).fin (l.take n) h)) → Frame K σ (steps e l σ).mem (K.own σ) := by
    intro l n hp ⟨h1, h2⟩
    have h3 := frame_of wf (fin_rel (I_ok wf false e σ hok (by simp)) _ h1) h2
    have : (steps e l σ).mem = (steps e (l.take n) σ).mem := by
      conv => lhs; rw [← List.take_append_drop n l, steps_append]
      exact steps_pure _ _ hp _
    rw [this]; exact h3
  rcases hl with h | h
  · rw [← h, hj]; exact key _ _ pj sj
  · rw [← h, ho]; exact key _ _ po so

/-! ## New contexts -/

/-- bases of the first activation: 0 own frame, 1 data of the new context (`mk` bytes), in which the result object (at offset `hid`, if not null) lies; the part of it written is `mw` -/
def SlotCfg.CE {A : Arch} (K : SlotCfg A) (mk hid : Nat) (mw : Nat × Nat) : SCfg A where
  known := [(.reg K.sp, 0, off A K.fr), (.reg K.to, 1, 0#_)] ++ if K.nz then [] else [(.ld 1 K.oH, 1, off A hid)]
  wr i := if i = 0 then (0, K.N) else if i = 1 then mw else (0, 0)
  rd i := if i = 0 then 0 else if i = 1 then mk else 0
  D i j := i == 0 && j == 1

/-- `make` and the first activation -/
structure SlotMake {A : Arch} {P : Port A} (S : SlotJump P) where
  /-- first argument, alignment, size of the data, offset of the result object, written part, offset of the saved return address, final stack pointer -/
  top : A.R
  j : Nat
  msz : Nat
  hid : Nat
  mw : Nat × Nat
  oRA : Nat
  spo : Nat
  al : Nat
  ei : List (Instr A)
  er : A.R
  conv : P.argTop = (fun s => s.gpr top) ∧ P.tramp = none ∧ P.mkeep = msz ∧ P.mspRet = (fun s => s.gpr S.K.sp) ∧
    P.mslot = (fun c a => InR a (c + off A mw.1) (mw.2 - mw.1)) ∧ P.aligned = fun w => w.toNat % 2 ^ al = 0
  sz : msz + 2 ^ j ≤ 2 ^ (8 * A.k) ∧ 2 ^ j ≤ 64 ∧ al ≤ j ∧ j ≤ 8 * A.k ∧ spo ≤ msz ∧ (msz - spo) % 2 ^ al = 0 ∧ mw.1 ≤ mw.2 ∧ mw.2 ≤ msz ∧ oRA + A.k ≤ msz ∧
    S.K.oPC + A.k ≤ msz ∧ S.K.oH + A.k ≤ msz
  make : ∀ (e : Env A) (σ : St A) (c : A.W), c = (σ.gpr top &&& mask A j) - off A msz → (exec e P.make σ).2 = σ.gpr S.K.ra ∧ P.resM (exec e P.make σ).1 = c ∧
    (exec e P.make σ).1.gpr S.K.sp = σ.gpr S.K.sp ∧ (∀ r ∈ P.saved, (exec e P.make σ).1.gpr r = σ.gpr r) ∧
    (∀ f ∈ P.fsaved, (exec e P.make σ).1.fpr f = σ.fpr f) ∧
    (∀ a, (exec e P.make σ).1.mem a ≠ σ.mem a → InR a c msz) ∧
    load (exec e P.make σ).1.mem (c + off A S.K.oPC) A.k = P.argMFn σ ∧
    load (exec e P.make σ).1.mem (c + off A oRA) A.k = e P.finish ∧
    load (exec e P.make σ).1.mem (c + off A S.K.oH) A.k = if S.K.nz then 0#_ else c + off A hid
  erun : ∀ e τ, (S.K.I e τ).Ok (S.K.CE msz hid mw) → (S.K.nz = true → S.K.thid τ = 0#_) → exec e P.jump τ = (steps e ei τ, (steps e ei τ).gpr er)
  e1 : ((S.K.CE msz hid mw).run ei SSt.init).isSome = true
  pc : ((S.K.CE msz hid mw).fin ei e1).gpr er = ⟨.ld 1 S.K.oPC, 0#_⟩
  sp : ((S.K.CE msz hid mw).fin ei e1).gpr S.K.sp = ⟨.reg S.K.to, off A spo⟩
  ra : ((S.K.CE msz hid mw).fin ei e1).gpr S.K.ra = ⟨.ld 1 oRA, 0#_⟩
  w : ∀ x ∈ ((S.K.CE msz hid mw).fin ei e1).log, x.1 = 0 ∨ x.1 = 1
  /-- the arguments of the context function -/
  ein : ∀ e τ s, (S.K.nz = false → S.K.thid τ = τ.gpr S.K.to + off A hid) → Rel (S.K.CE msz hid mw) (S.K.I e τ) ((S.K.CE msz hid mw).fin ei e1) s → P.inF s = S.K.own τ ∧ P.inD s = τ.gpr S.K.d

namespace SlotMake
variable {A : Arch} {P : Port A} {S : SlotJump P} (M : SlotMake S)

include M in
/-- the first activation, as seen by the symbolic executor -/
theorem entry {e : Env A} {σ τ : St A} (ha : P.argF τ = P.resM (exec e P.make σ).1)
    (hmem : ∀ a, InR a (P.argF τ) P.mkeep → τ.mem a = (exec e P.make σ).1.mem a)
    (hd : ∀ a, InR a (P.argF τ) P.mkeep → ¬ InR a (P.fctx τ) P.frame) :
    ∃ s, P.enter e τ = (s, s.gpr M.er) ∧ Rel (S.K.CE M.msz M.hid M.mw) (S.K.I e τ) ((S.K.CE M.msz M.hid M.mw).fin M.ei M.e1) s ∧
      τ.gpr S.K.to = (σ.gpr M.top &&& mask A M.j) - off A M.msz := by
  obtain ⟨c, hcc⟩ : ∃ c, c = (σ.gpr M.top &&& mask A M.j) - off A M.msz := ⟨_, rfl⟩
  obtain ⟨m1, m2, m3, m4, m5, m6, m7, m8, m9⟩ := M.make e σ c hcc
  obtain ⟨c1, c2, c3, c4, c5, c6, c7, c8, c9, c10, c11, c12⟩ := S.conv
  obtain ⟨d1, d2, d3, d4, d5, d6⟩ := M.conv
  obtain ⟨w1, w2, w3, w4, w5, w6, w7, w8, w9, w10, w11⟩ := M.sz
  have hw : M.msz ≤ 2 ^ (8 * A.k) := by have : 0 < 2 ^ M.j := Nat.two_pow_pos _; omega
  rw [ha, m2, d3] at hmem hd
  rw [m2, c4] at ha
  have ha' : τ.gpr S.K.to = c := ha
  rw [c1, c2] at hd
  have ld : ∀ o, o + A.k ≤ M.msz → load τ.mem (c + off A o) A.k = load (exec e P.make σ).1.mem (c + off A o) A.k := fun o ho => load_agree hmem ho hw
  have hth : S.K.thid τ = if S.K.nz then 0#_ else c + off A M.hid := by
    show load τ.mem (τ.gpr S.K.to + off A S.K.oH) A.k = _
    rw [ha', ld _ w11, m9]
  have hok : (S.K.I e τ).Ok (S.K.CE M.msz M.hid M.mw) := by
    constructor
    · intro x hx
      simp only [SlotCfg.CE, List.mem_cons, List.not_mem_nil, or_false, List.mem_append] at hx
      rcases hx with (rfl | rfl) | hx
      · exact (sub_add_off _ _).symm
      · exact (BitVec.add_zero _).symm
      · split at hx
        · simp at hx
        · rename_i hn
          simp only [List.mem_cons, List.not_mem_nil, or_false] at hx
          subst hx
          show S.K.thid τ = τ.gpr S.K.to + _
          rw [hth, ha']; simp [hn]
    · intro i j hD
      simp only [SlotCfg.CE, Bool.and_eq_true, beq_iff_eq] at hD
      obtain ⟨rfl, rfl⟩ := hD
      intro a h1 h2
      have h1 : InR a (S.K.own τ + off A 0) S.K.N := h1
      rw [show S.K.own τ + off A 0 = S.K.own τ from BitVec.add_zero _] at h1
      have h2 : InR a (τ.gpr S.K.to) M.msz := h2
      rw [ha'] at h2
      exact hd a h2 h1
    · intro i
      have := S.wf.N
      simp only [SlotCfg.CE]; repeat' split
      all_goals (try simp only); omega
    · intro i
      simp only [SlotCfg.CE]; repeat' split
      all_goals omega
  have hr := fin_rel hok M.ei M.e1
  obtain ⟨s, hs⟩ : ∃ s, s = steps (S.K.I e τ).e M.ei (S.K.I e τ).σ := ⟨_, rfl⟩
  have hx : P.enter e τ = (s, s.gpr M.er) := by
    rw [Port.enter, d2, hs]; exact M.erun e τ hok (fun h => by rw [hth]; simp [h])
  rw [← hs] at hr
  exact ⟨s, hx, hr, ha'.trans hcc⟩

include M in
theorem makeSpec : P.MakeSpec := by
  intro e σ _
  obtain ⟨c, hcc⟩ : ∃ c, c = (σ.gpr M.top &&& mask A M.j) - off A M.msz := ⟨_, rfl⟩
  obtain ⟨m1, m2, m3, m4, m5, m6, m7, m8, m9⟩ := M.make e σ c hcc
  obtain ⟨c1, c2, c3, c4, c5, c6, c7, c8, c9, c10, c11, c12⟩ := S.conv
  obtain ⟨d1, d2, d3, d4, d5, d6⟩ := M.conv
  obtain ⟨w1, w2, w3, w4, w5, w6, w7, w8, w9, w10, w11⟩ := M.sz
  have hw : M.msz ≤ 2 ^ (8 * A.k) := by have : 0 < 2 ^ M.j := Nat.two_pow_pos _; omega
  have hmod : (σ.gpr M.top).toNat % 2 ^ M.j < 2 ^ M.j := Nat.mod_lt _ (Nat.two_pow_pos _)
  have hsz : (P.argTop σ - c).toNat = M.msz + (σ.gpr M.top).toNat % 2 ^ M.j := by
    rw [d1, hcc]; exact align_below (A := A) (σ.gpr M.top) M.msz M.j w1
  rw [m2, hsz, d3]
  refine ⟨⟨by rw [c12]; exact m1, by rw [c10, d4]; exact m3, m4, m5⟩, ⟨by omega, by omega⟩, ?_, ?_⟩
  · intro a ha
    left
    exact inR_mono (m6 a ha) (by omega)
  · intro τ h0 hmem hd
    have ha := h0
    rw [← m2] at h0
    have h1 := hmem
    have h2 := hd
    rw [← d3] at h1 h2
    rw [ha] at hmem hd ⊢
    rw [hsz]
    rw [c4] at ha
    have ha' : τ.gpr S.K.to = c := ha
    rw [c1, c2] at hd
    have ld : ∀ o, o + A.k ≤ M.msz → load τ.mem (c + off A o) A.k = load (exec e P.make σ).1.mem (c + off A o) A.k := fun o ho => load_agree hmem ho hw
    have hth : S.K.thid τ = if S.K.nz then 0#_ else c + off A M.hid := by
      show load τ.mem (τ.gpr S.K.to + off A S.K.oH) A.k = _
      rw [ha', ld _ w11, m9]
    obtain ⟨s, hx, hr, -⟩ := M.entry (σ := σ) h0 h1 h2
    rw [hx]
    have ld' : ∀ o, o + A.k ≤ M.msz → (S.K.I e τ).sv ⟨.ld 1 o, 0#_⟩ = load (exec e P.make σ).1.mem (c + off A o) A.k := by
      intro o ho
      rw [← ld o ho, sv_ld, ← ha']; rfl
    have hsp : s.gpr S.K.sp = c + off A M.spo := by rw [hr.reg M.sp, ← ha']; rfl
    obtain ⟨a1, a2⟩ := M.ein e τ s (fun h => by rw [hth, ha']; simp [h]) hr
    refine ⟨?_, ?_, ?_, ?_, ?_, ?_, ?_, ?_, ?_⟩
    · intro l cc h; rw [d2] at h; cases h
    · rw [hr.reg M.pc, ld' _ w10, m7]
    · rw [a1, c1]
    · rw [a2, c5]
    · rw [c12]; show s.gpr S.K.ra = _; rw [hr.reg M.ra, ld' _ w9, m8]
    · rw [c10, d6]
      show (s.gpr S.K.sp).toNat % 2 ^ M.al = 0
      rw [hsp]
      have h1 : c + off A M.spo = (σ.gpr M.top &&& mask A M.j) - off A (M.msz - M.spo) := by
        rw [hcc]
        have : off A M.msz = off A (M.msz - M.spo) + off A M.spo := by simp only [off, ← BitVec.ofNat_add]; congr 1; omega
        rw [this]; generalize (σ.gpr M.top &&& mask A M.j) = x; generalize off A (M.msz - M.spo) = y; generalize off A M.spo = z; grind
      have hdv : 2 ^ M.al ∣ 2 ^ M.j := Nat.pow_dvd_pow 2 w3
      have hdv' : 2 ^ M.al ∣ 2 ^ (8 * A.k) := Nat.pow_dvd_pow 2 (by omega)
      rw [h1, BitVec.toNat_sub, and_mask_toNat]
      have h2 : (off A (M.msz - M.spo)).toNat = M.msz - M.spo := by rw [off, BitVec.toNat_ofNat, Nat.mod_eq_of_lt]; have := Nat.two_pow_pos M.j; omega
      rw [h2, Nat.mod_mod_of_dvd _ hdv']
      apply Nat.mod_eq_zero_of_dvd
      apply Nat.dvd_add
      · exact Nat.dvd_sub hdv' (Nat.dvd_of_mod_eq_zero w6)
      · exact Nat.dvd_trans hdv (Nat.dvd_sub_mod _)
    · rw [c10]
      show (s.gpr S.K.sp - c).toNat ≤ _
      rw [hsp]
      have : c + off A M.spo - c = off A M.spo := by rw [BitVec.add_comm, BitVec.add_sub_cancel]
      rw [this]
      have : (off A M.spo).toNat ≤ M.spo := by rw [off, BitVec.toNat_ofNat]; exact Nat.mod_le _ _
      omega
    · intro a h
      rw [c1, c2, d5]
      obtain ⟨i, ⟨x, hx, rfl⟩, h4⟩ := hr.frame a h
      rcases M.w x hx with h0 | h0
      · rw [h0] at h4
        have h4 : InR a (S.K.own τ + off A 0) S.K.N := h4
        rw [show S.K.own τ + off A 0 = S.K.own τ from BitVec.add_zero _] at h4
        exact .inl h4
      · rw [h0] at h4
        have h4 : InR a (τ.gpr S.K.to + off A M.mw.1) (M.mw.2 - M.mw.1) := h4
        rw [ha'] at h4
        exact .inr h4
    · intro a h
      rw [d5] at h
      exact inR_off h (by omega) hw

end SlotMake

/-! ## The hypotheses can be met -/

theorem load_zero {A : Arch} (a : A.W) (n : Nat) : load (fun _ => 0#8 : Mem A) a n = 0#_ := by
  induction n generalizing a with
  | zero => rfl
  | succ n ih => simp only [load, ih]; apply BitVec.eq_of_toNat_eq; erw [BitVec.toNat_append]; simp; erw [BitVec.toNat_ofNat]; simp

/-- a state with the given stack pointer, result object and target, all other registers containing `x` -/
def SlotCfg.mk' {A : Arch} (K : SlotCfg A) (m : Mem A) (sp h to x : Nat) : St A :=
  ⟨fun r => if r = K.sp then off A sp else if r = K.h then off A h else if r = K.to then off A to else off A x, fun _ => 0#_, m⟩

namespace SlotJump
variable {A : Arch} {P : Port A} (S : SlotJump P)

include S in
/-- The hypotheses of `JumpSpec` and `OntopSpec` are met by a context suspended at `sp = 0x10000`, with result object at `0x11000`, and a resumer with different
register contents. -/
theorem inhabited' (e : Env A) (hk : A.k = 4 ∨ A.k = 8) (hN : S.K.N ≤ 0x800) (hfr : S.K.fr ≤ S.K.N) (h1 : S.K.h ≠ S.K.sp) (h2 : S.K.to ≠ S.K.sp) (h3 : S.K.to ≠ S.K.h) :
    ∃ σ τ m, P.Left e σ m ∧ P.Intact σ m τ ∧ P.argF τ = P.fctx σ ∧ (∀ r, r ≠ S.K.sp → r ≠ S.K.h → r ≠ S.K.to → σ.gpr r ≠ τ.gpr r) ∧ (∀ f, σ.fpr f = 0#_) ∧
      P.fctx τ = off A 0x20000 - off A S.K.fr := by
  have pw : 2 ^ 32 ≤ 2 ^ (8 * A.k) := Nat.pow_le_pow_right (by decide) (by omega)
  have tn : ∀ x, x < 2 ^ 32 → (off A x).toNat = x := fun x hx => by rw [off, BitVec.toNat_ofNat, Nat.mod_eq_of_lt (by omega)]
  have su : ∀ x y, x < 2 ^ 32 → y ≤ x → (off A x - off A y).toNat = x - y := fun x y h1 h2 => by
    rw [BitVec.toNat_sub_of_le (by rw [BitVec.le_def, tn _ h1, tn _ (by omega)]; exact h2), tn _ h1, tn _ (by omega)]
  obtain ⟨c1, c2, c3, c4, c5, c6, c7, c8, c9, c10, c11, c12⟩ := S.conv
  obtain ⟨σ, hσ⟩ : ∃ σ, σ = S.K.mk' (fun _ => 0#_) 0x10000 0x11000 0x8000 1 := ⟨_, rfl⟩
  have e1 : σ.gpr S.K.h = off A 0x11000 := by rw [hσ]; simp [mk', h1]
  have e2 : σ.gpr S.K.to = off A 0x8000 := by rw [hσ]; simp [mk', h2, h3]
  have e3 : σ.gpr S.K.sp = off A 0x10000 := by rw [hσ]; simp [mk']
  have e4 : S.K.thid σ = off A 0 := by
    show load σ.mem _ _ = _
    rw [hσ]; exact load_zero _ _
  have e5 : (S.K.own σ).toNat = 0x10000 - S.K.fr := by show (σ.gpr S.K.sp - _).toNat = _; rw [e3]; exact su _ _ (by omega) (by omega)
  have hok : S.K.Ok σ := by
    refine ⟨?_, ?_, ?_, ?_⟩
    · rw [e2]; exact fun a ha => inR_apart (by rw [e5, tn _ (by omega)]; omega) (by rw [e5]; omega) ha
    · rw [e4]; exact fun a ha => inR_apart (by rw [e5, tn _ (by omega)]; omega) (by rw [e5]; omega) ha
    · rw [e1]; exact fun a ha hb => inR_apart (by rw [e5, tn _ (by omega)]; omega) (by rw [tn _ (by omega)]; omega) hb ha
    · intro _ h
      rw [e1] at h
      have := congrArg BitVec.toNat h
      rw [tn _ (by omega)] at this
      simp at this
  obtain ⟨m, hm⟩ : ∃ m, m = (exec e P.jump σ).1.mem := ⟨_, rfl⟩
  have hl : P.Left e σ m := .inl hm.symm
  have hf := S.left (by rw [c9]; exact hok) hl
  obtain ⟨τ, hτ⟩ : ∃ τ, τ = S.K.mk' m 0x20000 0x21000 (0x10000 - S.K.fr) 2 := ⟨_, rfl⟩
  have t1 : τ.gpr S.K.h = off A 0x21000 := by rw [hτ]; simp [mk', h1]
  have t2 : τ.gpr S.K.to = S.K.own σ := by
    rw [hτ]; simp only [mk', h2, h3, if_false, if_true]
    apply BitVec.eq_of_toNat_eq
    rw [e5, tn _ (by omega)]
  have t3 : τ.gpr S.K.sp = off A 0x20000 := by rw [hτ]; simp [mk']
  have t6 : τ.mem = m := by rw [hτ]; rfl
  have t4 : S.K.thid τ = off A 0x11000 := by
    show load τ.mem (τ.gpr S.K.to + _) A.k = _
    rw [t2, ← e1, ← hf.h, t6]
  have t5 : (S.K.own τ).toNat = 0x20000 - S.K.fr := by show (τ.gpr S.K.sp - _).toNat = _; rw [t3]; exact su _ _ (by omega) (by omega)
  have d12 : ∀ a, InR a (S.K.own σ) S.K.N → ¬ InR a (S.K.own τ) S.K.N :=
    fun a ha => inR_apart (by rw [e5, t5]; omega) (by rw [t5]; omega) ha
  have hok' : S.K.Ok τ := by
    refine ⟨?_, ?_, ?_, ?_⟩
    · rw [t2]; exact d12
    · rw [t4]; exact fun a ha => inR_apart (by rw [t5, tn _ (by omega)]; omega) (by rw [t5]; omega) ha
    · rw [t1]; exact fun a ha hb => inR_apart (by rw [t5, tn _ (by omega)]; omega) (by rw [tn _ (by omega)]; omega) hb ha
    · intro _ h
      rw [t1] at h
      have := congrArg BitVec.toNat h
      rw [tn _ (by omega)] at this
      simp at this
  refine ⟨σ, τ, m, hl, ⟨by rw [c9]; exact hok, by rw [c9]; exact hok', ?_, ?_, ?_, ?_⟩, ?_, ?_, ?_, ?_⟩
  · rw [c8, c1, c2, c3, Nat.max_self]; exact hok.2.1
  · rw [c7, c1, c2, c3]
    intro a ha
    refine ⟨hok.2.2.1 a ha, ?_⟩
    have ha : InR a (σ.gpr S.K.h) (2 * A.k) := ha
    rw [e1] at ha
    exact inR_apart (by rw [t5, tn _ (by omega)]; omega) (by rw [t5]; omega) ha
  · rw [c1, c3, t6]; exact fun _ _ => rfl
  · rw [c1, c2, c3]; exact d12
  · rw [c4, c1]; exact t2
  · intro r a1 a2 a3 h
    rw [hσ, hτ] at h
    simp only [mk', a1, a2, a3, if_false] at h
    have := congrArg BitVec.toNat h
    rw [tn _ (by omega), tn _ (by omega)] at this
    omega
  · intro f; rw [hσ]; rfl
  · rw [c1]; show τ.gpr S.K.sp - _ = _; rw [t3]

include S in
theorem inhabited (e : Env A) (hk : A.k = 4 ∨ A.k = 8) (hN : S.K.N ≤ 0x800) (hfr : S.K.fr ≤ S.K.N) (h1 : S.K.h ≠ S.K.sp) (h2 : S.K.to ≠ S.K.sp) (h3 : S.K.to ≠ S.K.h) :
    ∃ σ τ m, P.Left e σ m ∧ P.Intact σ m τ ∧ P.argF τ = P.fctx σ ∧ ∀ r, r ≠ S.K.sp → r ≠ S.K.h → r ≠ S.K.to → σ.gpr r ≠ τ.gpr r := by
  obtain ⟨σ, τ, m, a1, a2, a3, a4, -⟩ := S.inhabited' e hk hN hfr h1 h2 h3
  exact ⟨σ, τ, m, a1, a2, a3, a4⟩

end SlotJump

/-- The hypotheses of `MakeSpec` are met by a caller at `sp = 0x10000` and a stack whose top is the odd address `0xf123`. -/
theorem SlotMake.inhabited {A : Arch} {P : Port A} {S : SlotJump P} (M : SlotMake S) (e : Env A) (hk : A.k = 4 ∨ A.k = 8) (hN : S.K.N ≤ 0x800) (hfr : S.K.fr ≤ S.K.N)
    (hs : P.mscratch = 0) (h1 : M.top ≠ S.K.sp) (h2 : S.K.to ≠ S.K.sp) (hz : M.msz ≤ 0x800) (h3 : S.K.to ≠ S.K.h) :
    ∃ σ, (∀ a, InR a (P.resM (exec e P.make σ).1) (P.argTop σ - P.resM (exec e P.make σ).1).toNat →
      ¬ InR a (σ.gpr P.sp - off A P.mscratch) (P.mscratch + A.k)) ∧
    ∃ τ : St A, P.argF τ = P.resM (exec e P.make σ).1 ∧ (∀ a, InR a (P.argF τ) P.mkeep → τ.mem a = (exec e P.make σ).1.mem a) ∧
      (∀ a, InR a (P.argF τ) P.mkeep → ¬ InR a (P.fctx τ) P.frame) := by
  have pw : 2 ^ 32 ≤ 2 ^ (8 * A.k) := Nat.pow_le_pow_right (by decide) (by omega)
  have tn : ∀ x, x < 2 ^ 32 → (off A x).toNat = x := fun x hx => by rw [off, BitVec.toNat_ofNat, Nat.mod_eq_of_lt (by omega)]
  have su : ∀ x y, x < 2 ^ 32 → y ≤ x → (off A x - off A y).toNat = x - y := fun x y h1 h2 => by
    rw [BitVec.toNat_sub_of_le (by rw [BitVec.le_def, tn _ h1, tn _ (by omega)]; exact h2), tn _ h1, tn _ (by omega)]
  obtain ⟨c1, c2, c3, c4, c5, c6, c7, c8, c9, c10, c11, c12⟩ := S.conv
  obtain ⟨d1, d2, d3, d4, d5, d6⟩ := M.conv
  obtain ⟨w1, w2, -⟩ := M.sz
  obtain ⟨σ, hσ⟩ : ∃ σ : St A, σ = ⟨fun r => if r = S.K.sp then off A 0x10000 else off A 0xf123, fun _ => 0#_, fun _ => 0#_⟩ := ⟨_, rfl⟩
  have e1 : σ.gpr M.top = off A 0xf123 := by rw [hσ]; simp [h1]
  have e2 : σ.gpr S.K.sp = off A 0x10000 := by rw [hσ]; simp
  obtain ⟨c, hcc⟩ : ∃ c, c = (σ.gpr M.top &&& mask A M.j) - off A M.msz := ⟨_, rfl⟩
  obtain ⟨m1, m2, -⟩ := M.make e σ c hcc
  have hmod : (σ.gpr M.top).toNat % 2 ^ M.j < 2 ^ M.j := Nat.mod_lt _ (Nat.two_pow_pos _)
  have hsz : (P.argTop σ - c).toNat = M.msz + (σ.gpr M.top).toNat % 2 ^ M.j := by
    rw [d1, hcc]; exact align_below (A := A) (σ.gpr M.top) M.msz M.j w1
  have hc : c.toNat = 0xf123 - (σ.gpr M.top).toNat % 2 ^ M.j - M.msz := by
    have hand := and_mask_toNat (σ.gpr M.top) M.j
    rw [hcc, BitVec.toNat_sub_of_le (by rw [BitVec.le_def, tn _ (by omega), hand, e1, tn _ (by omega)]; rw [e1, tn _ (by omega)] at hmod; omega), tn _ (by omega), hand, e1, tn _ (by omega)]
  refine ⟨σ, ?_, S.K.mk' (exec e P.make σ).1.mem 0x20000 0 c.toNat 0, ?_⟩
  · rw [m2, hsz, hs, c10, e2]
    intro a ha
    have e0 : off A 0x10000 - off A 0 = off A 0x10000 := by simp [off]
    rw [e0]
    refine inR_apart ?_ ?_ ha
    · rw [hc, tn _ (by omega)]; omega
    · rw [tn _ (by omega)]; omega
  · have g1 : (S.K.mk' (exec e P.make σ).1.mem 0x20000 0 c.toNat 0).gpr S.K.to = c := by
      simp only [SlotCfg.mk', h2, h3, if_false, if_true]
      simp [off]
    rw [c4, m2, c1, c2, d3]
    simp only [g1]
    refine ⟨trivial, fun _ _ => rfl, fun a ha => ?_⟩
    have g2 : (S.K.own (S.K.mk' (exec e P.make σ).1.mem 0x20000 0 c.toNat 0)).toNat = 0x20000 - S.K.fr := by
      show ((S.K.mk' (exec e P.make σ).1.mem 0x20000 0 c.toNat 0).gpr S.K.sp - _).toNat = _
      simp only [SlotCfg.mk', if_true]
      exact su _ _ (by omega) (by omega)
    refine inR_apart ?_ ?_ ha
    · rw [g2, hc]; omega
    · rw [g2]; omega

end Verif.Asm
