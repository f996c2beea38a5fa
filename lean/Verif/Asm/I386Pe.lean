import Verif.Asm.I386PeCode
import Verif.Asm.I386PeClangCode
import Verif.Asm.I386PeMasmCode
import Verif.Asm.Sym

/-! # i386 Windows: the switching routines meet their specification (C67) -/

namespace Verif.Asm.I386Pe

/-- `is`, then `c` -/
def prep (is : List (Instr A)) : Code A → Code A
  | .jmp l r => .jmp (is ++ l) r
  | .brz l r z nz => .brz (is ++ l) r z nz

/-- The loop of `make_fcontext` (make_i386_ms_pe_gas.asm 102-112) for at most `n` rounds; then the execution stands at its head, label `walk`. -/
def walkN (cfg : Cfg) : Nat → Code A
  | 0 => .jmp [.la tmp Lab.walk] tmp
  | n + 1 => .brz (mtestIs cfg) edx (.jmp (mtailIs cfg) eip) (prep (mnextIs cfg) (walkN cfg n))

/-- `make_fcontext` (make_i386_ms_pe_gas.asm 37-129): the execution up to the start of round `n + 1` of the loop, or up to its end if it has fewer rounds -/
def make (cfg : Cfg) (n : Nat) : Code A := prep (mheadIs cfg) (walkN cfg n)

/-- word on the stack at the entry of a function -/
abbrev arg (s : St A) (o : Nat) : A.W := load s.mem (s.gpr esp + off A o) A.k

/-- Windows i386 (cdecl): everything is passed on the stack; a function finds its return address at `[esp]` and its arguments from `[esp+4]` on, a structure of two
words is passed as two words and returned in eax and edx.  Callee-saved: ebx, esi, edi, ebp, and the control words of the floating point units (which
`BOOST_USE_TSX` gives up).  The fields of the thread information block that describe the stack, and the head of the chain of exception handlers, belong to the context,
too.

`N` limits the rounds of the loop of `make_fcontext` (see `make`); the claims on `make_fcontext` hold for all `N` that suffice for the chain it traverses.

`ok`: the frame (with arguments) of the target does not overlap the own frame (with arguments). -/
def port (cfg : Cfg) (N : Nat) : Port A where
  jump := jump cfg
  ontop := ontop cfg
  make := make cfg N
  tramp := some (Lab.trampoline, tramp cfg)
  finish := Lab.finish
  sp := esp
  saved := [ebx, ebp, edi, esi]
  fsaved := [tibSeh, tibBase, tibLimit, tibFiber, tibDealloc] ++ if cfg.tsx then [] else [mxcsr, x87cw]
  ra s := load s.mem (s.gpr esp) A.k
  spRet s := s.gpr esp + off A 4
  argF s := arg s 4
  argD s := arg s 8
  argFn s := arg s 0xc
  slot _ _ := False
  resF _ τ := τ.gpr eax
  resD _ τ := τ.gpr edx
  inF s := arg s 4
  inD s := arg s 8
  oinF s := arg s 4
  oinD s := arg s 8
  fctx s := s.gpr esp - off A 0x2c
  frame := 0x2c
  keep := 0x30
  tslot _ _ := False
  oarea s a := InR a (s.gpr esp + off A 4) 8
  ok s := ∀ a, InR a (arg s 4) 0x38 → ¬ InR a (s.gpr esp - off A 0x2c) 0x3c
  argTop s := arg s 4
  argMFn s := arg s 0xc
  resM s := s.gpr eax
  mspRet s := s.gpr esp + off A 4
  mscratch := 0
  mkeep := 0x40
  mslot c a := InR a (c + off A 0x2c) 0xc
  aligned w := (w + off A 4).toNat % 16 = 0

/-! ## Proofs -/

theorem z0 (x : A.W) : x + off A 0 = x := BitVec.add_zero x

theorem fr (x : A.W) (n : Nat) : x - off A 0x2c + off A (0x2c + n) = x + off A n := by
  rw [← add_off_off, sub_add_off]

abbrev own (s : St A) : A.W := s.gpr esp - off A 0x2c

/-- bases: 0 own frame (with arguments), 1 frame of the target (with arguments) -/
def C : SCfg A where
  known := [(.reg esp, 0, off A 0x2c), (.ld 0 0x30, 1, 0#_)]
  wr i := if i = 0 then (0, 0x2c) else if i = 1 then (0x30, 0x38) else (0, 0)
  rd i := if i = 0 then 0x3c else if i = 1 then 0x38 else 0
  D i j := i == 0 && j == 1 || i == 1 && j == 0

def I (e : Env A) (σ : St A) : Itp A where
  σ := σ
  β i := if i = 0 then own σ else arg σ 4
  e := e

theorem known0 (e : Env A) (σ : St A) : ∀ x ∈ [(Atom.reg esp, 0, off A 0x2c), (.ld 0 0x30, 1, 0#_)], (I e σ).atom x.1 = (I e σ).β x.2.1 + x.2.2 := by
  intro x hx
  simp only [List.mem_cons, List.not_mem_nil, or_false] at hx
  rcases hx with rfl | rfl
  · exact (sub_add_off _ _).symm
  · show load σ.mem (σ.gpr esp - off A 0x2c + off A (0x2c + 4)) A.k = arg σ 4 + 0#_
    rw [fr, BitVec.add_zero]

theorem I_ok (e : Env A) (σ : St A) (h : ∀ a, InR a (arg σ 4) 0x38 → ¬ InR a (own σ) 0x3c) : (I e σ).Ok C where
  known := known0 e σ
  disj := by
    intro i j hD
    simp only [C, Bool.or_eq_true, Bool.and_eq_true, beq_iff_eq] at hD
    intro a ha hx
    rcases hD with ⟨rfl, rfl⟩ | ⟨rfl, rfl⟩
    · have ha : InR a (own σ + off A 0) 0x2c := ha
      rw [z0] at ha
      exact h a hx (inR_mono ha (by decide))
    · have ha : InR a (arg σ 4 + off A 0x30) 8 := ha
      exact h a (inR_off ha (by decide) (by decide)) hx
  wr i := by simp only [C]; repeat' split
             all_goals decide
  rd i := by simp only [C]; repeat' split
             all_goals decide

def LG : List (A.R × Nat) := [(edi, 0x1c), (esi, 0x20), (ebx, 0x24), (ebp, 0x28)]
def LF (cfg : Cfg) : List (A.F × Nat) := if cfg.tsx then [] else [(mxcsr, 0), (x87cw, 4)]
def LT : List (A.F × Nat) := [(tibFiber, 8), (tibDealloc, 0xc), (tibLimit, 0x10), (tibBase, 0x14), (tibSeh, 0x18)]

/-- a run that saves the own context -/
structure SaveOk (cfg : Cfg) (z : SSt A) : Prop where
  v : z.valid 0 = true
  g : ∀ x ∈ LG, look 0 x.2 A.k z.log = some (some (.w ⟨.reg x.1, 0#_⟩))
  f : ∀ x ∈ LF cfg, look 0 x.2 (A.fb x.1) z.log = some (some (.f x.1 (.init x.1)))
  t : ∀ x ∈ LT, look 0 x.2 A.k z.log = some (some (.w ⟨.spec x.1, 0#_⟩))
  a : look 0 0x2c A.k z.log = some none

theorem jump_save (cfg : Cfg) : ∃ h, SaveOk cfg (C.fin (jumpIs cfg) h) := by
  obtain ⟨_ | _⟩ := cfg <;> exact ⟨by decide +kernel, ⟨by decide +kernel, by decide +kernel, by decide +kernel, by decide +kernel, by decide +kernel⟩⟩

theorem ontop_save (cfg : Cfg) : ∃ h, SaveOk cfg (C.fin (ontopIs cfg) h) := by
  obtain ⟨_ | _⟩ := cfg <;> exact ⟨by decide +kernel, ⟨by decide +kernel, by decide +kernel, by decide +kernel, by decide +kernel, by decide +kernel⟩⟩

/-- the frame at `f` holds the context of `σ` -/
structure Frame (cfg : Cfg) (σ : St A) (m : Mem A) (f : A.W) : Prop where
  g : ∀ x ∈ LG, load m (f + off A x.2) A.k = σ.gpr x.1
  fs : ∀ x ∈ LF cfg, load m (f + off A x.2) (A.fb x.1) = σ.fpr x.1
  t : ∀ x ∈ LT, load m (f + off A x.2) A.k = (σ.fpr x.1).setWidth _
  a : load m (f + off A 0x2c) A.k = load σ.mem (σ.gpr esp) A.k

theorem sv_reg (I : Itp A) (r : A.R) : I.sv ⟨.reg r, 0#_⟩ = I.σ.gpr r := BitVec.add_zero _
theorem sv_ld (I : Itp A) (i o : Nat) : I.sv ⟨.ld i o, 0#_⟩ = load I.σ.mem (I.β i + off A o) A.k := BitVec.add_zero _
theorem ownPtr (e : Env A) (τ : St A) : (I e τ).sv ⟨.reg esp, -off A 0x2c⟩ = own τ := (BitVec.sub_eq_add_neg _ _).symm
theorem ownArg (e : Env A) (τ : St A) (n : Nat) : (I e τ).sv ⟨.ld 0 (0x2c + n), 0#_⟩ = arg τ n := by
  rw [sv_ld]
  show load τ.mem (τ.gpr esp - off A 0x2c + off A (0x2c + n)) A.k = _
  rw [fr]

theorem frame_of {cfg : Cfg} {e : Env A} {σ s : St A} {z : SSt A} (h : Rel C (I e σ) z s) (hz : SaveOk cfg z) : Frame cfg σ s.mem (own σ) where
  g x hx := (h.word (i := 0) (o := x.2) hz.v (show _ ≤ 0x3c by revert x; decide) (hz.g x hx)).trans (sv_reg _ _)
  fs x hx := by
    have := h.special (i := 0) (o := x.2) hz.v (show _ ≤ 0x3c by revert x; obtain ⟨_ | _⟩ := cfg <;> decide) (hz.f x hx)
    simpa [Itp.fv, I] using this
  t x hx := by
    have := h.word (i := 0) (o := x.2) hz.v (show _ ≤ 0x3c by revert x; decide) (hz.t x hx)
    exact this.trans (BitVec.add_zero _)
  a := by
    have := h.same 0 0x2c A.k hz.v (show _ ≤ 0x3c by decide) hz.a
    simp only [I] at this
    rw [if_pos trivial, sub_add_off] at this
    rw [sub_add_off]
    exact this

theorem left_frame {cfg : Cfg} {N : Nat} {e : Env A} {σ : St A} {m : Mem A} (hok : (port cfg N).ok σ) (h : (port cfg N).Left e σ m) : Frame cfg σ m (own σ) := by
  rcases h with h | h
  · obtain ⟨h1, h2⟩ := jump_save cfg
    rw [← h]; exact frame_of (fin_rel (I_ok e σ hok) _ h1) h2
  · obtain ⟨h1, h2⟩ := ontop_save cfg
    rw [← h]; exact frame_of (fin_rel (I_ok e σ hok) _ h1) h2

/-- a complete run that restores the context at base 1 and leaves the stack pointer `n` bytes above it -/
structure RestoreOk (cfg : Cfg) (n : Nat) (z : SSt A) : Prop where
  g : ∀ x ∈ LG, z.gpr x.1 = ⟨.ld 1 x.2, 0#_⟩
  f : ∀ x ∈ LF cfg, z.fpr x.1 = .ld 1 x.2
  t : ∀ x ∈ LT, z.fpr x.1 = .ofG ⟨.ld 1 x.2, 0#_⟩
  sp : z.gpr esp = ⟨.ld 0 0x30, off A n⟩

theorem jump_restore (cfg : Cfg) : ∃ h, RestoreOk cfg 0x30 (C.fin (jumpIs cfg) h) ∧ (C.fin (jumpIs cfg) h).gpr ecx = ⟨.ld 1 0x2c, 0#_⟩ ∧
    (C.fin (jumpIs cfg) h).gpr eax = ⟨.reg esp, -off A 0x2c⟩ ∧ (C.fin (jumpIs cfg) h).gpr edx = ⟨.ld 0 0x34, 0#_⟩ ∧
    ∀ x ∈ (C.fin (jumpIs cfg) h).log, x.1 = 0 := by
  obtain ⟨_ | _⟩ := cfg <;> exact ⟨by decide +kernel, ⟨by decide +kernel, by decide +kernel, by decide +kernel, by decide +kernel⟩,
    by decide +kernel, by decide +kernel, by decide +kernel, by decide +kernel⟩

theorem ontop_restore (cfg : Cfg) : ∃ h, RestoreOk cfg 0x2c (C.fin (ontopIs cfg) h) ∧ (C.fin (ontopIs cfg) h).gpr ecx = ⟨.ld 0 0x38, 0#_⟩ ∧
    (C.fin (ontopIs cfg) h).valid 1 = true ∧ look 1 0x2c A.k (C.fin (ontopIs cfg) h).log = some none ∧
    look 1 0x30 A.k (C.fin (ontopIs cfg) h).log = some (some (.w ⟨.reg esp, -off A 0x2c⟩)) ∧
    look 1 0x34 A.k (C.fin (ontopIs cfg) h).log = some (some (.w ⟨.ld 0 0x34, 0#_⟩)) ∧
    ∀ x ∈ (C.fin (ontopIs cfg) h).log, x.1 = 0 ∨ x.1 = 1 := by
  obtain ⟨_ | _⟩ := cfg <;> exact ⟨by decide +kernel, ⟨by decide +kernel, by decide +kernel, by decide +kernel, by decide +kernel⟩,
    by decide +kernel, by decide +kernel, by decide +kernel, by decide +kernel, by decide +kernel, by decide +kernel⟩

/-- what a call with entry state `τ` that targets the intact context `σ` finds -/
theorem target {cfg : Cfg} {N : Nat} {e : Env A} {σ τ : St A} {m : Mem A} (hl : (port cfg N).Left e σ m) (hi : (port cfg N).Intact σ m τ)
    (ha : (port cfg N).argF τ = (port cfg N).fctx σ) : Frame cfg σ τ.mem (arg τ 4) := by
  obtain ⟨h0, h1, h2, h3, h4, h5⟩ := hi
  have ha : arg τ 4 = own σ := ha
  have hf := left_frame h0 hl
  have h4 : ∀ a, InR a (own σ) 0x30 → τ.mem a = m a := h4
  rw [ha]
  constructor
  · intro x hx; rw [← hf.g x hx]; exact load_agree h4 (by revert x; decide) (by decide)
  · intro x hx; rw [← hf.fs x hx]; exact load_agree h4 (by revert x; obtain ⟨_ | _⟩ := cfg <;> decide) (by decide)
  · intro x hx; rw [← hf.t x hx]; exact load_agree h4 (by revert x; decide) (by decide)
  · rw [← hf.a]; exact load_agree h4 (by decide) (by decide)

theorem tib_width (q : A.F) (h : A.fb q = A.k) (v : BitVec (8 * A.fb q)) : (v.setWidth (8 * A.k)).setWidth (8 * A.fb q) = v := by
  apply BitVec.eq_of_toNat_eq
  simp only [BitVec.toNat_setWidth]
  have h1 := v.isLt
  have h2 : v.toNat < 2 ^ (8 * A.k) := by rw [← h]; exact h1
  rw [Nat.mod_eq_of_lt h2, Nat.mod_eq_of_lt h1]

/-- what holds after a run that restores `σ` -/
theorem restored {cfg : Cfg} {n N : Nat} {e : Env A} {σ τ s : St A} {z : SSt A} (hr : Rel C (I e τ) z s) (hz : RestoreOk cfg n z)
    (hf : Frame cfg σ τ.mem (arg τ 4)) : s.gpr esp = arg τ 4 + off A n ∧ (∀ r ∈ (port cfg N).saved, s.gpr r = σ.gpr r) ∧
    (∀ f ∈ (port cfg N).fsaved, s.fpr f = σ.fpr f) := by
  refine ⟨?_, ?_, ?_⟩
  · rw [hr.reg hz.sp]
    show load τ.mem (τ.gpr esp - off A 0x2c + off A (0x2c + 4)) A.k + _ = _
    rw [fr]
  · have : ∀ x ∈ LG, s.gpr x.1 = σ.gpr x.1 := fun x hx => by
      rw [hr.reg (hz.g x hx), ← hf.g x hx]; exact sv_ld _ _ _
    intro r h
    have hm : r ∈ LG.map (·.1) := by simp only [port] at h; revert r; decide
    obtain ⟨x, hx, rfl⟩ := List.mem_map.1 hm
    exact this x hx
  · have g1 : ∀ x ∈ LF cfg, s.fpr x.1 = σ.fpr x.1 := fun x hx => by
      rw [hr.fpr, hz.f _ hx, ← hf.fs _ hx]; rfl
    have g2 : ∀ x ∈ LT, s.fpr x.1 = σ.fpr x.1 := fun x hx => by
      have hw : A.fb x.1 = A.k := by revert x; decide
      rw [hr.fpr, hz.t _ hx]
      show BitVec.setWidth _ ((I e τ).sv ⟨.ld 1 x.2, 0#_⟩) = _
      rw [sv_ld]
      have : load τ.mem (arg τ 4 + off A x.2) A.k = (σ.fpr x.1).setWidth _ := hf.t x hx
      show BitVec.setWidth _ (load τ.mem (arg τ 4 + off A x.2) A.k) = _
      rw [this]
      exact tib_width x.1 hw _
    intro f h
    have hm : f ∈ LT.map (·.1) ∨ f ∈ (LF cfg).map (·.1) := by
      simp only [port] at h
      revert f
      obtain ⟨_ | _⟩ := cfg <;> decide
    rcases hm with hm | hm
    · obtain ⟨x, hx, rfl⟩ := List.mem_map.1 hm
      exact g2 x hx
    · obtain ⟨x, hx, rfl⟩ := List.mem_map.1 hm
      exact g1 x hx

/-- **C67**, switching -/
theorem C67_i386_pe_jump (cfg : Cfg) (N : Nat) : (port cfg N).JumpSpec := by
  intro e σ τ m hl hi ha
  have hf := target hl hi ha
  have ha : arg τ 4 = own σ := ha
  obtain ⟨h1, h2, h3, h4, h5, h6⟩ := jump_restore cfg
  have hr := fin_rel (I_ok e τ hi.ok') _ h1
  obtain ⟨s, hs⟩ : ∃ s, s = steps (I e τ).e (jumpIs cfg) (I e τ).σ := ⟨_, rfl⟩
  have hx : exec e (port cfg N).jump τ = (s, s.gpr ecx) := by rw [hs]; rfl
  rw [← hs] at hr
  rw [hx]
  obtain ⟨r1, r2, r3⟩ := restored (N := N) hr h2 hf
  refine ⟨⟨?_, ?_, r2, r3⟩, ?_, ?_, ?_, fun _ => Iff.rfl, trivial⟩
  · show s.gpr ecx = load σ.mem (σ.gpr esp) A.k
    rw [hr.reg h3, ← hf.a]; exact sv_ld _ _ _
  · show s.gpr esp = σ.gpr esp + off A 4
    rw [r1, ha]; exact fr _ 4
  · show s.gpr eax = own τ
    rw [hr.reg h4]; exact ownPtr e τ
  · show s.gpr edx = arg τ 8
    rw [hr.reg h5]; exact ownArg e τ 8
  · intro a h
    obtain ⟨i, ⟨x, hx, rfl⟩, h2⟩ := hr.frame a h
    rw [h6 x hx] at h2
    have h2 : InR a (own τ + off A 0) 0x2c := h2
    rw [z0] at h2
    exact .inl h2

/-- **C67**, on-top calls -/
theorem C67_i386_pe_ontop (cfg : Cfg) (N : Nat) : (port cfg N).OntopSpec := by
  intro e σ τ m hl hi ha
  have hf := target hl hi ha
  have ha : arg τ 4 = own σ := ha
  obtain ⟨h1, h2, h3, h4, h5, h6, h7, h8⟩ := ontop_restore cfg
  have hr := fin_rel (I_ok e τ hi.ok') _ h1
  obtain ⟨s, hs⟩ : ∃ s, s = steps (I e τ).e (ontopIs cfg) (I e τ).σ := ⟨_, rfl⟩
  have hx : exec e (port cfg N).ontop τ = (s, s.gpr ecx) := by rw [hs]; rfl
  rw [← hs] at hr
  rw [hx]
  obtain ⟨r1, r2, r3⟩ := restored (N := N) hr h2 hf
  have s1 : load s.mem (arg τ 4 + off A 0x2c) A.k = load τ.mem (arg τ 4 + off A 0x2c) A.k := hr.same 1 0x2c A.k h4 (by decide) h5
  have w1 : load s.mem (arg τ 4 + off A 0x30) A.k = _ := hr.word (i := 1) (o := 0x30) h4 (by decide) h6
  have w2 : load s.mem (arg τ 4 + off A 0x34) A.k = _ := hr.word (i := 1) (o := 0x34) h4 (by decide) h7
  have sp : ∀ n, s.gpr esp + off A n = arg τ 4 + off A (0x2c + n) := by intro n; rw [r1, add_off_off]
  refine ⟨?_, ⟨?_, ?_, r2, r3, fun _ => Iff.rfl, ?_, ?_⟩, ?_, fun _ => Iff.rfl⟩
  · show s.gpr ecx = arg τ 0xc
    rw [hr.reg h3]; exact ownArg e τ 0xc
  · show load s.mem (s.gpr esp) A.k = load σ.mem (σ.gpr esp) A.k
    rw [r1, s1]; exact hf.a
  · show s.gpr esp + off A 4 = σ.gpr esp + off A 4
    rw [r1, ha, sub_add_off]
  · show load s.mem (s.gpr esp + off A 4) A.k = own τ
    rw [sp, w1]; exact ownPtr e τ
  · show load s.mem (s.gpr esp + off A 8) A.k = arg τ 8
    rw [sp, w2]; exact ownArg e τ 8
  · intro a h
    obtain ⟨i, ⟨x, hx, rfl⟩, h2⟩ := hr.frame a h
    rcases h8 x hx with h0 | h0
    · rw [h0] at h2
      have h2 : InR a (own τ + off A 0) 0x2c := h2
      rw [z0] at h2
      exact .inl h2
    · rw [h0] at h2
      have h2 : InR a (arg τ 4 + off A (0x2c + 4)) 8 := h2
      rw [ha, fr] at h2
      exact .inr (.inr h2)

/-! ## New contexts -/

/-- The chain of exception handler registration records that starts at `a` is `l`: each record (two words) starts with the address of the next one, the last with -1. -/
inductive Chain (m : Mem A) : A.W → List A.W → Prop
  | last (a : A.W) : load m a A.k = -1#_ → Chain m a [a]
  | next (a : A.W) (l : List A.W) : load m a A.k ≠ -1#_ → Chain m (load m a A.k) l → Chain m a (a :: l)

/-- head of the chain of exception handlers of the running context -/
abbrev seh (s : St A) : A.W := s.fpr tibSeh

/-- what `MakeSpec` demands of a call of `make_fcontext` with entry state `σ` -/
def MakeAt {A : Arch} (P : Port A) (e : Env A) (σ : St A) : Prop :=
  P.ReturnedTo (P.mspRet σ) σ (exec e P.make σ).1 (exec e P.make σ).2 ∧
  (P.mkeep ≤ (P.argTop σ - P.resM (exec e P.make σ).1).toNat ∧ (P.argTop σ - P.resM (exec e P.make σ).1).toNat ≤ P.mkeep + 64) ∧
  (∀ a, (exec e P.make σ).1.mem a ≠ σ.mem a →
    InR a (P.resM (exec e P.make σ).1) (P.argTop σ - P.resM (exec e P.make σ).1).toNat ∨
    InR a (σ.gpr P.sp - off A P.mscratch) P.mscratch) ∧
  ∀ τ : St A, P.argF τ = P.resM (exec e P.make σ).1 →
    (∀ a, InR a (P.argF τ) P.mkeep → τ.mem a = (exec e P.make σ).1.mem a) →
    (∀ a, InR a (P.argF τ) P.mkeep → ¬ InR a (P.fctx τ) P.frame) →
    (∀ l c, P.tramp = some (l, c) → (exec e P.jump τ).2 = e l) ∧
    (P.enter e τ).2 = P.argMFn σ ∧
    P.inF (P.enter e τ).1 = P.fctx τ ∧ P.inD (P.enter e τ).1 = P.argD τ ∧
    P.ra (P.enter e τ).1 = e P.finish ∧
    P.aligned ((P.enter e τ).1.gpr P.sp) ∧
    ((P.enter e τ).1.gpr P.sp - P.argF τ).toNat ≤ (P.argTop σ - P.argF τ).toNat ∧
    (∀ a, (P.enter e τ).1.mem a ≠ τ.mem a → InR a (P.fctx τ) P.frame ∨ P.mslot (P.argF τ) a) ∧
    ∀ a, P.mslot (P.argF τ) a → InR a (P.argF τ) P.mkeep

/-- `MakeAt` is the conclusion of `MakeSpec` -/
theorem makeSpec_iff {A : Arch} (P : Port A) : P.MakeSpec ↔ ∀ e σ,
    (∀ a, InR a (P.resM (exec e P.make σ).1) (P.argTop σ - P.resM (exec e P.make σ).1).toNat →
      ¬ InR a (σ.gpr P.sp - off A P.mscratch) (P.mscratch + A.k)) → MakeAt P e σ := Iff.rfl

theorem exec_prep (e : Env A) (is : List (Instr A)) (c : Code A) (s : St A) : exec e (prep is c) s = exec e c (steps e is s) := by
  cases c <;> simp only [prep, exec, steps_append]

/-- the part of the state the loop leaves alone -/
structure Same (s s' : St A) : Prop where
  g : ∀ r, r ≠ ecx → r ≠ edx → r ≠ tmp → s'.gpr r = s.gpr r
  f : s'.fpr = s.fpr
  m : s'.mem = s.mem

theorem test_edx (cfg : Cfg) (e : Env A) (s : St A) : (steps e (mtestIs cfg) s).gpr edx = load s.mem (s.gpr ecx) A.k + off A 1 := by
  simp only [mtestIs, steps, step, setg, if_true]
  rw [z0]

theorem test_same (cfg : Cfg) (e : Env A) (s : St A) : Same s (steps e (mtestIs cfg) s) ∧ (steps e (mtestIs cfg) s).gpr ecx = s.gpr ecx := by
  refine ⟨⟨?_, rfl, rfl⟩, ?_⟩
  · intro r _ h2 _; simp [mtestIs, steps, step, setg, h2]
  · have : ecx ≠ edx := by decide
    simp [mtestIs, steps, step, setg, this]

theorem next_same (cfg : Cfg) (e : Env A) (s : St A) : Same s (steps e (mnextIs cfg) s) ∧ (steps e (mnextIs cfg) s).gpr ecx = s.gpr edx - off A 1 := by
  refine ⟨⟨?_, rfl, rfl⟩, ?_⟩
  · intro r h1 h2 h3; simp [mnextIs, steps, step, setg, h1, h2, h3]
  · have n1 : ecx ≠ edx := by decide
    have n2 : edx ≠ tmp := by decide
    simp [mnextIs, steps, step, setg, n1, n2, BitVec.sub_eq_add_neg]

theorem Same.trans {s t u : St A} (h : Same s t) (k : Same t u) : Same s u :=
  ⟨fun r a b c => (k.g r a b c).trans (h.g r a b c), k.f.trans h.f, k.m.trans h.m⟩

theorem plus_one (w : A.W) : w + off A 1 = 0#_ ↔ w = -1#_ := by
  have : (off A 1) = 1#_ := rfl
  rw [this]
  constructor
  · intro h
    have h2 : w = (w + 1#_) - 1#_ := by grind
    rw [h2, h]; decide
  · rintro rfl; decide

/-- the loop finds the last record -/
theorem walk_last (cfg : Cfg) (e : Env A) {m : Mem A} {a : A.W} {l : List A.W} (hc : Chain m a l) : ∀ (N : Nat) (s : St A), l.length ≤ N → s.mem = m → s.gpr ecx = a →
    ∃ s', Same s s' ∧ some (s'.gpr ecx) = l.getLast? ∧
      exec e (walkN cfg N) s = (steps e (mtailIs cfg) s', (steps e (mtailIs cfg) s').gpr eip) := by
  induction hc with
  | last a h =>
    intro N s hN hm ha
    obtain ⟨N, rfl⟩ : ∃ k, N = k + 1 := ⟨N - 1, by simp at hN; omega⟩
    obtain ⟨t1, t2⟩ := test_same cfg e s
    refine ⟨_, t1, by rw [t2, ha]; rfl, ?_⟩
    simp only [walkN, exec]
    rw [if_pos]
    rw [test_edx, plus_one, hm, ha, h]
  | next a l h _ ih =>
    intro N s hN hm ha
    obtain ⟨N, rfl⟩ : ∃ k, N = k + 1 := ⟨N - 1, by simp at hN; omega⟩
    obtain ⟨t1, t2⟩ := test_same cfg e s
    obtain ⟨n1, n2⟩ := next_same cfg e (steps e (mtestIs cfg) s)
    have h12 := t1.trans n1
    obtain ⟨s', h1, h2, h3⟩ := ih N (steps e (mnextIs cfg) (steps e (mtestIs cfg) s)) (by simp at hN; omega) (h12.m.trans hm)
      (by rw [n2, test_edx, hm, ha]; exact BitVec.add_sub_cancel _ _)
    refine ⟨s', h12.trans h1, ?_, ?_⟩
    · rw [h2]
      have : l ≠ [] := by rintro rfl; simp at h2
      rw [List.getLast?_cons]
      cases l with
      | nil => exact absurd rfl this
      | cons b l => simp [List.getLast?_cons]
    · simp only [walkN, exec]
      rw [if_neg, exec_prep, h3]
      rw [test_edx, plus_one, hm, ha]; exact h

theorem chain_congr {m m' : Mem A} {a : A.W} {l : List A.W} (hc : Chain m a l) (h : ∀ r ∈ l, ∀ x, InR x r 8 → m' x = m x) : Chain m' a l := by
  induction hc with
  | last a h1 =>
    refine .last a ?_
    rw [← h1]
    exact load_congr (by decide) fun x hx => h a (by simp) x (inR_mono hx (by decide))
  | next a l h1 _ ih =>
    have e1 : load m' a A.k = load m a A.k := load_congr (by decide) fun x hx => h a (by simp) x (inR_mono hx (by decide))
    refine .next a l (by rw [e1]; exact h1) ?_
    rw [e1]
    exact ih fun r hr => h r (by simp [hr])

theorem chain_ne {m : Mem A} {a : A.W} {l : List A.W} (hc : Chain m a l) : ∃ b, l.getLast? = some b ∧ b ∈ l := by
  have : l ≠ [] := by cases hc <;> simp
  exact ⟨l.getLast this, List.getLast?_eq_some_getLast this, List.getLast_mem this⟩

/-- the address of the new context -/
def ctxOf (σ : St A) : A.W := ((arg σ 4 + -off A 8) &&& mask A 4) - off A 0x40

/-- bases: 0 the new context's data, 1 return address and arguments of `make_fcontext` -/
def CM : SCfg A where
  known := [(.mld 1 4 (-off A 8) (mask A 4), 0, off A 0x40), (.reg esp, 1, 0#_)]
  wr i := if i = 0 then (0, 0x40) else (0, 0)
  rd i := if i = 0 then 0x40 else if i = 1 then 0x10 else 0
  D i j := i == 0 && j == 1

def IM (e : Env A) (σ : St A) : Itp A where
  σ := σ
  β i := if i = 0 then ctxOf σ else σ.gpr esp
  e := e

theorem IM_ok (e : Env A) (σ : St A) (h : ∀ a, InR a (ctxOf σ) 0x40 → ¬ InR a (σ.gpr esp) 0x10) : (IM e σ).Ok CM where
  known := by
    intro x hx
    simp only [CM, List.mem_cons, List.not_mem_nil, or_false] at hx
    rcases hx with rfl | rfl
    · exact (sub_add_off _ _).symm
    · exact (BitVec.add_zero _).symm
  disj := by
    intro i j hD
    simp only [CM, Bool.and_eq_true, beq_iff_eq] at hD
    intro a ha hx
    obtain ⟨rfl, rfl⟩ := hD
    have ha : InR a (ctxOf σ + off A 0) 0x40 := ha
    rw [z0] at ha
    exact h a ha hx
  wr i := by simp only [CM]; repeat' split
             all_goals decide
  rd i := by simp only [CM]; repeat' split
             all_goals decide

/-- words of a new context stored before the loop -/
def made : List (Nat × Sv A) := [(0x14, ⟨.ld 1 4, 0#_⟩), (0x10, ⟨.sld 1 4 1 8, 0#_⟩), (0xc, ⟨.sld 1 4 1 8, 0#_⟩), (8, ⟨.zero, 0#_⟩), (0x24, ⟨.ld 1 0xc, 0#_⟩),
  (0x2c, ⟨.lab Lab.trampoline, 0#_⟩), (0x28, ⟨.lab Lab.finish, 0#_⟩)]

/-- a run of `make_fcontext` up to the loop -/
structure HeadOk (z : SSt A) : Prop where
  v : z.valid 0 = true ∧ z.valid 1 = true
  g : ∀ r ∈ [ebx, ebp, edi, esi, esp], z.gpr r = ⟨.reg r, 0#_⟩
  f : ∀ q, z.fpr q = .init q
  ax : z.gpr eax = ⟨.mld 1 4 (-off A 8) (mask A 4), -off A 0x40⟩
  cx : z.gpr ecx = ⟨.spec tibSeh, 0#_⟩
  m : ∀ x ∈ made, look 0 x.1 A.k z.log = some (some (.w x.2))
  mx : look 0 0 4 z.log = some (some (.f mxcsr (.init mxcsr)))
  cw : look 0 4 2 z.log = some (some (.f x87cw (.init x87cw)))
  ra : look 1 0 A.k z.log = some none
  w : ∀ x ∈ z.log, x.1 = 0

theorem head_ok (cfg : Cfg) : ∃ h, HeadOk (CM.fin (mheadIs cfg) h) := by
  obtain ⟨_ | _⟩ := cfg <;> exact ⟨by decide +kernel, ⟨by decide +kernel, by decide +kernel, by intro q; cases q <;> decide +kernel, by decide +kernel, by decide +kernel,
    by decide +kernel, by decide +kernel, by decide +kernel, by decide +kernel, by decide +kernel⟩⟩

/-- bases after the loop: 0 the new context's data, 1 return address, 2 the last record of the chain -/
def CT : SCfg A where
  known := [(.reg eax, 0, 0#_), (.reg esp, 1, 0#_), (.reg ecx, 2, 0#_)]
  wr i := if i = 0 then (0x18, 0x40) else (0, 0)
  rd i := if i = 0 then 0x40 else if i = 1 then 4 else if i = 2 then 8 else 0
  D i j := i == 0 && j == 1

def IT (e : Env A) (σ : St A) : Itp A where
  σ := σ
  β i := if i = 0 then σ.gpr eax else if i = 1 then σ.gpr esp else σ.gpr ecx
  e := e

theorem IT_ok (e : Env A) (σ : St A) (h : ∀ a, InR a (σ.gpr eax) 0x40 → ¬ InR a (σ.gpr esp) 4) : (IT e σ).Ok CT where
  known := by
    intro x hx
    simp only [CT, List.mem_cons, List.not_mem_nil, or_false] at hx
    rcases hx with rfl | rfl | rfl <;> exact (BitVec.add_zero _).symm
  disj := by
    intro i j hD
    simp only [CT, Bool.and_eq_true, beq_iff_eq] at hD
    intro a ha hx
    obtain ⟨rfl, rfl⟩ := hD
    have ha : InR a (σ.gpr eax + off A 0x18) 0x28 := ha
    exact h a (inR_off ha (by decide) (by decide)) hx
  wr i := by simp only [CT]; repeat' split
             all_goals decide
  rd i := by simp only [CT]; repeat' split
             all_goals decide

/-- a run of `make_fcontext` after the loop -/
structure TailOk (z : SSt A) : Prop where
  v : z.valid 0 = true
  g : ∀ r ∈ [ebx, ebp, edi, esi, eax], z.gpr r = ⟨.reg r, 0#_⟩
  f : ∀ q, z.fpr q = .init q
  sp : z.gpr esp = ⟨.reg esp, off A 4⟩
  pc : z.gpr eip = ⟨.ld 1 0, 0#_⟩
  old : ∀ x ∈ made, look 0 x.1 A.k z.log = some none
  mx : look 0 0 4 z.log = some none
  cw : look 0 4 2 z.log = some none
  hd : look 0 0x3c A.k z.log = some (some (.w ⟨.ld 2 4, 0#_⟩))
  nx : look 0 0x38 A.k z.log = some (some (.w ⟨.zero, -off A 1⟩))
  eh : look 0 0x18 A.k z.log = some (some (.w ⟨.reg eax, off A 0x38⟩))
  w : ∀ x ∈ z.log, x.1 = 0

theorem tail_ok (cfg : Cfg) : ∃ h, TailOk (CT.fin (mtailIs cfg) h) := by
  obtain ⟨_ | _⟩ := cfg <;> exact ⟨by decide +kernel, ⟨by decide +kernel, by decide +kernel, by intro q; cases q <;> decide +kernel, by decide +kernel, by decide +kernel,
    by decide +kernel, by decide +kernel, by decide +kernel, by decide +kernel, by decide +kernel, by decide +kernel, by decide +kernel⟩⟩

/-- what `make_fcontext` has done when it returns in state `s` -/
structure Made (cfg : Cfg) (e : Env A) (σ s : St A) (l : List A.W) : Prop where
  ret : (port cfg 0).ReturnedTo (σ.gpr esp + off A 4) σ s (s.gpr eip)
  ax : s.gpr eax = ctxOf σ
  w : ∀ a, s.mem a ≠ σ.mem a → InR a (ctxOf σ) 0x40
  base : load s.mem (ctxOf σ + off A 0x14) A.k = arg σ 4
  limit : load s.mem (ctxOf σ + off A 0x10) A.k = arg σ 4 - arg σ 8
  dealloc : load s.mem (ctxOf σ + off A 0xc) A.k = arg σ 4 - arg σ 8
  fiber : load s.mem (ctxOf σ + off A 8) A.k = 0#_
  fn : load s.mem (ctxOf σ + off A 0x24) A.k = arg σ 0xc
  tr : load s.mem (ctxOf σ + off A 0x2c) A.k = e Lab.trampoline
  fi : load s.mem (ctxOf σ + off A 0x28) A.k = e Lab.finish
  mx : load s.mem (ctxOf σ + off A 0) 4 = σ.fpr mxcsr
  cw : load s.mem (ctxOf σ + off A 4) 2 = σ.fpr x87cw
  hd : ∀ b, l.getLast? = some b → load s.mem (ctxOf σ + off A 0x3c) A.k = load σ.mem (b + off A 4) A.k
  nx : load s.mem (ctxOf σ + off A 0x38) A.k = -1#_
  eh : load s.mem (ctxOf σ + off A 0x18) A.k = ctxOf σ + off A 0x38

theorem make_facts (cfg : Cfg) (N : Nat) (e : Env A) (σ : St A) (l : List A.W) (hc : Chain σ.mem (seh σ) l) (hN : l.length ≤ N)
    (hd : ∀ a, InR a (ctxOf σ) 0x40 → ¬ InR a (σ.gpr esp) 0x10) (hl : ∀ r ∈ l, ∀ a, InR a (ctxOf σ) 0x40 → ¬ InR a r 8) :
    ∃ s, exec e (make cfg N) σ = (s, s.gpr eip) ∧ Made cfg e σ s l := by
  obtain ⟨h1, hz⟩ := head_ok cfg
  have hr := fin_rel (IM_ok e σ hd) _ h1
  obtain ⟨z, hzz⟩ : ∃ z, z = CM.fin (mheadIs cfg) h1 := ⟨_, rfl⟩
  obtain ⟨s1, hs1⟩ : ∃ s, s = steps (IM e σ).e (mheadIs cfg) (IM e σ).σ := ⟨_, rfl⟩
  rw [← hs1, ← hzz] at hr
  rw [← hzz] at hz
  have hfr : ∀ a, s1.mem a ≠ σ.mem a → InR a (ctxOf σ) 0x40 := by
    intro a ha
    obtain ⟨i, ⟨x, hx, rfl⟩, h2⟩ := hr.frame a ha
    rw [hz.w x hx] at h2
    have h2 : InR a (ctxOf σ + off A 0) 0x40 := h2
    rw [z0] at h2; exact h2
  have hk : ∀ r ∈ l, ∀ a, InR a r 8 → s1.mem a = σ.mem a := by
    intro r hr a ha
    exact Classical.byContradiction fun hh => hl r hr a (hfr a hh) ha
  have hcx : s1.gpr ecx = seh σ := by
    rw [hr.reg hz.cx]
    show (σ.fpr tibSeh).setWidth (8 * A.k) + 0#_ = _
    rw [BitVec.add_zero]; exact BitVec.setWidth_eq _
  have hax : s1.gpr eax = ctxOf σ := by
    rw [hr.reg hz.ax]
    exact (BitVec.sub_eq_add_neg _ _).symm
  obtain ⟨s2, w1, w2, w3⟩ := walk_last cfg e (chain_congr hc hk) N s1 hN rfl hcx
  have hex : exec e (make cfg N) σ = (steps e (mtailIs cfg) s2, (steps e (mtailIs cfg) s2).gpr eip) := by
    rw [make, exec_prep, ← w3]; congr 1; exact hs1.symm
  have hax2 : s2.gpr eax = ctxOf σ := (w1.g eax (by decide) (by decide) (by decide)).trans hax
  have hsp2 : s2.gpr esp = σ.gpr esp := (w1.g esp (by decide) (by decide) (by decide)).trans ((hr.reg (hz.g esp (by decide))).trans (sv_reg _ _))
  obtain ⟨h3, ht⟩ := tail_ok cfg
  have hq := fin_rel (IT_ok e s2 (by rw [hax2, hsp2]; exact fun a ha hh => hd a ha (inR_mono hh (by decide)))) _ h3
  obtain ⟨y, hyy⟩ : ∃ y, y = CT.fin (mtailIs cfg) h3 := ⟨_, rfl⟩
  obtain ⟨s, hs⟩ : ∃ s, s = steps (IT e s2).e (mtailIs cfg) (IT e s2).σ := ⟨_, rfl⟩
  have hs' : steps e (mtailIs cfg) s2 = s := hs.symm
  rw [← hs, ← hyy] at hq
  rw [← hyy] at ht
  rw [hs'] at hex
  have b0 : (IT e s2).β 0 = ctxOf σ := hax2
  have b1 : (IT e s2).β 1 = σ.gpr esp := hsp2
  have m2 : (IT e s2).σ.mem = s1.mem := w1.m
  have f0 : ∀ q, s2.fpr q = σ.fpr q := by
    intro q
    rw [w1.f, hr.fpr, hz.f]
    exact BitVec.setWidth_eq _
  -- words stored before the loop
  have old : ∀ x ∈ made, load s.mem (ctxOf σ + off A x.1) A.k = (IM e σ).sv x.2 := by
    intro x hx
    have hle : x.1 + A.k ≤ 0x40 := by revert x; decide
    have e1 := hq.same 0 x.1 A.k ht.v hle (ht.old x hx)
    rw [b0, m2] at e1
    have e2 := hr.word (i := 0) (o := x.1) hz.v.1 hle (hz.m x hx)
    exact e1.trans e2
  have new : ∀ (o : Nat) (v : Sv A), o + A.k ≤ 0x40 → look 0 o A.k y.log = some (some (.w v)) → load s.mem (ctxOf σ + off A o) A.k = (IT e s2).sv v := by
    intro o v h hh
    have := hq.word (i := 0) (o := o) (v := v) ht.v h hh
    rw [b0] at this; exact this
  have aM : ∀ o, (IM e σ).sv ⟨.ld 1 o, 0#_⟩ = arg σ o := fun o => sv_ld _ _ _
  refine ⟨s, hex, ?_⟩
  refine ⟨⟨?_, ?_, ?_, ?_⟩, ?_, ?_, ?_, ?_, ?_, ?_, ?_, ?_, ?_, ?_, ?_, ?_, ?_, ?_⟩
  · show s.gpr eip = load σ.mem (σ.gpr esp) A.k
    rw [hq.reg ht.pc, sv_ld, b1, m2]
    have := hr.same 1 0 A.k hz.v.2 (by decide) hz.ra
    exact this.trans (by show load σ.mem (σ.gpr esp + off A 0) A.k = _; rw [z0])
  · show s.gpr esp = _
    rw [hq.reg ht.sp, ← hsp2]; rfl
  · intro r hrr
    have hm : r ∈ [ebx, ebp, edi, esi, eax] ∧ r ∈ [ebx, ebp, edi, esi, esp] ∧ r ≠ ecx ∧ r ≠ edx ∧ r ≠ tmp := by
      simp only [port] at hrr; revert r; decide
    rw [hq.reg (ht.g r hm.1), sv_reg]
    show s2.gpr r = _
    rw [w1.g r hm.2.2.1 hm.2.2.2.1 hm.2.2.2.2, hr.reg (hz.g r hm.2.1), sv_reg]; rfl
  · intro q _
    rw [hq.fpr, ht.f, ← f0 q]
    exact BitVec.setWidth_eq _
  · rw [hq.reg (ht.g eax (by decide)), sv_reg]; exact hax2
  · intro a ha
    by_cases h : s.mem a = s1.mem a
    · rw [h] at ha; exact hfr a ha
    · rw [← w1.m] at h
      obtain ⟨i, ⟨x, hx, rfl⟩, h2⟩ := hq.frame a h
      rw [ht.w x hx, b0] at h2
      have h2 : InR a (ctxOf σ + off A 0x18) 0x28 := h2
      exact inR_off h2 (by decide) (by decide)
  · exact (old (0x14, ⟨.ld 1 4, 0#_⟩) (by simp [made])).trans (aM 4)
  · exact (old (0x10, ⟨.sld 1 4 1 8, 0#_⟩) (by simp [made])).trans (BitVec.add_zero _)
  · exact (old (0xc, ⟨.sld 1 4 1 8, 0#_⟩) (by simp [made])).trans (BitVec.add_zero _)
  · exact (old (8, ⟨.zero, 0#_⟩) (by simp [made])).trans (BitVec.add_zero _)
  · exact (old (0x24, ⟨.ld 1 0xc, 0#_⟩) (by simp [made])).trans (aM 0xc)
  · exact (old (0x2c, ⟨.lab Lab.trampoline, 0#_⟩) (by simp [made])).trans (BitVec.add_zero _)
  · exact (old (0x28, ⟨.lab Lab.finish, 0#_⟩) (by simp [made])).trans (BitVec.add_zero _)
  · have e1 := hq.same 0 0 4 ht.v (show _ ≤ 0x40 by decide) ht.mx
    rw [b0, m2] at e1
    have e2 := hr.special (i := 0) (o := 0) (q := mxcsr) hz.v.1 (show _ ≤ 0x40 by decide) hz.mx
    refine e1.trans (e2.trans ?_)
    exact BitVec.setWidth_eq _
  · have e1 := hq.same 0 4 2 ht.v (show _ ≤ 0x40 by decide) ht.cw
    rw [b0, m2] at e1
    have e2 := hr.special (i := 0) (o := 4) (q := x87cw) hz.v.1 (show _ ≤ 0x40 by decide) hz.cw
    refine e1.trans (e2.trans ?_)
    exact BitVec.setWidth_eq _
  · intro b hb
    rw [new 0x3c _ (by decide) ht.hd, sv_ld, m2]
    rw [hb] at w2
    have w2 : s2.gpr ecx = b := Option.some.inj w2
    show load s1.mem (s2.gpr ecx + off A 4) A.k = _
    rw [w2]
    obtain ⟨b', hb1, hb2⟩ := chain_ne hc
    have : b' = b := Option.some.inj (hb1.symm.trans hb)
    rw [this] at hb2
    refine load_congr (by decide) fun x hx => hk b hb2 x ?_
    exact inR_off hx (show 4 + A.k ≤ 8 by decide) (by decide)
  · rw [new 0x38 _ (by decide) ht.nx]
    show (0#_ : A.W) + -off A 1 = _
    decide
  · rw [new 0x18 _ (by decide) ht.eh]
    show s2.gpr eax + off A 0x38 = _
    rw [hax2]

theorem ctx_size (σ : St A) : (arg σ 4 - ctxOf σ).toNat = 0x48 + (arg σ 4 + -off A 8).toNat % 16 := by
  have h1 : arg σ 4 - ctxOf σ = ((arg σ 4 + -off A 8) - (((arg σ 4 + -off A 8) &&& mask A 4) - off A 0x40)) + off A 8 := by
    unfold ctxOf
    generalize ((arg σ 4 + -off A 8) &&& mask A 4) - off A 0x40 = x
    generalize arg σ 4 = y
    generalize off A 8 = z
    grind
  have h2 := align_below (A := A) (arg σ 4 + -off A 8) 0x40 4 (by decide)
  rw [h1, BitVec.toNat_add, h2]
  have h3 : (off A 8).toNat = 8 := by decide
  rw [h3, Nat.mod_eq_of_lt]
  · omega
  · show _ < 2 ^ 32; omega

/-- bases of the first activation: 0 own frame (with arguments), 1 data of the new context -/
def CE : SCfg A where
  known := [(.reg esp, 0, off A 0x2c), (.ld 0 0x30, 1, 0#_)]
  wr i := if i = 0 then (0, 0x2c) else if i = 1 then (0x2c, 0x38) else (0, 0)
  rd i := if i = 0 then 0x3c else if i = 1 then 0x40 else 0
  D i j := i == 0 && j == 1

theorem IE_ok (e : Env A) (σ : St A) (h : ∀ a, InR a (arg σ 4) 0x40 → ¬ InR a (own σ) 0x2c) : (I e σ).Ok CE where
  known := known0 e σ
  disj := by
    intro i j hD
    simp only [CE, Bool.and_eq_true, beq_iff_eq] at hD
    obtain ⟨rfl, rfl⟩ := hD
    intro a ha hx
    have ha : InR a (own σ + off A 0) 0x2c := ha
    rw [z0] at ha
    exact h a hx ha
  wr i := by simp only [CE]; repeat' split
             all_goals decide
  rd i := by simp only [CE]; repeat' split
             all_goals decide

structure EnterOk (cfg : Cfg) (z : SSt A) : Prop where
  v : z.valid 1 = true
  fn : z.gpr ebx = ⟨.ld 1 0x24, 0#_⟩
  sp : z.gpr esp = ⟨.ld 0 0x30, off A 0x2c⟩
  ra : look 1 0x2c A.k z.log = some (some (.w ⟨.ld 1 0x28, 0#_⟩))
  a1 : look 1 0x30 A.k z.log = some (some (.w ⟨.reg esp, -off A 0x2c⟩))
  a2 : look 1 0x34 A.k z.log = some (some (.w ⟨.ld 0 0x34, 0#_⟩))
  nx : look 1 0x38 A.k z.log = some none
  hd : look 1 0x3c A.k z.log = some none
  f : ∀ x ∈ LF cfg, z.fpr x.1 = .ld 1 x.2
  t : ∀ x ∈ LT, z.fpr x.1 = .ofG ⟨.ld 1 x.2, 0#_⟩
  w : ∀ x ∈ z.log, x.1 = 0 ∨ x.1 = 1

theorem enter_ok (cfg : Cfg) : ∃ h, EnterOk cfg (CE.fin (jumpIs cfg ++ trampIs cfg) h) := by
  obtain ⟨_ | _⟩ := cfg <;> exact ⟨by decide +kernel, ⟨by decide +kernel, by decide +kernel, by decide +kernel, by decide +kernel, by decide +kernel,
    by decide +kernel, by decide +kernel, by decide +kernel, by decide +kernel, by decide +kernel, by decide +kernel⟩⟩

theorem enter_pc (cfg : Cfg) : ∃ h, (CE.fin (jumpIs cfg) h).gpr ecx = ⟨.ld 1 0x2c, 0#_⟩ := by
  obtain ⟨_ | _⟩ := cfg <;> exact ⟨by decide +kernel, by decide +kernel⟩

/-- the entry of the function of the context that `σ` has made -/
structure Entered (cfg : Cfg) (e : Env A) (σ τ s : St A) (l : List A.W) : Prop where
  pc : (exec e (jump cfg) τ).2 = e Lab.trampoline
  en : (port cfg 0).enter e τ = (s, arg σ 0xc)
  sp : s.gpr esp = ctxOf σ + off A 0x2c
  ra : load s.mem (ctxOf σ + off A 0x2c) A.k = e Lab.finish
  iF : load s.mem (ctxOf σ + off A 0x30) A.k = own τ
  iD : load s.mem (ctxOf σ + off A 0x34) A.k = arg τ 8
  base : s.fpr tibBase = arg σ 4
  limit : s.fpr tibLimit = arg σ 4 - arg σ 8
  dealloc : s.fpr tibDealloc = arg σ 4 - arg σ 8
  fiber : s.fpr tibFiber = 0#_
  sh : seh s = ctxOf σ + off A 0x38
  nx : load s.mem (ctxOf σ + off A 0x38) A.k = -1#_
  hd : ∀ b, l.getLast? = some b → load s.mem (ctxOf σ + off A 0x3c) A.k = load σ.mem (b + off A 4) A.k
  mx : cfg.tsx = false → s.fpr mxcsr = σ.fpr mxcsr
  cw : cfg.tsx = false → s.fpr x87cw = σ.fpr x87cw
  w : ∀ a, s.mem a ≠ τ.mem a → InR a (own τ) 0x2c ∨ InR a (ctxOf σ + off A 0x2c) 0xc

theorem enter_facts (cfg : Cfg) (e : Env A) (σ s0 τ : St A) (l : List A.W) (hM : Made cfg e σ s0 l) (ha : arg τ 4 = ctxOf σ)
    (hmem : ∀ a, InR a (ctxOf σ) 0x40 → τ.mem a = s0.mem a) (hdj : ∀ a, InR a (ctxOf σ) 0x40 → ¬ InR a (own τ) 0x2c) :
    ∃ s, Entered cfg e σ τ s l := by
  have ld0 : ∀ o n, o + n ≤ 0x40 → load τ.mem (ctxOf σ + off A o) n = load s0.mem (ctxOf σ + off A o) n :=
    fun o n ho => load_agree hmem ho (by decide)
  have hok := IE_ok e τ (by rw [ha]; exact hdj)
  obtain ⟨h1, h2⟩ := enter_ok cfg
  obtain ⟨h3, h4⟩ := enter_pc cfg
  have hr := fin_rel hok _ h1
  have hr' := fin_rel hok _ h3
  obtain ⟨s, hs⟩ : ∃ s, s = steps (I e τ).e (jumpIs cfg ++ trampIs cfg) (I e τ).σ := ⟨_, rfl⟩
  have hx : (port cfg 0).enter e τ = (s, s.gpr ebx) := by rw [hs, steps_append]; rfl
  rw [← hs] at hr
  have b1 : (I e τ).β 1 = ctxOf σ := ha
  have ld : ∀ o, o + A.k ≤ 0x40 → (I e τ).sv ⟨.ld 1 o, 0#_⟩ = load s0.mem (ctxOf σ + off A o) A.k := by
    intro o ho
    rw [sv_ld, b1]
    exact ld0 o A.k ho
  have wd := fun (o : Nat) (v : Sv A) (h : o + A.k ≤ 0x40) h3 => hr.word (i := 1) (o := o) (v := v) h2.v h h3
  rw [b1] at wd
  have sm := fun (o : Nat) (h : o + A.k ≤ 0x40) h3 => hr.same 1 o A.k h2.v h h3
  rw [b1] at sm
  have tib : ∀ x ∈ LT, s.fpr x.1 = (load s0.mem (ctxOf σ + off A x.2) A.k).setWidth _ := by
    intro x hx
    rw [hr.fpr, h2.t x hx, ← ld x.2 (by revert x; decide)]
    rfl
  refine ⟨s, ?_, ?_, ?_, ?_, ?_, ?_, ?_, ?_, ?_, ?_, ?_, ?_, ?_, ?_, ?_, ?_⟩
  · show (steps (I e τ).e (jumpIs cfg) (I e τ).σ).gpr ecx = _
    rw [hr'.reg h4, ld _ (by decide), hM.tr]
  · rw [hx, hr.reg h2.fn, ld _ (by decide), hM.fn]
  · rw [hr.reg h2.sp]
    show load τ.mem (τ.gpr esp - off A 0x2c + off A (0x2c + 4)) A.k + _ = _
    rw [fr]; show arg τ 4 + _ = _; rw [ha]
  · rw [wd 0x2c _ (by decide) h2.ra, ld _ (by decide), hM.fi]
  · rw [wd 0x30 _ (by decide) h2.a1]; exact ownPtr e τ
  · rw [wd 0x34 _ (by decide) h2.a2]; exact ownArg e τ 8
  · have := tib (tibBase, 0x14) (by decide)
    rw [hM.base] at this
    exact this.trans (BitVec.setWidth_eq _)
  · have := tib (tibLimit, 0x10) (by decide)
    rw [hM.limit] at this
    exact this.trans (BitVec.setWidth_eq _)
  · have := tib (tibDealloc, 0xc) (by decide)
    rw [hM.dealloc] at this
    exact this.trans (BitVec.setWidth_eq _)
  · have := tib (tibFiber, 8) (by decide)
    rw [hM.fiber] at this
    exact this.trans (BitVec.setWidth_eq _)
  · have := tib (tibSeh, 0x18) (by decide)
    rw [hM.eh] at this
    exact this.trans (BitVec.setWidth_eq _)
  · rw [sm 0x38 (by decide) h2.nx, ← hM.nx]; exact ld0 0x38 A.k (by decide)
  · intro b hb
    rw [sm 0x3c (by decide) h2.hd, ← hM.hd b hb]; exact ld0 0x3c A.k (by decide)
  · intro ht
    rw [hr.fpr, h2.f (mxcsr, 0) (by simp [LF, ht]), ← hM.mx]
    show load τ.mem ((I e τ).β 1 + off A 0) 4 = _
    rw [b1]
    exact ld0 0 4 (by decide)
  · intro ht
    rw [hr.fpr, h2.f (x87cw, 4) (by simp [LF, ht]), ← hM.cw]
    show load τ.mem ((I e τ).β 1 + off A 4) 2 = _
    rw [b1]
    exact ld0 4 2 (by decide)
  · intro a h
    obtain ⟨i, ⟨x, hx, rfl⟩, h3⟩ := hr.frame a h
    rcases h2.w x hx with h0 | h0
    · rw [h0] at h3
      have h3 : InR a (own τ + off A 0) 0x2c := h3
      rw [z0] at h3
      exact .inl h3
    · rw [h0, b1] at h3
      exact .inr h3

/-- The demands on a call of `make_fcontext(top, size, fn)` with entry state `σ` that returns the context `c`: the chain of exception handlers of the caller is the finite
list `l`, and the bytes from `c` up to `top` belong neither to the return address and the arguments of the call nor to a record of the chain. -/
structure MakeOk (σ : St A) (c : A.W) (l : List A.W) : Prop where
  chain : Chain σ.mem (seh σ) l
  args : ∀ a, InR a c (arg σ 4 - c).toNat → ¬ InR a (σ.gpr esp) 0x10
  recs : ∀ r ∈ l, ∀ a, InR a c (arg σ 4 - c).toNat → ¬ InR a r 8

theorem MakeOk.facts {σ : St A} {l : List A.W} (h : MakeOk σ (ctxOf σ) l) (cfg : Cfg) (N : Nat) (e : Env A) (hN : l.length ≤ N) :
    ∃ s, exec e (make cfg N) σ = (s, s.gpr eip) ∧ Made cfg e σ s l := by
  have hsz := ctx_size σ
  have h1 := h.args
  have h2 := h.recs
  rw [hsz] at h1 h2
  exact make_facts cfg N e σ l h.chain hN (fun a ha => h1 a (inR_mono ha (by omega))) (fun r hr a ha => h2 r hr a (inR_mono ha (by omega)))

/-- the address of the new context is determined before the chain is traversed: the returned context is `ctxOf σ` -/
theorem make_res (cfg : Cfg) (N : Nat) (e : Env A) (σ : St A) : (exec e (make cfg N) σ).1.gpr eax = ctxOf σ := by
  rw [make, exec_prep]
  have h0 : (steps e (mheadIs cfg) σ).gpr eax = ctxOf σ := by
    have e1 : mheadIs cfg = [.ld eax esp 0x4, .addi eax eax (-off A 0x8), .andi eax eax (mask A 4), .addi eax eax (-off A 0x40)] ++ (mheadIs cfg).drop 4 := by
      obtain ⟨_ | _⟩ := cfg <;> rfl
    rw [e1, steps_append]
    have := fun s => steps_dest e ((mheadIs cfg).drop 4) (.g eax) (by obtain ⟨_ | _⟩ := cfg <;> decide) s
    simp only [get_g] at this
    rw [this]
    simp only [steps, step, setg, if_true, ctxOf, BitVec.sub_eq_add_neg]
  have ht : ∀ s, (steps e (mtailIs cfg) s).gpr eax = s.gpr eax := by
    intro s
    have := steps_dest e (mtailIs cfg) (.g eax) (by obtain ⟨_ | _⟩ := cfg <;> decide) s
    simp only [get_g] at this
    exact this
  rw [← h0]
  generalize steps e (mheadIs cfg) σ = s
  induction N generalizing s with
  | zero =>
    have : eax ≠ tmp := by decide
    simp [walkN, exec, steps, step, setg, this]
  | succ n ih =>
    simp only [walkN, exec]
    split
    · rw [ht]; exact (test_same cfg e s).1.g eax (by decide) (by decide) (by decide)
    · rw [exec_prep, ih]
      exact ((test_same cfg e s).1.trans (next_same cfg e _).1).g eax (by decide) (by decide) (by decide)

theorem ent_le (σ : St A) : (ctxOf σ + off A 0x2c - ctxOf σ).toNat ≤ (arg σ 4 - ctxOf σ).toNat := by
  rw [ctx_size]
  have : ctxOf σ + off A 0x2c - ctxOf σ = off A 0x2c := by rw [BitVec.add_comm, BitVec.add_sub_cancel]
  rw [this]
  have : (off A 0x2c).toNat = 0x2c := by decide
  omega

/-- **C67**, new contexts.  `N` is any number of rounds that suffices for the chain of exception handlers of the caller. -/
theorem C67_i386_pe_make (cfg : Cfg) (N : Nat) (e : Env A) (σ : St A) (l : List A.W) (hN : l.length ≤ N)
    (h : MakeOk σ ((port cfg N).resM (exec e (port cfg N).make σ).1) l) : MakeAt (port cfg N) e σ := by
  have hm : exec e (port cfg N).make σ = exec e (make cfg N) σ := rfl
  have hres : (port cfg N).resM (exec e (make cfg N) σ).1 = ctxOf σ := make_res cfg N e σ
  have hsz : ((port cfg N).argTop σ - ctxOf σ).toNat = 0x48 + (arg σ 4 + -off A 8).toNat % 16 := ctx_size σ
  rw [hm, hres] at h
  have hmod : (arg σ 4 + -off A 8).toNat % 16 < 16 := Nat.mod_lt _ (by omega)
  obtain ⟨s0, hs0, hM⟩ := h.facts cfg N e hN
  unfold MakeAt
  rw [hm, hres, hsz, hs0]
  refine ⟨⟨hM.ret.pc, hM.ret.sp, hM.ret.saved, hM.ret.fsaved⟩, ⟨by show 0x40 ≤ _; omega, by show _ ≤ 0x40 + 64; omega⟩, ?_, ?_⟩
  · intro a ha
    exact .inl (inR_mono (hM.w a ha) (by omega))
  · intro τ ha hmem hdj
    rw [ha] at hmem hdj ⊢
    obtain ⟨s, E⟩ := enter_facts cfg e σ s0 τ l hM ha hmem hdj
    have en : (port cfg N).enter e τ = (s, arg σ 0xc) := E.en
    rw [en]
    refine ⟨?_, rfl, ?_, ?_, ?_, ?_, ?_, E.w, ?_⟩
    · intro l cc hl
      have hl : l = Lab.trampoline := (congrArg Prod.fst (Option.some.inj hl)).symm
      rw [hl]; exact E.pc
    · show load s.mem (s.gpr esp + off A 4) A.k = _
      rw [E.sp, add_off_off]; exact E.iF
    · show load s.mem (s.gpr esp + off A 8) A.k = _
      rw [E.sp, add_off_off]; exact E.iD
    · show load s.mem (s.gpr esp) A.k = _
      rw [E.sp]; exact E.ra
    · show (s.gpr esp + off A 4).toNat % 16 = 0
      rw [E.sp]
      have : ctxOf σ + off A 0x2c + off A 4 = ((arg σ 4 + -off A 8) &&& mask A 4) + off A (2 ^ 32 - 0x10) := by
        rw [add_off_off, ctxOf, BitVec.sub_eq_add_neg, BitVec.add_assoc]; congr 1
      rw [this]
      exact mask_add_mod _ _ 4 (by decide) (by decide)
    · show (s.gpr esp - ctxOf σ).toNat ≤ (arg σ 4 - ctxOf σ).toNat
      rw [E.sp]; exact ent_le σ
    · intro a h
      have h : InR a (ctxOf σ + off A 0x2c) 0xc := h
      exact inR_off h (show 0x2c + 0xc ≤ 0x40 by decide) (show 0x40 ≤ 2 ^ (8 * A.k) by decide)

/-- **C67**, thread information block and exception handling: when the function of a context made by `make_fcontext(top, size, fn)` is entered, the thread information
block describes the stack given to `make_fcontext` (base `top`, limit and deallocation stack `top - size`, no fiber data); the chain of exception handlers consists of a
single record on the new stack, whose handler is that of the last record `b` of the chain of the caller of `make_fcontext`, i.e. the handler the operating
system installed; and the control words are those of the creator (unless `BOOST_USE_TSX`). -/
theorem C67_i386_pe_first_activation (cfg : Cfg) (N : Nat) (e : Env A) (σ τ : St A) (c b : A.W) (l : List A.W) (hN : l.length ≤ N)
    (hc : c = (port cfg N).resM (exec e (port cfg N).make σ).1) (h : MakeOk σ c l) (hb : l.getLast? = some b)
    (ha : (port cfg N).argF τ = c) (hmem : ∀ a, InR a c (port cfg N).mkeep → τ.mem a = (exec e (port cfg N).make σ).1.mem a)
    (hdj : ∀ a, InR a c (port cfg N).mkeep → ¬ InR a ((port cfg N).fctx τ) (port cfg N).frame) :
    ∃ s, s = ((port cfg N).enter e τ).1 ∧ s.fpr tibBase = arg σ 4 ∧ s.fpr tibLimit = arg σ 4 - arg σ 8 ∧
    s.fpr tibDealloc = arg σ 4 - arg σ 8 ∧ s.fpr tibFiber = 0#_ ∧
    (∃ r, Chain s.mem (seh s) [r] ∧ load s.mem (r + off A 4) A.k = load σ.mem (b + off A 4) A.k ∧
      ∀ a, InR a r 8 → InR a c (arg σ 4 - c).toNat ∧ ¬ InR a (s.gpr esp) 0xc) ∧
    (cfg.tsx = false → s.fpr mxcsr = σ.fpr mxcsr ∧ s.fpr x87cw = σ.fpr x87cw) := by
  have hres : (port cfg N).resM (exec e (port cfg N).make σ).1 = ctxOf σ := make_res cfg N e σ
  rw [hres] at hc
  subst hc
  obtain ⟨s0, hs0, hM⟩ := h.facts cfg N e hN
  have hm : exec e (port cfg N).make σ = (s0, s0.gpr eip) := hs0
  rw [hm] at hmem
  obtain ⟨s, E⟩ := enter_facts cfg e σ s0 τ l hM ha hmem hdj
  have en : (port cfg N).enter e τ = (s, arg σ 0xc) := E.en
  refine ⟨s, by rw [en], E.base, E.limit, E.dealloc, E.fiber, ⟨ctxOf σ + off A 0x38, ?_, ?_, ?_⟩, fun ht => ⟨E.mx ht, E.cw ht⟩⟩
  · rw [E.sh]; exact .last _ E.nx
  · rw [add_off_off]; exact E.hd b hb
  · intro a ha
    refine ⟨inR_mono (inR_off ha (show 0x38 + 8 ≤ 0x40 by decide) (by decide)) ?_, ?_⟩
    · rw [ctx_size]; omega
    · rw [E.sp]; exact inR_disj ha (by decide) (by decide) (by decide)

/-- **C67**, termination: `make_fcontext` has returned after as many rounds as the chain of exception handlers of its caller has records; further rounds change nothing. -/
theorem C67_i386_pe_make_ends (cfg : Cfg) (N : Nat) (e : Env A) (σ : St A) (l : List A.W) (hN : l.length ≤ N) (h : MakeOk σ (ctxOf σ) l) :
    exec e (make cfg N) σ = exec e (make cfg l.length) σ ∧ (exec e (make cfg N) σ).2 = load σ.mem (σ.gpr esp) A.k := by
  obtain ⟨s, hs, hM⟩ := h.facts cfg N e hN
  obtain ⟨s', hs', hM'⟩ := h.facts cfg l.length e (Nat.le_refl _)
  refine ⟨?_, by rw [hs]; exact hM.ret.pc⟩
  have key : ∀ (l : List A.W) (m : Mem A) (a : A.W), Chain m a l → ∀ (n : Nat) (t : St A), l.length ≤ n → t.mem = m → t.gpr ecx = a →
      exec e (walkN cfg n) t = exec e (walkN cfg l.length) t := by
    intro l m a hc
    induction hc with
    | last a h =>
      intro n t hn hm ha
      obtain ⟨n, rfl⟩ : ∃ k, n = k + 1 := ⟨n - 1, by simp at hn; omega⟩
      have : (steps e (mtestIs cfg) t).gpr edx = 0#_ := by rw [test_edx, plus_one, hm, ha, h]
      simp only [walkN, exec, List.length_singleton, if_pos this]
    | next a l h _ ih =>
      intro n t hn hm ha
      obtain ⟨n, rfl⟩ : ∃ k, n = k + 1 := ⟨n - 1, by simp at hn; omega⟩
      have : (steps e (mtestIs cfg) t).gpr edx ≠ 0#_ := by rw [Ne, test_edx, plus_one, hm, ha]; exact h
      simp only [walkN, exec, List.length_cons, if_neg this, exec_prep]
      refine ih n _ (by simp at hn; omega) ?_ ?_
      · exact ((test_same cfg e t).1.trans (next_same cfg e _).1).m.trans hm
      · rw [(next_same cfg e _).2, test_edx, hm, ha]; exact BitVec.add_sub_cancel _ _
  rw [make, make, exec_prep, exec_prep]
  have hsz := ctx_size σ
  have h1 := h.args
  have h2 := h.recs
  rw [hsz] at h1 h2
  obtain ⟨q1, hz⟩ := head_ok cfg
  have hr := fin_rel (IM_ok e σ (fun a ha => h1 a (inR_mono ha (by omega)))) _ q1
  refine key l _ (seh σ) (chain_congr h.chain ?_) N _ hN rfl ?_
  · intro r hrr a ha
    refine Classical.byContradiction fun hh => h2 r hrr a ?_ ha
    obtain ⟨i, ⟨x, hx, rfl⟩, h3⟩ := hr.frame a hh
    rw [hz.w x hx] at h3
    have h3 : InR a (ctxOf σ + off A 0) 0x40 := h3
    rw [z0] at h3
    exact inR_mono h3 (by omega)
  · refine (hr.reg hz.cx).trans ?_
    show (σ.fpr tibSeh).setWidth (8 * A.k) + 0#_ = _
    rw [BitVec.add_zero]; exact BitVec.setWidth_eq _

/-- **C67**, the loop needs the end of the chain: if every record of the chain has a successor (as in a damaged, cyclic chain), `make_fcontext` never returns — after any
number of rounds control is at the head of the loop. -/
theorem C67_i386_pe_make_endless (cfg : Cfg) (N : Nat) (e : Env A) (σ : St A) (L : A.W → Prop) (h0 : L (seh σ))
    (h : ∀ r, L r → load σ.mem r A.k ≠ -1#_ ∧ L (load σ.mem r A.k))
    (hd : ∀ a, InR a (ctxOf σ) 0x40 → ¬ InR a (σ.gpr esp) 0x10) (hl : ∀ r, L r → ∀ a, InR a (ctxOf σ) 0x40 → ¬ InR a r 4) :
    (exec e (make cfg N) σ).2 = e Lab.walk := by
  obtain ⟨q1, hz⟩ := head_ok cfg
  have hr := fin_rel (IM_ok e σ hd) _ q1
  rw [make, exec_prep]
  obtain ⟨t, ht⟩ : ∃ t, t = steps (IM e σ).e (mheadIs cfg) (IM e σ).σ := ⟨_, rfl⟩
  rw [← ht] at hr
  have ht' : steps e (mheadIs cfg) σ = t := ht.symm
  rw [ht']
  have hm : ∀ r, L r → load t.mem r A.k = load σ.mem r A.k := by
    intro r hrr
    refine load_congr (by decide) fun a ha => Classical.byContradiction fun hh => hl r hrr a ?_ ha
    obtain ⟨i, ⟨x, hx, rfl⟩, h3⟩ := hr.frame a hh
    rw [hz.w x hx] at h3
    have h3 : InR a (ctxOf σ + off A 0) 0x40 := h3
    rw [z0] at h3
    exact h3
  have hcx : L (t.gpr ecx) := by
    have : t.gpr ecx = seh σ := by
      refine (hr.reg hz.cx).trans ?_
      show (σ.fpr tibSeh).setWidth (8 * A.k) + 0#_ = _
      rw [BitVec.add_zero]; exact BitVec.setWidth_eq _
    rw [this]; exact h0
  clear hr ht ht'
  induction N generalizing t with
  | zero => simp [walkN, exec, steps, step, setg]
  | succ n ih =>
    have h2 := hm _ hcx
    have h3 := h _ hcx
    have : (steps e (mtestIs cfg) t).gpr edx ≠ 0#_ := by rw [Ne, test_edx, plus_one, h2]; exact h3.1
    simp only [walkN, exec, if_neg this, exec_prep]
    refine ih _ ?_ ?_
    · intro r hrr
      rw [((test_same cfg e t).1.trans (next_same cfg e _).1).m]; exact hm r hrr
    · have : (steps e (mnextIs cfg) (steps e (mtestIs cfg) t)).gpr ecx = load σ.mem (t.gpr ecx) A.k := by
        rw [(next_same cfg e _).2, test_edx, h2]; exact BitVec.add_sub_cancel _ _
      rw [this]; exact h3.2

/-! ## The other assembler syntaxes -/

/-- **C67**: the routines for clang and for MASM consist of the same instructions. -/
theorem C67_i386_pe_same (cfg : Cfg) :
    (I386PeClang.jump cfg = jump cfg ∧ I386PeClang.ontop cfg = ontop cfg ∧ I386PeClang.mheadIs cfg = mheadIs cfg ∧ I386PeClang.mtestIs cfg = mtestIs cfg ∧
      I386PeClang.mnextIs cfg = mnextIs cfg ∧ I386PeClang.mtail cfg = mtail cfg ∧ I386PeClang.tramp cfg = tramp cfg) ∧
    I386PeMasm.jump cfg = jump cfg ∧ I386PeMasm.ontop cfg = ontop cfg ∧ I386PeMasm.mheadIs cfg = mheadIs cfg ∧ I386PeMasm.mtestIs cfg = mtestIs cfg ∧
      I386PeMasm.mnextIs cfg = mnextIs cfg ∧ I386PeMasm.mtail cfg = mtail cfg ∧ I386PeMasm.tramp cfg = tramp cfg :=
  ⟨⟨rfl, rfl, rfl, rfl, rfl, rfl, rfl⟩, rfl, rfl, rfl, rfl, rfl, rfl, rfl⟩

/-! ## The hypotheses can be met -/

/-- a state with `esp = sp`, first argument `to`, the other registers containing `x`, the special registers `y` -/
def mk (m : Mem A) (sp to x : A.W) (y : Nat) : St A :=
  ⟨fun r => if r = esp then sp else x, fun _ => BitVec.ofNat _ y, store m (sp + off A 4) A.k to⟩

theorem mk_to (m : Mem A) (sp to x : A.W) (y : Nat) : arg (mk m sp to x y) 4 = to := load_store_same _ _ _ _ (by decide)

theorem mk_mem (m : Mem A) (sp to x : A.W) (y : Nat) (a : A.W) (ha : ¬ InR a sp 0x10) : (mk m sp to x y).mem a = m a := by
  show store m (sp + off A 4) A.k to a = m a
  rw [store_out]
  exact fun hh => ha (inR_off hh (by decide) (by decide))

/-- The hypotheses of `C67_i386_pe_jump` and `C67_i386_pe_ontop` are met by a context suspended at `esp = 0x10000` and a resumer with different register
contents and another chain of exception handlers. -/
example (e : Env A) (cfg : Cfg) (N : Nat) : ∃ σ τ m, (port cfg N).Left e σ m ∧ (port cfg N).Intact σ m τ ∧ (port cfg N).argF τ = (port cfg N).fctx σ ∧
    σ.gpr ebx ≠ τ.gpr ebx ∧ seh σ ≠ seh τ := by
  obtain ⟨σ, hσ⟩ : ∃ σ, σ = mk (fun _ => 0#_) 0x10000#_ 0x8000#_ 1#_ 3 := ⟨_, rfl⟩
  have e2 : arg σ 4 = 0x8000#_ := by rw [hσ]; exact mk_to _ _ _ _ _
  have e3 : σ.gpr esp = 0x10000#_ := by rw [hσ]; rfl
  have e5 : own σ = 0xffd4#_ := by show σ.gpr esp - off A 0x2c = _; rw [e3]; decide
  have hok : (port cfg N).ok σ := by
    show ∀ a, InR a (arg σ 4) 0x38 → ¬ InR a (own σ) 0x3c
    rw [e2, e5]; exact fun a ha => inR_apart (by decide) (by decide) ha
  obtain ⟨m, hm⟩ : ∃ m, m = (exec e (port cfg N).jump σ).1.mem := ⟨_, rfl⟩
  have hl : (port cfg N).Left e σ m := .inl hm.symm
  obtain ⟨τ, hτ⟩ : ∃ τ, τ = mk m 0x20000#_ 0xffd4#_ 2#_ 4 := ⟨_, rfl⟩
  have t2 : arg τ 4 = 0xffd4#_ := by rw [hτ]; exact mk_to _ _ _ _ _
  have t3 : τ.gpr esp = 0x20000#_ := by rw [hτ]; rfl
  have t5 : own τ = 0x1ffd4#_ := by show τ.gpr esp - off A 0x2c = _; rw [t3]; decide
  refine ⟨σ, τ, m, hl, ⟨hok, ?_, fun _ h => h.elim, fun _ h => h.elim, ?_, ?_⟩, t2.trans e5.symm, ?_, ?_⟩
  · show ∀ a, InR a (arg τ 4) 0x38 → ¬ InR a (own τ) 0x3c
    rw [t2, t5]; exact fun a ha => inR_apart (by decide) (by decide) ha
  · show ∀ a, InR a (own σ) 0x30 → τ.mem a = m a
    rw [e5, hτ]
    exact fun a ha => mk_mem _ _ _ _ _ _ (inR_apart (by decide) (by decide) ha)
  · show ∀ a, InR a (own σ) 0x30 → ¬ InR a (own τ) 0x2c
    rw [e5, t5]
    exact fun a ha => inR_apart (by decide) (by decide) ha
  · rw [hσ, hτ]; show (1#_ : A.W) ≠ 2#_; decide
  · rw [hσ, hτ]; show (BitVec.ofNat (8 * 4) 3) ≠ BitVec.ofNat (8 * 4) 4; decide

/-- a memory with two registration records, at 0x10100 and 0x10200 (the last, with handler 0xbeef) -/
def m2 : Mem A := store (store (store (fun _ => 0#_) 0x10100#_ A.k 0x10200#_) 0x10200#_ A.k (-1#_)) 0x10204#_ A.k 0xbeef#_

/-- The hypotheses of `C67_i386_pe_make`, `C67_i386_pe_first_activation` and `C67_i386_pe_make_ends` are met by a caller at `esp = 0x10000` with a chain of two records and a
stack whose top is the odd address `0xf123`. -/
example (e : Env A) (cfg : Cfg) (N : Nat) : ∃ σ τ c b l, c = (port cfg N).resM (exec e (port cfg N).make σ).1 ∧ c = ctxOf σ ∧ MakeOk σ c l ∧ l.length = 2 ∧
    l.getLast? = some b ∧ load σ.mem (b + off A 4) A.k = 0xbeef#_ ∧ (port cfg N).argF τ = c ∧
    (∀ a, InR a c (port cfg N).mkeep → τ.mem a = (exec e (port cfg N).make σ).1.mem a) ∧
    ∀ a, InR a c (port cfg N).mkeep → ¬ InR a ((port cfg N).fctx τ) (port cfg N).frame := by
  obtain ⟨σ, hσ⟩ : ∃ σ, σ = mk m2 0x10000#_ 0xf123#_ 1#_ 0x10100 := ⟨_, rfl⟩
  have e1 : arg σ 4 = 0xf123#_ := by rw [hσ]; exact mk_to _ _ _ _ _
  have e3 : σ.gpr esp = 0x10000#_ := by rw [hσ]; rfl
  have hc : ctxOf σ = 0xf0d0#_ := by rw [ctxOf, e1]; decide
  have hsz : (arg σ 4 - 0xf0d0#_).toNat = 0x53 := by rw [e1]; decide
  have l1 : load σ.mem 0x10100#_ A.k = 0x10200#_ := by rw [hσ]; decide +kernel
  have l2 : load σ.mem 0x10200#_ A.k = -1#_ := by rw [hσ]; decide +kernel
  have l3 : load σ.mem (0x10200#_ + off A 4) A.k = 0xbeef#_ := by rw [hσ]; decide +kernel
  refine ⟨σ, mk (exec e (port cfg N).make σ).1.mem 0x20000#_ 0xf0d0#_ 2#_ 0, 0xf0d0#_, 0x10200#_, [0x10100#_, 0x10200#_], ?_, hc.symm, ⟨?_, ?_, ?_⟩, rfl, rfl, l3,
    mk_to _ _ _ _ _, ?_, ?_⟩
  · rw [← hc]; exact (make_res cfg N e σ).symm
  · have : seh σ = 0x10100#_ := by rw [hσ]; rfl
    rw [this]
    refine .next _ _ (by rw [l1]; decide) ?_
    rw [l1]
    exact .last _ l2
  · rw [hsz, e3]; exact fun a ha => inR_apart (by decide) (by decide) ha
  · rw [hsz]
    intro r hr a ha
    simp only [List.mem_cons, List.not_mem_nil, or_false] at hr
    rcases hr with rfl | rfl
    · exact inR_apart (by decide) (by decide) ha
    · exact inR_apart (by decide) (by decide) ha
  · show ∀ a, InR a 0xf0d0#_ 0x40 → _
    exact fun a ha => mk_mem _ _ _ _ _ _ (inR_apart (by decide) (by decide) ha)
  · show ∀ a, InR a 0xf0d0#_ 0x40 → ¬ InR a ((0x20000#_ : A.W) - off A 0x2c) 0x2c
    exact fun a ha => inR_apart (b' := 0x20000#_ - off A 0x2c) (by decide) (by decide) ha

/-- The hypotheses of `C67_i386_pe_make_endless` are met by a chain whose only record (at address 0) refers to itself. -/
example : ∃ (σ : St A) (L : A.W → Prop), L (seh σ) ∧ (∀ r, L r → load σ.mem r A.k ≠ -1#_ ∧ L (load σ.mem r A.k)) ∧
    (∀ a, InR a (ctxOf σ) 0x40 → ¬ InR a (σ.gpr esp) 0x10) ∧ ∀ r, L r → ∀ a, InR a (ctxOf σ) 0x40 → ¬ InR a r 4 := by
  obtain ⟨σ, hσ⟩ : ∃ σ, σ = mk (fun _ => 0#_) 0x10000#_ 0xf123#_ 1#_ 0 := ⟨_, rfl⟩
  have e1 : arg σ 4 = 0xf123#_ := by rw [hσ]; exact mk_to _ _ _ _ _
  have e3 : σ.gpr esp = 0x10000#_ := by rw [hσ]; rfl
  have hc : ctxOf σ = 0xf0d0#_ := by rw [ctxOf, e1]; decide
  have l1 : load σ.mem 0#_ A.k = 0#_ := by rw [hσ]; decide +kernel
  refine ⟨σ, (· = 0#_), by rw [hσ]; rfl, ?_, ?_, ?_⟩
  · rintro r rfl
    rw [l1]; exact ⟨by decide, rfl⟩
  · rw [hc, e3]; exact fun a ha => inR_apart (by decide) (by decide) ha
  · rintro r rfl a ha
    rw [hc] at ha
    exact fun hh => inR_apart (by decide) (by decide) hh ha

end Verif.Asm.I386Pe
