import Verif.Asm.X86_64PeCode
import Verif.Asm.X86_64PeClangCode
import Verif.Asm.X86_64PeMasmCode
import Verif.Asm.Sym

/-! # x86_64 Windows: the switching routines meet their specification (C62) -/

namespace Verif.Asm.X86_64Pe

/-- the XMM registers a function must preserve, and where the routines keep them -/
def LX : List (A.F × Nat) := [(xmm 6, 0), (xmm 7, 0x10), (xmm 8, 0x20), (xmm 9, 0x30), (xmm 10, 0x40), (xmm 11, 0x50), (xmm 12, 0x60), (xmm 13, 0x70),
  (xmm 14, 0x80), (xmm 15, 0x90), (mxcsr, 0xa0), (x87cw, 0xa4)]

/-- address of the result object of the target -/
abbrev thid (s : St A) : A.W := load s.mem (s.gpr rdx + off A 0x110) A.k
abbrev own (s : St A) : A.W := s.gpr rsp - off A 0x118

/-- The own frame (with return address) overlaps neither the target's frame, nor the target's result object, nor the own result object. -/
def Ok (s : St A) : Prop :=
  (∀ a, InR a (s.gpr rdx) 0x120 → ¬ InR a (own s) 0x120) ∧ (∀ a, InR a (thid s) 16 → ¬ InR a (own s) 0x120) ∧
  (∀ a, InR a (s.gpr rcx) 16 → ¬ InR a (own s) 0x120)

/-- Windows x64: at the entry of a function the return address is at `[rsp]`, above it 32 bytes that belong to the function; the caller continues with `rsp + 8`.
A two-word structure is returned in an object whose address the caller passes in rcx (and gets back in rax) and passed by reference; arguments in rcx, rdx, r8, r9 in this
order.  Callee-saved: rbx, rbp, rdi, rsi, r12-r15, xmm6-xmm15, and the control words of the floating point units (`BOOST_USE_TSX` gives the latter up).  The fields of
the thread information block that describe the stack belong to the context, too.  `rsp + 8` is a multiple of 16 at the entry of a function. -/
def port (cfg : Cfg) : Port A where
  jump := jump cfg
  ontop := ontop cfg
  make := make cfg
  tramp := some (Lab.trampoline, tramp cfg)
  finish := Lab.finish
  sp := rsp
  saved := [rbx, rbp, rdi, rsi, r12, r13, r14, r15]
  fsaved := [tibBase, tibLimit, tibFiber, tibDealloc] ++
    if cfg.tsx then [] else [xmm 6, xmm 7, xmm 8, xmm 9, xmm 10, xmm 11, xmm 12, xmm 13, xmm 14, xmm 15, mxcsr, x87cw]
  ra s := load s.mem (s.gpr rsp) A.k
  spRet s := s.gpr rsp + off A 8
  argF s := s.gpr rdx
  argD s := s.gpr r8
  argFn s := s.gpr r9
  slot s a := InR a (s.gpr rcx) 16
  resF σ τ := load τ.mem (σ.gpr rcx) A.k
  resD σ τ := load τ.mem (σ.gpr rcx + off A 8) A.k
  inF s := load s.mem (s.gpr rcx) A.k
  inD s := load s.mem (s.gpr rcx + off A 8) A.k
  oinF s := load s.mem (s.gpr rdx) A.k
  oinD s := load s.mem (s.gpr rdx + off A 8) A.k
  fctx := own
  frame := 0x118
  keep := 0x120
  tslot s a := InR a (thid s) 16
  oarea _ _ := False
  ok := Ok
  argTop s := s.gpr rcx
  argMFn s := s.gpr r8
  resM s := s.gpr rax
  mspRet s := s.gpr rsp + off A 8
  mscratch := 0
  mkeep := 0x150
  mslot c a := InR a (c + off A 0x118) 8 ∨ InR a (c + off A 0x140) 16
  aligned w := (w + off A 8).toNat % 16 = 0
  also σ τ := τ.gpr rax = σ.gpr rcx

/-! ## Proofs -/

theorem z0 (x : A.W) : x + off A 0 = x := BitVec.add_zero x

/-- bases: 0 own frame (with return address), 1 frame of the target, 2 result object of the target; `b`: the result object is disjoint from the frames -/
def C (b : Bool) : SCfg A where
  known := [(.reg rsp, 0, off A 0x118), (.reg rdx, 1, 0#_), (.ld 1 0x110, 2, 0#_)]
  wr i := if i = 0 then (0, 0x118) else if i = 2 then (0, 16) else (0, 0)
  rd i := if i = 0 then 0x120 else if i = 1 then 0x120 else if i = 2 then 16 else 0
  D i j := i == 0 && j == 1 || i == 2 && j == 0 || b && (i == 2 && j == 1 || i == 0 && j == 2)

def I (e : Env A) (σ : St A) : Itp A where
  σ := σ
  β i := if i = 0 then own σ else if i = 1 then σ.gpr rdx else thid σ
  e := e

theorem I_ok (b : Bool) (e : Env A) (σ : St A) (h : Ok σ)
    (hb : b = true → ∀ a, InR a (thid σ) 16 → ¬ InR a (σ.gpr rdx) 0x120 ∧ ¬ InR a (own σ) 0x118) : (I e σ).Ok (C b) where
  known := by
    intro x hx
    simp only [C, List.mem_cons, List.not_mem_nil, or_false] at hx
    rcases hx with rfl | rfl | rfl
    · exact (sub_add_off _ _).symm
    · exact (BitVec.add_zero _).symm
    · exact (BitVec.add_zero _).symm
  disj := by
    intro i j hD
    simp only [C, Bool.or_eq_true, Bool.and_eq_true, beq_iff_eq] at hD
    intro a ha hx
    rcases hD with (⟨rfl, rfl⟩ | ⟨rfl, rfl⟩) | ⟨h1, ⟨rfl, rfl⟩ | ⟨rfl, rfl⟩⟩
    · have ha : InR a (own σ + off A 0) 0x118 := ha
      rw [z0] at ha
      exact h.1 a hx (inR_mono ha (by decide))
    · have ha : InR a (thid σ + off A 0) 16 := ha
      rw [z0] at ha
      exact h.2.1 a ha hx
    · have ha : InR a (thid σ + off A 0) 16 := ha
      rw [z0] at ha
      exact (hb h1 a ha).1 hx
    · have ha : InR a (own σ + off A 0) 0x118 := ha
      rw [z0] at ha
      exact (hb h1 a hx).2 ha
  wr i := by simp only [C]; repeat' split
             all_goals decide
  rd i := by simp only [C]; repeat' split
             all_goals decide

def LG : List (A.R × Nat) := [(r12, 0xd0), (r13, 0xd8), (r14, 0xe0), (r15, 0xe8), (rdi, 0xf0), (rsi, 0xf8), (rbx, 0x100), (rbp, 0x108)]
def LF (cfg : Cfg) : List (A.F × Nat) := if cfg.tsx then [] else LX
def LT : List (A.F × Nat) := [(tibFiber, 0xb0), (tibDealloc, 0xb8), (tibLimit, 0xc0), (tibBase, 0xc8)]

/-- a run that saves the own context -/
structure SaveOk (cfg : Cfg) (z : SSt A) : Prop where
  v : z.valid 0 = true
  g : ∀ x ∈ LG, look 0 x.2 A.k z.log = some (some (.w ⟨.reg x.1, 0#_⟩))
  f : ∀ x ∈ LF cfg, look 0 x.2 (A.fb x.1) z.log = some (some (.f x.1 (.init x.1)))
  t : ∀ x ∈ LT, look 0 x.2 A.k z.log = some (some (.w ⟨.spec x.1, 0#_⟩))
  a : look 0 0x118 A.k z.log = some none
  h : look 0 0x110 A.k z.log = some (some (.w ⟨.reg rcx, 0#_⟩))

theorem jump_save (cfg : Cfg) : ∃ h, SaveOk cfg ((C false).fin (jumpIs cfg) h) := by
  obtain ⟨_ | _⟩ := cfg <;> exact ⟨by decide +kernel, ⟨by decide +kernel, by decide +kernel, by decide +kernel, by decide +kernel, by decide +kernel, by decide +kernel⟩⟩

theorem ontop_save (cfg : Cfg) : ∃ h, SaveOk cfg ((C false).fin (ontopIs cfg) h) := by
  obtain ⟨_ | _⟩ := cfg <;> exact ⟨by decide +kernel, ⟨by decide +kernel, by decide +kernel, by decide +kernel, by decide +kernel, by decide +kernel, by decide +kernel⟩⟩

/-- the frame at `f` holds the context of `σ` -/
structure Frame (cfg : Cfg) (σ : St A) (m : Mem A) (f : A.W) : Prop where
  g : ∀ x ∈ LG, load m (f + off A x.2) A.k = σ.gpr x.1
  fs : ∀ x ∈ LF cfg, load m (f + off A x.2) (A.fb x.1) = σ.fpr x.1
  t : ∀ x ∈ LT, load m (f + off A x.2) A.k = (σ.fpr x.1).setWidth _
  a : load m (f + off A 0x118) A.k = load σ.mem (σ.gpr rsp) A.k
  h : load m (f + off A 0x110) A.k = σ.gpr rcx

theorem sv_reg (I : Itp A) (r : A.R) : I.sv ⟨.reg r, 0#_⟩ = I.σ.gpr r := BitVec.add_zero _
theorem sv_ld (I : Itp A) (i o : Nat) : I.sv ⟨.ld i o, 0#_⟩ = load I.σ.mem (I.β i + off A o) A.k := BitVec.add_zero _
theorem sv_own (e : Env A) (τ : St A) : (I e τ).sv ⟨.reg rsp, -off A 0x118⟩ = own τ := (BitVec.sub_eq_add_neg _ _).symm

theorem frame_of {cfg : Cfg} {b : Bool} {e : Env A} {σ s : St A} {z : SSt A} (h : Rel (C b) (I e σ) z s) (hz : SaveOk cfg z) :
    Frame cfg σ s.mem (own σ) where
  g x hx := (h.word (i := 0) (o := x.2) hz.v (show _ ≤ 0x120 by revert x; decide) (hz.g x hx)).trans (sv_reg _ _)
  fs x hx := by
    have := h.special (i := 0) (o := x.2) hz.v (show _ ≤ 0x120 by revert x; obtain ⟨_ | _⟩ := cfg <;> decide) (hz.f x hx)
    simpa [Itp.fv, I] using this
  t x hx := by
    have := h.word (i := 0) (o := x.2) hz.v (show _ ≤ 0x120 by revert x; decide) (hz.t x hx)
    exact this.trans (BitVec.add_zero _)
  a := by
    have := h.same 0 0x118 A.k hz.v (show _ ≤ 0x120 by decide) hz.a
    simp only [I] at this
    rw [if_pos trivial, sub_add_off] at this
    rw [sub_add_off]
    exact this
  h := (h.word (i := 0) (o := 0x110) hz.v (show _ ≤ 0x120 by decide) hz.h).trans (sv_reg _ _)

theorem left_frame {cfg : Cfg} {e : Env A} {σ : St A} {m : Mem A} (hok : Ok σ) (h : (port cfg).Left e σ m) : Frame cfg σ m (own σ) := by
  rcases h with h | h
  · obtain ⟨h1, h2⟩ := jump_save cfg
    rw [← h]; exact frame_of (fin_rel (I_ok false e σ hok (by simp)) _ h1) h2
  · obtain ⟨h1, h2⟩ := ontop_save cfg
    rw [← h]; exact frame_of (fin_rel (I_ok false e σ hok (by simp)) _ h1) h2

/-- a complete run that restores the context at base 1 and leaves the stack pointer `n` bytes above it -/
structure RestoreOk (cfg : Cfg) (n : Nat) (z : SSt A) : Prop where
  g : ∀ x ∈ LG, z.gpr x.1 = ⟨.ld 1 x.2, 0#_⟩
  f : ∀ x ∈ LF cfg, z.fpr x.1 = .ld 1 x.2
  t : ∀ x ∈ LT, z.fpr x.1 = .ofG ⟨.ld 1 x.2, 0#_⟩
  sp : z.gpr rsp = ⟨.reg rdx, off A n⟩
  ax : z.gpr rax = ⟨.ld 1 0x110, 0#_⟩
  cx : z.gpr rcx = ⟨.ld 1 0x110, 0#_⟩
  v1 : z.valid 1 = true
  v : z.valid 2 = true
  rF : look 2 0 A.k z.log = some (some (.w ⟨.reg rsp, -off A 0x118⟩))
  rD : look 2 8 A.k z.log = some (some (.w ⟨.reg r8, 0#_⟩))
  w : ∀ x ∈ z.log, x.1 = 0 ∨ x.1 = 2

theorem jump_restore (cfg : Cfg) : ∃ h, RestoreOk cfg 0x120 ((C true).fin (jumpIs cfg) h) ∧ ((C true).fin (jumpIs cfg) h).gpr r10 = ⟨.ld 1 0x118, 0#_⟩ := by
  obtain ⟨_ | _⟩ := cfg <;> exact ⟨by decide +kernel, ⟨by decide +kernel, by decide +kernel, by decide +kernel, by decide +kernel, by decide +kernel, by decide +kernel,
    by decide +kernel, by decide +kernel, by decide +kernel, by decide +kernel, by decide +kernel⟩, by decide +kernel⟩

theorem ontop_restore (cfg : Cfg) : ∃ h, RestoreOk cfg 0x118 ((C true).fin (ontopIs cfg) h) ∧ ((C true).fin (ontopIs cfg) h).gpr r9 = ⟨.reg r9, 0#_⟩ ∧
    ((C true).fin (ontopIs cfg) h).gpr rdx = ⟨.ld 1 0x110, 0#_⟩ ∧ look 1 0x118 A.k ((C true).fin (ontopIs cfg) h).log = some none := by
  obtain ⟨_ | _⟩ := cfg <;> exact ⟨by decide +kernel, ⟨by decide +kernel, by decide +kernel, by decide +kernel, by decide +kernel, by decide +kernel, by decide +kernel,
    by decide +kernel, by decide +kernel, by decide +kernel, by decide +kernel, by decide +kernel⟩, by decide +kernel, by decide +kernel, by decide +kernel⟩

/-- what a call with entry state `τ` that targets the intact context `σ` finds -/
theorem target {cfg : Cfg} {e : Env A} {σ τ : St A} {m : Mem A} (hl : (port cfg).Left e σ m) (hi : (port cfg).Intact σ m τ)
    (ha : (port cfg).argF τ = (port cfg).fctx σ) : Frame cfg σ τ.mem (τ.gpr rdx) ∧ thid τ = σ.gpr rcx ∧
    ∀ a, InR a (thid τ) 16 → ¬ InR a (τ.gpr rdx) 0x120 ∧ ¬ InR a (own τ) 0x118 := by
  obtain ⟨h0, h1, h2, h3, h4, h5⟩ := hi
  have ha : τ.gpr rdx = own σ := ha
  have hf := left_frame h0 hl
  have h4 : ∀ a, InR a (own σ) 0x120 → τ.mem a = m a := h4
  have hF : Frame cfg σ τ.mem (τ.gpr rdx) := by
    rw [ha]
    constructor
    · intro x hx; rw [← hf.g x hx]; exact load_agree h4 (by revert x; decide) (by decide)
    · intro x hx; rw [← hf.fs x hx]; exact load_agree h4 (by revert x; obtain ⟨_ | _⟩ := cfg <;> decide) (by decide)
    · intro x hx; rw [← hf.t x hx]; exact load_agree h4 (by revert x; decide) (by decide)
    · rw [← hf.a]; exact load_agree h4 (by decide) (by decide)
    · rw [← hf.h]; exact load_agree h4 (by decide) (by decide)
  refine ⟨hF, hF.h, fun a hh => ?_⟩
  have e1 : thid τ = σ.gpr rcx := hF.h
  rw [e1] at hh
  rw [ha]
  exact h3 a hh

theorem tib_width (q : A.F) (h : A.fb q = A.k) (v : BitVec (8 * A.fb q)) : (v.setWidth (8 * A.k)).setWidth (8 * A.fb q) = v := by
  apply BitVec.eq_of_toNat_eq
  simp only [BitVec.toNat_setWidth]
  have h1 := v.isLt
  have h2 : v.toNat < 2 ^ (8 * A.k) := by rw [← h]; exact h1
  rw [Nat.mod_eq_of_lt h2, Nat.mod_eq_of_lt h1]

/-- what holds after a run that restores `σ` -/
theorem restored {cfg : Cfg} {n : Nat} {e : Env A} {σ τ s : St A} {z : SSt A} (hr : Rel (C true) (I e τ) z s) (hz : RestoreOk cfg n z)
    (hf : Frame cfg σ τ.mem (τ.gpr rdx)) : s.gpr rsp = τ.gpr rdx + off A n ∧ (∀ r ∈ (port cfg).saved, s.gpr r = σ.gpr r) ∧
    (∀ f ∈ (port cfg).fsaved, s.fpr f = σ.fpr f) := by
  refine ⟨hr.reg hz.sp, ?_, ?_⟩
  · have : ∀ x ∈ LG, s.gpr x.1 = σ.gpr x.1 := fun x hx => by
      rw [hr.reg (hz.g x hx), ← hf.g x hx]; exact sv_ld _ _ _
    intro r h
    have hm : r ∈ LG.map (·.1) := by simp only [port] at h; revert r; decide
    obtain ⟨x, hx, rfl⟩ := List.mem_map.1 hm
    exact this x hx
  · have g1 : ∀ x ∈ LF cfg, s.fpr x.1 = σ.fpr x.1 := fun x hx => by
      rw [hr.fpr, hz.f _ hx, ← hf.fs _ hx]; rfl
    have g2 : ∀ x ∈ LT, s.fpr x.1 = σ.fpr x.1 := fun x hx => by
      have hw : A.fb x.1 = A.k := by revert x; decide
      rw [hr.fpr, hz.t _ hx]
      show BitVec.setWidth _ ((I e τ).sv ⟨.ld 1 x.2, 0#_⟩) = _
      rw [sv_ld]
      have : load τ.mem (τ.gpr rdx + off A x.2) A.k = (σ.fpr x.1).setWidth _ := hf.t x hx
      show BitVec.setWidth _ (load τ.mem (τ.gpr rdx + off A x.2) A.k) = _
      rw [this]
      exact tib_width x.1 hw _
    intro f h
    have hm : f ∈ LT.map (·.1) ∨ f ∈ (LF cfg).map (·.1) := by
      simp only [port] at h
      revert f
      obtain ⟨_ | _⟩ := cfg <;> decide
    rcases hm with hm | hm
    · obtain ⟨x, hx, rfl⟩ := List.mem_map.1 hm
      exact g2 x hx
    · obtain ⟨x, hx, rfl⟩ := List.mem_map.1 hm
      exact g1 x hx

theorem wrote {n : Nat} {cfg : Cfg} {e : Env A} {τ s : St A} {z : SSt A} (hr : Rel (C true) (I e τ) z s) (hz : RestoreOk cfg n z) (a : A.W)
    (h : s.mem a ≠ τ.mem a) : InR a (own τ) 0x118 ∨ InR a (thid τ) 16 := by
  obtain ⟨i, ⟨x, hx, rfl⟩, h2⟩ := hr.frame a h
  rcases hz.w x hx with h0 | h0
  · rw [h0] at h2
    have h2 : InR a (own τ + off A 0) 0x118 := h2
    rw [z0] at h2
    exact .inl h2
  · rw [h0] at h2
    have h2 : InR a (thid τ + off A 0) 16 := h2
    rw [z0] at h2
    exact .inr h2

/-- **C62**, switching -/
theorem C62_x86_64_pe_jump (cfg : Cfg) : (port cfg).JumpSpec := by
  intro e σ τ m hl hi ha
  obtain ⟨hf, hh, hd⟩ := target hl hi ha
  have ha : τ.gpr rdx = own σ := ha
  obtain ⟨h1, h2, h3⟩ := jump_restore cfg
  have hr := fin_rel (I_ok true e τ hi.ok' (fun _ => hd)) _ h1
  obtain ⟨s, hs⟩ : ∃ s, s = steps (I e τ).e (jumpIs cfg) (I e τ).σ := ⟨_, rfl⟩
  have hx : exec e (port cfg).jump τ = (s, s.gpr r10) := by rw [hs]; rfl
  rw [← hs] at hr
  rw [hx]
  obtain ⟨r1, r2, r3⟩ := restored hr h2 hf
  have w1 : load s.mem (thid τ + off A 0) A.k = _ := hr.word (i := 2) (o := 0) h2.v (by decide) h2.rF
  have w2 : load s.mem (thid τ + off A 8) A.k = _ := hr.word (i := 2) (o := 8) h2.v (by decide) h2.rD
  rw [hh] at w1 w2
  rw [z0] at w1
  refine ⟨⟨?_, ?_, r2, r3⟩, ?_, ?_, ?_, ?_, ?_⟩
  · show s.gpr r10 = load σ.mem (σ.gpr rsp) A.k
    rw [hr.reg h3, ← hf.a]; exact sv_ld _ _ _
  · show s.gpr rsp = σ.gpr rsp + off A 8
    rw [r1, ha]
    show σ.gpr rsp - off A 0x118 + off A (0x118 + 8) = _
    rw [← add_off_off, sub_add_off]
  · exact w1.trans (sv_own e τ)
  · exact w2.trans (sv_reg _ _)
  · intro a h
    have := wrote hr h2 a h
    rw [hh] at this
    exact this
  · intro a
    show InR a (thid τ) 16 ↔ InR a (σ.gpr rcx) 16
    rw [hh]
  · show s.gpr rax = σ.gpr rcx
    rw [hr.reg h2.ax, ← hh]; exact sv_ld _ _ _

/-- **C62**, on-top calls -/
theorem C62_x86_64_pe_ontop (cfg : Cfg) : (port cfg).OntopSpec := by
  intro e σ τ m hl hi ha
  obtain ⟨hf, hh, hd⟩ := target hl hi ha
  have ha : τ.gpr rdx = own σ := ha
  obtain ⟨h1, h2, h3, h4, h5⟩ := ontop_restore cfg
  have hr := fin_rel (I_ok true e τ hi.ok' (fun _ => hd)) _ h1
  obtain ⟨s, hs⟩ : ∃ s, s = steps (I e τ).e (ontopIs cfg) (I e τ).σ := ⟨_, rfl⟩
  have hx : exec e (port cfg).ontop τ = (s, s.gpr r9) := by rw [hs]; rfl
  rw [← hs] at hr
  rw [hx]
  obtain ⟨r1, r2, r3⟩ := restored hr h2 hf
  have w1 : load s.mem (thid τ + off A 0) A.k = _ := hr.word (i := 2) (o := 0) h2.v (by decide) h2.rF
  have w2 : load s.mem (thid τ + off A 8) A.k = _ := hr.word (i := 2) (o := 8) h2.v (by decide) h2.rD
  rw [z0] at w1
  have hdx : s.gpr rdx = thid τ := (hr.reg h4).trans (sv_ld _ _ _)
  have hcx : s.gpr rcx = thid τ := (hr.reg h2.cx).trans (sv_ld _ _ _)
  refine ⟨?_, ⟨?_, ?_, r2, r3, ?_, ?_, ?_⟩, ?_, ?_⟩
  · exact (hr.reg h3).trans (sv_reg _ _)
  · show load s.mem (s.gpr rsp) A.k = load σ.mem (σ.gpr rsp) A.k
    rw [r1, ← hf.a]
    exact hr.same 1 0x118 A.k h2.v1 (by decide) h5
  · show s.gpr rsp + off A 8 = σ.gpr rsp + off A 8
    rw [r1, ha, sub_add_off]
  · intro a
    show InR a (s.gpr rcx) 16 ↔ InR a (σ.gpr rcx) 16
    rw [hcx, hh]
  · show load s.mem (s.gpr rdx) A.k = own τ
    rw [hdx, w1]; exact sv_own e τ
  · show load s.mem (s.gpr rdx + off A 8) A.k = τ.gpr r8
    rw [hdx, w2]; exact sv_reg _ _
  · intro a h
    have := wrote hr h2 a h
    rw [hh] at this
    rcases this with h | h
    · exact .inl h
    · exact .inr (.inl h)
  · intro a
    show InR a (thid τ) 16 ↔ InR a (σ.gpr rcx) 16
    rw [hh]

/-! ## New contexts -/

/-- the address of the new context -/
def ctxOf (σ : St A) : A.W := (σ.gpr rcx &&& mask A 4) - off A 0x150

/-- bases: 0 the new context's data, 1 the return address of `make_fcontext` -/
def CM : SCfg A where
  known := [(.msk rcx (mask A 4), 0, off A 0x150), (.reg rsp, 1, 0#_)]
  wr i := if i = 0 then (0, 0x150) else (0, 0)
  rd i := if i = 0 then 0x150 else if i = 1 then 8 else 0
  D i j := i == 0 && j == 1

def IM (e : Env A) (σ : St A) : Itp A where
  σ := σ
  β i := if i = 0 then ctxOf σ else σ.gpr rsp
  e := e

theorem IM_ok (e : Env A) (σ : St A) (h : ∀ a, InR a (ctxOf σ) 0x150 → ¬ InR a (σ.gpr rsp) 8) : (IM e σ).Ok CM where
  known := by
    intro x hx
    simp only [CM, List.mem_cons, List.not_mem_nil, or_false] at hx
    rcases hx with rfl | rfl
    · exact (sub_add_off _ _).symm
    · exact (BitVec.add_zero _).symm
  disj := by
    intro i j hD
    simp only [CM, Bool.and_eq_true, beq_iff_eq] at hD
    obtain ⟨rfl, rfl⟩ := hD
    intro a ha hb
    have ha : InR a (ctxOf σ + off A 0) 0x150 := ha
    rw [z0] at ha
    exact h a ha hb
  wr i := by simp only [CM]; split <;> decide
  rd i := by simp only [CM]; split; decide; split <;> decide

/-- a run of `make_fcontext` -/
structure MakeOk (z : SSt A) : Prop where
  v : z.valid 0 = true
  g : ∀ r ∈ [rbx, rbp, rdi, rsi, r12, r13, r14, r15], z.gpr r = ⟨.reg r, 0#_⟩
  ax : z.gpr rax = ⟨.msk rcx (mask A 4), -off A 0x150⟩
  f : ∀ q, z.fpr q = .init q
  sp : z.gpr rsp = ⟨.reg rsp, off A 8⟩
  pc : z.gpr rip = ⟨.ld 1 0, 0#_⟩
  W : ∀ x ∈ [(0x100, (⟨.reg r8, 0#_⟩ : Sv A)), (0x118, ⟨.lab Lab.trampoline, 0#_⟩), (0x108, ⟨.lab Lab.finish, 0#_⟩),
    (0x110, ⟨.msk rcx (mask A 4), -off A 0x150 + off A 0x140⟩), (0xc8, ⟨.reg rcx, 0#_⟩), (0xc0, ⟨.sub rcx rdx, 0#_⟩), (0xb8, ⟨.sub rcx rdx, 0#_⟩),
    (0xb0, ⟨.zero, 0#_⟩)], look 0 x.1 A.k z.log = some (some (.w x.2))
  mx : look 0 0xa0 4 z.log = some (some (.f mxcsr (.init mxcsr)))
  cw : look 0 0xa4 2 z.log = some (some (.f x87cw (.init x87cw)))
  w : ∀ x ∈ z.log, x.1 = 0

theorem make_ok (cfg : Cfg) : ∃ h, MakeOk (CM.fin (makeIs cfg) h) := by
  obtain ⟨_ | _⟩ := cfg <;> exact ⟨by decide +kernel, ⟨by decide +kernel, by decide +kernel, by decide +kernel, by intro q; rfl, by decide +kernel, by decide +kernel,
    by decide +kernel, by decide +kernel, by decide +kernel, by decide +kernel⟩⟩

/-- contents of the data of a new context -/
structure Made (e : Env A) (σ : St A) (m : Mem A) : Prop where
  fn : load m (ctxOf σ + off A 0x100) A.k = σ.gpr r8
  tr : load m (ctxOf σ + off A 0x118) A.k = e Lab.trampoline
  fi : load m (ctxOf σ + off A 0x108) A.k = e Lab.finish
  hid : load m (ctxOf σ + off A 0x110) A.k = ctxOf σ + off A 0x140
  base : load m (ctxOf σ + off A 0xc8) A.k = σ.gpr rcx
  limit : load m (ctxOf σ + off A 0xc0) A.k = σ.gpr rcx - σ.gpr rdx
  dealloc : load m (ctxOf σ + off A 0xb8) A.k = σ.gpr rcx - σ.gpr rdx
  fiber : load m (ctxOf σ + off A 0xb0) A.k = 0#_
  mx : load m (ctxOf σ + off A 0xa0) 4 = σ.fpr mxcsr
  cw : load m (ctxOf σ + off A 0xa4) 2 = σ.fpr x87cw

theorem make_res (cfg : Cfg) (e : Env A) (σ : St A) : (port cfg).resM (exec e (make cfg) σ).1 = ctxOf σ := by
  have h2 : ((makeIs cfg).drop 3).all (fun i => i.dest ≠ some (.g rax)) = true := by obtain ⟨_ | _⟩ := cfg <;> decide +kernel
  have := steps_dest e ((makeIs cfg).drop 3) (.g rax) (by simpa using h2) (steps e ((makeIs cfg).take 3) σ)
  rw [← steps_append, List.take_append_drop] at this
  show (steps e (makeIs cfg) σ).gpr rax = _
  simp only [get_g] at this
  rw [this, ctxOf, BitVec.sub_eq_add_neg]
  rfl

theorem make_facts (cfg : Cfg) (e : Env A) (σ : St A) (hd : ∀ a, InR a (ctxOf σ) 0x150 → ¬ InR a (σ.gpr rsp) 8) :
    (port cfg).ReturnedTo (σ.gpr rsp + off A 8) σ (exec e (make cfg) σ).1 (exec e (make cfg) σ).2 ∧
    (∀ a, (exec e (make cfg) σ).1.mem a ≠ σ.mem a → InR a (ctxOf σ) 0x150) ∧ Made e σ (exec e (make cfg) σ).1.mem := by
  obtain ⟨h1, hz⟩ := make_ok cfg
  have hr := fin_rel (IM_ok e σ hd) _ h1
  obtain ⟨z, hzz⟩ : ∃ z, z = CM.fin (makeIs cfg) h1 := ⟨_, rfl⟩
  obtain ⟨s, hs⟩ : ∃ s, s = steps (IM e σ).e (makeIs cfg) (IM e σ).σ := ⟨_, rfl⟩
  have hx : exec e (make cfg) σ = (s, s.gpr rip) := by rw [hs]; rfl
  rw [← hs, ← hzz] at hr
  rw [← hzz] at hz
  rw [hx]
  have w := fun (o : Nat) (v : Sv A) (h : o + A.k ≤ 0x150) h3 => hr.word (i := 0) (o := o) (v := v) hz.v h (hz.W (o, v) h3)
  have b0 : (IM e σ).β 0 = ctxOf σ := rfl
  rw [b0] at w
  refine ⟨⟨?_, ?_, ?_, ?_⟩, ?_, ⟨?_, ?_, ?_, ?_, ?_, ?_, ?_, ?_, ?_, ?_⟩⟩
  · show s.gpr rip = load σ.mem (σ.gpr rsp) A.k
    rw [hr.reg hz.pc, sv_ld]
    show load σ.mem (σ.gpr rsp + off A 0) A.k = _
    rw [z0]
  · exact hr.reg hz.sp
  · intro r hrr
    rw [hr.reg (hz.g r hrr)]; exact sv_reg _ _
  · intro f _
    rw [hr.fpr, hz.f]; simp [Itp.fv, IM]
  · intro a ha
    obtain ⟨i, ⟨x, hx, rfl⟩, h2⟩ := hr.frame a ha
    rw [hz.w x hx] at h2
    have h2 : InR a (ctxOf σ + off A 0) 0x150 := h2
    rw [z0] at h2
    exact h2
  · exact (w 0x100 ⟨.reg r8, 0#_⟩ (by decide) (by simp)).trans (sv_reg _ _)
  · exact (w 0x118 ⟨.lab Lab.trampoline, 0#_⟩ (by decide) (by simp)).trans (BitVec.add_zero _)
  · exact (w 0x108 ⟨.lab Lab.finish, 0#_⟩ (by decide) (by simp)).trans (BitVec.add_zero _)
  · refine (w 0x110 ⟨.msk rcx (mask A 4), -off A 0x150 + off A 0x140⟩ (by decide) (by simp)).trans ?_
    show (σ.gpr rcx &&& mask A 4) + _ = _
    rw [ctxOf]
    generalize (σ.gpr rcx &&& mask A 4) = x
    generalize off A 0x150 = y
    generalize off A 0x140 = y'
    grind
  · exact (w 0xc8 ⟨.reg rcx, 0#_⟩ (by decide) (by simp)).trans (sv_reg _ _)
  · exact (w 0xc0 ⟨.sub rcx rdx, 0#_⟩ (by decide) (by simp)).trans (BitVec.add_zero _)
  · exact (w 0xb8 ⟨.sub rcx rdx, 0#_⟩ (by decide) (by simp)).trans (BitVec.add_zero _)
  · exact (w 0xb0 ⟨.zero, 0#_⟩ (by decide) (by simp)).trans (BitVec.add_zero _)
  · have := hr.special (i := 0) (o := 0xa0) (q := mxcsr) hz.v (by show 0xa0 + 4 ≤ 0x150; decide) hz.mx
    refine this.trans ?_
    simp [Itp.fv, IM]
  · have := hr.special (i := 0) (o := 0xa4) (q := x87cw) hz.v (by show 0xa4 + 2 ≤ 0x150; decide) hz.cw
    refine this.trans ?_
    simp [Itp.fv, IM]

/-- bases of the first activation: 0 own frame, 1 data of the new context, in which its result object lies -/
def CE : SCfg A where
  known := [(.reg rsp, 0, off A 0x118), (.reg rdx, 1, 0#_), (.ld 1 0x110, 1, off A 0x140)]
  wr i := if i = 0 then (0, 0x118) else if i = 1 then (0x140, 0x150) else (0, 0)
  rd i := if i = 1 then 0x150 else 0
  D i j := i == 0 && j == 1

theorem CE_ok (e : Env A) (τ : St A) (h : ∀ a, InR a (τ.gpr rdx) 0x150 → ¬ InR a (own τ) 0x118) (hh : thid τ = τ.gpr rdx + off A 0x140) : (I e τ).Ok CE where
  known := by
    intro x hx
    simp only [CE, List.mem_cons, List.not_mem_nil, or_false] at hx
    rcases hx with rfl | rfl | rfl
    · exact (sub_add_off _ _).symm
    · exact (BitVec.add_zero _).symm
    · exact hh
  disj := by
    intro i j hD
    simp only [CE, Bool.and_eq_true, beq_iff_eq] at hD
    obtain ⟨rfl, rfl⟩ := hD
    intro a ha hb
    have ha : InR a (own τ + off A 0) 0x118 := ha
    rw [z0] at ha
    exact h a hb ha
  wr i := by simp only [CE]; repeat' split
             all_goals decide
  rd i := by simp only [CE]; repeat' split
             all_goals decide

/-- a run of the first activation up to the stub -/
structure EnterOk (cfg : Cfg) (z : SSt A) : Prop where
  g : ∀ x ∈ LG, z.gpr x.1 = ⟨.ld 1 x.2, 0#_⟩
  f : ∀ x ∈ LF cfg, z.fpr x.1 = .ld 1 x.2
  t : ∀ x ∈ LT, z.fpr x.1 = .ofG ⟨.ld 1 x.2, 0#_⟩
  sp : z.gpr rsp = ⟨.reg rdx, off A 0x120⟩
  pc : z.gpr r10 = ⟨.ld 1 0x118, 0#_⟩
  cx : z.gpr rcx = ⟨.ld 1 0x110, 0#_⟩
  v : z.valid 1 = true
  rF : look 1 0x140 A.k z.log = some (some (.w ⟨.reg rsp, -off A 0x118⟩))
  rD : look 1 0x148 A.k z.log = some (some (.w ⟨.reg r8, 0#_⟩))
  w : ∀ x ∈ z.log, x.1 = 0 ∨ x.1 = 1

theorem enter_ok (cfg : Cfg) : ∃ h, EnterOk cfg (CE.fin (jumpIs cfg) h) := by
  obtain ⟨_ | _⟩ := cfg <;> exact ⟨by decide +kernel, ⟨by decide +kernel, by decide +kernel, by decide +kernel, by decide +kernel, by decide +kernel, by decide +kernel,
    by decide +kernel, by decide +kernel, by decide +kernel, by decide +kernel⟩⟩

/-- the state in which the function of a new context is entered -/
structure Entered (cfg : Cfg) (e : Env A) (σ τ s : St A) : Prop where
  pc : (exec e (port cfg).jump τ).2 = e Lab.trampoline
  en : (port cfg).enter e τ = (s, σ.gpr r8)
  sp : s.gpr rsp = ctxOf σ + off A 0x118
  cx : s.gpr rcx = ctxOf σ + off A 0x140
  ra : load s.mem (ctxOf σ + off A 0x118) A.k = e Lab.finish
  iF : load s.mem (ctxOf σ + off A 0x140) A.k = own τ
  iD : load s.mem (ctxOf σ + off A 0x140 + off A 8) A.k = τ.gpr r8
  base : s.fpr tibBase = σ.gpr rcx
  limit : s.fpr tibLimit = σ.gpr rcx - σ.gpr rdx
  dealloc : s.fpr tibDealloc = σ.gpr rcx - σ.gpr rdx
  fiber : s.fpr tibFiber = 0#_
  mx : cfg.tsx = false → s.fpr mxcsr = σ.fpr mxcsr
  cw : cfg.tsx = false → s.fpr x87cw = σ.fpr x87cw
  w : ∀ a, s.mem a ≠ τ.mem a → InR a (own τ) 0x118 ∨ InR a (ctxOf σ + off A 0x118) 8 ∨ InR a (ctxOf σ + off A 0x140) 16

theorem enter_facts (cfg : Cfg) (e : Env A) (σ τ : St A) (hd : ∀ a, InR a (ctxOf σ) 0x150 → ¬ InR a (σ.gpr rsp) 8) (ha : τ.gpr rdx = ctxOf σ)
    (hmem : ∀ a, InR a (ctxOf σ) 0x150 → τ.mem a = (exec e (make cfg) σ).1.mem a) (hdj : ∀ a, InR a (ctxOf σ) 0x150 → ¬ InR a (own τ) 0x118) :
    ∃ s, Entered cfg e σ τ s := by
  obtain ⟨-, -, hM⟩ := make_facts cfg e σ hd
  have ld0 : ∀ o n, o + n ≤ 0x150 → load τ.mem (ctxOf σ + off A o) n = load (exec e (make cfg) σ).1.mem (ctxOf σ + off A o) n :=
    fun o n ho => load_agree hmem ho (by decide)
  have hth : thid τ = τ.gpr rdx + off A 0x140 := by
    show load τ.mem (τ.gpr rdx + off A 0x110) A.k = _
    rw [ha, ld0 _ _ (by decide), hM.hid]
  obtain ⟨h1, h2⟩ := enter_ok cfg
  have hr := fin_rel (CE_ok e τ (by rw [ha]; exact hdj) hth) _ h1
  obtain ⟨s, hs⟩ : ∃ s, s = steps (I e τ).e (jumpIs cfg) (I e τ).σ := ⟨_, rfl⟩
  have hx : exec e (port cfg).jump τ = (s, s.gpr r10) := by rw [hs]; rfl
  rw [← hs] at hr
  have b1 : (I e τ).β 1 = ctxOf σ := ha
  have ld : ∀ o, o + A.k ≤ 0x150 → (I e τ).sv ⟨.ld 1 o, 0#_⟩ = load (exec e (make cfg) σ).1.mem (ctxOf σ + off A o) A.k := by
    intro o ho
    rw [sv_ld, b1]
    exact ld0 o _ ho
  have hsp : s.gpr rsp + -off A 8 = ctxOf σ + off A 0x118 := by
    rw [hr.reg h2.sp]
    show τ.gpr rdx + off A (0x118 + 8) + _ = _
    rw [ha, ← add_off_off, ← BitVec.sub_eq_add_neg, BitVec.add_sub_cancel]
  have hbp : s.gpr rbp = e Lab.finish := by rw [hr.reg (h2.g (rbp, 0x108) (by decide)), ld _ (by decide), hM.fi]
  have hbx : s.gpr rbx = σ.gpr r8 := by rw [hr.reg (h2.g (rbx, 0x100) (by decide)), ld _ (by decide), hM.fn]
  have hen : (port cfg).enter e τ = ({ setg s rsp (ctxOf σ + off A 0x118) with mem := store s.mem (ctxOf σ + off A 0x118) A.k (e Lab.finish) }, σ.gpr r8) := by
    show exec e (tramp cfg) (exec e (port cfg).jump τ).1 = _
    rw [hx]
    show ({ setg s rsp (s.gpr rsp + -off A 8) with mem := store s.mem (s.gpr rsp + -off A 8 + off A 0) A.k (s.gpr rbp) }, s.gpr rbx) = _
    rw [hsp, hbp, hbx, z0]
  have w1 : load s.mem (ctxOf σ + off A 0x140) A.k = _ := b1 ▸ hr.word (i := 1) (o := 0x140) h2.v (by decide) h2.rF
  have w2 : load s.mem (ctxOf σ + off A (0x140 + 8)) A.k = _ := b1 ▸ hr.word (i := 1) (o := 0x140 + 8) h2.v (by decide) h2.rD
  have tib : ∀ x ∈ LT, s.fpr x.1 = (load (exec e (make cfg) σ).1.mem (ctxOf σ + off A x.2) A.k).setWidth _ := by
    intro x hx
    rw [hr.fpr, h2.t x hx, ← ld x.2 (by revert x; decide)]
    rfl
  refine ⟨_, ⟨?_, hen, ?_, ?_, load_store_same _ _ _ _ (by decide), ?_, ?_, ?_, ?_, ?_, ?_, ?_, ?_, ?_⟩⟩
  · rw [hx]
    show s.gpr r10 = _
    rw [hr.reg h2.pc, ld _ (by decide), hM.tr]
  · show (if rsp = rsp then ctxOf σ + off A 0x118 else s.gpr rsp) = _
    rw [if_pos rfl]
  · show (if rcx = rsp then ctxOf σ + off A 0x118 else s.gpr rcx) = _
    rw [if_neg (by decide), hr.reg h2.cx, ld _ (by decide), hM.hid]
  · show load (store s.mem (ctxOf σ + off A 0x118) A.k (e Lab.finish)) (ctxOf σ + off A 0x140) A.k = _
    rw [load_store_off (by decide) (by decide) (by decide), w1]
    exact sv_own e τ
  · rw [add_off_off]
    show load (store s.mem (ctxOf σ + off A 0x118) A.k (e Lab.finish)) (ctxOf σ + off A (0x140 + 8)) A.k = _
    rw [load_store_off (by decide) (by decide) (by decide), w2]
    exact sv_reg _ _
  · have := tib (tibBase, 0xc8) (by decide)
    rw [hM.base] at this
    exact this.trans (BitVec.setWidth_eq _)
  · have := tib (tibLimit, 0xc0) (by decide)
    rw [hM.limit] at this
    exact this.trans (BitVec.setWidth_eq _)
  · have := tib (tibDealloc, 0xb8) (by decide)
    rw [hM.dealloc] at this
    exact this.trans (BitVec.setWidth_eq _)
  · have := tib (tibFiber, 0xb0) (by decide)
    rw [hM.fiber] at this
    exact this.trans (BitVec.setWidth_eq _)
  · intro ht
    show s.fpr mxcsr = _
    rw [hr.fpr, h2.f (mxcsr, 0xa0) (by simp [LF, ht, LX]), ← hM.mx]
    show load τ.mem ((I e τ).β 1 + off A 0xa0) 4 = _
    rw [b1]
    exact ld0 0xa0 4 (by decide)
  · intro ht
    show s.fpr x87cw = _
    rw [hr.fpr, h2.f (x87cw, 0xa4) (by simp [LF, ht, LX]), ← hM.cw]
    show load τ.mem ((I e τ).β 1 + off A 0xa4) 2 = _
    rw [b1]
    exact ld0 0xa4 2 (by decide)
  · intro a h
    by_cases hh : InR a (ctxOf σ + off A 0x118) 8
    · exact .inr (.inl hh)
    · have h : store s.mem (ctxOf σ + off A 0x118) A.k (e Lab.finish) a ≠ τ.mem a := h
      rw [store_out (n := A.k) hh] at h
      obtain ⟨i, ⟨x, hx, rfl⟩, h3⟩ := hr.frame a h
      rcases h2.w x hx with h0 | h0
      · rw [h0] at h3
        have h3 : InR a (own τ + off A 0) 0x118 := h3
        rw [z0] at h3
        exact .inl h3
      · rw [h0, b1] at h3
        exact .inr (.inr h3)

theorem top_size (σ : St A) : (σ.gpr rcx - ctxOf σ).toNat = 0x150 + (σ.gpr rcx).toNat % 16 := align_below (A := A) (σ.gpr rcx) 0x150 4 (by decide)

/-- **C62**, new contexts -/
theorem C62_x86_64_pe_make (cfg : Cfg) : (port cfg).MakeSpec := by
  intro e σ hd
  have hsz : ((port cfg).argTop σ - ctxOf σ).toNat = 0x150 + (σ.gpr rcx).toNat % 16 := top_size σ
  have hm : exec e (port cfg).make σ = exec e (make cfg) σ := rfl
  rw [hm] at hd ⊢
  rw [make_res] at hd ⊢
  rw [hsz] at hd ⊢
  have e0 : σ.gpr (port cfg).sp - off A (port cfg).mscratch = σ.gpr rsp := BitVec.sub_zero _
  rw [e0] at hd ⊢
  have hd' : ∀ a, InR a (ctxOf σ) 0x150 → ¬ InR a (σ.gpr rsp) 8 := fun a ha => hd a (inR_mono ha (by omega))
  obtain ⟨m2, m3, -⟩ := make_facts cfg e σ hd'
  refine ⟨m2, ⟨by show 0x150 ≤ _; omega, by show _ ≤ 0x150 + 64; omega⟩, ?_, ?_⟩
  · intro a ha
    exact .inl (inR_mono (m3 a ha) (by omega))
  · intro τ ha hmem hdj
    rw [ha] at hmem hdj ⊢
    rw [hsz]
    obtain ⟨s, h⟩ := enter_facts cfg e σ τ hd' ha hmem hdj
    rw [h.en]
    refine ⟨?_, rfl, ?_, ?_, ?_, ?_, ?_, h.w, ?_⟩
    · intro l cc hl
      have hl : l = Lab.trampoline := (congrArg Prod.fst (Option.some.inj hl)).symm
      rw [hl]; exact h.pc
    · show load s.mem (s.gpr rcx) A.k = _
      rw [h.cx]; exact h.iF
    · show load s.mem (s.gpr rcx + off A 8) A.k = _
      rw [h.cx]; exact h.iD
    · show load s.mem (s.gpr rsp) A.k = _
      rw [h.sp]; exact h.ra
    · show (s.gpr rsp + off A 8).toNat % 16 = 0
      rw [h.sp]
      have : ctxOf σ + off A 0x118 + off A 8 = (σ.gpr rcx &&& mask A 4) + off A 0xffffffffffffffd0 := by
        rw [add_off_off, ctxOf, BitVec.sub_eq_add_neg, BitVec.add_assoc]; congr 1
      rw [this]
      exact mask_add_mod _ _ 4 (by decide) (by decide)
    · show (s.gpr rsp - ctxOf σ).toNat ≤ _
      rw [h.sp]
      have : ctxOf σ + off A 0x118 - ctxOf σ = off A 0x118 := by rw [BitVec.add_comm, BitVec.add_sub_cancel]
      rw [this]
      have : (off A 0x118).toNat = 0x118 := by decide
      omega
    · intro a h
      rcases (show InR a (ctxOf σ + off A 0x118) 8 ∨ InR a (ctxOf σ + off A 0x140) 16 from h) with h | h
      · exact inR_off h (show 0x118 + 8 ≤ 0x150 by decide) (show 0x150 ≤ 2 ^ (8 * A.k) by decide)
      · exact inR_off h (show 0x140 + 16 ≤ 0x150 by decide) (show 0x150 ≤ 2 ^ (8 * A.k) by decide)

/-- **C62**, thread information block: when the function of a context made by `make_fcontext(top, size, fn)` is entered, the thread information block describes the stack
given to `make_fcontext`: base `top`, limit and deallocation stack `top - size`, no fiber data; and the control words are those of the creator (unless `BOOST_USE_TSX`). -/
theorem C62_x86_64_pe_first_activation (cfg : Cfg) (e : Env A) (σ τ : St A) (c : A.W) (hc : c = (port cfg).resM (exec e (port cfg).make σ).1)
    (hd : ∀ a, InR a c ((port cfg).argTop σ - c).toNat → ¬ InR a (σ.gpr rsp) 8)
    (ha : (port cfg).argF τ = c) (hmem : ∀ a, InR a c (port cfg).mkeep → τ.mem a = (exec e (port cfg).make σ).1.mem a)
    (hdj : ∀ a, InR a c (port cfg).mkeep → ¬ InR a ((port cfg).fctx τ) (port cfg).frame) :
    ((port cfg).enter e τ).1.fpr tibBase = σ.gpr rcx ∧ ((port cfg).enter e τ).1.fpr tibLimit = σ.gpr rcx - σ.gpr rdx ∧
    ((port cfg).enter e τ).1.fpr tibDealloc = σ.gpr rcx - σ.gpr rdx ∧ ((port cfg).enter e τ).1.fpr tibFiber = 0#_ ∧
    (cfg.tsx = false → ((port cfg).enter e τ).1.fpr mxcsr = σ.fpr mxcsr ∧ ((port cfg).enter e τ).1.fpr x87cw = σ.fpr x87cw) := by
  rw [show exec e (port cfg).make σ = exec e (make cfg) σ from rfl, make_res] at hc
  subst hc
  have hsz : ((port cfg).argTop σ - ctxOf σ).toNat = 0x150 + (σ.gpr rcx).toNat % 16 := top_size σ
  rw [hsz] at hd
  obtain ⟨s, h⟩ := enter_facts cfg e σ τ (fun a ha => hd a (inR_mono ha (by omega))) ha hmem hdj
  rw [h.en]
  exact ⟨h.base, h.limit, h.dealloc, h.fiber, fun ht => ⟨h.mx ht, h.cw ht⟩⟩

/-- **C62**, shadow space: when the function of a new context is entered, the 32 bytes above its return address, which it may overwrite, lie below `top` and contain no
byte of its argument. -/
theorem C62_x86_64_pe_shadow_space (cfg : Cfg) (e : Env A) (σ τ : St A) (c : A.W) (hc : c = (port cfg).resM (exec e (port cfg).make σ).1)
    (hd : ∀ a, InR a c ((port cfg).argTop σ - c).toNat → ¬ InR a (σ.gpr rsp) 8)
    (ha : (port cfg).argF τ = c) (hmem : ∀ a, InR a c (port cfg).mkeep → τ.mem a = (exec e (port cfg).make σ).1.mem a)
    (hdj : ∀ a, InR a c (port cfg).mkeep → ¬ InR a ((port cfg).fctx τ) (port cfg).frame) (a : A.W)
    (h : InR a (((port cfg).enter e τ).1.gpr rsp + off A 8) 32) :
    InR a c ((port cfg).argTop σ - c).toNat ∧ ¬ InR a (((port cfg).enter e τ).1.gpr rcx) 16 ∧ ¬ InR a (((port cfg).enter e τ).1.gpr rsp) 8 := by
  rw [show exec e (port cfg).make σ = exec e (make cfg) σ from rfl, make_res] at hc
  subst hc
  have hsz : ((port cfg).argTop σ - ctxOf σ).toNat = 0x150 + (σ.gpr rcx).toNat % 16 := top_size σ
  rw [hsz] at hd ⊢
  obtain ⟨s, hs⟩ := enter_facts cfg e σ τ (fun a ha => hd a (inR_mono ha (by omega))) ha hmem hdj
  rw [hs.en] at h ⊢
  have h : InR a (s.gpr rsp + off A 8) 32 := h
  rw [hs.sp, add_off_off] at h
  refine ⟨inR_mono (inR_off h (show 0x118 + 8 + 32 ≤ 0x150 by decide) (by decide)) (by omega), ?_, ?_⟩
  · show ¬ InR a (s.gpr rcx) 16
    rw [hs.cx]
    exact inR_disj h (by decide) (by decide) (by decide)
  · show ¬ InR a (s.gpr rsp) 8
    rw [hs.sp]
    exact inR_disj h (by decide) (by decide) (by decide)

/-- **C62**, alignment: the frame of every call made with an ABI-aligned stack pointer, and the data of every new context, start at a multiple of 16, as the aligned moves
`movaps` (at offsets that are multiples of 16) demand. -/
theorem C62_x86_64_pe_movaps_aligned (cfg : Cfg) (e : Env A) (σ : St A) : ((port cfg).aligned (σ.gpr rsp) → ((port cfg).fctx σ).toNat % 16 = 0) ∧
    ((port cfg).resM (exec e (port cfg).make σ).1).toNat % 16 = 0 ∧ ∀ x ∈ LX, A.fb x.1 = 16 → x.2 % 16 = 0 := by
  refine ⟨fun h => ?_, ?_, by decide⟩
  · have h : (σ.gpr rsp + off A 8).toNat % 16 = 0 := h
    show (σ.gpr rsp - off A 0x118).toNat % 16 = 0
    have e1 : σ.gpr rsp - off A 0x118 = σ.gpr rsp + off A 8 - off A 0x120 := by
      have : off A 0x120 = off A 8 + off A 0x118 := rfl
      rw [this]; generalize off A 8 = x; generalize off A 0x118 = y; grind
    rw [e1, BitVec.toNat_sub]
    have : (off A 0x120).toNat = 0x120 := by decide
    rw [this]
    have := (σ.gpr rsp + off A 8).isLt
    show (2 ^ 64 - 0x120 + (σ.gpr rsp + off A 8).toNat) % 2 ^ 64 % 16 = 0
    omega
  · rw [show exec e (port cfg).make σ = exec e (make cfg) σ from rfl, make_res]
    have : ctxOf σ = (σ.gpr rcx &&& mask A 4) + off A 0xfffffffffffffeb0 := by
      rw [ctxOf, BitVec.sub_eq_add_neg]; congr 1
    rw [this]
    exact mask_add_mod _ _ 4 (by decide) (by decide)

/-- **C62**, a peculiarity: the parameter of an on-top function is passed by reference to the very object in which it has to return its result (the result object of the
suspended call).  A function that writes its result before it has read its parameter finds the parameter changed. -/
theorem C62_x86_64_pe_ontop_alias (cfg : Cfg) (e : Env A) (τ : St A) : (exec e (port cfg).ontop τ).1.gpr rdx = (exec e (port cfg).ontop τ).1.gpr rcx := by
  have : ontopIs cfg = (ontopIs cfg).take ((ontopIs cfg).length - 2) ++ [.mov rcx rax, .mov rdx rax] := by obtain ⟨_ | _⟩ := cfg <;> rfl
  show (steps e (ontopIs cfg) τ).gpr rdx = (steps e (ontopIs cfg) τ).gpr rcx
  rw [this, steps_append]
  generalize steps e _ τ = s
  simp [steps, step, setg]

/-! ## The other assembler syntaxes -/

/-- **C62**: the routines for clang and for MASM consist of the same instructions. -/
theorem C62_x86_64_pe_same (cfg : Cfg) :
    (X86_64PeClang.jump cfg = jump cfg ∧ X86_64PeClang.ontop cfg = ontop cfg ∧ X86_64PeClang.make cfg = make cfg ∧ X86_64PeClang.tramp cfg = tramp cfg) ∧
    X86_64PeMasm.jump cfg = jump cfg ∧ X86_64PeMasm.ontop cfg = ontop cfg ∧ X86_64PeMasm.make cfg = make cfg ∧ X86_64PeMasm.tramp cfg = tramp cfg :=
  ⟨⟨rfl, rfl, rfl, rfl⟩, rfl, rfl, rfl, rfl⟩

/-! ## The hypotheses can be met -/

/-- a state with the given `rsp`, `rcx`, `rdx`, all other registers `x`, and the given memory -/
def mk (m : Mem A) (sp c d x : A.W) : St A :=
  ⟨fun r => if r = rsp then sp else if r = rcx then c else if r = rdx then d else x, fun _ => 0#_, m⟩

theorem load_zero (a : A.W) (n : Nat) : load (fun _ => 0#8 : Mem A) a n = 0#_ := by
  induction n generalizing a with
  | zero => rfl
  | succ n ih => simp only [load, ih]; apply BitVec.eq_of_toNat_eq; erw [BitVec.toNat_append]; simp; erw [BitVec.toNat_ofNat]; simp

/-- The hypotheses of `C62_x86_64_pe_jump` and `C62_x86_64_pe_ontop` are met by a context suspended at `rsp = 0x10000` with result object at `0x11000`, and a resumer with
different register contents. -/
example (e : Env A) (cfg : Cfg) : ∃ σ τ m, (port cfg).Left e σ m ∧ (port cfg).Intact σ m τ ∧ (port cfg).argF τ = (port cfg).fctx σ ∧ σ.gpr rbx ≠ τ.gpr rbx := by
  obtain ⟨σ, hσ⟩ : ∃ σ, σ = mk (fun _ => 0#_) 0x10000#_ 0x11000#_ 0x8000#_ 1#_ := ⟨_, rfl⟩
  have o1 : own σ = 0xfee8#_ := by rw [hσ]; show (0x10000#_ : A.W) - off A 0x118 = _; decide
  have c1 : σ.gpr rcx = 0x11000#_ := by rw [hσ]; rfl
  have d1 : σ.gpr rdx = 0x8000#_ := by rw [hσ]; rfl
  have t1 : thid σ = 0#_ := by show load σ.mem _ _ = _; rw [hσ]; exact load_zero _ _
  have ok1 : Ok σ := by
    refine ⟨?_, ?_, ?_⟩
    · rw [d1, o1]; exact fun a ha => inR_apart (by decide) (by decide) ha
    · rw [t1, o1]; exact fun a ha => inR_apart (by decide) (by decide) ha
    · rw [c1, o1]; exact fun a ha hb => inR_apart (by decide) (by decide) hb ha
  obtain ⟨m, hm⟩ : ∃ m, m = (exec e (port cfg).jump σ).1.mem := ⟨_, rfl⟩
  have hl : (port cfg).Left e σ m := .inl hm.symm
  have hf := left_frame ok1 hl
  obtain ⟨τ, hτ⟩ : ∃ τ, τ = mk m 0x20000#_ 0x21000#_ 0xfee8#_ 2#_ := ⟨_, rfl⟩
  have o2 : own τ = 0x1fee8#_ := by rw [hτ]; show (0x20000#_ : A.W) - off A 0x118 = _; decide
  have c2 : τ.gpr rcx = 0x21000#_ := by rw [hτ]; rfl
  have d2 : τ.gpr rdx = own σ := by rw [hτ, o1]; rfl
  have m2 : τ.mem = m := by rw [hτ]; rfl
  have t2 : thid τ = 0x11000#_ := by show load τ.mem (τ.gpr rdx + _) A.k = _; rw [d2, m2, ← c1, ← hf.h]
  have ok2 : Ok τ := by
    refine ⟨?_, ?_, ?_⟩
    · rw [d2, o1, o2]; exact fun a ha => inR_apart (by decide) (by decide) ha
    · rw [t2, o2]; exact fun a ha => inR_apart (by decide) (by decide) ha
    · rw [c2, o2]; exact fun a ha hb => inR_apart (by decide) (by decide) hb ha
  refine ⟨σ, τ, m, hl, ⟨ok1, ok2, ok1.2.1, ?_, ?_, ?_⟩, d2, by rw [hσ, hτ]; show (1#_ : A.W) ≠ 2#_; decide⟩
  · intro a ha
    refine ⟨ok1.2.2 a ha, ?_⟩
    have ha : InR a (σ.gpr rcx) 16 := ha
    rw [c1] at ha
    show ¬ InR a (own τ) 0x118
    rw [o2]; exact inR_apart (by decide) (by decide) ha
  · intro a _; rw [m2]
  · intro a ha
    have ha : InR a (own σ) 0x120 := ha
    show ¬ InR a (own τ) 0x118
    rw [o1] at ha
    rw [o2]; exact inR_apart (by decide) (by decide) ha

/-- The hypotheses of `C62_x86_64_pe_make` and `C62_x86_64_pe_first_activation` are met by a caller at `rsp = 0x10000` and a stack of `0x2000` bytes whose top is the odd address `0xf123`. -/
example (e : Env A) (cfg : Cfg) : ∃ σ τ c, c = (port cfg).resM (exec e (port cfg).make σ).1 ∧ σ.gpr rdx = 0x2000#_ ∧
    (∀ a, InR a c ((port cfg).argTop σ - c).toNat → ¬ InR a (σ.gpr rsp) 8) ∧ (port cfg).argF τ = c ∧
    (∀ a, InR a c (port cfg).mkeep → τ.mem a = (exec e (port cfg).make σ).1.mem a) ∧
    ∀ a, InR a c (port cfg).mkeep → ¬ InR a ((port cfg).fctx τ) (port cfg).frame := by
  refine ⟨mk (fun _ => 0#_) 0x10000#_ 0xf123#_ 0x2000#_ 7#_, mk (exec e (make cfg) (mk (fun _ => 0#_) 0x10000#_ 0xf123#_ 0x2000#_ 7#_)).1.mem 0x20000#_ 0#_ 0xefd0#_ 2#_, 0xefd0#_,
    ?_, rfl, ?_, rfl, fun _ _ => rfl, ?_⟩
  · exact (show _ = ctxOf _ by decide).trans (make_res cfg e _).symm
  · intro a ha
    have : ((port cfg).argTop (mk (fun _ => 0#_) 0x10000#_ 0xf123#_ 0x2000#_ 7#_) - 0xefd0#_).toNat = 0x153 := by
      show ((0xf123#_ : A.W) - 0xefd0#_).toNat = _; decide
    rw [this] at ha
    show ¬ InR (A := A) a 0x10000#_ 8
    exact inR_apart (by decide) (by decide) ha
  · intro a ha
    have ha : InR a (0xefd0#_ : A.W) 0x150 := ha
    show ¬ InR a ((0x20000#_ : A.W) - off A 0x118) 0x118
    exact inR_apart (by decide) (by decide) ha

end Verif.Asm.X86_64Pe
