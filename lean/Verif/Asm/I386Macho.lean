import Verif.Asm.I386MachoCode
import Verif.Asm.Sym

/-! # i386 SysV, Mach-O: the switching routines meet their specification (C61) -/

namespace Verif.Asm.I386Macho

/-- word on the stack at the entry of a function -/
abbrev arg (s : St A) (o : Nat) : A.W := load s.mem (s.gpr esp + off A o) A.k

/-- Darwin i386: everything is passed on the stack; a function finds its return address at `[esp]` and its arguments from `[esp+4]` on, a structure of two
words is passed as two words and returned in eax and edx.  Callee-saved: ebx, esi, edi, ebp, and the control words of the floating point units (which
`BOOST_USE_TSX` gives up).

The platform demands that `esp + 4` be a multiple of 16 at the entry of a function.  The routines do not achieve this for a new context: there `esp + 4`
is a multiple of 16 plus 8 (`aligned` below states what holds; see `C61_entry_misaligned` and DESIGN.md).

`ok`: the frame (with arguments) of the target does not overlap the own frame (with arguments). -/
def port (cfg : Cfg) : Port A where
  jump := jump cfg
  ontop := ontop cfg
  make := make cfg
  tramp := some (Lab.trampoline, tramp cfg)
  finish := Lab.finish
  sp := esp
  saved := [ebx, ebp, edi, esi]
  fsaved := if cfg.tsx then [] else [mxcsr, x87cw]
  ra s := load s.mem (s.gpr esp) A.k
  spRet s := s.gpr esp + off A 4
  argF s := arg s 4
  argD s := arg s 8
  argFn s := arg s 0xc
  slot _ _ := False
  resF _ τ := τ.gpr eax
  resD _ τ := τ.gpr edx
  inF s := arg s 4
  inD s := arg s 8
  oinF s := arg s 4
  oinD s := arg s 8
  fctx s := s.gpr esp - off A 0x18
  frame := 0x18
  keep := 0x1c
  tslot _ _ := False
  oarea s a := InR a (s.gpr esp + off A 4) 8
  ok s := ∀ a, InR a (arg s 4) 0x24 → ¬ InR a (s.gpr esp - off A 0x18) 0x28
  argTop s := arg s 4
  argMFn s := arg s 0xc
  resM s := s.gpr eax
  mspRet s := s.gpr esp + off A 4
  mscratch := 4
  mkeep := 0x24
  mslot c a := InR a (c + off A 0x18) 0xc
  aligned w := (w + off A 4).toNat % 16 = 8

/-! ## Proofs -/

theorem fr (x : A.W) (n : Nat) : x - off A 0x18 + off A (0x18 + n) = x + off A n := by
  rw [← add_off_off, sub_add_off]

/-- bases: 0 own frame (with arguments), 1 frame of the target (with arguments) -/
def C : SCfg A where
  known := [(.reg esp, 0, off A 0x18), (.ld 0 0x1c, 1, 0#_)]
  wr i := if i = 0 then (0, 0x18) else if i = 1 then (0x1c, 0x24) else (0, 0)
  rd i := if i = 0 then 0x28 else if i = 1 then 0x24 else 0
  D i j := i == 0 && j == 1 || i == 1 && j == 0

def I (e : Env A) (σ : St A) : Itp A where
  σ := σ
  β i := if i = 0 then σ.gpr esp - off A 0x18 else arg σ 4
  e := e

theorem I_ok (e : Env A) (σ : St A) (cfg : Cfg) (h : (port cfg).ok σ) : (I e σ).Ok C where
  known := by
    intro x hx
    simp only [C, List.mem_cons, List.not_mem_nil, or_false] at hx
    rcases hx with rfl | rfl
    · exact (sub_add_off _ _).symm
    · show load σ.mem (σ.gpr esp - off A 0x18 + off A (0x18 + 4)) A.k = arg σ 4 + 0#_
      rw [fr, BitVec.add_zero]
  disj := by
    intro i j hD
    simp only [C, Bool.or_eq_true, Bool.and_eq_true, beq_iff_eq] at hD
    intro a ha hx
    rcases hD with ⟨rfl, rfl⟩ | ⟨rfl, rfl⟩
    · have ha : InR a (σ.gpr esp - off A 0x18 + off A 0) 0x18 := ha
      rw [show σ.gpr esp - off A 0x18 + off A 0 = σ.gpr esp - off A 0x18 from BitVec.add_zero _] at ha
      exact h a hx (inR_mono ha (by decide))
    · have ha : InR a (arg σ 4 + off A 0x1c) 8 := ha
      exact h a (inR_off ha (by decide) (by decide)) hx
  wr i := by simp only [C]; repeat' split
             all_goals decide
  rd i := by simp only [C]; repeat' split
             all_goals decide

/-- the instructions up to the last store -/
def nsave (cfg : Cfg) : Nat := 5 + (if cfg.tsx then 0 else 2)

def LG : List (A.R × Nat) := [(edi, 8), (esi, 0xc), (ebx, 0x10), (ebp, 0x14)]
def LF (cfg : Cfg) : List (A.F × Nat) := if cfg.tsx then [] else [(mxcsr, 0), (x87cw, 4)]

/-- a run that saves the own context -/
structure SaveOk (cfg : Cfg) (z : SSt A) : Prop where
  v : z.valid 0 = true
  g : ∀ x ∈ LG, look 0 x.2 A.k z.log = some (some (.w ⟨.reg x.1, 0#_⟩))
  f : ∀ x ∈ LF cfg, look 0 x.2 (A.fb x.1) z.log = some (some (.f x.1 (.init x.1)))
  a : look 0 0x18 A.k z.log = some none

theorem jump_save (cfg : Cfg) : ∃ h, SaveOk cfg (C.fin ((jumpIs cfg).take (nsave cfg)) h) := by
  obtain ⟨_ | _⟩ := cfg <;> exact ⟨by decide +kernel, ⟨by decide +kernel, by decide +kernel, by decide +kernel, by decide +kernel⟩⟩

theorem ontop_save (cfg : Cfg) : ∃ h, SaveOk cfg (C.fin ((ontopIs cfg).take (nsave cfg + 5)) h) := by
  obtain ⟨_ | _⟩ := cfg <;> exact ⟨by decide +kernel, ⟨by decide +kernel, by decide +kernel, by decide +kernel, by decide +kernel⟩⟩

/-- the frame at `f` holds the context of `σ` -/
structure Frame (cfg : Cfg) (σ : St A) (m : Mem A) (f : A.W) : Prop where
  g : ∀ x ∈ LG, load m (f + off A x.2) A.k = σ.gpr x.1
  fs : ∀ x ∈ LF cfg, load m (f + off A x.2) (A.fb x.1) = σ.fpr x.1
  a : load m (f + off A 0x18) A.k = load σ.mem (σ.gpr esp) A.k

theorem frame_of {cfg : Cfg} {e : Env A} {σ s : St A} {z : SSt A} (h : Rel C (I e σ) z s) (hz : SaveOk cfg z) :
    Frame cfg σ s.mem (σ.gpr esp - off A 0x18) where
  g x hx := by
    have := h.word (i := 0) (o := x.2) hz.v (show _ ≤ 0x28 by revert x; decide) (hz.g x hx)
    simpa [Itp.sv, Itp.atom, I] using this
  fs x hx := by
    have := h.special (i := 0) (o := x.2) hz.v (show _ ≤ 0x28 by revert x; obtain ⟨_ | _⟩ := cfg <;> decide) (hz.f x hx)
    simpa [Itp.fv, I] using this
  a := by
    have := h.same 0 0x18 A.k hz.v (show _ ≤ 0x28 by decide) hz.a
    simp only [I] at this
    rw [if_pos trivial, sub_add_off] at this
    rw [sub_add_off]
    exact this

theorem left_frame {cfg : Cfg} {e : Env A} {σ : St A} {m : Mem A} (hok : (port cfg).ok σ) (h : (port cfg).Left e σ m) :
    Frame cfg σ m (σ.gpr esp - off A 0x18) := by
  rcases h with h | h
  · obtain ⟨h1, h2⟩ := jump_save cfg
    have h3 := frame_of (fin_rel (I_ok e σ cfg hok) _ h1) h2
    rw [← h]
    have : (exec e (port cfg).jump σ).1.mem = (steps e ((jumpIs cfg).take (nsave cfg)) σ).mem := by
      show (steps e (jumpIs cfg) σ).mem = _
      conv => lhs; rw [← List.take_append_drop (nsave cfg) (jumpIs cfg), steps_append]
      exact steps_pure _ _ (by obtain ⟨_ | _⟩ := cfg <;> rfl) _
    rw [this]; exact h3
  · obtain ⟨h1, h2⟩ := ontop_save cfg
    have h3 := frame_of (fin_rel (I_ok e σ cfg hok) _ h1) h2
    rw [← h]
    have : (exec e (port cfg).ontop σ).1.mem = (steps e ((ontopIs cfg).take (nsave cfg + 5)) σ).mem := by
      show (steps e (ontopIs cfg) σ).mem = _
      conv => lhs; rw [← List.take_append_drop (nsave cfg + 5) (ontopIs cfg), steps_append]
      exact steps_pure _ _ (by obtain ⟨_ | _⟩ := cfg <;> rfl) _
    rw [this]; exact h3

/-- a complete run that restores the context at base 1 and leaves the stack pointer `n` bytes above it -/
structure RestoreOk (cfg : Cfg) (n : Nat) (z : SSt A) : Prop where
  g : ∀ x ∈ LG, z.gpr x.1 = ⟨.ld 1 x.2, 0#_⟩
  f : ∀ x ∈ LF cfg, z.fpr x.1 = .ld 1 x.2
  sp : z.gpr esp = ⟨.ld 0 0x1c, off A n⟩

theorem jump_restore (cfg : Cfg) : ∃ h, RestoreOk cfg 0x1c (C.fin (jumpIs cfg) h) ∧ (C.fin (jumpIs cfg) h).gpr ecx = ⟨.ld 1 0x18, 0#_⟩ ∧
    (C.fin (jumpIs cfg) h).gpr eax = ⟨.reg esp, -off A 0x18⟩ ∧ (C.fin (jumpIs cfg) h).gpr edx = ⟨.ld 0 0x20, 0#_⟩ ∧
    ∀ x ∈ (C.fin (jumpIs cfg) h).log, x.1 = 0 := by
  obtain ⟨_ | _⟩ := cfg <;> exact ⟨by decide +kernel, ⟨by decide +kernel, by decide +kernel, by decide +kernel⟩,
    by decide +kernel, by decide +kernel, by decide +kernel, by decide +kernel⟩

theorem ontop_restore (cfg : Cfg) : ∃ h, RestoreOk cfg 0x18 (C.fin (ontopIs cfg) h) ∧ (C.fin (ontopIs cfg) h).gpr ecx = ⟨.ld 0 0x24, 0#_⟩ ∧
    (C.fin (ontopIs cfg) h).valid 1 = true ∧ look 1 0x18 A.k (C.fin (ontopIs cfg) h).log = some none ∧
    look 1 0x1c A.k (C.fin (ontopIs cfg) h).log = some (some (.w ⟨.reg esp, -off A 0x18⟩)) ∧
    look 1 0x20 A.k (C.fin (ontopIs cfg) h).log = some (some (.w ⟨.ld 0 0x20, 0#_⟩)) ∧
    ∀ x ∈ (C.fin (ontopIs cfg) h).log, x.1 = 0 ∨ x.1 = 1 := by
  obtain ⟨_ | _⟩ := cfg <;> exact ⟨by decide +kernel, ⟨by decide +kernel, by decide +kernel, by decide +kernel⟩,
    by decide +kernel, by decide +kernel, by decide +kernel, by decide +kernel, by decide +kernel, by decide +kernel⟩

/-- what a call with entry state `τ` that targets the intact context `σ` finds -/
theorem target {cfg : Cfg} {e : Env A} {σ τ : St A} {m : Mem A} (hl : (port cfg).Left e σ m) (hi : (port cfg).Intact σ m τ)
    (ha : (port cfg).argF τ = (port cfg).fctx σ) : Frame cfg σ τ.mem (arg τ 4) := by
  obtain ⟨h0, h1, h2, h3, h4, h5⟩ := hi
  have ha : arg τ 4 = σ.gpr esp - off A 0x18 := ha
  have hf := left_frame h0 hl
  have h4 : ∀ a, InR a (σ.gpr esp - off A 0x18) 0x1c → τ.mem a = m a := h4
  rw [ha]
  constructor
  · intro x hx; rw [← hf.g x hx]; exact load_agree h4 (by revert x; decide) (by decide)
  · intro x hx; rw [← hf.fs x hx]; exact load_agree h4 (by revert x; obtain ⟨_ | _⟩ := cfg <;> decide) (by decide)
  · rw [← hf.a]; exact load_agree h4 (by decide) (by decide)

/-- what holds after a run that restores `σ` -/
theorem restored {cfg : Cfg} {n : Nat} {e : Env A} {σ τ s : St A} {z : SSt A} (hr : Rel C (I e τ) z s) (hz : RestoreOk cfg n z)
    (hf : Frame cfg σ τ.mem (arg τ 4)) : s.gpr esp = arg τ 4 + off A n ∧ (∀ r ∈ (port cfg).saved, s.gpr r = σ.gpr r) ∧
    (∀ f ∈ (port cfg).fsaved, s.fpr f = σ.fpr f) := by
  refine ⟨?_, ?_, ?_⟩
  · rw [hr.reg hz.sp]
    show load τ.mem (τ.gpr esp - off A 0x18 + off A (0x18 + 4)) A.k + _ = _
    rw [fr]
  · have : ∀ x ∈ LG, s.gpr x.1 = σ.gpr x.1 := by
      intro x hx
      rw [hr.reg (hz.g x hx), ← hf.g x hx]
      simp [Itp.sv, Itp.atom, I]
    simp only [LG, List.forall_mem_cons] at this
    obtain ⟨h1, h2, h3, h4, -⟩ := this
    intro r hr
    simp only [port, List.mem_cons, List.not_mem_nil, or_false] at hr
    rcases hr with rfl | rfl | rfl | rfl <;> assumption
  · intro f h
    have : ∃ o, (f, o) ∈ LF cfg := by
      simp only [port] at h
      simp only [LF]
      split at h
      · simp at h
      · rename_i hh
        simp only [hh]
        simp only [List.mem_cons, List.not_mem_nil, or_false] at h
        rcases h with rfl | rfl
        · exact ⟨0, by simp⟩
        · exact ⟨4, by simp⟩
    obtain ⟨o, ho⟩ := this
    rw [hr.fpr, hz.f _ ho, ← hf.fs _ ho]
    simp [Itp.fv, I]

theorem ownPtr (e : Env A) (τ : St A) : (I e τ).sv ⟨.reg esp, -off A 0x18⟩ = τ.gpr esp - off A 0x18 := (BitVec.sub_eq_add_neg _ _).symm

theorem ownArg (e : Env A) (τ : St A) (n : Nat) : (I e τ).sv ⟨.ld 0 (0x18 + n), 0#_⟩ = arg τ n := by
  show load τ.mem (τ.gpr esp - off A 0x18 + off A (0x18 + n)) A.k + 0#_ = _
  rw [fr, BitVec.add_zero]

/-- **C61**, switching -/
theorem C61_i386_macho_jump (cfg : Cfg) : (port cfg).JumpSpec := by
  intro e σ τ m hl hi ha
  have hf := target hl hi ha
  have ha : arg τ 4 = σ.gpr esp - off A 0x18 := ha
  obtain ⟨h1, h2, h3, h4, h5, h6⟩ := jump_restore cfg
  have hr := fin_rel (I_ok e τ cfg hi.ok') _ h1
  obtain ⟨s, hs⟩ : ∃ s, s = steps (I e τ).e (jumpIs cfg) (I e τ).σ := ⟨_, rfl⟩
  have hx : exec e (port cfg).jump τ = (s, s.gpr ecx) := by rw [hs]; rfl
  rw [← hs] at hr
  rw [hx]
  obtain ⟨r1, r2, r3⟩ := restored hr h2 hf
  refine ⟨⟨?_, ?_, r2, r3⟩, ?_, ?_, ?_, fun _ => Iff.rfl, trivial⟩
  · show s.gpr ecx = load σ.mem (σ.gpr esp) A.k
    rw [hr.reg h3, ← hf.a]; simp [Itp.sv, Itp.atom, I]
  · show s.gpr esp = σ.gpr esp + off A 4
    rw [r1, ha]; exact fr _ 4
  · show s.gpr eax = τ.gpr esp - off A 0x18
    rw [hr.reg h4]; exact ownPtr e τ
  · show s.gpr edx = arg τ 8
    rw [hr.reg h5]; exact ownArg e τ 8
  · intro a h
    obtain ⟨i, ⟨x, hx, rfl⟩, h2⟩ := hr.frame a h
    rw [h6 x hx] at h2
    have h2 : InR a (τ.gpr esp - off A 0x18 + off A 0) 0x18 := h2
    left
    rw [show τ.gpr esp - off A 0x18 + off A 0 = τ.gpr esp - off A 0x18 from BitVec.add_zero _] at h2
    exact h2

/-- **C61**, on-top calls -/
theorem C61_i386_macho_ontop (cfg : Cfg) : (port cfg).OntopSpec := by
  intro e σ τ m hl hi ha
  have hf := target hl hi ha
  have ha : arg τ 4 = σ.gpr esp - off A 0x18 := ha
  obtain ⟨h1, h2, h3, h4, h5, h6, h7, h8⟩ := ontop_restore cfg
  have hr := fin_rel (I_ok e τ cfg hi.ok') _ h1
  obtain ⟨s, hs⟩ : ∃ s, s = steps (I e τ).e (ontopIs cfg) (I e τ).σ := ⟨_, rfl⟩
  have hx : exec e (port cfg).ontop τ = (s, s.gpr ecx) := by rw [hs]; rfl
  rw [← hs] at hr
  rw [hx]
  obtain ⟨r1, r2, r3⟩ := restored hr h2 hf
  have s1 : load s.mem (arg τ 4 + off A 0x18) A.k = load τ.mem (arg τ 4 + off A 0x18) A.k := hr.same 1 0x18 A.k h4 (by decide) h5
  have w1 : load s.mem (arg τ 4 + off A 0x1c) A.k = _ := hr.word (i := 1) (o := 0x1c) h4 (by decide) h6
  have w2 : load s.mem (arg τ 4 + off A 0x20) A.k = _ := hr.word (i := 1) (o := 0x20) h4 (by decide) h7
  have sp : ∀ n, s.gpr esp + off A n = arg τ 4 + off A (0x18 + n) := by intro n; rw [r1, add_off_off]
  refine ⟨?_, ⟨?_, ?_, r2, r3, fun _ => Iff.rfl, ?_, ?_⟩, ?_, fun _ => Iff.rfl⟩
  · show s.gpr ecx = arg τ 0xc
    rw [hr.reg h3]; exact ownArg e τ 0xc
  · show load s.mem (s.gpr esp) A.k = load σ.mem (σ.gpr esp) A.k
    rw [r1, s1]; exact hf.a
  · show s.gpr esp + off A 4 = σ.gpr esp + off A 4
    rw [r1, ha, sub_add_off]
  · show load s.mem (s.gpr esp + off A 4) A.k = τ.gpr esp - off A 0x18
    rw [sp, w1]; exact ownPtr e τ
  · show load s.mem (s.gpr esp + off A 8) A.k = arg τ 8
    rw [sp, w2]; exact ownArg e τ 8
  · intro a h
    obtain ⟨i, ⟨x, hx, rfl⟩, h2⟩ := hr.frame a h
    rcases h8 x hx with h0 | h0
    · rw [h0] at h2
      have h2 : InR a (τ.gpr esp - off A 0x18 + off A 0) 0x18 := h2
      left
      rw [show τ.gpr esp - off A 0x18 + off A 0 = τ.gpr esp - off A 0x18 from BitVec.add_zero _] at h2
      exact h2
    · rw [h0] at h2
      have h2 : InR a (arg τ 4 + off A (0x18 + 4)) 8 := h2
      right; right
      rw [ha, fr] at h2
      exact h2

/-! ## New contexts -/

/-- bases: 0 the new context's data, 1 the scratch word and the return address of `make_fcontext` -/
def CM : SCfg A where
  known := [(.reg eax, 0, 0#_), (.reg esp, 1, off A 4)]
  wr i := if i = 0 then (0, 0x1c) else if i = 1 then (0, 4) else (0, 0)
  rd i := if i = 0 then 0x1c else if i = 1 then 8 else 0
  D i j := i == 0 && j == 1 || i == 1 && j == 0

def IM (e : Env A) (σ : St A) : Itp A where
  σ := σ
  β i := if i = 0 then σ.gpr eax else σ.gpr esp - off A 4
  e := e

theorem IM_ok (e : Env A) (σ : St A) (h : ∀ a, InR a (σ.gpr eax) 0x1c → ¬ InR a (σ.gpr esp - off A 4) 8) : (IM e σ).Ok CM where
  known := by
    intro x hx
    simp only [CM, List.mem_cons, List.not_mem_nil, or_false] at hx
    rcases hx with rfl | rfl
    · exact (BitVec.add_zero _).symm
    · exact (sub_add_off _ _).symm
  disj := by
    intro i j hD
    simp only [CM, Bool.or_eq_true, Bool.and_eq_true, beq_iff_eq] at hD
    intro a ha hx
    rcases hD with ⟨rfl, rfl⟩ | ⟨rfl, rfl⟩
    · have ha : InR a (σ.gpr eax + off A 0) 0x1c := ha
      rw [show σ.gpr eax + off A 0 = σ.gpr eax from BitVec.add_zero _] at ha
      exact h a ha hx
    · have ha : InR a (σ.gpr esp - off A 4 + off A 0) 4 := ha
      rw [show σ.gpr esp - off A 4 + off A 0 = σ.gpr esp - off A 4 from BitVec.add_zero _] at ha
      exact h a hx (inR_mono ha (by decide))
  wr i := by simp only [CM]; repeat' split
             all_goals decide
  rd i := by simp only [CM]; repeat' split
             all_goals decide

/-- a run of `make_fcontext` after the computation of the new context's address -/
structure MakeOk (z : SSt A) : Prop where
  v : z.valid 0 = true
  g : ∀ r ∈ [ebx, ebp, edi, esi, eax], z.gpr r = ⟨.reg r, 0#_⟩
  f : ∀ q, z.fpr q = .init q
  sp : z.gpr esp = ⟨.reg esp, off A 4⟩
  pc : z.gpr eip = ⟨.ld 1 4, 0#_⟩
  fn : look 0 0x10 A.k z.log = some (some (.w ⟨.reg ecx, 0#_⟩))
  tr : look 0 0x18 A.k z.log = some (some (.w ⟨.lab Lab.trampoline, 0#_⟩))
  fi : look 0 0x14 A.k z.log = some (some (.w ⟨.lab Lab.finish, 0#_⟩))
  mx : look 0 0 4 z.log = some (some (.f mxcsr (.init mxcsr)))
  cw : look 0 4 2 z.log = some (some (.f x87cw (.init x87cw)))
  w : ∀ x ∈ z.log, x.1 = 0 ∨ x.1 = 1

theorem make_ok (cfg : Cfg) : ∃ h, MakeOk (CM.fin ((makeIs cfg).drop 5) h) := by
  obtain ⟨_ | _⟩ := cfg <;> exact ⟨by decide +kernel, ⟨by decide +kernel, by decide +kernel, by intro q; cases q <;> decide +kernel, by decide +kernel, by decide +kernel,
    by decide +kernel, by decide +kernel, by decide +kernel, by decide +kernel, by decide +kernel, by decide +kernel⟩⟩

/-- the address of the new context -/
def ctxOf (σ : St A) : A.W := ((arg σ 4 - off A 8) &&& mask A 4) - off A 0x34

/-- the state after the computation of the address -/
def pre (σ : St A) : St A := setg (setg σ eax (ctxOf σ)) ecx (arg σ 0xc)

theorem make_pre (cfg : Cfg) (e : Env A) (σ : St A) : exec e (make cfg) σ = (steps e ((makeIs cfg).drop 5) (pre σ), (steps e ((makeIs cfg).drop 5) (pre σ)).gpr eip) := by
  have h : steps e ((makeIs cfg).take 5) σ = pre σ := by
    have : (makeIs cfg).take 5 = [.ld eax esp 0x4, .addi eax eax (-off A 0x8), .andi eax eax (mask A 4), .addi eax eax (-off A 0x34), .ld ecx esp 0xc] := by
      obtain ⟨_ | _⟩ := cfg <;> rfl
    rw [this]
    have n1 : esp ≠ eax := by decide
    have n2 : ecx ≠ eax := by decide
    simp only [steps, step, setg, ctxOf, pre, if_true, BitVec.sub_eq_add_neg, n1, if_false]
    congr 1
    funext x
    by_cases hx : x = ecx
    · simp [hx]
    · by_cases hx2 : x = eax <;> simp [hx, hx2]
  have h2 : steps e (makeIs cfg) σ = steps e ((makeIs cfg).drop 5) (pre σ) := by
    conv => lhs; rw [← List.take_append_drop 5 (makeIs cfg), steps_append]
    rw [h]
  rw [← h2]; rfl

theorem ctx_size (σ : St A) : (arg σ 4 - ctxOf σ).toNat = 0x3c + (arg σ 4 - off A 8).toNat % 16 := by
  have h1 : arg σ 4 - ctxOf σ = ((arg σ 4 - off A 8) - (((arg σ 4 - off A 8) &&& mask A 4) - off A 0x34)) + off A 8 := by
    unfold ctxOf
    generalize ((arg σ 4 - off A 8) &&& mask A 4) - off A 0x34 = x
    generalize arg σ 4 = y
    generalize off A 8 = z
    grind
  have h2 := align_below (A := A) (arg σ 4 - off A 8) 0x34 4 (by decide)
  rw [h1, BitVec.toNat_add, h2]
  have h3 : (off A 8).toNat = 8 := by decide
  rw [h3, Nat.mod_eq_of_lt]
  · omega
  · show _ < 2 ^ 32; omega

/-- what `make_fcontext` does -/
theorem make_facts (cfg : Cfg) (e : Env A) (σ : St A) (hd : ∀ a, InR a (ctxOf σ) 0x1c → ¬ InR a (σ.gpr esp - off A 4) 8) :
    (port cfg).ReturnedTo (σ.gpr esp + off A 4) σ (exec e (make cfg) σ).1 (exec e (make cfg) σ).2 ∧
    (∀ a, (exec e (make cfg) σ).1.mem a ≠ σ.mem a → InR a (ctxOf σ) 0x1c ∨ InR a (σ.gpr esp - off A 4) 4) ∧
    load (exec e (make cfg) σ).1.mem (ctxOf σ + off A 0x10) A.k = arg σ 0xc ∧
    load (exec e (make cfg) σ).1.mem (ctxOf σ + off A 0x14) A.k = e Lab.finish ∧
    load (exec e (make cfg) σ).1.mem (ctxOf σ + off A 0x18) A.k = e Lab.trampoline ∧
    load (exec e (make cfg) σ).1.mem (ctxOf σ + off A 0) 4 = σ.fpr mxcsr ∧
    load (exec e (make cfg) σ).1.mem (ctxOf σ + off A 4) 2 = σ.fpr x87cw := by
  rw [make_pre]
  obtain ⟨c, hc⟩ : ∃ c, c = ctxOf σ := ⟨_, rfl⟩
  obtain ⟨s1, hs1⟩ : ∃ s1, s1 = pre σ := ⟨_, rfl⟩
  have g1 : s1.gpr eax = c := by
    rw [hs1, hc]
    have n1 : eax ≠ ecx := by decide
    simp [pre, setg, n1]
  have g1' : s1.gpr ecx = arg σ 0xc := by rw [hs1]; simp [pre, setg]
  have g2 : ∀ r, r ≠ eax → r ≠ ecx → s1.gpr r = σ.gpr r := by intro r hr hr'; rw [hs1]; simp [pre, setg, hr, hr']
  have g3 : s1.mem = σ.mem := by rw [hs1]; rfl
  have g4 : s1.fpr = σ.fpr := by rw [hs1]; rfl
  rw [← hs1]
  rw [← hc] at hd ⊢
  have gsp := g2 esp (by decide) (by decide)
  obtain ⟨h1, hz⟩ := make_ok cfg
  have hr := fin_rel (IM_ok e s1 (by rw [g1, gsp]; exact hd)) _ h1
  obtain ⟨z, hzz⟩ : ∃ z, z = CM.fin ((makeIs cfg).drop 5) h1 := ⟨_, rfl⟩
  obtain ⟨s, hs⟩ : ∃ s, s = steps (IM e s1).e ((makeIs cfg).drop 5) (IM e s1).σ := ⟨_, rfl⟩
  rw [← hs, ← hzz] at hr
  rw [← hzz] at hz
  have hs' : steps e ((makeIs cfg).drop 5) s1 = s := hs.symm
  rw [hs']
  have b0 : (IM e s1).β 0 = c := by simp [IM, g1]
  have b1 : (IM e s1).β 1 = σ.gpr esp - off A 4 := by simp [IM, gsp]
  have w := fun (o : Nat) (v : Sv A) (h : o + A.k ≤ 0x1c) h3 => hr.word (i := 0) (o := o) (v := v) hz.v h h3
  rw [b0] at w
  refine ⟨⟨?_, ?_, ?_, ?_⟩, ?_, ?_, ?_, ?_, ?_, ?_⟩
  · show s.gpr eip = load σ.mem (σ.gpr esp) A.k
    rw [hr.reg hz.pc]; simp only [Itp.sv, Itp.atom, b1, sub_add_off]; simp [IM, g3]
  · show s.gpr esp = σ.gpr esp + off A 4
    rw [hr.reg hz.sp]; simp only [Itp.sv, Itp.atom]; simp [IM, gsp]
  · intro r hrr
    have : r ∈ [ebx, ebp, edi, esi, eax] ∧ r ≠ eax ∧ r ≠ ecx := by
      simp only [port] at hrr; revert r; decide
    rw [hr.reg (hz.g r this.1), ← g2 r this.2.1 this.2.2]; simp [Itp.sv, Itp.atom, IM]
  · intro f _
    rw [hr.fpr, hz.f]; simp [Itp.fv, IM, g4]
  · intro a ha
    rw [← g3] at ha
    obtain ⟨i, ⟨x, hx, rfl⟩, h2⟩ := hr.frame a ha
    rcases hz.w x hx with h0 | h0
    · left
      rw [h0, b0] at h2
      have h2 : InR a (c + off A 0) 0x1c := h2
      rw [show c + off A 0 = c from BitVec.add_zero _] at h2
      exact h2
    · right
      rw [h0, b1] at h2
      have h2 : InR a (σ.gpr esp - off A 4 + off A 0) 4 := h2
      rw [show σ.gpr esp - off A 4 + off A 0 = σ.gpr esp - off A 4 from BitVec.add_zero _] at h2
      exact h2
  · rw [w 0x10 _ (by decide) hz.fn]; simp only [Itp.sv, Itp.atom]; simp [IM, g1']
  · rw [w 0x14 _ (by decide) hz.fi]; simp only [Itp.sv, Itp.atom]; simp [IM]
  · rw [w 0x18 _ (by decide) hz.tr]; simp only [Itp.sv, Itp.atom]; simp [IM]
  · have := hr.special (i := 0) (o := 0) (q := mxcsr) hz.v (by decide) hz.mx
    rw [b0] at this
    refine this.trans ?_
    simp [Itp.fv, IM, g4]
  · have := hr.special (i := 0) (o := 4) (q := x87cw) hz.v (by decide) hz.cw
    rw [b0] at this
    refine this.trans ?_
    simp [Itp.fv, IM, g4]

/-- bases of the first activation: 0 own frame (with arguments), 1 data of the new context -/
def CE : SCfg A where
  known := [(.reg esp, 0, off A 0x18), (.ld 0 0x1c, 1, 0#_)]
  wr i := if i = 0 then (0, 0x18) else if i = 1 then (0x18, 0x24) else (0, 0)
  rd i := if i = 0 then 0x28 else if i = 1 then 0x24 else 0
  D i j := i == 0 && j == 1

theorem IE_ok (e : Env A) (σ : St A) (h : ∀ a, InR a (arg σ 4) 0x24 → ¬ InR a (σ.gpr esp - off A 0x18) 0x18) : (I e σ).Ok CE where
  known := by
    intro x hx
    simp only [CE, List.mem_cons, List.not_mem_nil, or_false] at hx
    rcases hx with rfl | rfl
    · exact (sub_add_off _ _).symm
    · show load σ.mem (σ.gpr esp - off A 0x18 + off A (0x18 + 4)) A.k = arg σ 4 + 0#_
      rw [fr, BitVec.add_zero]
  disj := by
    intro i j hD
    simp only [CE, Bool.and_eq_true, beq_iff_eq] at hD
    obtain ⟨rfl, rfl⟩ := hD
    intro a ha hx
    have ha : InR a (σ.gpr esp - off A 0x18 + off A 0) 0x18 := ha
    rw [show σ.gpr esp - off A 0x18 + off A 0 = σ.gpr esp - off A 0x18 from BitVec.add_zero _] at ha
    exact h a hx ha
  wr i := by simp only [CE]; repeat' split
             all_goals decide
  rd i := by simp only [CE]; repeat' split
             all_goals decide

structure EnterOk (cfg : Cfg) (z : SSt A) : Prop where
  v : z.valid 1 = true
  fn : z.gpr ebx = ⟨.ld 1 0x10, 0#_⟩
  sp : z.gpr esp = ⟨.ld 0 0x1c, off A 0x18⟩
  ra : look 1 0x18 A.k z.log = some (some (.w ⟨.ld 1 0x14, 0#_⟩))
  a1 : look 1 0x1c A.k z.log = some (some (.w ⟨.reg esp, -off A 0x18⟩))
  a2 : look 1 0x20 A.k z.log = some (some (.w ⟨.ld 0 0x20, 0#_⟩))
  f : ∀ x ∈ LF cfg, z.fpr x.1 = .ld 1 x.2
  w : ∀ x ∈ z.log, x.1 = 0 ∨ x.1 = 1

theorem enter_ok (cfg : Cfg) : ∃ h, EnterOk cfg (CE.fin (jumpIs cfg ++ trampIs cfg) h) := by
  obtain ⟨_ | _⟩ := cfg <;> exact ⟨by decide +kernel, ⟨by decide +kernel, by decide +kernel, by decide +kernel, by decide +kernel, by decide +kernel,
    by decide +kernel, by decide +kernel, by decide +kernel⟩⟩

theorem enter_pc (cfg : Cfg) : ∃ h, (CE.fin (jumpIs cfg) h).gpr ecx = ⟨.ld 1 0x18, 0#_⟩ := by
  obtain ⟨_ | _⟩ := cfg <;> exact ⟨by decide +kernel, by decide +kernel⟩

theorem make_res (cfg : Cfg) (e : Env A) (σ : St A) : (port cfg).resM (exec e (port cfg).make σ).1 = ctxOf σ := by
  show (exec e (make cfg) σ).1.gpr eax = ctxOf σ
  rw [make_pre]
  have := steps_dest e ((makeIs cfg).drop 5) (.g eax) (by obtain ⟨_ | _⟩ := cfg <;> decide) (pre σ)
  simp only [get_g] at this
  rw [this]
  have n1 : eax ≠ ecx := by decide
  simp [pre, setg, n1]

/-- **C61**, new contexts -/
theorem C61_i386_macho_make (cfg : Cfg) : (port cfg).MakeSpec := by
  intro e σ hd
  have hsz : ((port cfg).argTop σ - ctxOf σ).toNat = 0x3c + (arg σ 4 - off A 8).toNat % 16 := ctx_size σ
  have hres := make_res cfg e σ
  rw [hres] at hd ⊢
  rw [hsz] at hd ⊢
  have hmod : (arg σ 4 - off A 8).toNat % 16 < 16 := Nat.mod_lt _ (by omega)
  obtain ⟨m1, m2, m3, m4, m5, -, -⟩ := make_facts cfg e σ (fun a ha => hd a (inR_mono ha (by omega)))
  have hm : exec e (port cfg).make σ = exec e (make cfg) σ := rfl
  rw [hm]
  refine ⟨m1, ⟨by show 0x24 ≤ _; omega, by show _ ≤ 0x24 + 64; omega⟩, ?_, ?_⟩
  · intro a ha
    rcases m2 a ha with h | h
    · exact .inl (inR_mono h (by omega))
    · exact .inr h
  · intro τ ha hmem hdj
    rw [ha] at hmem hdj ⊢
    rw [hsz]
    have ha' : arg τ 4 = ctxOf σ := ha
    have hmem : ∀ a, InR a (ctxOf σ) 0x24 → τ.mem a = (exec e (make cfg) σ).1.mem a := hmem
    have hdj : ∀ a, InR a (ctxOf σ) 0x24 → ¬ InR a (τ.gpr esp - off A 0x18) 0x18 := hdj
    have ld : ∀ o, o + A.k ≤ 0x24 → load τ.mem (ctxOf σ + off A o) A.k = load (exec e (make cfg) σ).1.mem (ctxOf σ + off A o) A.k :=
      fun o ho => load_agree hmem ho (by decide)
    have hok := IE_ok e τ (by rw [ha']; exact hdj)
    obtain ⟨h1, h2⟩ := enter_ok cfg
    obtain ⟨h3, h4⟩ := enter_pc cfg
    have hr := fin_rel hok _ h1
    have hr' := fin_rel hok _ h3
    obtain ⟨s, hs⟩ : ∃ s, s = steps (I e τ).e (jumpIs cfg ++ trampIs cfg) (I e τ).σ := ⟨_, rfl⟩
    have hx : (port cfg).enter e τ = (s, s.gpr ebx) := by rw [hs, steps_append]; rfl
    rw [← hs] at hr
    rw [hx]
    have b1 : (I e τ).β 1 = ctxOf σ := by simp [I, ha']
    have ld' : ∀ o, o + A.k ≤ 0x24 → (I e τ).sv ⟨.ld 1 o, 0#_⟩ = load (exec e (make cfg) σ).1.mem (ctxOf σ + off A o) A.k := by
      intro o ho
      rw [← ld o ho]
      simp only [Itp.sv, Itp.atom, b1]
      exact BitVec.add_zero _
    have hsp : s.gpr esp = ctxOf σ + off A 0x18 := by
      rw [hr.reg h2.sp]
      show load τ.mem (τ.gpr esp - off A 0x18 + off A (0x18 + 4)) A.k + _ = _
      rw [fr]; show arg τ 4 + _ = _; rw [ha']
    have wd := fun (o : Nat) (v : Sv A) (h : o + A.k ≤ 0x24) h3 => hr.word (i := 1) (o := o) (v := v) h2.v h h3
    rw [b1] at wd
    refine ⟨?_, ?_, ?_, ?_, ?_, ?_, ?_, ?_, ?_⟩
    · intro l cc h
      have hl : l = Lab.trampoline := (congrArg Prod.fst (Option.some.inj h)).symm
      rw [hl]
      show (steps (I e τ).e (jumpIs cfg) (I e τ).σ).gpr ecx = _
      rw [hr'.reg h4, ld' _ (by decide), m5]
    · show s.gpr ebx = arg σ 0xc
      rw [hr.reg h2.fn, ld' _ (by decide), m3]
    · show load s.mem (s.gpr esp + off A 4) A.k = τ.gpr esp - off A 0x18
      rw [hsp, add_off_off, wd 0x1c _ (by decide) h2.a1]; exact ownPtr e τ
    · show load s.mem (s.gpr esp + off A 8) A.k = arg τ 8
      rw [hsp, add_off_off, wd 0x20 _ (by decide) h2.a2]; exact ownArg e τ 8
    · show load s.mem (s.gpr esp) A.k = e Lab.finish
      rw [hsp, wd 0x18 _ (by decide) h2.ra, ld' _ (by decide), m4]
    · show (s.gpr esp + off A 4).toNat % 16 = 8
      have h16 : (((arg σ 4 - off A 8) &&& mask A 4) + off A (2 ^ 32 - 0x20)).toNat % 16 = 0 := mask_add_mod _ _ 4 (by decide) (by decide)
      have : s.gpr esp + off A 4 = ((arg σ 4 - off A 8) &&& mask A 4) + off A (2 ^ 32 - 0x20) + off A 8 := by
        rw [hsp, ctxOf]
        generalize ((arg σ 4 - off A 8) &&& mask A 4) = x
        rw [BitVec.sub_eq_add_neg, BitVec.add_assoc, BitVec.add_assoc, BitVec.add_assoc]
        congr 1
      rw [this, BitVec.toNat_add]
      have h8 : (off A 8).toNat = 8 := by decide
      rw [h8]
      generalize (((arg σ 4 - off A 8) &&& mask A 4) + off A (2 ^ 32 - 0x20)).toNat = y at h16
      show (y + 8) % 2 ^ 32 % 16 = 8
      omega
    · show (s.gpr esp - ctxOf σ).toNat ≤ _
      rw [hsp]
      have : ctxOf σ + off A 0x18 - ctxOf σ = off A 0x18 := by rw [BitVec.add_comm, BitVec.add_sub_cancel]
      rw [this]
      have : (off A 0x18).toNat = 0x18 := by decide
      omega
    · intro a h
      obtain ⟨i, ⟨x, hx, rfl⟩, h4⟩ := hr.frame a h
      rcases h2.w x hx with h0 | h0
      · rw [h0] at h4
        have h4 : InR a (τ.gpr esp - off A 0x18 + off A 0) 0x18 := h4
        rw [show τ.gpr esp - off A 0x18 + off A 0 = τ.gpr esp - off A 0x18 from BitVec.add_zero _] at h4
        exact .inl h4
      · rw [h0, b1] at h4
        exact .inr h4
    · intro a h
      have h : InR a (ctxOf σ + off A 0x18) 0xc := h
      exact inR_off h (show 0x18 + 0xc ≤ 0x24 by decide) (show 0x24 ≤ 2 ^ (8 * A.k) by decide)

/-- **C61**, the misalignment: whatever stack is given to `make_fcontext`, the context function is entered with a stack pointer that does not have the
alignment the platform demands (`esp + 4` a multiple of 16). -/
theorem C61_entry_misaligned (cfg : Cfg) (e : Env A) (σ τ : St A)
    (h1 : ∀ a, InR a ((port cfg).resM (exec e (port cfg).make σ).1) ((port cfg).argTop σ - (port cfg).resM (exec e (port cfg).make σ).1).toNat →
      ¬ InR a (σ.gpr esp - off A 4) 8)
    (h2 : (port cfg).argF τ = (port cfg).resM (exec e (port cfg).make σ).1)
    (h3 : ∀ a, InR a ((port cfg).argF τ) 0x24 → τ.mem a = (exec e (port cfg).make σ).1.mem a)
    (h4 : ∀ a, InR a ((port cfg).argF τ) 0x24 → ¬ InR a (τ.gpr esp - off A 0x18) 0x18) :
    (((port cfg).enter e τ).1.gpr esp + off A 4).toNat % 16 ≠ 0 := by
  have h : (((port cfg).enter e τ).1.gpr esp + off A 4).toNat % 16 = 8 := ((C61_i386_macho_make cfg e σ h1).2.2.2 τ h2 h3 h4).2.2.2.2.2.1
  rw [h]; decide

/-! ## The hypotheses can be met -/

/-- a state with `esp = sp`, first argument `to`, the other registers containing `x` -/
def mk (m : Mem A) (sp to x : A.W) : St A :=
  ⟨fun r => if r = esp then sp else x, fun _ => 0#_, store m (sp + off A 4) A.k to⟩

theorem mk_to (m : Mem A) (sp to x : A.W) : arg (mk m sp to x) 4 = to := load_store_same _ _ _ _ (by decide)

theorem mk_mem (m : Mem A) (sp to x a : A.W) (ha : ¬ InR a sp 0x10) : (mk m sp to x).mem a = m a := by
  show store m (sp + off A 4) A.k to a = m a
  rw [store_out]
  exact fun hh => ha (inR_off hh (by decide) (by decide))

/-- The hypotheses of `C61_i386_macho_jump` and `C61_i386_macho_ontop` are met by a context suspended at `esp = 0x10000` and a resumer with different register
contents. -/
example (e : Env A) (cfg : Cfg) : ∃ σ τ m, (port cfg).Left e σ m ∧ (port cfg).Intact σ m τ ∧ (port cfg).argF τ = (port cfg).fctx σ ∧ σ.gpr ebx ≠ τ.gpr ebx := by
  obtain ⟨σ, hσ⟩ : ∃ σ, σ = mk (fun _ => 0#_) 0x10000#_ 0x8000#_ 1#_ := ⟨_, rfl⟩
  have e2 : arg σ 4 = 0x8000#_ := by rw [hσ]; exact mk_to _ _ _ _
  have e3 : σ.gpr esp = 0x10000#_ := by rw [hσ]; rfl
  have e5 : σ.gpr esp - off A 0x18 = 0xffe8#_ := by rw [e3]; decide
  have hok : (port cfg).ok σ := by
    show ∀ a, InR a (arg σ 4) 0x24 → _
    rw [e2, e5]; exact fun a ha => inR_apart (by decide) (by decide) ha
  obtain ⟨m, hm⟩ : ∃ m, m = (exec e (port cfg).jump σ).1.mem := ⟨_, rfl⟩
  have hl : (port cfg).Left e σ m := .inl hm.symm
  obtain ⟨τ, hτ⟩ : ∃ τ, τ = mk m 0x20000#_ 0xffe8#_ 2#_ := ⟨_, rfl⟩
  have t2 : arg τ 4 = 0xffe8#_ := by rw [hτ]; exact mk_to _ _ _ _
  have t3 : τ.gpr esp = 0x20000#_ := by rw [hτ]; rfl
  have t5 : τ.gpr esp - off A 0x18 = 0x1ffe8#_ := by rw [t3]; decide
  refine ⟨σ, τ, m, hl, ⟨hok, ?_, fun _ h => h.elim, fun _ h => h.elim, ?_, ?_⟩, t2.trans e5.symm, ?_⟩
  · show ∀ a, InR a (arg τ 4) 0x24 → _
    rw [t2, t5]; exact fun a ha => inR_apart (by decide) (by decide) ha
  · show ∀ a, InR a (σ.gpr esp - off A 0x18) 0x1c → τ.mem a = m a
    rw [e5, hτ]
    exact fun a ha => mk_mem _ _ _ _ _ (inR_apart (by decide) (by decide) ha)
  · show ∀ a, InR a (σ.gpr esp - off A 0x18) 0x1c → ¬ InR a (τ.gpr esp - off A 0x18) 0x18
    rw [e5, t5]
    exact fun a ha => inR_apart (by decide) (by decide) ha
  · rw [hσ, hτ]; show (1#_ : A.W) ≠ 2#_; decide

/-- The hypotheses of `C61_i386_macho_make` and `C61_entry_misaligned` are met by a caller at `esp = 0x10000` and a stack whose top is the odd address `0xf123`. -/
example (e : Env A) (cfg : Cfg) : ∃ σ τ,
    (∀ a, InR a ((port cfg).resM (exec e (port cfg).make σ).1) ((port cfg).argTop σ - (port cfg).resM (exec e (port cfg).make σ).1).toNat →
      ¬ InR a (σ.gpr (port cfg).sp - off A (port cfg).mscratch) ((port cfg).mscratch + A.k)) ∧
    (port cfg).argF τ = (port cfg).resM (exec e (port cfg).make σ).1 ∧
    (∀ a, InR a ((port cfg).argF τ) (port cfg).mkeep → τ.mem a = (exec e (port cfg).make σ).1.mem a) ∧
    ∀ a, InR a ((port cfg).argF τ) (port cfg).mkeep → ¬ InR a ((port cfg).fctx τ) (port cfg).frame := by
  obtain ⟨σ, hσ⟩ : ∃ σ, σ = mk (fun _ => 0#_) 0x10000#_ 0xf123#_ 1#_ := ⟨_, rfl⟩
  have e1 : arg σ 4 = 0xf123#_ := by rw [hσ]; exact mk_to _ _ _ _
  have e3 : σ.gpr esp = 0x10000#_ := by rw [hσ]; rfl
  have hres := make_res cfg e σ
  have hc : ctxOf σ = 0xf0dc#_ := by rw [ctxOf, e1]; decide
  have hsz : ((port cfg).argTop σ - 0xf0dc#_).toNat = 0x47 := by show (arg σ 4 - _).toNat = _; rw [e1]; decide
  refine ⟨σ, mk (exec e (port cfg).make σ).1.mem 0x20000#_ 0xf0dc#_ 2#_, ?_⟩
  have t2 : (port cfg).argF (mk (exec e (port cfg).make σ).1.mem 0x20000#_ 0xf0dc#_ 2#_) = 0xf0dc#_ := mk_to _ _ _ _
  rw [t2]
  rw [hres, hc, hsz]
  refine ⟨?_, rfl, ?_, ?_⟩
  · show ∀ a, InR a 0xf0dc#_ 0x47 → ¬ InR a (σ.gpr esp - off A 4) 8
    rw [e3]
    exact fun a ha => inR_apart (by decide) (by decide) ha
  · show ∀ a, InR a 0xf0dc#_ 0x24 → _
    exact fun a ha => mk_mem _ _ _ _ _ (inR_apart (by decide) (by decide) ha)
  · show ∀ a, InR a 0xf0dc#_ 0x24 → ¬ InR a (_ - off A 0x18) 0x18
    exact fun a ha => inR_apart (b' := 0x20000#_ - off A 0x18) (by decide) (by decide) ha

end Verif.Asm.I386Macho
