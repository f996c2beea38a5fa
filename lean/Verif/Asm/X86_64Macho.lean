import Verif.Asm.X86_64MachoCode
import Verif.Asm.Sym

/-! # x86_64 SysV, Mach-O: the switching routines meet their specification (C58) -/

namespace Verif.Asm.X86_64Macho

/-- SysV x86_64: at the entry of a function the return address is at `[rsp]`; the caller continues with `rsp + 8`.  Integer arguments in rdi, rsi,
rdx; a two-word structure is passed in rdi, rsi and returned in rax, rdx.  Callee-saved: rbx, rbp, r12-r15, and the control words of the floating
point units (which `BOOST_USE_TSX` gives up).
`rsp + 8` is a multiple of 16 at the entry of a function. -/
def port (cfg : Cfg) : Port A where
  jump := jump cfg
  ontop := ontop cfg
  make := make cfg
  tramp := some (Lab.trampoline, tramp cfg)
  finish := Lab.finish
  sp := rsp
  saved := [rbx, rbp, r12, r13, r14, r15]
  fsaved := if cfg.tsx then [] else [mxcsr, x87cw]
  ra s := load s.mem (s.gpr rsp) A.k
  spRet s := s.gpr rsp + off A 8
  argF s := s.gpr rdi
  argD s := s.gpr rsi
  argFn s := s.gpr rdx
  slot _ _ := False
  resF _ s := s.gpr rax
  resD _ s := s.gpr rdx
  inF s := s.gpr rdi
  inD s := s.gpr rsi
  oinF s := s.gpr rdi
  oinD s := s.gpr rsi
  fctx s := s.gpr rsp - off A 0x38
  frame := 0x38
  keep := 0x40
  tslot _ _ := False
  oarea _ _ := False
  ok _ := True
  argTop s := s.gpr rdi
  argMFn s := s.gpr rdx
  resM s := s.gpr rax
  mspRet s := s.gpr rsp + off A 8
  mscratch := 0
  mkeep := 0x40
  mslot c a := InR a (c + off A 0x38) 8
  aligned w := (w + off A 8).toNat % 16 = 0

/-! ## Proofs -/

/-- bases: 0 own frame (with return address), 1 frame of the target; `d`: they are disjoint -/
def C (d : Bool) : SCfg A where
  known := [(.reg rsp, 0, off A 0x38), (.reg rdi, 1, 0#_)]
  wr i := if i = 0 then (0, 0x38) else (0, 0)
  rd i := if i ≤ 1 then 0x40 else 0
  D i j := d && i == 0 && j == 1

def I (e : Env A) (σ : St A) : Itp A where
  σ := σ
  β i := if i = 0 then σ.gpr rsp - off A 0x38 else σ.gpr rdi
  e := e

theorem I_ok (d : Bool) (e : Env A) (σ : St A) (h : d = true → ∀ a, InR a (σ.gpr rdi) 0x40 → ¬ InR a (σ.gpr rsp - off A 0x38) 0x38) : (I e σ).Ok (C d) where
  known := by
    intro x hx
    simp only [C, List.mem_cons, List.not_mem_nil, or_false] at hx
    rcases hx with rfl | rfl
    · exact (sub_add_off _ _).symm
    · simp [Itp.atom, I]
  disj := by
    intro i j hD
    simp only [C, Bool.and_eq_true, beq_iff_eq] at hD
    obtain ⟨⟨h1, rfl⟩, rfl⟩ := hD
    intro a ha hb
    refine h h1 a hb ?_
    have : (I e σ).β 0 + off A 0 = σ.gpr rsp - off A 0x38 := by simp [I, off]
    simp only [C, if_true] at ha
    rw [this] at ha
    exact ha
  wr i := by simp only [C]; split <;> decide
  rd i := by simp only [C]; split <;> decide

/-- the instructions up to the last store -/
def nsave (cfg : Cfg) : Nat := 8 + (if cfg.tsx then 0 else 2)

def LG : List (A.R × Nat) := [(r12, 0x8), (r13, 0x10), (r14, 0x18), (r15, 0x20), (rbx, 0x28), (rbp, 0x30)]
def LF (cfg : Cfg) : List (A.F × Nat) := if cfg.tsx then [] else [(mxcsr, 0), (x87cw, 4)]


/-- a run of saves at the own frame -/
structure SaveOk (cfg : Cfg) (z : SSt A) : Prop where
  v : z.valid 0 = true
  g : ∀ x ∈ LG, look 0 x.2 A.k z.log = some (some (.w ⟨.reg x.1, 0#_⟩))
  f : ∀ x ∈ LF cfg, look 0 x.2 (A.fb x.1) z.log = some (some (.f x.1 (.init x.1)))
  a : look 0 0x38 A.k z.log = some none

theorem jump_save (cfg : Cfg) : ∃ h, SaveOk cfg ((C false).fin ((jumpIs cfg).take (nsave cfg)) h) := by
  obtain ⟨_ | _⟩ := cfg <;> exact ⟨by decide +kernel, ⟨by decide +kernel, by decide +kernel, by decide +kernel, by decide +kernel⟩⟩

theorem ontop_save (cfg : Cfg) : ∃ h, SaveOk cfg ((C false).fin ((ontopIs cfg).take (nsave cfg + 1)) h) := by
  obtain ⟨_ | _⟩ := cfg <;> exact ⟨by decide +kernel, ⟨by decide +kernel, by decide +kernel, by decide +kernel, by decide +kernel⟩⟩

/-- the frame at `f` holds the context of `σ` -/
structure Frame (cfg : Cfg) (σ : St A) (m : Mem A) (f : A.W) : Prop where
  g : ∀ x ∈ LG, load m (f + off A x.2) A.k = σ.gpr x.1
  fs : ∀ x ∈ LF cfg, load m (f + off A x.2) (A.fb x.1) = σ.fpr x.1
  a : load m (f + off A 0x38) A.k = load σ.mem (σ.gpr rsp) A.k

theorem frame_of {cfg : Cfg} {e : Env A} {σ s : St A} {z : SSt A} (h : Rel (C false) (I e σ) z s) (hz : SaveOk cfg z) :
    Frame cfg σ s.mem (σ.gpr rsp - off A 0x38) where
  g x hx := by
    have := h.word (i := 0) (o := x.2) hz.v (by revert x; decide) (hz.g x hx)
    simpa [Itp.sv, Itp.atom, I] using this
  fs x hx := by
    have := h.special (i := 0) (o := x.2) hz.v (by revert x; obtain ⟨_ | _⟩ := cfg <;> decide) (hz.f x hx)
    simpa [Itp.fv, I] using this
  a := by
    have := h.same 0 0x38 A.k hz.v (by decide) hz.a
    simp only [I] at this
    rw [if_pos trivial, sub_add_off] at this
    rw [sub_add_off]
    exact this

theorem left_frame {cfg : Cfg} {e : Env A} {σ : St A} {m : Mem A} (h : (port cfg).Left e σ m) : Frame cfg σ m (σ.gpr rsp - off A 0x38) := by
  rcases h with h | h
  · obtain ⟨h1, h2⟩ := jump_save cfg
    have h3 := frame_of (fin_rel (I_ok false e σ (by simp)) _ h1) h2
    rw [← h]
    have : (exec e (port cfg).jump σ).1.mem = (steps e ((jumpIs cfg).take (nsave cfg)) σ).mem := by
      show (steps e (jumpIs cfg) σ).mem = _
      conv => lhs; rw [← List.take_append_drop (nsave cfg) (jumpIs cfg), steps_append]
      exact steps_pure _ _ (by obtain ⟨_ | _⟩ := cfg <;> rfl) _
    rw [this]; exact h3
  · obtain ⟨h1, h2⟩ := ontop_save cfg
    have h3 := frame_of (fin_rel (I_ok false e σ (by simp)) _ h1) h2
    rw [← h]
    have : (exec e (port cfg).ontop σ).1.mem = (steps e ((ontopIs cfg).take (nsave cfg + 1)) σ).mem := by
      show (steps e (ontopIs cfg) σ).mem = _
      conv => lhs; rw [← List.take_append_drop (nsave cfg + 1) (ontopIs cfg), steps_append]
      exact steps_pure _ _ (by obtain ⟨_ | _⟩ := cfg <;> rfl) _
    rw [this]; exact h3

/-- a complete run that restores the context at base 1 and leaves the stack pointer `n` bytes above it -/
structure RestoreOk (cfg : Cfg) (n : Nat) (z : SSt A) : Prop where
  g : ∀ x ∈ LG, z.gpr x.1 = ⟨.ld 1 x.2, 0#_⟩
  f : ∀ x ∈ LF cfg, z.fpr x.1 = .ld 1 x.2
  sp : z.gpr rsp = ⟨.reg rdi, off A n⟩
  rax : z.gpr rax = ⟨.reg rsp, -off A 0x38⟩
  rdx : z.gpr rdx = ⟨.reg rsi, 0#_⟩
  rdi : z.gpr rdi = ⟨.reg rsp, -off A 0x38⟩
  rsi : z.gpr rsi = ⟨.reg rsi, 0#_⟩
  w : ∀ x ∈ z.log, x.1 = 0
  v : z.valid 1 = true

theorem jump_restore (cfg : Cfg) : ∃ h, RestoreOk cfg 0x40 ((C true).fin (jumpIs cfg) h) ∧ ((C true).fin (jumpIs cfg) h).gpr r8 = ⟨.ld 1 0x38, 0#_⟩ := by
  obtain ⟨_ | _⟩ := cfg <;> exact ⟨by decide +kernel, ⟨by decide +kernel, by decide +kernel, by decide +kernel, by decide +kernel,
    by decide +kernel, by decide +kernel, by decide +kernel, by decide +kernel, by decide +kernel⟩, by decide +kernel⟩

theorem ontop_restore (cfg : Cfg) : ∃ h, RestoreOk cfg 0x38 ((C true).fin (ontopIs cfg) h) ∧ ((C true).fin (ontopIs cfg) h).gpr r8 = ⟨.reg rdx, 0#_⟩ ∧
    look 1 0x38 A.k ((C true).fin (ontopIs cfg) h).log = some none := by
  obtain ⟨_ | _⟩ := cfg <;> exact ⟨by decide +kernel, ⟨by decide +kernel, by decide +kernel, by decide +kernel, by decide +kernel,
    by decide +kernel, by decide +kernel, by decide +kernel, by decide +kernel, by decide +kernel⟩, by decide +kernel, by decide +kernel⟩

/-- what a call with entry state `τ` that targets the intact context `σ` finds -/
theorem target {cfg : Cfg} {e : Env A} {σ τ : St A} {m : Mem A} (hl : (port cfg).Left e σ m) (hi : (port cfg).Intact σ m τ)
    (ha : (port cfg).argF τ = (port cfg).fctx σ) : Frame cfg σ τ.mem (τ.gpr rdi) ∧ ∀ a, InR a (τ.gpr rdi) 0x40 → ¬ InR a (τ.gpr rsp - off A 0x38) 0x38 := by
  obtain ⟨-, -, -, -, h4, h5⟩ := hi
  have ha : τ.gpr rdi = σ.gpr rsp - off A 0x38 := ha
  rw [ha]
  refine ⟨?_, h5⟩
  have hf := left_frame hl
  have h4 : ∀ a, InR a (σ.gpr rsp - off A 0x38) 0x40 → τ.mem a = m a := h4
  constructor
  · intro x hx; rw [← hf.g x hx]; exact load_agree h4 (by revert x; decide) (by decide)
  · intro x hx; rw [← hf.fs x hx]; exact load_agree h4 (by revert x; obtain ⟨_ | _⟩ := cfg <;> decide) (by decide)
  · rw [← hf.a]; exact load_agree h4 (by decide) (by decide)

/-- what holds after a run that restores `σ` -/
theorem restored {cfg : Cfg} {n : Nat} {e : Env A} {σ τ s : St A} {z : SSt A} (hr : Rel (C true) (I e τ) z s) (hz : RestoreOk cfg n z)
    (hf : Frame cfg σ τ.mem (τ.gpr rdi)) : s.gpr rsp = τ.gpr rdi + off A n ∧ (∀ r ∈ (port cfg).saved, s.gpr r = σ.gpr r) ∧
    (∀ f ∈ (port cfg).fsaved, s.fpr f = σ.fpr f) := by
  refine ⟨?_, ?_, ?_⟩
  · rw [hr.reg hz.sp]; simp [Itp.sv, Itp.atom, I]
  · have : ∀ x ∈ LG, s.gpr x.1 = σ.gpr x.1 := by
      intro x hx
      rw [hr.reg (hz.g x hx), ← hf.g x hx]
      simp [Itp.sv, Itp.atom, I]
    simp only [LG, List.forall_mem_cons] at this
    obtain ⟨h1, h2, h3, h4, h5, h6, -⟩ := this
    intro r hr
    simp only [port, List.mem_cons, List.not_mem_nil, or_false] at hr
    rcases hr with rfl | rfl | rfl | rfl | rfl | rfl <;> assumption
  · intro f h
    simp only [port] at h
    have : ∃ o, (f, o) ∈ LF cfg := by
      simp only [LF]
      split at h
      · simp at h
      · rename_i hh
        simp only [hh]
        simp only [List.mem_cons, List.not_mem_nil, or_false] at h
        rcases h with rfl | rfl
        · exact ⟨0, by simp⟩
        · exact ⟨4, by simp⟩
    obtain ⟨o, ho⟩ := this
    rw [hr.fpr, hz.f _ ho, ← hf.fs _ ho]
    simp [Itp.fv, I]

theorem wrote {n : Nat} {cfg : Cfg} {e : Env A} {τ s : St A} {z : SSt A} (hr : Rel (C true) (I e τ) z s) (hz : RestoreOk cfg n z) (a : A.W)
    (h : s.mem a ≠ τ.mem a) : InR a (τ.gpr rsp - off A 0x38) 0x38 := by
  obtain ⟨i, ⟨x, hx, rfl⟩, h2⟩ := hr.frame a h
  rw [hz.w x hx] at h2
  have : (I e τ).β 0 + off A 0 = τ.gpr rsp - off A 0x38 := by simp [I, off]
  simp only [C, if_true] at h2
  rw [this] at h2
  exact h2

/-- **C58**, switching -/
theorem C58_x86_64_macho_jump (cfg : Cfg) : (port cfg).JumpSpec := by
  intro e σ τ m hl hi ha
  obtain ⟨hf, hd⟩ := target hl hi ha
  have ha : τ.gpr rdi = σ.gpr rsp - off A 0x38 := ha
  obtain ⟨h1, h2, h3⟩ := jump_restore cfg
  have hr := fin_rel (I_ok true e τ (fun _ => hd)) _ h1
  obtain ⟨s, hs⟩ : ∃ s, s = steps (I e τ).e (jumpIs cfg) (I e τ).σ := ⟨_, rfl⟩
  have hx : exec e (port cfg).jump τ = (s, s.gpr r8) := by rw [hs]; rfl
  rw [← hs] at hr
  rw [hx]
  obtain ⟨r1, r2, r3⟩ := restored hr h2 hf
  refine ⟨⟨?_, ?_, r2, r3⟩, ?_, ?_, ?_, fun _ => Iff.rfl, trivial⟩
  · show s.gpr r8 = load σ.mem (σ.gpr rsp) A.k
    rw [hr.reg h3, ← hf.a]; simp [Itp.sv, Itp.atom, I]
  · show s.gpr rsp = σ.gpr rsp + off A 8
    rw [r1, ha]; simp only [off]; grind
  · show s.gpr rax = τ.gpr rsp - off A 0x38
    rw [hr.reg h2.rax]; simp only [Itp.sv, Itp.atom, I]; grind
  · show s.gpr rdx = τ.gpr rsi
    rw [hr.reg h2.rdx]; simp [Itp.sv, Itp.atom, I]
  · intro a h; exact .inl (wrote hr h2 a h)

/-- **C58**, on-top calls -/
theorem C58_x86_64_macho_ontop (cfg : Cfg) : (port cfg).OntopSpec := by
  intro e σ τ m hl hi ha
  obtain ⟨hf, hd⟩ := target hl hi ha
  have ha : τ.gpr rdi = σ.gpr rsp - off A 0x38 := ha
  obtain ⟨h1, h2, h3, h4⟩ := ontop_restore cfg
  have hr := fin_rel (I_ok true e τ (fun _ => hd)) _ h1
  obtain ⟨s, hs⟩ : ∃ s, s = steps (I e τ).e (ontopIs cfg) (I e τ).σ := ⟨_, rfl⟩
  have hx : exec e (port cfg).ontop τ = (s, s.gpr r8) := by rw [hs]; rfl
  rw [← hs] at hr
  rw [hx]
  obtain ⟨r1, r2, r3⟩ := restored hr h2 hf
  refine ⟨?_, ⟨?_, ?_, r2, r3, fun _ => Iff.rfl, ?_, ?_⟩, ?_, fun _ => Iff.rfl⟩
  · show s.gpr r8 = τ.gpr rdx
    rw [hr.reg h3]; simp [Itp.sv, Itp.atom, I]
  · show load s.mem (s.gpr rsp) A.k = load σ.mem (σ.gpr rsp) A.k
    rw [r1, ← hf.a]
    exact hr.same 1 0x38 A.k h2.v (by decide) h4
  · show s.gpr rsp + off A 8 = σ.gpr rsp + off A 8
    rw [r1, ha]; simp only [off]; grind
  · show s.gpr rdi = τ.gpr rsp - off A 0x38
    rw [hr.reg h2.rdi]; simp only [Itp.sv, Itp.atom, I]; grind
  · show s.gpr rsi = τ.gpr rsi
    rw [hr.reg h2.rsi]; simp [Itp.sv, Itp.atom, I]
  · intro a h; exact .inl (wrote hr h2 a h)

/-! ## New contexts -/

/-- bases: 0 the new context's data, 1 the return address of `make_fcontext` -/
def CM : SCfg A where
  known := [(.reg rax, 0, 0#_), (.reg rsp, 1, 0#_)]
  wr i := if i = 0 then (0, 0x40) else (0, 0)
  rd i := if i = 0 then 0x40 else if i = 1 then 8 else 0
  D i j := i == 0 && j == 1

def IM (e : Env A) (σ : St A) : Itp A where
  σ := σ
  β i := if i = 0 then σ.gpr rax else σ.gpr rsp
  e := e

theorem IM_ok (e : Env A) (σ : St A) (h : ∀ a, InR a (σ.gpr rax) 0x40 → ¬ InR a (σ.gpr rsp) 8) : (IM e σ).Ok CM where
  known := by
    intro x hx
    simp only [CM, List.mem_cons, List.not_mem_nil, or_false] at hx
    rcases hx with rfl | rfl <;> simp [Itp.atom, IM]
  disj := by
    intro i j hD
    simp only [CM, Bool.and_eq_true, beq_iff_eq] at hD
    obtain ⟨rfl, rfl⟩ := hD
    intro a ha hb
    have e1 : (IM e σ).β 0 + off A 0 = σ.gpr rax := by simp [IM, off]
    simp only [CM, if_true] at ha
    rw [e1] at ha
    exact h a ha hb
  wr i := by simp only [CM]; split <;> decide
  rd i := by simp only [CM]; split; decide; split <;> decide

/-- a run of `make_fcontext` after the computation of the new context's address -/
structure MakeOk (z : SSt A) : Prop where
  v : z.valid 0 = true
  g : ∀ r ∈ [rbx, rbp, r12, r13, r14, r15, rax], z.gpr r = ⟨.reg r, 0#_⟩
  f : ∀ q, z.fpr q = .init q
  sp : z.gpr rsp = ⟨.reg rsp, off A 8⟩
  pc : z.gpr rip = ⟨.ld 1 0, 0#_⟩
  fn : look 0 0x28 A.k z.log = some (some (.w ⟨.reg rdx, 0#_⟩))
  tr : look 0 0x38 A.k z.log = some (some (.w ⟨.lab Lab.trampoline, 0#_⟩))
  fi : look 0 0x30 A.k z.log = some (some (.w ⟨.lab Lab.finish, 0#_⟩))
  mx : look 0 0 4 z.log = some (some (.f mxcsr (.init mxcsr)))
  cw : look 0 4 2 z.log = some (some (.f x87cw (.init x87cw)))
  w : ∀ x ∈ z.log, x.1 = 0

theorem make_ok (cfg : Cfg) : ∃ h, MakeOk (CM.fin ((makeIs cfg).drop 3) h) := by
  obtain ⟨_ | _⟩ := cfg <;> exact ⟨by decide +kernel, ⟨by decide +kernel, by decide +kernel, by intro q; cases q <;> decide +kernel, by decide +kernel, by decide +kernel,
    by decide +kernel, by decide +kernel, by decide +kernel, by decide +kernel, by decide +kernel, by decide +kernel⟩⟩

/-- the address of the new context -/
def ctxOf (σ : St A) : A.W := (σ.gpr rdi &&& mask A 4) - off A 0x40

theorem make_pre (cfg : Cfg) (e : Env A) (σ : St A) : exec e (make cfg) σ = ((steps e ((makeIs cfg).drop 3) (setg σ rax (ctxOf σ))), (steps e ((makeIs cfg).drop 3) (setg σ rax (ctxOf σ))).gpr rip) := by
  have h : steps e ((makeIs cfg).take 3) σ = setg σ rax (ctxOf σ) := by
    have : (makeIs cfg).take 3 = [.mov rax rdi, .andi rax rax (mask A 4), .addi rax rax (-off A 0x40)] := by obtain ⟨_ | _⟩ := cfg <;> rfl
    rw [this]
    simp only [steps, step, setg, ctxOf, if_true, BitVec.sub_eq_add_neg]
    congr 1
    funext x
    by_cases hx : x = rax <;> simp [hx]
  have h2 : steps e (makeIs cfg) σ = steps e ((makeIs cfg).drop 3) (setg σ rax (ctxOf σ)) := by
    conv => lhs; rw [← List.take_append_drop 3 (makeIs cfg), steps_append]
    rw [h]
  rw [← h2]; rfl

/-- what `make_fcontext` does: it returns to its caller, the context's data hold the function, the trampoline,
`finish` and the control words of the creator; it writes only those data -/
theorem make_facts (cfg : Cfg) (e : Env A) (σ : St A) (hd : ∀ a, InR a (ctxOf σ) 0x40 → ¬ InR a (σ.gpr rsp) 8) :
    (port cfg).resM (exec e (make cfg) σ).1 = ctxOf σ ∧ (port cfg).ReturnedTo (σ.gpr rsp + off A 8) σ (exec e (make cfg) σ).1 (exec e (make cfg) σ).2 ∧
    (∀ a, (exec e (make cfg) σ).1.mem a ≠ σ.mem a → InR a (ctxOf σ) 0x40) ∧
    load (exec e (make cfg) σ).1.mem (ctxOf σ + off A 0x28) A.k = σ.gpr rdx ∧
    load (exec e (make cfg) σ).1.mem (ctxOf σ + off A 0x30) A.k = e Lab.finish ∧
    load (exec e (make cfg) σ).1.mem (ctxOf σ + off A 0x38) A.k = e Lab.trampoline ∧
    load (exec e (make cfg) σ).1.mem (ctxOf σ + off A 0) 4 = σ.fpr mxcsr ∧
    load (exec e (make cfg) σ).1.mem (ctxOf σ + off A 4) 2 = σ.fpr x87cw := by
  rw [make_pre]
  obtain ⟨c, hc⟩ : ∃ c, c = ctxOf σ := ⟨_, rfl⟩
  rw [← hc] at hd ⊢
  obtain ⟨s1, hs1⟩ : ∃ s1, s1 = setg σ rax c := ⟨_, rfl⟩
  rw [← hs1]
  have g1 : s1.gpr rax = c := by rw [hs1]; simp [setg]
  have g2 : ∀ r, r ≠ rax → s1.gpr r = σ.gpr r := by intro r hr; rw [hs1]; exact if_neg hr
  have g3 : s1.mem = σ.mem := by rw [hs1]; rfl
  have g4 : s1.fpr = σ.fpr := by rw [hs1]; rfl
  have gsp := g2 rsp (by decide)
  obtain ⟨h1, hz⟩ := make_ok cfg
  have hr := fin_rel (IM_ok e s1 (by rw [g1, gsp]; exact hd)) _ h1
  obtain ⟨z, hzz⟩ : ∃ z, z = CM.fin ((makeIs cfg).drop 3) h1 := ⟨_, rfl⟩
  obtain ⟨s, hs⟩ : ∃ s, s = steps (IM e s1).e ((makeIs cfg).drop 3) (IM e s1).σ := ⟨_, rfl⟩
  rw [← hs, ← hzz] at hr
  rw [← hzz] at hz
  have hs' : steps e ((makeIs cfg).drop 3) s1 = s := hs.symm
  rw [hs']
  have b0 : (IM e s1).β 0 = c := by simp [IM, g1]
  have b1 : (IM e s1).β 1 = σ.gpr rsp := by simp [IM, gsp]
  have w := fun (o : Nat) (v : Sv A) (h : o + A.k ≤ 0x40) h3 => hr.word (i := 0) (o := o) (v := v) hz.v h h3
  rw [b0] at w
  refine ⟨?_, ⟨?_, ?_, ?_, ?_⟩, ?_, ?_, ?_, ?_, ?_, ?_⟩
  · show s.gpr rax = c
    rw [hr.reg (hz.g rax (by decide))]; simp [Itp.sv, Itp.atom, IM, g1]
  · show s.gpr rip = load σ.mem (σ.gpr rsp) A.k
    rw [hr.reg hz.pc]; simp only [Itp.sv, Itp.atom, b1]; simp [off, IM, g3]
  · show s.gpr rsp = σ.gpr rsp + off A 8
    rw [hr.reg hz.sp]; simp only [Itp.sv, Itp.atom]; simp [IM, gsp]
  · intro r hrr
    have : r ∈ [rbx, rbp, r12, r13, r14, r15, rax] ∧ r ≠ rax := by
      simp only [port] at hrr; revert r; decide
    rw [hr.reg (hz.g r this.1), ← g2 r this.2]; simp [Itp.sv, Itp.atom, IM]
  · intro f _
    rw [hr.fpr, hz.f]; simp [Itp.fv, IM, g4]
  · intro a ha
    rw [← g3] at ha
    obtain ⟨i, ⟨x, hx, rfl⟩, h2⟩ := hr.frame a ha
    rw [hz.w x hx, b0] at h2
    simpa [CM, off] using h2
  · rw [w 0x28 _ (by decide) hz.fn]; simp only [Itp.sv, Itp.atom]; simp [IM, g2 rdx (by decide)]
  · rw [w 0x30 _ (by decide) hz.fi]; simp only [Itp.sv, Itp.atom]; simp [IM]
  · rw [w 0x38 _ (by decide) hz.tr]; simp only [Itp.sv, Itp.atom]; simp [IM]
  · have := hr.special (i := 0) (o := 0) (q := mxcsr) hz.v (by show 0 + 4 ≤ 0x40; decide) hz.mx
    rw [b0] at this
    refine this.trans ?_
    simp [Itp.fv, IM, g4]
  · have := hr.special (i := 0) (o := 4) (q := x87cw) hz.v (by show 4 + 2 ≤ 0x40; decide) hz.cw
    rw [b0] at this
    refine this.trans ?_
    simp [Itp.fv, IM, g4]

theorem off_pop (x : A.W) : x + off A 0x40 + -off A 8 = x + off A 0x38 := by
  rw [BitVec.add_assoc]; congr 1

/-- **C58**, new contexts -/
theorem C58_x86_64_macho_make (cfg : Cfg) : (port cfg).MakeSpec := by
  intro e σ hd
  have hsz : ((port cfg).argTop σ - ctxOf σ).toNat = 0x40 + (σ.gpr rdi).toNat % 16 := align_below (A := A) (σ.gpr rdi) 0x40 4 (by decide)
  have hres : (port cfg).resM (exec e (port cfg).make σ).1 = ctxOf σ := by
    show (exec e (make cfg) σ).1.gpr rax = ctxOf σ
    rw [make_pre]
    have := steps_dest e ((makeIs cfg).drop 3) (.g rax) (by obtain ⟨_ | _⟩ := cfg <;> decide) (setg σ rax (ctxOf σ))
    simp only [get_g] at this
    rw [this]; simp [setg]
  rw [hres] at hd ⊢
  rw [hsz] at hd ⊢
  have e0 : σ.gpr (port cfg).sp - off A (port cfg).mscratch = σ.gpr rsp := by show σ.gpr rsp - off A 0 = _; simp [off]
  rw [e0] at hd ⊢
  obtain ⟨-, m2, m3, m4, m5, m6, m7, m8⟩ := make_facts cfg e σ (fun a ha => hd a (inR_mono ha (by omega)))
  have hm : exec e (port cfg).make σ = exec e (make cfg) σ := rfl
  rw [hm]
  refine ⟨m2, ⟨by show 0x40 ≤ _; omega, by show _ ≤ 0x40 + 64; omega⟩, ?_, ?_⟩
  · intro a ha
    exact .inl (inR_mono (m3 a ha) (by omega))
  · intro τ ha hmem hdj
    rw [ha] at hmem hdj ⊢
    rw [hsz]
    have ha' : τ.gpr rdi = ctxOf σ := ha
    have hmem : ∀ a, InR a (ctxOf σ) 0x40 → τ.mem a = (exec e (make cfg) σ).1.mem a := hmem
    have hdj : ∀ a, InR a (ctxOf σ) 0x40 → ¬ InR a (τ.gpr rsp - off A 0x38) 0x38 := hdj
    obtain ⟨h1, h2, h3⟩ := jump_restore cfg
    have hr := fin_rel (I_ok true e τ (fun _ => by rw [ha']; exact hdj)) _ h1
    obtain ⟨s, hs⟩ : ∃ s, s = steps (I e τ).e (jumpIs cfg) (I e τ).σ := ⟨_, rfl⟩
    have hx : exec e (port cfg).jump τ = (s, s.gpr r8) := by rw [hs]; rfl
    rw [← hs] at hr
    have b1 : (I e τ).β 1 = ctxOf σ := by simp [I, ha']
    have ld : ∀ o, o + A.k ≤ 0x40 → (I e τ).sv ⟨.ld 1 o, 0#_⟩ = load (exec e (make cfg) σ).1.mem (ctxOf σ + off A o) A.k := by
      intro o ho
      simp only [Itp.sv, Itp.atom, b1]
      simp only [I]
      rw [BitVec.add_zero]
      exact load_agree hmem ho (by decide)
    have hsp : s.gpr rsp = ctxOf σ + off A 0x40 := by rw [hr.reg h2.sp]; simp [Itp.sv, Itp.atom, I, ha']
    have hbp : s.gpr rbp = e Lab.finish := by rw [hr.reg (h2.g (rbp, 0x30) (by decide)), ld _ (by decide), m5]
    have hbx : s.gpr rbx = σ.gpr rdx := by rw [hr.reg (h2.g (rbx, 0x28) (by decide)), ld _ (by decide), m4]
    have hsp' : s.gpr rsp + -off A 8 = ctxOf σ + off A 0x38 := by rw [hsp]; exact off_pop _
    have hen : (port cfg).enter e τ = ({ setg s rsp (ctxOf σ + off A 0x38) with mem := store s.mem (ctxOf σ + off A 0x38) A.k (e Lab.finish) }, σ.gpr rdx) := by
      show exec e (tramp cfg) (exec e (port cfg).jump τ).1 = _
      rw [hx]
      show ({ setg s rsp (s.gpr rsp + -off A 8) with mem := store s.mem (s.gpr rsp + -off A 8 + off A 0) A.k (s.gpr rbp) }, s.gpr rbx) = _
      rw [hsp', hbp, hbx]
      simp [off]
    rw [hen]
    refine ⟨?_, rfl, ?_, ?_, ?_, ?_, ?_, ?_, ?_⟩
    · intro l cc h
      have hl : l = Lab.trampoline := (congrArg Prod.fst (Option.some.inj h)).symm
      rw [hx, hl]
      show s.gpr r8 = _
      rw [hr.reg h3, ld _ (by decide), m6]
    · show s.gpr rdi = τ.gpr rsp - off A 0x38
      rw [hr.reg h2.rdi]; simp only [Itp.sv, Itp.atom, I]; grind
    · show s.gpr rsi = τ.gpr rsi
      rw [hr.reg h2.rsi]; simp [Itp.sv, Itp.atom, I]
    · show load (store s.mem (ctxOf σ + off A 0x38) A.k (e Lab.finish)) (ctxOf σ + off A 0x38) A.k = e Lab.finish
      exact load_store_same _ _ _ _ (by decide)
    · show (ctxOf σ + off A 0x38 + off A 8).toNat % 16 = 0
      have : ctxOf σ + off A 0x38 + off A 8 = (σ.gpr rdi &&& mask A 4) + off A 0 := by
        simp only [ctxOf]
        generalize (σ.gpr rdi &&& mask A 4) = x
        simp only [off]
        grind
      rw [this]
      exact mask_add_mod _ 0 4 (by decide) (by decide)
    · show (ctxOf σ + off A 0x38 - ctxOf σ).toNat ≤ _
      have : ctxOf σ + off A 0x38 - ctxOf σ = off A 0x38 := by rw [BitVec.add_comm, BitVec.add_sub_cancel]
      rw [this]
      have : (off A 0x38).toNat = 0x38 := by decide
      omega
    · intro a h
      by_cases hh : InR a (ctxOf σ + off A 0x38) 8
      · exact .inr hh
      · left
        have h : store s.mem (ctxOf σ + off A 0x38) A.k (e Lab.finish) a ≠ τ.mem a := h
        rw [store_out (n := A.k) hh] at h
        exact wrote hr h2 a h
    · intro a h
      have h : InR a (ctxOf σ + off A 0x38) 8 := h
      exact inR_off h (show 0x38 + 8 ≤ 0x40 by decide) (show 0x40 ≤ 2 ^ (8 * A.k) by decide)

/-- a state with `rsp = sp`, `rdi = a`, all other registers `x` and the memory zero -/
def mk (sp a x : A.W) : St A :=
  ⟨fun r => if r = rsp then sp else if r = rdi then a else x, fun | .mxcsr => 0x1f80#_ | .x87cw => 0x37f#_, fun _ => 0#_⟩

/-- The hypotheses of `C58_x86_64_macho_jump` and `C58_x86_64_macho_ontop` are met by a context suspended at `rsp = 0x10000` and a resumer with different
register contents. -/
example (e : Env A) (cfg : Cfg) : ∃ σ τ m, (port cfg).Left e σ m ∧ (port cfg).Intact σ m τ ∧ (port cfg).argF τ = (port cfg).fctx σ ∧
    σ.gpr rbx ≠ τ.gpr rbx :=
  ⟨mk 0x10000#_ 0#_ 1#_, { mk 0x20000#_ 0xffc8#_ 2#_ with mem := (exec e (port cfg).jump (mk 0x10000#_ 0#_ 1#_)).1.mem }, _, .inl rfl,
    ⟨trivial, trivial, fun _ h => h.elim, fun _ h => h.elim, fun _ _ => rfl, fun a h => by
      rw [show (port cfg).fctx (mk 0x10000#_ 0#_ 1#_) = 0xffc8#_ from by show (mk 0x10000#_ 0#_ 1#_).gpr rsp - off A 0x38 = _; decide] at h
      have e2 : ∀ m, (port cfg).fctx { mk 0x20000#_ 0xffc8#_ 2#_ with mem := m } = 0x1ffc8#_ := by
        intro m; show (mk 0x20000#_ 0xffc8#_ 2#_).gpr rsp - off A 0x38 = _; decide
      rw [e2]
      exact inR_apart (n := 0x40) (n' := 0x38) (by decide) (by decide) h⟩,
    by show (0xffc8#_ : A.W) = 0x10000#_ - off A 0x38; decide,
    by show (1#_ : A.W) ≠ 2#_; decide⟩

/-- The hypotheses of `C58_x86_64_macho_make` are met by a caller at `rsp = 0x10000` and a stack whose top is the odd address `0xf123`. -/
example (e : Env A) (cfg : Cfg) : ∃ σ τ, (∀ a, InR a (ctxOf σ) 0x40 → ¬ InR a (σ.gpr rsp) 8) ∧
    (port cfg).argF τ = (port cfg).resM (exec e (port cfg).make σ).1 ∧ τ.mem = (exec e (port cfg).make σ).1.mem ∧
    ∀ a, InR a ((port cfg).argF τ) 0x40 → ¬ InR a ((port cfg).fctx τ) 0x38 := by
  have hd0 : ∀ a, InR a (ctxOf (mk 0x10000#_ 0xf123#_ 0#_)) 0x40 → ¬ InR (A := A) a 0x10000#_ 8 := fun a ha => inR_apart (by decide) (by decide) ha
  have hres := (make_facts cfg e (mk 0x10000#_ 0xf123#_ 0#_) hd0).1
  refine ⟨mk 0x10000#_ 0xf123#_ 0#_, { mk 0x20000#_ (ctxOf (mk 0x10000#_ 0xf123#_ 0#_)) 0#_ with mem := _ }, hd0, hres.symm, rfl, ?_⟩
  intro a ha
  have : (port cfg).fctx { mk 0x20000#_ (ctxOf (mk 0x10000#_ 0xf123#_ 0#_)) 0#_ with mem := (exec e (port cfg).make (mk 0x10000#_ 0xf123#_ 0#_)).1.mem } = 0x1ffc8#_ := by
    show (mk 0x20000#_ (ctxOf (mk 0x10000#_ 0xf123#_ 0#_)) 0#_).gpr rsp - off A 0x38 = _; decide
  rw [this]
  have ha : InR a (ctxOf (mk 0x10000#_ 0xf123#_ 0#_)) 0x40 := ha
  exact inR_apart (by decide) (by decide) ha

end Verif.Asm.X86_64Macho
