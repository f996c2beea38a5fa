import Verif.Asm.X86_64CetSem

/-!
# x86_64 SysV with shadow stacks: the switching routines on a machine with Intel CET (C66)

`port cfg` describes the registers and the ordinary memory; the routines in it are the erased ones (`E`).  The theorems are about the routines themselves (`cexec`), on the
machine of `X86_64CetSem`, where an instruction may fault.
-/

namespace Verif.Asm.X86_64Cet

/-- As `X86_64.port`; a suspended context has one word more: the shadow stack pointer, at its lowest address.  A context function finds the address of `jmp *%rbp` as return address. -/
def port (cfg : Cfg) : Port A where
  jump := .jmp (E (jumpIs cfg)) r8
  ontop := .jmp (E (ontopIs cfg)) r8
  make := .jmp (E (makeIs cfg)) rip
  tramp := some (Lab.trampoline, .jmp (E (trampIs cfg)) rbx)
  finish := Lab.l2
  sp := rsp
  saved := [rbx, rbp, r12, r13, r14, r15]
  fsaved := (if cfg.tsx then [] else [mxcsr, x87cw]) ++ (if cfg.guard then [guard] else [])
  ra s := load s.mem (s.gpr rsp) A.k
  spRet s := s.gpr rsp + off A 8
  argF s := s.gpr rdi
  argD s := s.gpr rsi
  argFn s := s.gpr rdx
  slot _ _ := False
  resF _ s := s.gpr rax
  resD _ s := s.gpr rdx
  inF s := s.gpr rdi
  inD s := s.gpr rsi
  oinF s := s.gpr rdi
  oinD s := s.gpr rsi
  fctx s := s.gpr rsp - off A 0x48
  frame := 0x48
  keep := 0x50
  tslot _ _ := False
  oarea _ _ := False
  ok _ := True
  argTop s := s.gpr rdi
  argMFn s := s.gpr rdx
  resM s := s.gpr rax
  mspRet s := s.gpr rsp + off A 8
  mscratch := 8
  mkeep := 0x50
  mslot c a := InR a (c + off A 0x48) 8
  aligned w := (w + off A 8).toNat % 16 = 0

/-! ## Proofs -/

/-- bases: 0 own frame (with return address), 1 frame of the target; `d`: they are disjoint -/
def C (d : Bool) : SCfg A where
  known := [(.reg rsp, 0, off A 0x48), (.reg rdi, 1, 0#_)]
  wr i := if i = 0 then (0, 0x48) else (0, 0)
  rd i := if i ≤ 1 then 0x50 else 0
  D i j := d && i == 0 && j == 1

def I (e : Env A) (σ : St A) : Itp A where
  σ := σ
  β i := if i = 0 then σ.gpr rsp - off A 0x48 else σ.gpr rdi
  e := e

theorem I_ok (d : Bool) (e : Env A) (σ : St A) (h : d = true → ∀ a, InR a (σ.gpr rdi) 0x50 → ¬ InR a (σ.gpr rsp - off A 0x48) 0x48) : (I e σ).Ok (C d) where
  known := by
    intro x hx
    simp only [C, List.mem_cons, List.not_mem_nil, or_false] at hx
    rcases hx with rfl | rfl
    · exact (sub_add_off _ _).symm
    · simp [Itp.atom, I]
  disj := by
    intro i j hD
    simp only [C, Bool.and_eq_true, beq_iff_eq] at hD
    obtain ⟨⟨h1, rfl⟩, rfl⟩ := hD
    intro a ha hb
    refine h h1 a hb ?_
    have : (I e σ).β 0 + off A 0 = σ.gpr rsp - off A 0x48 := by simp [I, off]
    simp only [C, if_true] at ha
    rw [this] at ha
    exact ha
  wr i := by simp only [C]; split <;> decide
  rd i := by simp only [C]; split <;> decide

/-- the instructions up to the last store -/
def nsave (cfg : Cfg) : Nat := 10 + (if cfg.tsx then 0 else 2) + (if cfg.guard then 2 else 0)

def LG : List (A.R × Nat) := [(ssp, 0), (r12, 0x18), (r13, 0x20), (r14, 0x28), (r15, 0x30), (rbx, 0x38), (rbp, 0x40)]
def LF (cfg : Cfg) : List (A.F × Nat) := if cfg.tsx then [] else [(mxcsr, 8), (x87cw, 0xc)]

/-- a run of saves at the own frame -/
structure SaveOk (cfg : Cfg) (z : SSt A) : Prop where
  v : z.valid 0 = true
  g : ∀ x ∈ LG, look 0 x.2 A.k z.log = some (some (.w ⟨.reg x.1, 0#_⟩))
  f : ∀ x ∈ LF cfg, look 0 x.2 (A.fb x.1) z.log = some (some (.f x.1 (.init x.1)))
  c : cfg.guard = true → look 0 0x10 A.k z.log = some (some (.w ⟨.spec guard, 0#_⟩))
  a : look 0 0x48 A.k z.log = some none

theorem jump_save (cfg : Cfg) : ∃ h, SaveOk cfg ((C false).fin ((E (jumpIs cfg)).take (nsave cfg)) h) := by
  obtain ⟨_ | _, _ | _⟩ := cfg <;> exact ⟨by decide +kernel, ⟨by decide +kernel, by decide +kernel, by decide +kernel, by decide +kernel, by decide +kernel⟩⟩

theorem ontop_save (cfg : Cfg) : ∃ h, SaveOk cfg ((C false).fin ((E (ontopIs cfg)).take (nsave cfg + 1)) h) := by
  obtain ⟨_ | _, _ | _⟩ := cfg <;> exact ⟨by decide +kernel, ⟨by decide +kernel, by decide +kernel, by decide +kernel, by decide +kernel, by decide +kernel⟩⟩

/-- the frame at `f` holds the context of `σ` -/
structure Frame (cfg : Cfg) (σ : St A) (m : Mem A) (f : A.W) : Prop where
  g : ∀ x ∈ LG, load m (f + off A x.2) A.k = σ.gpr x.1
  fs : ∀ x ∈ LF cfg, load m (f + off A x.2) (A.fb x.1) = σ.fpr x.1
  c : cfg.guard = true → load m (f + off A 0x10) A.k = σ.fpr guard
  a : load m (f + off A 0x48) A.k = load σ.mem (σ.gpr rsp) A.k

theorem frame_of {cfg : Cfg} {e : Env A} {σ s : St A} {z : SSt A} (h : Rel (C false) (I e σ) z s) (hz : SaveOk cfg z) :
    Frame cfg σ s.mem (σ.gpr rsp - off A 0x48) where
  g x hx := by
    have := h.word (i := 0) (o := x.2) hz.v (by revert x; decide) (hz.g x hx)
    simpa [Itp.sv, Itp.atom, I] using this
  fs x hx := by
    have := h.special (i := 0) (o := x.2) hz.v (by revert x; obtain ⟨_ | _, _ | _⟩ := cfg <;> decide) (hz.f x hx)
    simpa [Itp.fv, I] using this
  c hc := by
    have := h.word (i := 0) (o := 0x10) hz.v (by decide) (hz.c hc)
    simp only [Itp.sv, Itp.atom, I] at this
    rw [if_pos trivial] at this
    rw [this]
    simp
    rfl
  a := by
    have := h.same 0 0x48 A.k hz.v (by decide) hz.a
    simp only [I] at this
    rw [if_pos trivial, sub_add_off] at this
    rw [sub_add_off]
    exact this

theorem left_frame {cfg : Cfg} {e : Env A} {σ : St A} {m : Mem A} (h : (port cfg).Left e σ m) : Frame cfg σ m (σ.gpr rsp - off A 0x48) := by
  rcases h with h | h
  · obtain ⟨h1, h2⟩ := jump_save cfg
    have h3 := frame_of (fin_rel (I_ok false e σ (by simp)) _ h1) h2
    rw [← h]
    have : (exec e (port cfg).jump σ).1.mem = (steps e ((E (jumpIs cfg)).take (nsave cfg)) σ).mem := by
      show (steps e (E (jumpIs cfg)) σ).mem = _
      conv => lhs; rw [← List.take_append_drop (nsave cfg) (E (jumpIs cfg)), steps_append]
      exact steps_pure _ _ (by obtain ⟨_ | _, _ | _⟩ := cfg <;> rfl) _
    rw [this]; exact h3
  · obtain ⟨h1, h2⟩ := ontop_save cfg
    have h3 := frame_of (fin_rel (I_ok false e σ (by simp)) _ h1) h2
    rw [← h]
    have : (exec e (port cfg).ontop σ).1.mem = (steps e ((E (ontopIs cfg)).take (nsave cfg + 1)) σ).mem := by
      show (steps e (E (ontopIs cfg)) σ).mem = _
      conv => lhs; rw [← List.take_append_drop (nsave cfg + 1) (E (ontopIs cfg)), steps_append]
      exact steps_pure _ _ (by obtain ⟨_ | _, _ | _⟩ := cfg <;> rfl) _
    rw [this]; exact h3

def LR : List (A.R × Nat) := [(r12, 0x18), (r13, 0x20), (r14, 0x28), (r15, 0x30), (rbx, 0x38), (rbp, 0x40)]

/-- a complete run that restores the context at base 1, leaves the stack pointer `n` bytes above it and the shadow stack pointer `q` bytes above the saved one -/
structure RestoreOk (cfg : Cfg) (n q : Nat) (z : SSt A) : Prop where
  g : ∀ x ∈ LR, z.gpr x.1 = ⟨.ld 1 x.2, 0#_⟩
  f : ∀ x ∈ LF cfg, z.fpr x.1 = .ld 1 x.2
  c : cfg.guard = true → z.fpr guard = .ofG ⟨.ld 1 0x10, 0#_⟩
  sp : z.gpr rsp = ⟨.reg rdi, off A n⟩
  ss : z.gpr ssp = ⟨.ld 1 0, off A q⟩
  rax : z.gpr rax = ⟨.reg rsp, -off A 0x48⟩
  rdx : z.gpr rdx = ⟨.reg rsi, 0#_⟩
  rdi : z.gpr rdi = ⟨.reg rsp, -off A 0x48⟩
  rsi : z.gpr rsi = ⟨.reg rsi, 0#_⟩
  w : ∀ x ∈ z.log, x.1 = 0
  v : z.valid 1 = true

theorem jump_restore (cfg : Cfg) : ∃ h, RestoreOk cfg 0x50 8 ((C true).fin (E (jumpIs cfg)) h) ∧ ((C true).fin (E (jumpIs cfg)) h).gpr r8 = ⟨.ld 1 0x48, 0#_⟩ := by
  obtain ⟨_ | _, _ | _⟩ := cfg <;> exact ⟨by decide +kernel, ⟨by decide +kernel, by decide +kernel, by decide +kernel, by decide +kernel, by decide +kernel,
    by decide +kernel, by decide +kernel, by decide +kernel, by decide +kernel, by decide +kernel, by decide +kernel⟩, by decide +kernel⟩

theorem ontop_restore (cfg : Cfg) : ∃ h, RestoreOk cfg 0x48 0 ((C true).fin (E (ontopIs cfg)) h) ∧ ((C true).fin (E (ontopIs cfg)) h).gpr r8 = ⟨.reg rdx, 0#_⟩ ∧
    look 1 0x48 A.k ((C true).fin (E (ontopIs cfg)) h).log = some none := by
  obtain ⟨_ | _, _ | _⟩ := cfg <;> exact ⟨by decide +kernel, ⟨by decide +kernel, by decide +kernel, by decide +kernel, by decide +kernel, by decide +kernel,
    by decide +kernel, by decide +kernel, by decide +kernel, by decide +kernel, by decide +kernel, by decide +kernel⟩, by decide +kernel, by decide +kernel⟩

/-- what a call with entry state `τ` that targets the intact context `σ` finds -/
theorem target {cfg : Cfg} {e : Env A} {σ τ : St A} {m : Mem A} (hl : (port cfg).Left e σ m) (hi : (port cfg).Intact σ m τ)
    (ha : (port cfg).argF τ = (port cfg).fctx σ) : Frame cfg σ τ.mem (τ.gpr rdi) ∧ ∀ a, InR a (τ.gpr rdi) 0x50 → ¬ InR a (τ.gpr rsp - off A 0x48) 0x48 := by
  obtain ⟨-, -, -, -, h4, h5⟩ := hi
  have ha : τ.gpr rdi = σ.gpr rsp - off A 0x48 := ha
  rw [ha]
  refine ⟨?_, h5⟩
  have hf := left_frame hl
  have h4 : ∀ a, InR a (σ.gpr rsp - off A 0x48) 0x50 → τ.mem a = m a := h4
  constructor
  · intro x hx; rw [← hf.g x hx]; exact load_agree h4 (by revert x; decide) (by decide)
  · intro x hx; rw [← hf.fs x hx]; exact load_agree h4 (by revert x; obtain ⟨_ | _, _ | _⟩ := cfg <;> decide) (by decide)
  · intro hc; rw [← hf.c hc]; exact load_agree h4 (by decide) (by decide)
  · rw [← hf.a]; exact load_agree h4 (by decide) (by decide)

theorem ld0 (e : Env A) (τ : St A) (q : Nat) : (I e τ).sv ⟨.ld 1 0, off A q⟩ = load τ.mem (τ.gpr rdi) A.k + off A q := by
  simp [Itp.sv, Itp.atom, I, off]

/-- what holds after a run that restores `σ` -/
theorem restored {cfg : Cfg} {n q : Nat} {e : Env A} {σ τ s : St A} {z : SSt A} (hr : Rel (C true) (I e τ) z s) (hz : RestoreOk cfg n q z)
    (hf : Frame cfg σ τ.mem (τ.gpr rdi)) : s.gpr rsp = τ.gpr rdi + off A n ∧ (∀ r ∈ (port cfg).saved, s.gpr r = σ.gpr r) ∧
    (∀ f ∈ (port cfg).fsaved, s.fpr f = σ.fpr f) ∧ s.gpr ssp = σ.gpr ssp + off A q := by
  refine ⟨?_, ?_, ?_, ?_⟩
  · rw [hr.reg hz.sp]; simp [Itp.sv, Itp.atom, I]
  · have : ∀ x ∈ LR, s.gpr x.1 = σ.gpr x.1 := by
      intro x hx
      rw [hr.reg (hz.g x hx), ← hf.g x (List.mem_cons_of_mem _ hx)]
      simp [Itp.sv, Itp.atom, I]
    simp only [LR, List.forall_mem_cons] at this
    obtain ⟨h1, h2, h3, h4, h5, h6, -⟩ := this
    intro r hr
    simp only [port, List.mem_cons, List.not_mem_nil, or_false] at hr
    rcases hr with rfl | rfl | rfl | rfl | rfl | rfl <;> assumption
  · intro f hfm
    simp only [port, List.mem_append] at hfm
    rcases hfm with h | h
    · have : ∃ o, (f, o) ∈ LF cfg := by
        simp only [LF]
        split at h
        · simp at h
        · rename_i hh
          simp only [hh]
          simp only [List.mem_cons, List.not_mem_nil, or_false] at h
          rcases h with rfl | rfl
          · exact ⟨8, by simp⟩
          · exact ⟨0xc, by simp⟩
      obtain ⟨o, ho⟩ := this
      rw [hr.fpr, hz.f _ ho, ← hf.fs _ ho]
      simp [Itp.fv, I]
    · split at h
      · rename_i hg
        simp only [List.mem_cons, List.not_mem_nil, or_false] at h
        subst h
        rw [hr.fpr, hz.c hg, ← hf.c hg]
        simp only [Itp.fv, Itp.sv, Itp.atom, I]
        simp
        rfl
      · simp at h
  · rw [hr.reg hz.ss, ld0]
    have := hf.g (ssp, 0) (by decide)
    rw [← this]
    congr 2
    simp [off]

theorem wrote {n q : Nat} {cfg : Cfg} {e : Env A} {τ s : St A} {z : SSt A} (hr : Rel (C true) (I e τ) z s) (hz : RestoreOk cfg n q z) (a : A.W)
    (h : s.mem a ≠ τ.mem a) : InR a (τ.gpr rsp - off A 0x48) 0x48 := by
  obtain ⟨i, ⟨x, hx, rfl⟩, h2⟩ := hr.frame a h
  rw [hz.w x hx] at h2
  have : (I e τ).β 0 + off A 0 = τ.gpr rsp - off A 0x48 := by simp [I, off]
  simp only [C, if_true] at h2
  rw [this] at h2
  exact h2

theorem jump_ok (cfg : Cfg) (e : Env A) (σ τ : St A) (m : Mem A) (hl : (port cfg).Left e σ m) (hi : (port cfg).Intact σ m τ) (ha : (port cfg).argF τ = (port cfg).fctx σ) :
    (port cfg).Returned σ (exec e (port cfg).jump τ).1 (exec e (port cfg).jump τ).2 ∧ (port cfg).resF σ (exec e (port cfg).jump τ).1 = (port cfg).fctx τ ∧
    (port cfg).resD σ (exec e (port cfg).jump τ).1 = (port cfg).argD τ ∧
    (∀ a, (exec e (port cfg).jump τ).1.mem a ≠ τ.mem a → InR a ((port cfg).fctx τ) (port cfg).frame) ∧
    (exec e (port cfg).jump τ).1.gpr ssp = σ.gpr ssp + off A 8 := by
  obtain ⟨hf, hd⟩ := target hl hi ha
  have ha : τ.gpr rdi = σ.gpr rsp - off A 0x48 := ha
  obtain ⟨h1, h2, h3⟩ := jump_restore cfg
  have hr := fin_rel (I_ok true e τ (fun _ => hd)) _ h1
  obtain ⟨s, hs⟩ : ∃ s, s = steps (I e τ).e (E (jumpIs cfg)) (I e τ).σ := ⟨_, rfl⟩
  have hx : exec e (port cfg).jump τ = (s, s.gpr r8) := by rw [hs]; rfl
  rw [← hs] at hr
  rw [hx]
  obtain ⟨r1, r2, r3, r4⟩ := restored hr h2 hf
  refine ⟨⟨?_, ?_, r2, r3⟩, ?_, ?_, ?_, r4⟩
  · show s.gpr r8 = load σ.mem (σ.gpr rsp) A.k
    rw [hr.reg h3, ← hf.a]; simp [Itp.sv, Itp.atom, I]
  · show s.gpr rsp = σ.gpr rsp + off A 8
    rw [r1, ha]; simp only [off]; grind
  · show s.gpr rax = τ.gpr rsp - off A 0x48
    rw [hr.reg h2.rax]; simp only [Itp.sv, Itp.atom, I]; grind
  · show s.gpr rdx = τ.gpr rsi
    rw [hr.reg h2.rdx]; simp [Itp.sv, Itp.atom, I]
  · intro a h; exact wrote hr h2 a h

theorem ontop_ok (cfg : Cfg) (e : Env A) (σ τ : St A) (m : Mem A) (hl : (port cfg).Left e σ m) (hi : (port cfg).Intact σ m τ) (ha : (port cfg).argF τ = (port cfg).fctx σ) :
    (exec e (port cfg).ontop τ).2 = (port cfg).argFn τ ∧ (port cfg).CalledAs σ (exec e (port cfg).ontop τ).1 ((port cfg).fctx τ) ((port cfg).argD τ) ∧
    (∀ a, (exec e (port cfg).ontop τ).1.mem a ≠ τ.mem a → InR a ((port cfg).fctx τ) (port cfg).frame) ∧
    (exec e (port cfg).ontop τ).1.gpr ssp = σ.gpr ssp := by
  obtain ⟨hf, hd⟩ := target hl hi ha
  have ha : τ.gpr rdi = σ.gpr rsp - off A 0x48 := ha
  obtain ⟨h1, h2, h3, h4⟩ := ontop_restore cfg
  have hr := fin_rel (I_ok true e τ (fun _ => hd)) _ h1
  obtain ⟨s, hs⟩ : ∃ s, s = steps (I e τ).e (E (ontopIs cfg)) (I e τ).σ := ⟨_, rfl⟩
  have hx : exec e (port cfg).ontop τ = (s, s.gpr r8) := by rw [hs]; rfl
  rw [← hs] at hr
  rw [hx]
  obtain ⟨r1, r2, r3, r4⟩ := restored hr h2 hf
  refine ⟨?_, ⟨?_, ?_, r2, r3, fun _ => Iff.rfl, ?_, ?_⟩, ?_, ?_⟩
  · show s.gpr r8 = τ.gpr rdx
    rw [hr.reg h3]; simp [Itp.sv, Itp.atom, I]
  · show load s.mem (s.gpr rsp) A.k = load σ.mem (σ.gpr rsp) A.k
    rw [r1, ← hf.a]
    exact hr.same 1 0x48 A.k h2.v (by decide) h4
  · show s.gpr rsp + off A 8 = σ.gpr rsp + off A 8
    rw [r1, ha]; simp only [off]; grind
  · show s.gpr rdi = τ.gpr rsp - off A 0x48
    rw [hr.reg h2.rdi]; simp only [Itp.sv, Itp.atom, I]; grind
  · show s.gpr rsi = τ.gpr rsi
    rw [hr.reg h2.rsi]; simp [Itp.sv, Itp.atom, I]
  · intro a h; exact wrote hr h2 a h
  · show s.gpr ssp = _
    rw [r4]; simp [off]

/-! ## On the machine with shadow stacks -/

theorem E_append (l l' : List CI) : E (l ++ l') = E l ++ E l' := List.flatMap_append

theorem crun_inc (e : Env A) (c : CSt) : crun e [.i (.movi rcx (off A 1)), .incssp rcx] c = some { c with s := steps e (E [.i (.movi rcx (off A 1)), .incssp rcx]) c.s } := by
  have h : ∀ s : St A, (setg s rcx (off A 1)).gpr rcx = off A 1 := fun _ => rfl
  have h' : 8 * ((off A 1).toNat % 256) = 8 := by decide
  simp only [crun, cstep, step, Option.bind_some, h, h', E, List.flatMap_cons, List.flatMap_nil, erase, List.cons_append, List.nil_append, steps]

/-- a routine that switches the shadow stack once -/
theorem crun_switch (e : Env A) (l1 l2 l3 : List CI) (b : A.R) (h1 : l1.all CI.simple = true)
    (h2 : ∀ c : CSt, crun e l2 c = some { c with s := steps e (E l2) c.s }) (h3 : l3.all CI.simple = true) (c : CSt)
    (hs : (steps e (E l1) c.s).gpr ssp = c.ssp) (ha : c.ssp.toNat % 8 = 0) :
    crun e (l1 ++ ([.rstorssp b (-off A 8), .saveprev] ++ (l2 ++ l3))) c = if TokOk c.sh ((steps e (E l1) c.s).gpr b) then
      some { s := steps e (E (l1 ++ ([.rstorssp b (-off A 8), .saveprev] ++ (l2 ++ l3)))) c.s, sh := sw c.sh ((steps e (E l1) c.s).gpr b) c.ssp, cf := false } else none := by
  rw [crun_append, crun_simple e l1 h1, Option.bind_some, crun_append, switch]
  · simp only [E_append, steps_append]
    obtain ⟨s, hss⟩ : ∃ s, s = steps e (E l1) c.s := ⟨_, rfl⟩
    rw [← hss] at hs ⊢
    have hs' : (CSt.mk s c.sh c.cf).ssp = c.ssp := hs
    rw [hs']
    split
    · rw [Option.bind_some, crun_append, h2, Option.bind_some, crun_simple e l3 h3]
      rfl
    · rfl
  · show ((steps e (E l1) c.s).gpr ssp).toNat % 8 = 0
    rw [hs]; exact ha

theorem jump_split (cfg : Cfg) : jumpIs cfg = (jumpIs cfg).take (nsave cfg + 4) ++ ([.rstorssp rcx (-off A 8), .saveprev] ++
    ([.i (.movi rcx (off A 1)), .incssp rcx] ++ (jumpIs cfg).drop (nsave cfg + 8))) := by
  obtain ⟨_ | _, _ | _⟩ := cfg <;> rfl

theorem ontop_split (cfg : Cfg) : ontopIs cfg = (ontopIs cfg).take (nsave cfg + 5) ++ ([.rstorssp rcx (-off A 8), .saveprev] ++
    ([] ++ (ontopIs cfg).drop (nsave cfg + 7))) := by
  obtain ⟨_ | _, _ | _⟩ := cfg <;> rfl

theorem jump_rcx (cfg : Cfg) : ∃ h, ((C true).fin (E ((jumpIs cfg).take (nsave cfg + 4))) h).gpr rcx = ⟨.ld 1 0, 0#_⟩ := by
  obtain ⟨_ | _, _ | _⟩ := cfg <;> exact ⟨by decide +kernel, by decide +kernel⟩

theorem ontop_rcx (cfg : Cfg) : ∃ h, ((C true).fin (E ((ontopIs cfg).take (nsave cfg + 5))) h).gpr rcx = ⟨.ld 1 0, 0#_⟩ := by
  obtain ⟨_ | _, _ | _⟩ := cfg <;> exact ⟨by decide +kernel, by decide +kernel⟩

theorem ssp_keep (e : Env A) (l : List (Instr A)) (h : ∀ i ∈ l, i.dest ≠ some (.g ssp)) (s : St A) : (steps e l s).gpr ssp = s.gpr ssp := by
  exact steps_dest e l (.g ssp) h s

theorem jump_simple (cfg : Cfg) : ((jumpIs cfg).take (nsave cfg + 4)).all CI.simple = true ∧ ((jumpIs cfg).drop (nsave cfg + 8)).all CI.simple = true ∧
    ∀ i ∈ E ((jumpIs cfg).take (nsave cfg + 4)), i.dest ≠ some (.g ssp) := by
  obtain ⟨_ | _, _ | _⟩ := cfg <;> exact ⟨rfl, rfl, by decide⟩

theorem ontop_simple (cfg : Cfg) : ((ontopIs cfg).take (nsave cfg + 5)).all CI.simple = true ∧ ((ontopIs cfg).drop (nsave cfg + 7)).all CI.simple = true ∧
    ∀ i ∈ E ((ontopIs cfg).take (nsave cfg + 5)), i.dest ≠ some (.g ssp) := by
  obtain ⟨_ | _, _ | _⟩ := cfg <;> exact ⟨rfl, rfl, by decide⟩

/-- `jump_fcontext`: the shadow stack pointer to switch to, at the moment `rstorssp` is executed -/
theorem crun_jump (cfg : Cfg) (e : Env A) (c : CSt) (ha : c.ssp.toNat % 8 = 0) : ∃ T, crun e (jumpIs cfg) c = (if TokOk c.sh T then
      some { s := steps e (E (jumpIs cfg)) c.s, sh := sw c.sh T c.ssp, cf := false } else none) ∧
    ((∀ a, InR a (c.s.gpr rdi) 0x50 → ¬ InR a (c.s.gpr rsp - off A 0x48) 0x48) → T = load c.s.mem (c.s.gpr rdi) A.k) := by
  refine ⟨(steps e (E ((jumpIs cfg).take (nsave cfg + 4))) c.s).gpr rcx, ?_, ?_⟩
  · obtain ⟨h1, h2, h3⟩ := jump_simple cfg
    have := crun_switch e _ [.i (.movi rcx (off A 1)), .incssp rcx] _ rcx h1 (crun_inc e) h2 c (ssp_keep e _ h3 _) ha
    rw [← jump_split] at this
    exact this
  · intro hd
    obtain ⟨h1, h2⟩ := jump_rcx cfg
    have hr := fin_rel (I_ok true e c.s (fun _ => hd)) _ h1
    refine (hr.reg h2).trans ?_
    exact (ld0 e c.s 0).trans (by simp [off])

theorem crun_ontop (cfg : Cfg) (e : Env A) (c : CSt) (ha : c.ssp.toNat % 8 = 0) : ∃ T, crun e (ontopIs cfg) c = (if TokOk c.sh T then
      some { s := steps e (E (ontopIs cfg)) c.s, sh := sw c.sh T c.ssp, cf := false } else none) ∧
    ((∀ a, InR a (c.s.gpr rdi) 0x50 → ¬ InR a (c.s.gpr rsp - off A 0x48) 0x48) → T = load c.s.mem (c.s.gpr rdi) A.k) := by
  refine ⟨(steps e (E ((ontopIs cfg).take (nsave cfg + 5))) c.s).gpr rcx, ?_, ?_⟩
  · obtain ⟨h1, h2, h3⟩ := ontop_simple cfg
    have := crun_switch e _ [] _ rcx h1 (fun _ => rfl) h2 c (ssp_keep e _ h3 _) ha
    rw [← ontop_split] at this
    exact this
  · intro hd
    obtain ⟨h1, h2⟩ := ontop_rcx cfg
    have hr := fin_rel (I_ok true e c.s (fun _ => hd)) _ h1
    refine (hr.reg h2).trans ?_
    exact (ld0 e c.s 0).trans (by simp [off])

/-- The call `σ` of `jump_fcontext` or `ontop_fcontext` has left its context, without a fault, in state `m`. -/
def CLeft (cfg : Cfg) (e : Env A) (σ m : CSt) : Prop := ∃ pc, cexec e (jumpIs cfg) r8 σ = some (m, pc) ∨ cexec e (ontopIs cfg) r8 σ = some (m, pc)

theorem cleft {cfg : Cfg} {e : Env A} {σ m : CSt} (ha : σ.ssp.toNat % 8 = 0) (h : CLeft cfg e σ m) :
    (port cfg).Left e σ.s m.s.mem ∧ load m.sh (σ.ssp - off A 8) A.k = σ.ssp + off A 1 := by
  obtain ⟨pc, h | h⟩ := h
  · obtain ⟨T, h1, -⟩ := crun_jump cfg e σ ha
    rw [cexec, h1] at h
    split at h
    · have h := congrArg Prod.fst (Option.some.inj h)
      dsimp only at h
      rw [← h]
      exact ⟨.inl rfl, sw_token _ _ _⟩
    · cases h
  · obtain ⟨T, h1, -⟩ := crun_ontop cfg e σ ha
    rw [cexec, h1] at h
    split at h
    · have h := congrArg Prod.fst (Option.some.inj h)
      dsimp only at h
      rw [← h]
      exact ⟨.inr rfl, sw_token _ _ _⟩
    · cases h

theorem sh_agree {m m' : Mem A} {b : A.W} (h : ∀ a, InR a b 8 → m' a = m a) : load m' b A.k = load m b A.k := load_congr (by decide) h

/-- What must hold between the suspension in `σ` (leaving state `m`) and the call `τ` that switches back: the ordinary memory as without shadow stacks (`Port.Intact`); shadow
stack pointers are multiples of 8; the word below the top of the suspended shadow stack is unchanged. -/
structure CIntact (cfg : Cfg) (σ m τ : CSt) : Prop where
  main : (port cfg).Intact σ.s m.s.mem τ.s
  al : σ.ssp.toNat % 8 = 0
  al' : τ.ssp.toNat % 8 = 0
  tok : ∀ a, InR a (σ.ssp - off A 8) 8 → τ.sh a = m.sh a

theorem tok_of {cfg : Cfg} {e : Env A} {σ m τ : CSt} (hl : CLeft cfg e σ m) (hi : CIntact cfg σ m τ) : TokOk τ.sh σ.ssp :=
  tokOk hi.al (by rw [sh_agree hi.tok]; exact (cleft hi.al hl).2)

theorem saved_ssp {cfg : Cfg} {e : Env A} {σ m τ : CSt} (hl : CLeft cfg e σ m) (hi : CIntact cfg σ m τ) (ha : (port cfg).argF τ.s = (port cfg).fctx σ.s) :
    load τ.s.mem (τ.s.gpr rdi) A.k = σ.ssp ∧ ∀ a, InR a (τ.s.gpr rdi) 0x50 → ¬ InR a (τ.s.gpr rsp - off A 0x48) 0x48 := by
  obtain ⟨hf, hd⟩ := target (cleft hi.al hl).1 hi.main ha
  refine ⟨?_, hd⟩
  have := hf.g (ssp, 0) (by decide)
  have e0 : τ.s.gpr rdi + off A 0 = τ.s.gpr rdi := by simp [off]
  rw [e0] at this
  exact this

/-- **C66**, switching: resuming a suspended context does not fault and continues as if the suspended call had returned: as in C30, and the return address is popped from the
shadow stack of the resumed context too.  Of shadow stack memory, only the words just below the tops of the two shadow stacks are written. -/
theorem C66_cet_jump (cfg : Cfg) (e : Env A) (σ m τ : CSt) (hl : CLeft cfg e σ m) (hi : CIntact cfg σ m τ) (ha : (port cfg).argF τ.s = (port cfg).fctx σ.s) :
    ∃ s pc, cexec e (jumpIs cfg) r8 τ = some (s, pc) ∧ (port cfg).Returned σ.s s.s pc ∧ s.ssp = σ.ssp + off A 8 ∧
      (port cfg).resF σ.s s.s = (port cfg).fctx τ.s ∧ (port cfg).resD σ.s s.s = (port cfg).argD τ.s ∧
      (∀ a, s.s.mem a ≠ τ.s.mem a → InR a ((port cfg).fctx τ.s) (port cfg).frame) ∧
      (∀ a, s.sh a ≠ τ.sh a → InR a (σ.ssp - off A 8) 8 ∨ InR a (τ.ssp - off A 8) 8) := by
  obtain ⟨j1, j2, j3, j4, j5⟩ := jump_ok cfg e σ.s τ.s _ (cleft hi.al hl).1 hi.main ha
  obtain ⟨T, h1, h2⟩ := crun_jump cfg e τ hi.al'
  obtain ⟨h3, h4⟩ := saved_ssp hl hi ha
  rw [h2 h4, h3, if_pos (tok_of hl hi)] at h1
  refine ⟨_, _, by rw [cexec, h1]; rfl, j1, j5, j2, j3, j4, fun a h => sw_frame h⟩

/-- **C66**, on-top calls: the on-top function is entered as in C30, and the top of its shadow stack is the word the suspended call had at the top of the shadow stack; so if the
two stacks agreed on the return address at the entry of the suspended call, they do so at the entry of the on-top function, and its `ret` does not fault. -/
theorem C66_cet_ontop (cfg : Cfg) (e : Env A) (σ m τ : CSt) (hl : CLeft cfg e σ m) (hi : CIntact cfg σ m τ) (ha : (port cfg).argF τ.s = (port cfg).fctx σ.s) :
    ∃ s, cexec e (ontopIs cfg) r8 τ = some (s, (port cfg).argFn τ.s) ∧ (port cfg).CalledAs σ.s s.s ((port cfg).fctx τ.s) ((port cfg).argD τ.s) ∧ s.ssp = σ.ssp ∧
      (∀ a, s.s.mem a ≠ τ.s.mem a → InR a ((port cfg).fctx τ.s) (port cfg).frame) ∧
      (∀ a, s.sh a ≠ τ.sh a → InR a (σ.ssp - off A 8) 8 ∨ InR a (τ.ssp - off A 8) 8) ∧
      ((∀ a, InR a (τ.ssp - off A 8) 8 → ¬ InR a σ.ssp 8) → load τ.sh σ.ssp A.k = (port cfg).ra σ.s →
        ∃ s', cstep e s .ret = some s' ∧ s'.s.gpr rip = (port cfg).ra σ.s ∧ s'.s.gpr rsp = (port cfg).spRet σ.s ∧ s'.ssp = σ.ssp + off A 8) := by
  obtain ⟨j1, j2, j3, j4⟩ := ontop_ok cfg e σ.s τ.s _ (cleft hi.al hl).1 hi.main ha
  obtain ⟨T, h1, h2⟩ := crun_ontop cfg e τ hi.al'
  obtain ⟨h3, h4⟩ := saved_ssp hl hi ha
  rw [h2 h4, h3, if_pos (tok_of hl hi)] at h1
  refine ⟨_, by rw [cexec, h1]; exact congrArg some (Prod.ext rfl j1), j2, j4, j3, fun a h => sw_frame h, ?_⟩
  intro hd ht
  obtain ⟨s, hs⟩ : ∃ s, s = steps e (E (ontopIs cfg)) τ.s := ⟨_, rfl⟩
  have j2 : (port cfg).CalledAs σ.s s ((port cfg).fctx τ.s) ((port cfg).argD τ.s) := by rw [hs]; exact j2
  have j4 : s.gpr ssp = σ.ssp := by rw [hs]; exact j4
  rw [← hs]
  have r1 : load s.mem (s.gpr rsp) A.k = (port cfg).ra σ.s := j2.ra
  have r2 : s.gpr rsp + off A 8 = (port cfg).spRet σ.s := j2.spRet
  have hsh : load (sw τ.sh σ.ssp τ.ssp) σ.ssp A.k = load τ.sh σ.ssp A.k := by
    refine sh_agree (fun a h => ?_)
    apply Classical.byContradiction
    intro hne
    rcases sw_frame hne with h' | h'
    · have e1 : σ.ssp = σ.ssp - off A 8 + off A 8 := (sub_add_off _ _).symm
      rw [e1] at h
      have h' : InR a (σ.ssp - off A 8 + off A 0) 8 := by simpa [off] using h'
      exact inR_disj h (by decide) (by decide) (.inr (by decide)) h'
    · exact hd a h' h
  have hc : load (sw τ.sh σ.ssp τ.ssp) (s.gpr ssp) A.k = load s.mem (s.gpr rsp) A.k := by rw [j4, hsh, ht, r1]
  refine ⟨_, by simp only [cstep, CSt.ssp]; rw [if_pos hc], ?_, ?_, ?_⟩
  · exact r1
  · exact r2
  · show s.gpr ssp + off A 8 = _
    rw [j4]

/-- **C66**, protection: a switch to a target whose saved shadow stack pointer does not designate a valid restore token faults. -/
theorem C66_cet_no_token (cfg : Cfg) (e : Env A) (τ : CSt) (ha : τ.ssp.toNat % 8 = 0)
    (hd : ∀ a, InR a ((port cfg).argF τ.s) (port cfg).keep → ¬ InR a ((port cfg).fctx τ.s) (port cfg).frame)
    (ht : (load τ.sh (load τ.s.mem ((port cfg).argF τ.s) A.k - off A 8) A.k : A.W).toNat % 4 ≠ 1) :
    cexec e (jumpIs cfg) r8 τ = none ∧ cexec e (ontopIs cfg) r8 τ = none := by
  have hn : ¬ TokOk τ.sh (load τ.s.mem (τ.s.gpr rdi) A.k) := fun h => ht h.2.1
  obtain ⟨T, h1, h2⟩ := crun_jump cfg e τ ha
  obtain ⟨T', h1', h2'⟩ := crun_ontop cfg e τ ha
  rw [h2 hd, if_neg hn] at h1
  rw [h2' hd, if_neg hn] at h1'
  exact ⟨by rw [cexec, h1]; rfl, by rw [cexec, h1']; rfl⟩

/-- **C66**, one-shot: a context that has been resumed (by `jump_fcontext` or `ontop_fcontext`, from a different shadow stack position) cannot be resumed through the same
`fcontext_t` again: unless the word of the shadow stack that held the token is written in between, the second attempt faults. -/
theorem C66_cet_one_shot (cfg : Cfg) (e : Env A) (σ m τ s τ' : CSt) (pc : A.W) (hl : CLeft cfg e σ m) (hi : CIntact cfg σ m τ)
    (ha : (port cfg).argF τ.s = (port cfg).fctx σ.s) (hne : ∀ a, InR a (τ.ssp - off A 8) 8 → ¬ InR a (σ.ssp - off A 8) 8)
    (hs : cexec e (jumpIs cfg) r8 τ = some (s, pc) ∨ cexec e (ontopIs cfg) r8 τ = some (s, pc))
    (ha' : (port cfg).argF τ'.s = (port cfg).fctx σ.s) (hal : τ'.ssp.toNat % 8 = 0) (hm : ∀ a, InR a ((port cfg).fctx σ.s) 8 → τ'.s.mem a = s.s.mem a)
    (hd : ∀ a, InR a ((port cfg).argF τ'.s) (port cfg).keep → ¬ InR a ((port cfg).fctx τ'.s) (port cfg).frame)
    (ht : ∀ a, InR a (σ.ssp - off A 8) 8 → τ'.sh a = s.sh a) :
    cexec e (jumpIs cfg) r8 τ' = none ∧ cexec e (ontopIs cfg) r8 τ' = none := by
  obtain ⟨h3, h4⟩ := saved_ssp hl hi ha
  have key : s.sh = sw τ.sh σ.ssp τ.ssp ∧ load s.s.mem ((port cfg).fctx σ.s) A.k = σ.ssp := by
    have hk : ∀ (sm : Mem A), (∀ a, sm a ≠ τ.s.mem a → InR a ((port cfg).fctx τ.s) (port cfg).frame) → load sm ((port cfg).fctx σ.s) A.k = σ.ssp := by
      intro sm hsm
      rw [← h3]
      have ha : τ.s.gpr rdi = (port cfg).fctx σ.s := ha
      rw [ha] at h4 ⊢
      refine sh_agree (fun a h => ?_)
      apply Classical.byContradiction
      intro hne
      exact h4 a (inR_mono h (by decide)) (hsm a hne)
    rcases hs with hs | hs
    · obtain ⟨-, -, -, j4, -⟩ := jump_ok cfg e σ.s τ.s _ (cleft hi.al hl).1 hi.main ha
      obtain ⟨T, h1, h2⟩ := crun_jump cfg e τ hi.al'
      rw [h2 h4, h3, if_pos (tok_of hl hi)] at h1
      rw [cexec, h1] at hs
      have hs := congrArg Prod.fst (Option.some.inj hs)
      dsimp only at hs
      rw [← hs]
      exact ⟨rfl, hk _ j4⟩
    · obtain ⟨-, -, j3, -⟩ := ontop_ok cfg e σ.s τ.s _ (cleft hi.al hl).1 hi.main ha
      obtain ⟨T, h1, h2⟩ := crun_ontop cfg e τ hi.al'
      rw [h2 h4, h3, if_pos (tok_of hl hi)] at h1
      rw [cexec, h1] at hs
      have hs := congrArg Prod.fst (Option.some.inj hs)
      dsimp only at hs
      rw [← hs]
      exact ⟨rfl, hk _ j3⟩
  refine C66_cet_no_token cfg e τ' hal hd ?_
  have hT : load τ'.s.mem ((port cfg).argF τ'.s) A.k = σ.ssp := by rw [ha', sh_agree hm, key.2]
  rw [hT, sh_agree ht, key.1]
  have hw : load (sw τ.sh σ.ssp τ.ssp) (σ.ssp - off A 8) A.k = τ.ssp + off A 3 := by
    rw [sw, load_store_out (by decide), load_store_out (by decide)]
    · exact load_store_same _ _ _ _ (by decide)
    · intro a h1 h2
      have e1 : τ.ssp - off A 4 = τ.ssp - off A 8 + off A 4 := by
        have : off A 8 = off A 4 + off A 4 := by decide
        rw [this]
        generalize off A 4 = x
        grind
      rw [e1] at h2
      exact hne a (inR_off h2 (by decide) (by decide)) h1
    · intro a h1 h2
      exact hne a h2 h1
  rw [hw, toNat_add hi.al' (by decide)]
  have := hi.al'
  omega

/-! ## New contexts -/

theorem cstep_call (e : Env A) (l : A.Lab) (c : CSt) :
    cstep e c (.call l) = some { c with s := steps e (erase (.call l)) c.s, sh := store c.sh (c.ssp - off A 8) A.k (e l) } := by
  have e0 : ∀ x : A.W, x + off A 0 = x := by intro x; simp [off]
  have h1 : ∀ (s : St A) (v : A.W), (setg s rip v).gpr rsp = s.gpr rsp := fun _ _ => rfl
  have h2 : ∀ (s : St A) (v w : A.W), (setg (setg s rip v) rsp w).gpr rip = v := fun _ _ _ => rfl
  have h3 : ∀ (s : St A) (v w : A.W), (setg (setg s rip v) rsp w).gpr rsp = w := fun _ _ _ => rfl
  have h4 : ∀ (s : St A) (v w : A.W) (m : Mem A), (St.mk (setg (setg s rip v) rsp w).gpr s.fpr m).gpr ssp = s.gpr ssp := fun _ _ _ _ => rfl
  simp only [cstep, erase, steps, step, h1, h2, h3, e0, BitVec.sub_eq_add_neg]
  rfl

/-- the base machine's address of a new context: one word below the data that `X86_64` would have -/
def ctxOf (σ : St A) : A.W := (σ.gpr rdi &&& mask A 4) - off A 0x50

/-- bases: 0 the new context's data, 1 the return address of `make_fcontext` and the word below, 2 the highest word below the top of the new stack -/
def CM : SCfg A where
  known := [(.msk rdi (mask A 4), 0, off A 0x50), (.reg rsp, 1, off A 8), (.reg rdi, 2, off A 8)]
  wr i := if i = 0 then (0, 0x50) else if i = 1 then (0, 8) else (0, 0)
  rd i := if i = 0 then 0x50 else if i = 1 then 0x10 else if i = 2 then 8 else 0
  D i j := i == 0 && j == 1 || i == 1 && j == 0

def IM (e : Env A) (σ : St A) : Itp A where
  σ := σ
  β i := if i = 0 then ctxOf σ else if i = 1 then σ.gpr rsp - off A 8 else σ.gpr rdi - off A 8
  e := e

theorem IM_ok (e : Env A) (σ : St A) (h : ∀ a, InR a (ctxOf σ) 0x50 → ¬ InR a (σ.gpr rsp - off A 8) 0x10) : (IM e σ).Ok CM where
  known := by
    intro x hx
    simp only [CM, List.mem_cons, List.not_mem_nil, or_false] at hx
    rcases hx with rfl | rfl | rfl
    · exact (sub_add_off _ _).symm
    · exact (sub_add_off _ _).symm
    · exact (sub_add_off _ _).symm
  disj := by
    intro i j hD
    simp only [CM, Bool.or_eq_true, Bool.and_eq_true, beq_iff_eq] at hD
    rcases hD with ⟨rfl, rfl⟩ | ⟨rfl, rfl⟩
    · intro a ha hb
      have e1 : (IM e σ).β 0 + off A 0 = ctxOf σ := by simp [IM, off]
      simp only [CM, if_true] at ha
      rw [e1] at ha
      exact h a ha hb
    · intro a ha hb
      have e1 : (IM e σ).β 1 + off A 0 = σ.gpr rsp - off A 8 := by simp [IM, off]
      have ha : InR a ((IM e σ).β 1 + off A 0) 8 := ha
      rw [e1] at ha
      exact h a hb (inR_mono ha (by decide))
  wr i := by simp only [CM]; split; decide; split <;> decide
  rd i := by simp only [CM]; split; decide; split; decide; split <;> decide

/-- the whole of `make_fcontext` -/
structure MakeOk (z : SSt A) : Prop where
  v : z.valid 0 = true
  g : ∀ r ∈ [rbx, rbp, r12, r13, r14, r15], z.gpr r = ⟨.reg r, 0#_⟩
  f : ∀ q, z.fpr q = .init q
  res : z.gpr rax = ⟨.msk rdi (mask A 4), -off A 0x50⟩
  sp : z.gpr rsp = ⟨.reg rsp, off A 8⟩
  ss : z.gpr ssp = ⟨.reg ssp, off A 8⟩
  pc : z.gpr rip = ⟨.ld 1 8, 0#_⟩
  sv : look 0 0 A.k z.log = some (some (.w ⟨.ld 2 0, -off A 8⟩))
  fn : look 0 0x38 A.k z.log = some (some (.w ⟨.reg rdx, 0#_⟩))
  bp : look 0 0x40 A.k z.log = some (some (.w ⟨.lab Lab.l1, 0#_⟩))
  tr : look 0 0x48 A.k z.log = some (some (.w ⟨.lab Lab.trampoline, 0#_⟩))
  mx : look 0 8 4 z.log = some (some (.f mxcsr (.init mxcsr)))
  cw : look 0 0xc 2 z.log = some (some (.f x87cw (.init x87cw)))
  w : ∀ x ∈ z.log, x.1 = 0 ∨ x.1 = 1

theorem make_ok (t : Bool) : ∃ h, MakeOk (CM.fin (E (makeIs ⟨t, false⟩)) h) := by
  cases t <;> exact ⟨by decide +kernel, ⟨by decide +kernel, by decide +kernel, by intro q; cases q <;> decide +kernel, by decide +kernel, by decide +kernel, by decide +kernel,
    by decide +kernel, by decide +kernel, by decide +kernel, by decide +kernel, by decide +kernel, by decide +kernel, by decide +kernel, by decide +kernel⟩⟩

def mk1 (t : Bool) : List CI := (makeIs ⟨t, false⟩).take 13
def mk2 : List CI := [.i (.ld rip rsp 0), .i (.addi rsp rsp (off A 8)), .i (.st rip rax 0x38), .rdssp r9]
def mk3 : List CI := [.i (.addi rax rax (-off A 8)), .i (.st r9 rax 0)]
def sw1 (b : A.R) : List CI := [.rstorssp b (-off A 8), .saveprev]

theorem make_split (t : Bool) : makeIs ⟨t, false⟩ = mk1 t ++ (sw1 r9 ++ ([.call Lab.l1] ++ (mk2 ++ (sw1 r8 ++ (mk3 ++ [.ret]))))) := by
  cases t <;> rfl

theorem make_p1 (t : Bool) : ∃ h, (CM.fin (E (mk1 t)) h).gpr r9 = ⟨.ld 2 0, 0#_⟩ ∧ (CM.fin (E (mk1 t)) h).gpr ssp = ⟨.reg ssp, 0#_⟩ := by
  cases t <;> exact ⟨by decide +kernel, by decide +kernel, by decide +kernel⟩

def mkp2 (t : Bool) : List CI := mk1 t ++ sw1 r9
theorem make_p2 (t : Bool) : ∃ h, (CM.fin (E (mkp2 t)) h).gpr ssp = ⟨.ld 2 0, 0#_⟩ := by
  cases t <;> exact ⟨by decide +kernel, by decide +kernel⟩

def mkp3 (t : Bool) : List CI := mkp2 t ++ ([.call Lab.l1] ++ mk2)
theorem make_p3 (t : Bool) : ∃ h, (CM.fin (E (mkp3 t)) h).gpr ssp = ⟨.ld 2 0, -off A 8⟩ ∧ (CM.fin (E (mkp3 t)) h).gpr r8 = ⟨.reg ssp, 0#_⟩ := by
  cases t <;> exact ⟨by decide +kernel, by decide +kernel, by decide +kernel⟩

def mkp4 (t : Bool) : List CI := mkp3 t ++ (sw1 r8 ++ mk3)
theorem make_p4 (t : Bool) : ∃ h, (CM.fin (E (mkp4 t)) h).gpr ssp = ⟨.reg ssp, 0#_⟩ ∧ (CM.fin (E (mkp4 t)) h).gpr rsp = ⟨.reg rsp, 0#_⟩ ∧
    (CM.fin (E (mkp4 t)) h).valid 1 = true ∧ look 1 8 A.k (CM.fin (E (mkp4 t)) h).log = some none := by
  cases t <;> exact ⟨by decide +kernel, by decide +kernel, by decide +kernel, by decide +kernel, by decide +kernel⟩

theorem make_split4 (t : Bool) : E (makeIs ⟨t, false⟩) = E (mkp4 t) ++ E [.ret] := by cases t <;> rfl

/-- shadow stack memory after `make_fcontext` -/
def mkSh (e : Env A) (sh : Mem A) (S o : A.W) : Mem A := sw (store (sw sh S o) (S - off A 8) A.k (e Lab.l1)) o (S - off A 8)

theorem apart8 {S o : A.W} (h : ∀ a, InR a (S - off A 0x10) 0x10 → ¬ InR a (o - off A 8) 0x10) :
    (∀ a, InR a (S - off A 8) 8 → ¬ InR a (o - off A 8) 0x10) ∧ (∀ a, InR a (S - off A 8 - off A 8) 8 → ¬ InR a (o - off A 8) 0x10) := by
  have e1 : S - off A 8 = S - off A 0x10 + off A 8 := by
    have : off A 0x10 = off A 8 + off A 8 := by decide
    rw [this]; generalize off A 8 = x; grind
  have e2 : S - off A 8 - off A 8 = S - off A 0x10 := by
    have : off A 0x10 = off A 8 + off A 8 := by decide
    rw [this]; generalize off A 8 = x; grind
  refine ⟨fun a ha => h a ?_, fun a ha => h a ?_⟩
  · rw [e1] at ha; exact inR_off ha (by decide) (by decide)
  · rw [e2] at ha; exact inR_mono ha (by decide)

theorem steps_E (e : Env A) (l l' : List CI) (s : St A) : steps e (E l') (steps e (E l) s) = steps e (E (l ++ l')) s := by
  rw [E_append, steps_append]

theorem sv20 {e : Env A} {σ : St A} {S : A.W} (hS : load σ.mem (σ.gpr rdi - off A 8) A.k = S) (w : A.W) : (IM e σ).sv ⟨.ld 2 0, w⟩ = S + w := by
  simp only [Itp.sv, Itp.atom, IM]
  have : σ.gpr rdi - off A 8 + off A 0 = σ.gpr rdi - off A 8 := by simp [off]
  simp only [if_neg (show ¬ (2 = 0) by decide), if_neg (show ¬ (2 = 1) by decide), this, hS]

theorem crun_make (t : Bool) (e : Env A) (σ : CSt) (S : A.W) (hd : ∀ a, InR a (ctxOf σ.s) 0x50 → ¬ InR a (σ.s.gpr rsp - off A 8) 0x10)
    (hS : load σ.s.mem (σ.s.gpr rdi - off A 8) A.k = S) (hal : S.toNat % 8 = 0) (hao : σ.ssp.toNat % 8 = 0) (htok : load σ.sh (S - off A 8) A.k = S + off A 1)
    (hret : load σ.sh σ.ssp A.k = load σ.s.mem (σ.s.gpr rsp) A.k) (hsd : ∀ a, InR a (S - off A 0x10) 0x10 → ¬ InR a (σ.ssp - off A 8) 0x10) :
    crun e (makeIs ⟨t, false⟩) σ = some { s := steps e (E (makeIs ⟨t, false⟩)) σ.s, sh := mkSh e σ.sh S σ.ssp, cf := false } := by
  have ok := IM_ok e σ.s hd
  have l20 := fun w => sv20 (e := e) hS w
  have lr : ∀ r, (IM e σ.s).sv ⟨.reg r, 0#_⟩ = σ.s.gpr r := by intro r; simp [Itp.sv, Itp.atom, IM]
  obtain ⟨p1, p1r, p1s⟩ := make_p1 t
  obtain ⟨p2, p2s⟩ := make_p2 t
  obtain ⟨p3, p3s, p3r⟩ := make_p3 t
  obtain ⟨p4, p4s, p4r, p4v, p4l⟩ := make_p4 t
  have h1 := fin_rel ok _ p1
  have h2 := fin_rel ok _ p2
  have h3 := fin_rel ok _ p3
  have h4 := fin_rel ok _ p4
  have q1 : (steps e (E (mk1 t)) σ.s).gpr r9 = S := by refine (h1.reg p1r).trans ?_; rw [l20]; simp
  have q1s : (steps e (E (mk1 t)) σ.s).gpr ssp = σ.ssp := (h1.reg p1s).trans (lr ssp)
  have q2 : (steps e (E (mkp2 t)) σ.s).gpr ssp = S := by refine (h2.reg p2s).trans ?_; rw [l20]; simp
  have q3 : (steps e (E (mkp3 t)) σ.s).gpr ssp = S - off A 8 := by refine (h3.reg p3s).trans ?_; rw [l20, BitVec.sub_eq_add_neg]
  have q3r : (steps e (E (mkp3 t)) σ.s).gpr r8 = σ.ssp := (h3.reg p3r).trans (lr ssp)
  have q4 : (steps e (E (mkp4 t)) σ.s).gpr ssp = σ.ssp := (h4.reg p4s).trans (lr ssp)
  have q4r : (steps e (E (mkp4 t)) σ.s).gpr rsp = σ.s.gpr rsp := (h4.reg p4r).trans (lr rsp)
  have q4m : load (steps e (E (mkp4 t)) σ.s).mem (σ.s.gpr rsp) A.k = load σ.s.mem (σ.s.gpr rsp) A.k := by
    have := h4.same 1 8 A.k p4v (by decide) p4l
    have b1 : (IM e σ.s).β 1 + off A 8 = σ.s.gpr rsp := sub_add_off _ _
    rw [b1] at this
    exact this
  obtain ⟨a1, a2⟩ := apart8 hsd
  have hSS : (S - off A 8).toNat % 8 = 0 := sub8_mod hal
  conv => lhs; rw [make_split]
  rw [crun_append, crun_simple e (mk1 t) (by cases t <;> rfl), Option.bind_some, crun_append]
  rw [sw1, switch e r9 _ (by show ((steps e (E (mk1 t)) σ.s).gpr ssp).toNat % 8 = 0; rw [q1s]; exact hao)]
  have hs1 : (CSt.mk (steps e (E (mk1 t)) σ.s) σ.sh σ.cf).ssp = σ.ssp := q1s
  rw [hs1]
  have e2 : steps e [.addi ssp r9 (-off A 8), .addi ssp ssp (off A 8)] (steps e (E (mk1 t)) σ.s) = steps e (E (mkp2 t)) σ.s := steps_E e (mk1 t) (sw1 r9) σ.s
  simp only [q1, e2]
  rw [if_pos (tokOk hal htok), Option.bind_some, crun_append, crun, show cstep e _ (.call Lab.l1) = _ from cstep_call e Lab.l1 _, Option.bind_some, crun, Option.bind_some, crun_append]
  have hs2 : (CSt.mk (steps e (E (mkp2 t)) σ.s) (sw σ.sh S σ.ssp) false).ssp = S := q2
  rw [hs2, crun_simple e mk2 rfl, Option.bind_some, crun_append]
  have e3 : steps e (E mk2) (steps e (erase (.call Lab.l1)) (steps e (E (mkp2 t)) σ.s)) = steps e (E (mkp3 t)) σ.s := by
    have : erase (.call Lab.l1) = E [.call Lab.l1] := rfl
    rw [this, steps_E, steps_E]; rfl
  simp only [e3]
  rw [sw1, switch e r8 _ (by show ((steps e (E (mkp3 t)) σ.s).gpr ssp).toNat % 8 = 0; rw [q3]; exact hSS)]
  have hs3 : ∀ sh, (CSt.mk (steps e (E (mkp3 t)) σ.s) sh false).ssp = S - off A 8 := fun _ => q3
  simp only [hs3, q3r]
  have tk : TokOk (store (sw σ.sh S σ.ssp) (S - off A 8) A.k (e Lab.l1)) σ.ssp := by
    refine tokOk hao ?_
    rw [load_store_out (by decide), sw_token]
    intro a h1 h2
    exact a1 a h2 (inR_mono h1 (by decide))
  rw [if_pos tk, Option.bind_some, crun_append, crun_simple e mk3 rfl, Option.bind_some]
  have e4 : steps e (E mk3) (steps e [.addi ssp r8 (-off A 8), .addi ssp ssp (off A 8)] (steps e (E (mkp3 t)) σ.s)) = steps e (E (mkp4 t)) σ.s := by
    have : [.addi ssp r8 (-off A 8), .addi ssp ssp (off A 8)] = E (sw1 r8) := rfl
    rw [this, steps_E, steps_E]; rfl
  simp only [e4]
  have hsh : load (mkSh e σ.sh S σ.ssp) σ.ssp A.k = load σ.sh σ.ssp A.k := by
    refine sh_agree (fun a h => ?_)
    have e1 : σ.ssp = σ.ssp - off A 8 + off A 8 := (sub_add_off _ _).symm
    have h' : InR a (σ.ssp - off A 8) 0x10 := by rw [e1] at h; exact inR_off h (by decide) (by decide)
    have h0 : ¬ InR a (σ.ssp - off A 8) 8 := by
      intro h''
      rw [e1] at h
      have h'' : InR a (σ.ssp - off A 8 + off A 0) 8 := by simpa [off] using h''
      exact inR_disj h (by decide) (by decide) (.inr (by decide)) h''
    have s1 : mkSh e σ.sh S σ.ssp a = store (sw σ.sh S σ.ssp) (S - off A 8) A.k (e Lab.l1) a := by
      apply Classical.byContradiction
      intro hne
      rcases sw_frame hne with hh | hh
      · exact h0 hh
      · exact a2 a hh h'
    rw [s1, store_out (n := A.k) (fun hh => a1 a hh h')]
    apply Classical.byContradiction
    intro hne
    rcases sw_frame hne with hh | hh
    · exact a1 a hh h'
    · exact h0 hh
  have hc : load (mkSh e σ.sh S σ.ssp) ((steps e (E (mkp4 t)) σ.s).gpr ssp) A.k = load (steps e (E (mkp4 t)) σ.s).mem ((steps e (E (mkp4 t)) σ.s).gpr rsp) A.k := by
    rw [q4, q4r, q4m, hsh, hret]
  have e5 : steps e (E (makeIs ⟨t, false⟩)) σ.s = steps e (E [.ret]) (steps e (E (mkp4 t)) σ.s) := by rw [make_split4, steps_append]
  rw [crun]
  simp only [cstep, CSt.ssp]
  refine (congrArg (fun x => Option.bind x _) (if_pos hc)).trans ?_
  rw [e5]
  obtain ⟨s, hs⟩ : ∃ s, s = steps e (E (mkp4 t)) σ.s := ⟨_, rfl⟩
  rw [← hs]
  have e0 : ∀ x : A.W, x + off A 0 = x := by intro x; simp [off]
  have hx1 : ∀ (v : A.W), (setg s rip v).gpr rsp = s.gpr rsp := fun _ => rfl
  have hx2 : ∀ (v w : A.W), (setg (setg s rip v) rsp w).gpr ssp = s.gpr ssp := fun _ _ => rfl
  simp only [Option.bind_some, crun, E, List.flatMap_cons, List.flatMap_nil, erase, List.append_nil, steps, step, e0, hx1, hx2]
  rfl

/-- A proper call of `make_fcontext` with shadow stacks: the word below the top of the new stack (where `create_fiber1` etc. put it) is the top `S` of a new shadow stack, which
holds the kernel's restore token; the return address is on the shadow stack of the caller as on its stack; the two shadow stacks, and the new context's data and the stack
of the caller, do not overlap. -/
structure Ready (σ : CSt) (S : A.W) : Prop where
  top : load σ.s.mem (σ.s.gpr rdi - off A 8) A.k = S
  al : S.toNat % 8 = 0
  al' : σ.ssp.toNat % 8 = 0
  tok : load σ.sh (S - off A 8) A.k = S + off A 1
  ret : load σ.sh σ.ssp A.k = load σ.s.mem (σ.s.gpr rsp) A.k
  sh : ∀ a, InR a (S - off A 0x10) 0x10 → ¬ InR a (σ.ssp - off A 8) 0x10
  main : ∀ a, InR a ((σ.s.gpr rdi &&& mask A 4) - off A 0x50) 0x50 → ¬ InR a (σ.s.gpr rsp - off A 8) 0x10

/-- `τ` is the entry of the first switch to the context that `make_fcontext` created in state `m`; its data, and the two words of its shadow stack that are in use, are unchanged. -/
structure First (cfg : Cfg) (S : A.W) (m τ : CSt) : Prop where
  arg : (port cfg).argF τ.s = (port cfg).resM m.s
  al : τ.ssp.toNat % 8 = 0
  mem : ∀ a, InR a ((port cfg).argF τ.s) 0x50 → τ.s.mem a = m.s.mem a
  frame : ∀ a, InR a ((port cfg).argF τ.s) 0x50 → ¬ InR a ((port cfg).fctx τ.s) (port cfg).frame
  sh : ∀ a, InR a (S - off A 0x10) 0x10 → τ.sh a = m.sh a

theorem mk_facts (t : Bool) (e : Env A) (σ : CSt) (S : A.W) (h : Ready σ S) : ∃ m pc, cexec e (makeIs ⟨t, false⟩) rip σ = some (m, pc) ∧
    (port ⟨t, false⟩).ReturnedTo ((port ⟨t, false⟩).mspRet σ.s) σ.s m.s pc ∧ m.ssp = σ.ssp + off A 8 ∧ m.s.gpr rax = ctxOf σ.s ∧
    (∀ a, m.s.mem a ≠ σ.s.mem a → InR a (ctxOf σ.s) 0x50 ∨ InR a (σ.s.gpr rsp - off A 8) 8) ∧ m.sh = mkSh e σ.sh S σ.ssp ∧
    load m.s.mem (ctxOf σ.s + off A 0) A.k = S - off A 8 ∧ load m.s.mem (ctxOf σ.s + off A 0x38) A.k = σ.s.gpr rdx ∧
    load m.s.mem (ctxOf σ.s + off A 0x40) A.k = e Lab.l1 ∧ load m.s.mem (ctxOf σ.s + off A 0x48) A.k = e Lab.trampoline ∧
    load m.s.mem (ctxOf σ.s + off A 8) 4 = σ.s.fpr mxcsr ∧ load m.s.mem (ctxOf σ.s + off A 0xc) 2 = σ.s.fpr x87cw := by
  have hc := crun_make t e σ S h.main h.top h.al h.al' h.tok h.ret h.sh
  obtain ⟨h1, hz⟩ := make_ok t
  have hr := fin_rel (IM_ok e σ.s h.main) _ h1
  obtain ⟨z, hzz⟩ : ∃ z, z = CM.fin (E (makeIs ⟨t, false⟩)) h1 := ⟨_, rfl⟩
  obtain ⟨s, hs⟩ : ∃ s, s = steps (IM e σ.s).e (E (makeIs ⟨t, false⟩)) (IM e σ.s).σ := ⟨_, rfl⟩
  rw [← hs, ← hzz] at hr
  rw [← hzz] at hz
  have hs' : steps e (E (makeIs ⟨t, false⟩)) σ.s = s := hs.symm
  rw [hs'] at hc
  have b0 : (IM e σ.s).β 0 = ctxOf σ.s := rfl
  have b1 : (IM e σ.s).β 1 = σ.s.gpr rsp - off A 8 := rfl
  have w := fun (o : Nat) (v : Sv A) (h : o + A.k ≤ 0x50) h3 => hr.word (i := 0) (o := o) (v := v) hz.v h h3
  rw [b0] at w
  refine ⟨_, _, by rw [cexec, hc]; rfl, ⟨?_, ?_, ?_, ?_⟩, ?_, ?_, ?_, rfl, ?_, ?_, ?_, ?_, ?_, ?_⟩
  · show s.gpr rip = load σ.s.mem (σ.s.gpr rsp) A.k
    rw [hr.reg hz.pc]; simp only [Itp.sv, Itp.atom, b1, sub_add_off]; simp [IM]
  · show s.gpr rsp = σ.s.gpr rsp + off A 8
    rw [hr.reg hz.sp]; simp only [Itp.sv, Itp.atom]; simp [IM]
  · intro r hrr
    show s.gpr r = _
    rw [hr.reg (hz.g r hrr)]; simp [Itp.sv, Itp.atom, IM]
  · intro f _
    show s.fpr f = _
    rw [hr.fpr, hz.f]; simp [Itp.fv, IM]
  · show s.gpr ssp = _
    rw [hr.reg hz.ss]; simp only [Itp.sv, Itp.atom]; simp [IM]
  · show s.gpr rax = _
    rw [hr.reg hz.res]; simp only [Itp.sv, Itp.atom, IM, ctxOf, BitVec.sub_eq_add_neg]
  · intro a ha
    obtain ⟨i, ⟨x, hx, rfl⟩, h2⟩ := hr.frame a ha
    rcases hz.w x hx with h0 | h0
    · left
      rw [h0, b0] at h2
      simpa [CM, off] using h2
    · right
      rw [h0, b1] at h2
      have : σ.s.gpr rsp - off A 8 + off A 0 = σ.s.gpr rsp - off A 8 := by simp [off]
      have h2 : InR a (σ.s.gpr rsp - off A 8 + off A 0) 8 := h2
      rw [this] at h2
      exact h2
  · show load s.mem _ _ = _
    rw [w 0 _ (by decide) hz.sv, sv20 h.top, BitVec.sub_eq_add_neg]
  · show load s.mem _ _ = _
    rw [w 0x38 _ (by decide) hz.fn]; simp only [Itp.sv, Itp.atom]; simp [IM]
  · show load s.mem _ _ = _
    rw [w 0x40 _ (by decide) hz.bp]; simp only [Itp.sv, Itp.atom]; simp [IM]
  · show load s.mem _ _ = _
    rw [w 0x48 _ (by decide) hz.tr]; simp only [Itp.sv, Itp.atom]; simp [IM]
  · have := hr.special (i := 0) (o := 8) (q := mxcsr) hz.v (by show 8 + 4 ≤ 0x50; decide) hz.mx
    rw [b0] at this
    refine this.trans ?_
    simp [Itp.fv, IM]
  · have := hr.special (i := 0) (o := 0xc) (q := x87cw) hz.v (by show 0xc + 2 ≤ 0x50; decide) hz.cw
    rw [b0] at this
    refine this.trans ?_
    simp [Itp.fv, IM]

theorem sub16 (S : A.W) : S - off A 8 - off A 8 = S - off A 0x10 ∧ S - off A 8 = S - off A 0x10 + off A 8 := by
  have : off A 0x10 = off A 8 + off A 8 := by decide
  rw [this]; generalize off A 8 = x
  constructor <;> grind

theorem mkSh_tok (e : Env A) (sh : Mem A) (S o : A.W) : load (mkSh e sh S o) (S - off A 8 - off A 8) A.k = S - off A 8 + off A 1 := sw_token _ _ _

/-- the new shadow stack holds the address of `jmp trampoline` -/
theorem mkSh_top (e : Env A) (sh : Mem A) (S o : A.W) (h : ∀ a, InR a (S - off A 0x10) 0x10 → ¬ InR a (o - off A 8) 0x10) :
    load (mkSh e sh S o) (S - off A 8) A.k = e Lab.l1 := by
  have : load (mkSh e sh S o) (S - off A 8) A.k = load (store (sw sh S o) (S - off A 8) A.k (e Lab.l1)) (S - off A 8) A.k := by
    refine sh_agree (fun a ha => ?_)
    apply Classical.byContradiction
    intro hne
    rcases sw_frame hne with hh | hh
    · exact (apart8 h).1 a ha (inR_mono hh (by decide))
    · rw [(sub16 S).1] at hh
      rw [(sub16 S).2] at ha
      have hh : InR a (S - off A 0x10 + off A 0) 8 := by simpa [off] using hh
      exact inR_disj ha (by decide) (by decide) (.inr (by decide)) hh
  rw [this]
  exact load_store_same _ _ _ _ (by decide)

theorem mkSh_frame {e : Env A} {sh : Mem A} {S o a : A.W} (h : mkSh e sh S o a ≠ sh a) : InR a (S - off A 0x10) 0x10 ∨ InR a (o - off A 8) 8 := by
  have k1 : InR a (S - off A 8) 8 → InR a (S - off A 0x10) 0x10 := by
    intro ha
    rw [(sub16 S).2] at ha
    exact inR_off ha (by decide) (by decide)
  by_cases h1 : mkSh e sh S o a = store (sw sh S o) (S - off A 8) A.k (e Lab.l1) a
  · by_cases h2 : InR a (S - off A 8) 8
    · exact .inl (k1 h2)
    · rw [h1, store_out (n := A.k) h2] at h
      rcases sw_frame h with hh | hh
      · exact .inl (k1 hh)
      · exact .inr hh
  · rcases sw_frame h1 with hh | hh
    · exact .inr hh
    · rw [(sub16 S).1] at hh
      exact .inl (inR_mono hh (by decide))

/-- what a first switch finds -/
theorem first_facts {cfg : Cfg} {e : Env A} {σ m τ : CSt} {S : A.W} (h : Ready σ S) (hm : m.sh = mkSh e σ.sh S σ.ssp) (hf : First cfg S m τ)
    (h0 : load m.s.mem (m.s.gpr rax + off A 0) A.k = S - off A 8) : load τ.s.mem (τ.s.gpr rdi) A.k = S - off A 8 ∧ TokOk τ.sh (S - off A 8) ∧
    load τ.sh (S - off A 8) A.k = e Lab.l1 := by
  have ha : τ.s.gpr rdi = m.s.gpr rax := hf.arg
  refine ⟨?_, ?_, ?_⟩
  · rw [← h0]
    have e0 : τ.s.gpr rdi = τ.s.gpr rdi + off A 0 := by simp [off]
    rw [← ha]
    conv => lhs; rw [e0]
    exact load_agree hf.mem (by decide) (by decide)
  · refine tokOk (sub8_mod h.al) ?_
    have : load τ.sh (S - off A 8 - off A 8) A.k = load m.sh (S - off A 8 - off A 8) A.k := by
      rw [(sub16 S).1]; exact sh_agree fun a hh => hf.sh a (inR_mono hh (by decide))
    rw [this, hm, mkSh_tok]
  · rw [← mkSh_top e σ.sh S σ.ssp h.sh, ← hm]
    refine sh_agree fun a hh => hf.sh a ?_
    rw [(sub16 S).2] at hh
    exact inR_off hh (by decide) (by decide)

/-- what the first activation yields -/
theorem first_run (t : Bool) (e : Env A) (σ m τ : CSt) (S pc : A.W) (h : Ready σ S) (hm : cexec e (makeIs ⟨t, false⟩) rip σ = some (m, pc)) (hf : First ⟨t, false⟩ S m τ) :
    ∃ s u, cexec e (jumpIs ⟨t, false⟩) r8 τ = some (s, e Lab.trampoline) ∧ cexec e (trampIs ⟨t, false⟩) rbx s = some (u, (port ⟨t, false⟩).argMFn σ.s) ∧
      (port ⟨t, false⟩).inF u.s = (port ⟨t, false⟩).fctx τ.s ∧ (port ⟨t, false⟩).inD u.s = (port ⟨t, false⟩).argD τ.s ∧
      u.s.gpr rsp = ctxOf σ.s + off A 0x48 ∧ u.ssp = S - off A 8 ∧
      (port ⟨t, false⟩).ra u.s = e Lab.l2 ∧ load u.sh u.ssp A.k = e Lab.l2 ∧
      (∀ a, u.s.mem a ≠ τ.s.mem a → InR a ((port ⟨t, false⟩).fctx τ.s) (port ⟨t, false⟩).frame ∨ (port ⟨t, false⟩).mslot ((port ⟨t, false⟩).argF τ.s) a) ∧
      (∀ a, u.sh a ≠ τ.sh a → InR a (S - off A 0x10) 0x10 ∨ InR a (τ.ssp - off A 8) 8) ∧
      u.s.gpr rbx = σ.s.gpr rdx ∧ u.s.gpr rbp = e Lab.l1 ∧
      (t = false → u.s.fpr mxcsr = σ.s.fpr mxcsr ∧ u.s.fpr x87cw = σ.s.fpr x87cw) := by
  obtain ⟨m', pc', m0, -, -, mr, -, msh, m1, m2, m3, m4, m5, m6⟩ := mk_facts t e σ S h
  have hmm : m' = m := by rw [hm] at m0; exact (congrArg Prod.fst (Option.some.inj m0)).symm
  subst hmm
  have ha : τ.s.gpr rdi = m'.s.gpr rax := hf.arg
  have ha' : τ.s.gpr rdi = ctxOf σ.s := ha.trans mr
  obtain ⟨f1, f2, -⟩ := first_facts h msh hf (by rw [mr]; exact m1)
  obtain ⟨h1, h2, h3⟩ := jump_restore ⟨t, false⟩
  have hr := fin_rel (I_ok true e τ.s (fun _ => hf.frame)) _ h1
  obtain ⟨s, hs⟩ : ∃ s, s = steps (I e τ.s).e (E (jumpIs ⟨t, false⟩)) (I e τ.s).σ := ⟨_, rfl⟩
  rw [← hs] at hr
  obtain ⟨T, c1, c2⟩ := crun_jump ⟨t, false⟩ e τ hf.al
  have hs' : steps e (E (jumpIs ⟨t, false⟩)) τ.s = s := hs.symm
  rw [c2 hf.frame, f1, if_pos f2, hs'] at c1
  have hmem : ∀ a, InR a (ctxOf σ.s) 0x50 → τ.s.mem a = m'.s.mem a := by rw [← ha']; exact hf.mem
  have ldn : ∀ o n, o + n ≤ 0x50 → load τ.s.mem (τ.s.gpr rdi + off A o) n = load m'.s.mem (ctxOf σ.s + off A o) n := by
    intro o n ho
    rw [ha']
    exact load_agree hmem ho (by decide)
  have ld : ∀ o, o + A.k ≤ 0x50 → (I e τ.s).sv ⟨.ld 1 o, 0#_⟩ = load m'.s.mem (ctxOf σ.s + off A o) A.k := by
    intro o ho
    rw [← ldn o A.k ho]
    simp [Itp.sv, Itp.atom, I]
  have hsp : s.gpr rsp = ctxOf σ.s + off A 0x50 := by rw [hr.reg h2.sp]; simp [Itp.sv, Itp.atom, I, ha']
  have hss : s.gpr ssp = S := by rw [hr.reg h2.ss, ld0, f1, sub_add_off]
  have hbp : s.gpr rbp = e Lab.l1 := by rw [hr.reg (h2.g (rbp, 0x40) (by decide)), ld _ (by decide), m3]
  have hbx : s.gpr rbx = σ.s.gpr rdx := by rw [hr.reg (h2.g (rbx, 0x38) (by decide)), ld _ (by decide), m2]
  have hpc : s.gpr r8 = e Lab.trampoline := by rw [hr.reg h3, ld _ (by decide), m4]
  have hsp' : s.gpr rsp - off A 8 = ctxOf σ.s + off A 0x48 := by
    rw [hsp]
    have : off A 0x50 = off A 0x48 + off A 8 := by decide
    rw [this]
    generalize off A 8 = x
    generalize off A 0x48 = y
    grind
  obtain ⟨sh, hsh⟩ : ∃ sh, sh = sw τ.sh (S - off A 8) τ.ssp := ⟨_, rfl⟩
  rw [← hsh] at c1
  have hrun : crun e (trampIs ⟨t, false⟩) ⟨s, sh, false⟩ = some ⟨{ setg (setg (setg s rip (e Lab.l2)) rsp (ctxOf σ.s + off A 0x48)) ssp (S - off A 8) with
      mem := store s.mem (ctxOf σ.s + off A 0x48) A.k (e Lab.l2) }, store sh (S - off A 8) A.k (e Lab.l2), false⟩ := by
    simp only [trampIs, crun, cstep, CSt.ssp, hss, hsp']
    rfl
  refine ⟨_, _, by rw [cexec, c1]; exact congrArg some (Prod.ext rfl hpc), by rw [cexec, hrun]; exact congrArg some (Prod.ext rfl hbx), ?_, ?_, rfl, rfl, ?_, ?_, ?_, ?_, hbx, hbp, ?_⟩
  · show s.gpr rdi = τ.s.gpr rsp - off A 0x48
    rw [hr.reg h2.rdi]; simp only [Itp.sv, Itp.atom, I]; grind
  · show s.gpr rsi = τ.s.gpr rsi
    rw [hr.reg h2.rsi]; simp [Itp.sv, Itp.atom, I]
  · show load (store s.mem (ctxOf σ.s + off A 0x48) A.k (e Lab.l2)) (ctxOf σ.s + off A 0x48) A.k = e Lab.l2
    exact load_store_same _ _ _ _ (by decide)
  · show load (store sh (S - off A 8) A.k (e Lab.l2)) (S - off A 8) A.k = e Lab.l2
    exact load_store_same _ _ _ _ (by decide)
  · intro a hh
    by_cases hi : InR a (ctxOf σ.s + off A 0x48) 8
    · right; show InR a (τ.s.gpr rdi + off A 0x48) 8; rw [ha']; exact hi
    · left
      have hh : store s.mem (ctxOf σ.s + off A 0x48) A.k (e Lab.l2) a ≠ τ.s.mem a := hh
      rw [store_out (n := A.k) hi] at hh
      exact wrote hr h2 a hh
  · intro a hh
    have hh : store sh (S - off A 8) A.k (e Lab.l2) a ≠ τ.sh a := hh
    by_cases hi : InR a (S - off A 8) 8
    · left; rw [(sub16 S).2] at hi; exact inR_off hi (by decide) (by decide)
    · rw [store_out (n := A.k) hi, hsh] at hh
      rcases sw_frame hh with h' | h'
      · rw [(sub16 S).1] at h'; exact .inl (inR_mono h' (by decide))
      · exact .inr h'
  · intro ht
    subst ht
    refine ⟨?_, ?_⟩
    · show s.fpr mxcsr = _
      rw [hr.fpr, h2.f (mxcsr, 8) (by decide), ← m5]
      exact ldn 8 4 (by decide)
    · show s.fpr x87cw = _
      rw [hr.fpr, h2.f (x87cw, 0xc) (by decide), ← m6]
      exact ldn 0xc 2 (by decide)

/-- **C66**, new contexts (without `BOOST_CONTEXT_TLS_STACK_PROTECTOR`, for which see `C30_x86_64_guard_violates`): a proper call of `make_fcontext` does not fault, returns, and
leaves shadow stacks in order; it writes only the new context's data, one word below its return address, the two highest words of the new shadow stack and the word below the
top of the caller's shadow stack.  The first switch to the new context does not fault and enters the context function, with the same return address on both of its stacks. -/
theorem C66_cet_make (t : Bool) (e : Env A) (σ : CSt) (S : A.W) (h : Ready σ S) : ∃ m pc, cexec e (makeIs ⟨t, false⟩) rip σ = some (m, pc) ∧
    (port ⟨t, false⟩).ReturnedTo ((port ⟨t, false⟩).mspRet σ.s) σ.s m.s pc ∧ m.ssp = σ.ssp + off A 8 ∧
    (port ⟨t, false⟩).resM m.s = ((port ⟨t, false⟩).argTop σ.s &&& mask A 4) - off A 0x50 ∧
    (∀ a, m.s.mem a ≠ σ.s.mem a → InR a ((port ⟨t, false⟩).resM m.s) 0x50 ∨ InR a (σ.s.gpr rsp - off A 8) 8) ∧
    (∀ a, m.sh a ≠ σ.sh a → InR a (S - off A 0x10) 0x10 ∨ InR a (σ.ssp - off A 8) 8) ∧
    ∀ τ, First ⟨t, false⟩ S m τ → ∃ s u, cexec e (jumpIs ⟨t, false⟩) r8 τ = some (s, e Lab.trampoline) ∧
      cexec e (trampIs ⟨t, false⟩) rbx s = some (u, (port ⟨t, false⟩).argMFn σ.s) ∧
      (port ⟨t, false⟩).inF u.s = (port ⟨t, false⟩).fctx τ.s ∧ (port ⟨t, false⟩).inD u.s = (port ⟨t, false⟩).argD τ.s ∧
      (port ⟨t, false⟩).aligned (u.s.gpr rsp) ∧ u.s.gpr rsp = ((port ⟨t, false⟩).argTop σ.s &&& mask A 4) - off A 8 ∧ u.ssp = S - off A 8 ∧
      (port ⟨t, false⟩).ra u.s = e Lab.l2 ∧ load u.sh u.ssp A.k = e Lab.l2 ∧
      (∀ a, u.s.mem a ≠ τ.s.mem a → InR a ((port ⟨t, false⟩).fctx τ.s) (port ⟨t, false⟩).frame ∨ (port ⟨t, false⟩).mslot ((port ⟨t, false⟩).argF τ.s) a) ∧
      (∀ a, u.sh a ≠ τ.sh a → InR a (S - off A 0x10) 0x10 ∨ InR a (τ.ssp - off A 8) 8) ∧
      (t = false → u.s.fpr mxcsr = σ.s.fpr mxcsr ∧ u.s.fpr x87cw = σ.s.fpr x87cw) := by
  obtain ⟨m, pc, m0, m1, m2, m3, m4, m5, -⟩ := mk_facts t e σ S h
  refine ⟨m, pc, m0, m1, m2, m3, ?_, ?_, ?_⟩
  · have : (port ⟨t, false⟩).resM m.s = ctxOf σ.s := m3
    rw [this]; exact m4
  · rw [m5]; exact fun a => mkSh_frame
  · intro τ hf
    obtain ⟨s, u, u1, u2, u3, u4, u5, u6, u7, u8, u9, u10, -, -, u11⟩ := first_run t e σ m τ S pc h m0 hf
    have e1 : ctxOf σ.s + off A 0x48 = (σ.s.gpr rdi &&& mask A 4) - off A 8 := by
      simp only [ctxOf]
      have : off A 0x50 = off A 0x48 + off A 8 := by decide
      rw [this]
      generalize off A 8 = x
      generalize off A 0x48 = y
      generalize (σ.s.gpr rdi &&& mask A 4) = z
      grind
    refine ⟨s, u, u1, u2, u3, u4, ?_, u5.trans e1, u6, u7, u8, u9, u10, u11⟩
    show (u.s.gpr rsp + off A 8).toNat % 16 = 0
    rw [u5, e1, sub_add_off]
    have := mask_add_mod (σ.s.gpr rdi) 0 4 (by decide) (by decide)
    have e0 : (σ.s.gpr rdi &&& mask A 4) + off A 0 = (σ.s.gpr rdi &&& mask A 4) := by simp [off]
    rw [e0] at this
    exact this

/-- **C66**, a defect: `make_fcontext` stores the address of `jmp trampoline` (the word it put on the new shadow stack) in the slot of `rbp` instead of the slot of the return
address.  So if the *first* activation of a context is an on-top call, the on-top function starts with different return addresses on its stack and its shadow stack, and its
`ret` faults. -/
theorem C66_cet_first_ontop_faults (t : Bool) (e : Env A) (σ m τ : CSt) (S pc : A.W) (h : Ready σ S) (hm : cexec e (makeIs ⟨t, false⟩) rip σ = some (m, pc))
    (hf : First ⟨t, false⟩ S m τ) (hd : ∀ a, InR a (S - off A 8) 8 → ¬ InR a (τ.ssp - off A 8) 8) (hl : e Lab.trampoline ≠ e Lab.l1) :
    ∃ s, cexec e (ontopIs ⟨t, false⟩) r8 τ = some (s, (port ⟨t, false⟩).argFn τ.s) ∧ (port ⟨t, false⟩).ra s.s = e Lab.trampoline ∧ load s.sh s.ssp A.k = e Lab.l1 ∧
      ∀ s' : CSt, s'.s.gpr rsp = s.s.gpr rsp → s'.ssp = s.ssp → (∀ a, InR a (s.s.gpr rsp) 8 → s'.s.mem a = s.s.mem a) → (∀ a, InR a s.ssp 8 → s'.sh a = s.sh a) →
        cstep e s' .ret = none := by
  obtain ⟨m', pc', m0, -, -, mr, -, msh, m1, m2, m3, m4, -⟩ := mk_facts t e σ S h
  have hmm : m' = m := by rw [hm] at m0; exact (congrArg Prod.fst (Option.some.inj m0)).symm
  subst hmm
  have ha : τ.s.gpr rdi = m'.s.gpr rax := hf.arg
  have ha' : τ.s.gpr rdi = ctxOf σ.s := ha.trans mr
  obtain ⟨f1, f2, f3⟩ := first_facts h msh hf (by rw [mr]; exact m1)
  obtain ⟨h1, h2, h3, h4⟩ := ontop_restore ⟨t, false⟩
  have hr := fin_rel (I_ok true e τ.s (fun _ => hf.frame)) _ h1
  obtain ⟨s, hs⟩ : ∃ s, s = steps (I e τ.s).e (E (ontopIs ⟨t, false⟩)) (I e τ.s).σ := ⟨_, rfl⟩
  rw [← hs] at hr
  obtain ⟨T, c1, c2⟩ := crun_ontop ⟨t, false⟩ e τ hf.al
  have hs' : steps e (E (ontopIs ⟨t, false⟩)) τ.s = s := hs.symm
  rw [c2 hf.frame, f1, if_pos f2, hs'] at c1
  have hsp : s.gpr rsp = τ.s.gpr rdi + off A 0x48 := by rw [hr.reg h2.sp]; simp [Itp.sv, Itp.atom, I]
  have hss : s.gpr ssp = S - off A 8 := by rw [hr.reg h2.ss, ld0, f1]; simp [off]
  have hra : load s.mem (s.gpr rsp) A.k = e Lab.trampoline := by
    rw [← m4, ← mr, ← ha, hsp]
    have := hr.same 1 0x48 A.k h2.v (by decide) h4
    refine Eq.trans this ?_
    exact load_agree hf.mem (by decide) (by decide)
  have hsh : load (sw τ.sh (S - off A 8) τ.ssp) (S - off A 8) A.k = e Lab.l1 := by
    rw [← f3]
    refine sh_agree (fun a hh => ?_)
    apply Classical.byContradiction
    intro hne
    rcases sw_frame hne with h' | h'
    · rw [(sub16 S).1] at h'
      rw [(sub16 S).2] at hh
      have h' : InR a (S - off A 0x10 + off A 0) 8 := by simpa [off] using h'
      exact inR_disj hh (by decide) (by decide) (.inr (by decide)) h'
    · exact hd a hh h'
  have hfn : s.gpr r8 = τ.s.gpr rdx := by rw [hr.reg h3]; simp [Itp.sv, Itp.atom, I]
  have hx : cexec e (ontopIs ⟨t, false⟩) r8 τ = some (⟨s, sw τ.sh (S - off A 8) τ.ssp, false⟩, (port ⟨t, false⟩).argFn τ.s) := by
    rw [cexec, c1]; exact congrArg some (Prod.ext rfl hfn)
  refine ⟨_, hx, hra, ?_, ?_⟩
  · show load (sw τ.sh (S - off A 8) τ.ssp) (s.gpr ssp) A.k = _
    rw [hss]; exact hsh
  · intro s' r1 r2 r3 r4
    have r1 : s'.s.gpr rsp = s.gpr rsp := r1
    have r2 : s'.ssp = S - off A 8 := Eq.trans r2 hss
    have r3 : ∀ a, InR a (s.gpr rsp) 8 → s'.s.mem a = s.mem a := r3
    have r4 : ∀ a, InR a (s.gpr ssp) 8 → s'.sh a = sw τ.sh (S - off A 8) τ.ssp a := r4
    rw [hss] at r4
    have k1 : load s'.s.mem (s'.s.gpr rsp) A.k = e Lab.trampoline := by rw [r1, sh_agree r3, hra]
    have k2 : load s'.sh s'.ssp A.k = e Lab.l1 := by rw [r2, sh_agree r4, hsh]
    have k3 : ¬ load s'.sh s'.ssp A.k = load s'.s.mem (s'.s.gpr rsp) A.k := by rw [k1, k2]; exact fun hh => hl hh.symm
    rw [cstep, if_neg k3]

theorem cexec_tramp (cfg : Cfg) (e : Env A) (c : CSt) : ∃ w, cexec e (trampIs cfg) rbx c = some (w, c.s.gpr rbx) := by
  have h : crun e (trampIs cfg) c = cstep e c (.call Lab.l2) := by
    rw [trampIs, crun, show cstep e _ (.call Lab.l2) = _ from cstep_call e Lab.l2 _]
    rfl
  rw [cexec, h, show cstep e _ (.call Lab.l2) = _ from cstep_call e Lab.l2 _]
  exact ⟨_, rfl⟩

/-- **C66**, a defect: a context function that returns is started again instead of ending the process: its `ret` goes to `jmp *%rbp`, `rbp` holds the address of `jmp trampoline`
instead of that of `finish`, and the trampoline enters the context function. -/
theorem C66_cet_return_restarts (t : Bool) (e : Env A) (σ m τ : CSt) (S pc : A.W) (h : Ready σ S) (hm : cexec e (makeIs ⟨t, false⟩) rip σ = some (m, pc))
    (hf : First ⟨t, false⟩ S m τ) : ∃ s u, cexec e (jumpIs ⟨t, false⟩) r8 τ = some (s, e Lab.trampoline) ∧ cexec e (trampIs ⟨t, false⟩) rbx s = some (u, σ.s.gpr rdx) ∧
      ∀ u' : CSt, (∀ r ∈ (port ⟨t, false⟩).saved, u'.s.gpr r = u.s.gpr r) → u'.s.gpr rsp = u.s.gpr rsp → u'.ssp = u.ssp → (∀ a, InR a (u.s.gpr rsp) 8 → u'.s.mem a = u.s.mem a) →
        (∀ a, InR a u.ssp 8 → u'.sh a = u.sh a) →
        ∃ v w, cstep e u' .ret = some v ∧ v.s.gpr rip = e Lab.l2 ∧ v.s.gpr rbp = e Lab.l1 ∧ cexec e (trampIs ⟨t, false⟩) rbx v = some (w, σ.s.gpr rdx) := by
  obtain ⟨s, u, u1, u2, -, -, -, -, u7, u8, -, -, u9, u10, -⟩ := first_run t e σ m τ S pc h hm hf
  refine ⟨s, u, u1, u2, fun u' r1 r2 r3 r4 r5 => ?_⟩
  have u7 : load u.s.mem (u.s.gpr rsp) A.k = e Lab.l2 := u7
  have k1 : load u'.s.mem (u'.s.gpr rsp) A.k = e Lab.l2 := by rw [r2, sh_agree r4, u7]
  have k2 : load u'.sh u'.ssp A.k = e Lab.l2 := by rw [r3, sh_agree r5, u8]
  have k3 : u'.s.gpr rbp = e Lab.l1 := by rw [r1 rbp (by simp [port]), u10]
  have k4 : u'.s.gpr rbx = σ.s.gpr rdx := by rw [r1 rbx (by simp [port]), u9]
  obtain ⟨v, hv⟩ : ∃ v, v = CSt.mk (setg (setg (setg u'.s rip (load u'.s.mem (u'.s.gpr rsp) A.k)) rsp (u'.s.gpr rsp + off A 8)) ssp (u'.ssp + off A 8)) u'.sh u'.cf := ⟨_, rfl⟩
  obtain ⟨w, hw⟩ := cexec_tramp ⟨t, false⟩ e v
  have v1 : v.s.gpr rbx = σ.s.gpr rdx := by rw [hv]; exact k4
  rw [v1] at hw
  refine ⟨v, w, by simp only [cstep]; rw [if_pos (k2.trans k1.symm), hv], ?_, ?_, hw⟩
  · rw [hv]; exact k1
  · rw [hv]; exact k3

/-! ## The hypotheses can be met -/

/-- a state with given `rsp`, `rdi`, `ssp`, everything else zero -/
def mk (sp a q : A.W) (m : Mem A) (sh : Mem A) : CSt :=
  ⟨⟨fun r => if r = rsp then sp else if r = rdi then a else if r = ssp then q else 0#_, fun | .mxcsr => 0x1f80#_ | .x87cw => 0x37f#_ | .guard => 0#_, m⟩, sh, false⟩

/-- a caller at `rsp = 0x10000`, `ssp = 0x20000`, a new stack with top `0xf000`, and a new shadow stack with top `0x30000` -/
def w0 : CSt := mk 0x10000#_ 0xf000#_ 0x20000#_ (store (fun _ => 0#_) 0xeff8#_ 8 0x30000#64) (store (fun _ => 0#_) 0x2fff8#_ 8 0x30001#64)

theorem w0_ready : Ready w0 0x30000#_ where
  top := load_store_same (A := A) (fun _ => 0#_) 0xeff8#_ 8 0x30000#64 (by decide)
  al := by decide
  al' := by decide
  tok := load_store_same (A := A) (fun _ => 0#_) 0x2fff8#_ 8 0x30001#64 (by decide)
  ret := by
    have h1 : load w0.sh w0.ssp A.k = load (A := A) (fun _ => 0#_) 0x20000#_ A.k :=
      load_store_out (by decide) (fun x hx => inR_apart (A := A) (n := 8) (n' := 8) (by decide) (by decide) hx)
    have h2 : load w0.s.mem (w0.s.gpr rsp) A.k = load (A := A) (fun _ => 0#_) 0x10000#_ A.k :=
      load_store_out (by decide) (fun x hx hy => inR_apart (A := A) (n := 8) (n' := 8) (by decide) (by decide) hy hx)
    rw [h1, h2]
    rfl
  sh a ha hb := inR_apart (A := A) (b := 0x1fff8#_) (b' := 0x2fff0#_) (n := 0x10) (n' := 0x10) (by decide) (by decide) hb ha
  main a ha := inR_apart (A := A) (b := 0xefb0#_) (b' := 0xfff8#_) (n := 0x50) (n' := 0x10) (by decide) (by decide) ha

/-- The hypotheses of the theorems on new contexts are met (here by a first switch from another stack, `rsp = 0x18000`, `ssp = 0x28000`). -/
theorem w_first (t : Bool) (e : Env A) : ∃ σ m τ S pc, Ready σ S ∧ cexec e (makeIs ⟨t, false⟩) rip σ = some (m, pc) ∧ First ⟨t, false⟩ S m τ ∧
    (∀ a, InR a (S - off A 8) 8 → ¬ InR a (τ.ssp - off A 8) 8) ∧ τ.ssp = 0x28000#_ ∧ τ.s.gpr rsp = 0x18000#_ := by
  obtain ⟨m, pc, h1, -, -, h3, -⟩ := C66_cet_make t e w0 0x30000#_ w0_ready
  have h3 : m.s.gpr rax = 0xefb0#_ := h3.trans (by show (0xf000#_ &&& mask A 4) - off A 0x50 = _; decide)
  refine ⟨w0, m, mk 0x18000#_ 0xefb0#_ 0x28000#_ m.s.mem m.sh, 0x30000#_, pc, w0_ready, h1, ⟨h3.symm, ?_, fun _ _ => rfl, ?_, fun _ _ => rfl⟩, ?_, rfl, rfl⟩
  · show (0x28000#64).toNat % 8 = 0; decide
  · intro a ha
    have e1 : (port ⟨t, false⟩).fctx (mk 0x18000#_ 0xefb0#_ 0x28000#_ m.s.mem m.sh).s = 0x17fb8#_ := by show (0x18000#_ : A.W) - off A 0x48 = _; decide
    rw [e1]
    have ha : InR (A := A) a 0xefb0#_ 0x50 := ha
    exact inR_apart (A := A) (b' := 0x17fb8#_) (n := 0x50) (n' := 0x48) (by decide) (by decide) ha
  · intro a ha hb
    have e1 : (mk 0x18000#_ 0xefb0#_ 0x28000#_ m.s.mem m.sh).ssp - off A 8 = 0x27ff8#_ := by show (0x28000#_ : A.W) - off A 8 = _; decide
    have e2 : (0x30000#_ : A.W) - off A 8 = 0x2fff8#_ := by decide
    rw [e1] at hb
    rw [e2] at ha
    exact inR_apart (A := A) (n := 8) (n' := 8) (by decide) (by decide) hb ha

/-- The hypotheses of the theorems on switches are met: the context that made the first switch is resumed. -/
example (t : Bool) (e : Env A) : ∃ σ m τ, CLeft ⟨t, false⟩ e σ m ∧ CIntact ⟨t, false⟩ σ m τ ∧ (port ⟨t, false⟩).argF τ.s = (port ⟨t, false⟩).fctx σ.s ∧
    (∀ a, InR a (τ.ssp - off A 8) 8 → ¬ InR a (σ.ssp - off A 8) 8) := by
  obtain ⟨σ, m, τ, S, pc, h1, h2, h3, -, h5, h6⟩ := w_first t e
  obtain ⟨s, u, u1, -⟩ := first_run t e σ m τ S pc h1 h2 h3
  have hl : CLeft ⟨t, false⟩ e τ s := ⟨_, .inl u1⟩
  have e1 : (port ⟨t, false⟩).fctx τ.s = 0x17fb8#_ := by
    show τ.s.gpr rsp - off A 0x48 = _
    rw [h6]; decide
  refine ⟨τ, s, mk 0x40000#_ 0x17fb8#_ 0x50000#_ s.s.mem s.sh, hl, ⟨⟨trivial, trivial, fun _ h => h.elim, fun _ h => h.elim, fun _ _ => rfl, ?_⟩, h3.al, ?_, fun _ _ => rfl⟩, ?_, ?_⟩
  · intro a ha
    rw [e1] at ha
    have e2 : (port ⟨t, false⟩).fctx (mk 0x40000#_ 0x17fb8#_ 0x50000#_ s.s.mem s.sh).s = 0x3ffb8#_ := by show (0x40000#_ : A.W) - off A 0x48 = _; decide
    rw [e2]
    have ha : InR (A := A) a 0x17fb8#_ 0x50 := ha
    exact inR_apart (A := A) (b' := 0x3ffb8#_) (n := 0x50) (n' := 0x48) (by decide) (by decide) ha
  · show (0x50000#64).toNat % 8 = 0; decide
  · rw [e1]; rfl
  · intro a ha hb
    rw [h5] at hb
    have e2 : (mk 0x40000#_ 0x17fb8#_ 0x50000#_ s.s.mem s.sh).ssp - off A 8 = 0x4fff8#_ := by show (0x50000#_ : A.W) - off A 8 = _; decide
    have e3 : (0x28000#_ : A.W) - off A 8 = 0x27ff8#_ := by decide
    rw [e3] at hb
    rw [e2] at ha
    exact inR_apart (A := A) (n := 8) (n' := 8) (by decide) (by decide) hb ha

end Verif.Asm.X86_64Cet
