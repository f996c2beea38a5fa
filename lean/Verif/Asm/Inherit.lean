import Verif.Asm.X86_64
import Verif.Asm.X86_64Macho
import Verif.Asm.I386
import Verif.Asm.I386Macho

/-! # The control words a new context starts with (C65) -/

namespace Verif.Asm

namespace Port
variable {A : Arch} (P : Port A)

/-- **New contexts inherit.** In the first activation of the context that `make_fcontext` created in the call `σ`, by whatever later call `τ`, the context
function is entered with those of the registers `fs` having the contents they had when the context was *created*. -/
def Inherits (fs : List A.F) : Prop := ∀ (e : Env A) (σ : St A),
  (∀ a, InR a (P.resM (exec e P.make σ).1) (P.argTop σ - P.resM (exec e P.make σ).1).toNat →
    ¬ InR a (σ.gpr P.sp - off A P.mscratch) (P.mscratch + A.k)) →
  ∀ τ : St A, P.argF τ = P.resM (exec e P.make σ).1 →
    (∀ a, InR a (P.argF τ) P.mkeep → τ.mem a = (exec e P.make σ).1.mem a) →
    (∀ a, InR a (P.argF τ) P.mkeep → ¬ InR a (P.fctx τ) P.frame) →
    ∀ f ∈ fs, (P.enter e τ).1.fpr f = σ.fpr f

/-- The registers `fs` are the business of the users: a switch, an on-top call and a first activation leave them as they are. -/
def Passes (fs : List A.F) : Prop := ∀ (e : Env A) (τ : St A) (f : A.F), f ∈ fs →
  (exec e P.jump τ).1.fpr f = τ.fpr f ∧ (exec e P.ontop τ).1.fpr f = τ.fpr f ∧ (P.enter e τ).1.fpr f = τ.fpr f ∧ (exec e P.make τ).1.fpr f = τ.fpr f

end Port

theorem fpr_keep {A : Arch} (e : Env A) (is : List (Instr A)) (f : A.F) (h : ∀ i ∈ is, i.dest ≠ some (.f f)) (σ : St A) : (steps e is σ).fpr f = σ.fpr f :=
  steps_dest e is (.f f) h σ

namespace X86_64

theorem make_ctx (cfg : Cfg) (e : Env A) (σ : St A) : (port cfg).resM (exec e (port cfg).make σ).1 = ctxOf σ := by
  show (exec e (make cfg) σ).1.gpr rax = ctxOf σ
  rw [make_pre]
  have := steps_dest e ((makeIs cfg).drop 3) (.g rax) (by obtain ⟨_ | _, _ | _⟩ := cfg <;> decide) (setg σ rax (ctxOf σ))
  simp only [get_g] at this
  rw [this]; simp [setg]

theorem make_size (cfg : Cfg) (σ : St A) : ((port cfg).argTop σ - ctxOf σ).toNat = 0x48 + (σ.gpr rdi).toNat % 16 := align_below (A := A) (σ.gpr rdi) 0x48 4 (by decide)

/-- **C65**, with or without `BOOST_CONTEXT_TLS_STACK_PROTECTOR`, without `BOOST_USE_TSX`.  (`make_fcontext` with that option also writes the word above its return address, see
`C30_x86_64_guard_defect`.) -/
theorem C65_x86_64_inherits_guard (cfg : Cfg) (ht : cfg.tsx = false) (e : Env A) (σ τ : St A) (c : A.W) (hc : c = (port cfg).resM (exec e (port cfg).make σ).1)
    (hd : ∀ a, InR a c ((port cfg).argTop σ - c).toNat → ¬ InR a (σ.gpr rsp) (if cfg.guard then 0x10 else 8))
    (ha : (port cfg).argF τ = c) (hmem : ∀ a, InR a c (port cfg).mkeep → τ.mem a = (exec e (port cfg).make σ).1.mem a)
    (hdj : ∀ a, InR a c (port cfg).mkeep → ¬ InR a ((port cfg).fctx τ) (port cfg).frame) (f : A.F) (hf : f ∈ [mxcsr, x87cw]) :
    ((port cfg).enter e τ).1.fpr f = σ.fpr f := by
  have hres := make_ctx cfg e σ
  rw [hres] at hc
  subst hc
  rw [make_size] at hd
  have hd' : ∀ a, InR a (ctxOf σ) 0x48 → ¬ InR a (σ.gpr rsp) (if cfg.guard then 0x10 else 8) := fun a h => hd a (inR_mono h (by omega))
  obtain ⟨m1, m2, m3, m4, m5, m6, m7, m8, m9, m10⟩ := make_facts cfg e σ hd'
  have ha' : τ.gpr rdi = ctxOf σ := ha
  have hmem : ∀ a, InR a (ctxOf σ) 0x48 → τ.mem a = (exec e (make cfg) σ).1.mem a := hmem
  obtain ⟨h1, h2, h3⟩ := jump_restore cfg
  have hr := fin_rel (I_ok true e τ (fun _ => by rw [ha']; exact hdj)) _ h1
  obtain ⟨s, hs⟩ : ∃ s, s = steps (I e τ).e (jumpIs cfg) (I e τ).σ := ⟨_, rfl⟩
  rw [← hs] at hr
  have hx : ((port cfg).enter e τ).1.fpr f = s.fpr f := by
    rw [hs]
    show (steps e (trampIs cfg) (steps e (jumpIs cfg) τ)).fpr f = _
    exact fpr_keep _ _ _ (by obtain ⟨_ | _, _ | _⟩ := cfg <;> simp [trampIs, Instr.dest]) _
  rw [hx, hr.fpr]
  have hb : (I e τ).β 1 = ctxOf σ := by simp [I, ha']
  simp only [List.mem_cons, List.not_mem_nil, or_false] at hf
  rcases hf with rfl | rfl
  · rw [h2.f (mxcsr, 0) (by simp [LF, ht]), ← m7]
    show load τ.mem ((I e τ).β 1 + off A 0) 4 = _
    rw [hb]; exact load_agree hmem (by decide) (by decide)
  · rw [h2.f (x87cw, 4) (by simp [LF, ht]), ← m8]
    show load τ.mem ((I e τ).β 1 + off A 4) 2 = _
    rw [hb]; exact load_agree hmem (by decide) (by decide)

/-- **C65**, without `BOOST_USE_TSX` -/
theorem C65_x86_64_inherits (cfg : Cfg) (ht : cfg.tsx = false) (hg : cfg.guard = false) : (port cfg).Inherits [mxcsr, x87cw] := by
  intro e σ hd τ ha hmem hdj f hf
  rw [ha] at hmem hdj
  refine C65_x86_64_inherits_guard cfg ht e σ τ _ rfl (fun a h => ?_) ha hmem hdj f hf
  rw [hg]
  have h8 : ¬ InR a (σ.gpr rsp - off A 0) 8 := hd a h
  rw [show σ.gpr rsp - off A 0 = σ.gpr rsp from BitVec.sub_zero _] at h8
  exact h8

/-- **C65**, with `BOOST_USE_TSX` -/
theorem C65_x86_64_tsx (cfg : Cfg) (ht : cfg.tsx = true) : (port cfg).Passes [mxcsr, x87cw] := by
  intro e τ f hf
  simp only [List.mem_cons, List.not_mem_nil, or_false] at hf
  have h1 : ∀ s : St A, (steps e (jumpIs cfg) s).fpr f = s.fpr f := fpr_keep e _ f (by
      obtain ⟨_, _ | _⟩ := cfg <;> subst ht <;> rcases hf with rfl | rfl <;> decide)
  have h2 : ∀ s : St A, (steps e (ontopIs cfg) s).fpr f = s.fpr f := fpr_keep e _ f (by
      obtain ⟨_, _ | _⟩ := cfg <;> subst ht <;> rcases hf with rfl | rfl <;> decide)
  have h3 : ∀ s : St A, (steps e (trampIs cfg) s).fpr f = s.fpr f := fpr_keep e _ f (by
      obtain ⟨_, _ | _⟩ := cfg <;> subst ht <;> rcases hf with rfl | rfl <;> decide)
  have h4 : ∀ s : St A, (steps e (makeIs cfg) s).fpr f = s.fpr f := fpr_keep e _ f (by
      obtain ⟨_, _ | _⟩ := cfg <;> subst ht <;> rcases hf with rfl | rfl <;> decide)
  exact ⟨h1 τ, h2 τ, (h3 _).trans (h1 τ), h4 τ⟩

end X86_64

namespace X86_64Macho

/-- **C65**, without `BOOST_USE_TSX` -/
theorem C65_x86_64_macho_inherits (cfg : Cfg) (ht : cfg.tsx = false) : (port cfg).Inherits [mxcsr, x87cw] := by
  intro e σ hd τ ha hmem hdj f hf
  have hres : (port cfg).resM (exec e (port cfg).make σ).1 = ctxOf σ := by
    show (exec e (make cfg) σ).1.gpr rax = ctxOf σ
    rw [make_pre]
    have := steps_dest e ((makeIs cfg).drop 3) (.g rax) (by obtain ⟨_ | _⟩ := cfg <;> decide) (setg σ rax (ctxOf σ))
    simp only [get_g] at this
    rw [this]; simp [setg]
  rw [hres] at hd
  have hsz : ((port cfg).argTop σ - ctxOf σ).toNat = 0x40 + (σ.gpr rdi).toNat % 16 := align_below (A := A) (σ.gpr rdi) 0x40 4 (by decide)
  rw [hsz] at hd
  have hd' : ∀ a, InR a (ctxOf σ) 0x40 → ¬ InR a (σ.gpr rsp) 8 := by
    intro a h
    have h8 : ¬ InR a (σ.gpr rsp - off A 0) 8 := hd a (inR_mono h (by omega))
    rw [show σ.gpr rsp - off A 0 = σ.gpr rsp from BitVec.sub_zero _] at h8
    exact h8
  obtain ⟨m1, m2, m3, m4, m5, m6, m7, m8⟩ := make_facts cfg e σ hd'
  rw [ha, hres] at hmem hdj
  have ha' : τ.gpr rdi = ctxOf σ := ha.trans hres
  have hmem : ∀ a, InR a (ctxOf σ) 0x40 → τ.mem a = (exec e (make cfg) σ).1.mem a := hmem
  obtain ⟨h1, h2, h3⟩ := jump_restore cfg
  have hr := fin_rel (I_ok true e τ (fun _ => by rw [ha']; exact hdj)) _ h1
  obtain ⟨s, hs⟩ : ∃ s, s = steps (I e τ).e (jumpIs cfg) (I e τ).σ := ⟨_, rfl⟩
  rw [← hs] at hr
  have hx : ((port cfg).enter e τ).1.fpr f = s.fpr f := by
    rw [hs]
    show (steps e (trampIs cfg) (steps e (jumpIs cfg) τ)).fpr f = _
    exact fpr_keep _ _ _ (by obtain ⟨_ | _⟩ := cfg <;> simp [trampIs, Instr.dest]) _
  rw [hx, hr.fpr]
  have hb : (I e τ).β 1 = ctxOf σ := by simp [I, ha']
  simp only [List.mem_cons, List.not_mem_nil, or_false] at hf
  rcases hf with rfl | rfl
  · rw [h2.f (mxcsr, 0) (by simp [LF, ht]), ← m7]
    show load τ.mem ((I e τ).β 1 + off A 0) 4 = _
    rw [hb]; exact load_agree hmem (by decide) (by decide)
  · rw [h2.f (x87cw, 4) (by simp [LF, ht]), ← m8]
    show load τ.mem ((I e τ).β 1 + off A 4) 2 = _
    rw [hb]; exact load_agree hmem (by decide) (by decide)

/-- **C65**, with `BOOST_USE_TSX` -/
theorem C65_x86_64_macho_tsx (cfg : Cfg) (ht : cfg.tsx = true) : (port cfg).Passes [mxcsr, x87cw] := by
  intro e τ f hf
  simp only [List.mem_cons, List.not_mem_nil, or_false] at hf
  have h1 : ∀ s : St A, (steps e (jumpIs cfg) s).fpr f = s.fpr f := fpr_keep e _ f (by
      obtain ⟨_⟩ := cfg <;> subst ht <;> rcases hf with rfl | rfl <;> decide)
  have h2 : ∀ s : St A, (steps e (ontopIs cfg) s).fpr f = s.fpr f := fpr_keep e _ f (by
      obtain ⟨_⟩ := cfg <;> subst ht <;> rcases hf with rfl | rfl <;> decide)
  have h3 : ∀ s : St A, (steps e (trampIs cfg) s).fpr f = s.fpr f := fpr_keep e _ f (by
      obtain ⟨_⟩ := cfg <;> subst ht <;> rcases hf with rfl | rfl <;> decide)
  have h4 : ∀ s : St A, (steps e (makeIs cfg) s).fpr f = s.fpr f := fpr_keep e _ f (by
      obtain ⟨_⟩ := cfg <;> subst ht <;> rcases hf with rfl | rfl <;> decide)
  exact ⟨h1 τ, h2 τ, (h3 _).trans (h1 τ), h4 τ⟩

end X86_64Macho

namespace I386

theorem enter_special (cfg : Cfg) : ∃ h, (∀ x ∈ LF cfg, (CE.fin (jumpIs cfg) h).fpr x.1 = .ld 1 x.2) ∧
    (cfg.guard = true → (CE.fin (jumpIs cfg) h).fpr guard = .ofG ⟨.ld 1 8, 0#_⟩) := by
  obtain ⟨_ | _, _ | _⟩ := cfg <;> exact ⟨by decide +kernel, by decide +kernel, by decide +kernel⟩

/-- **C65**, without `BOOST_USE_TSX`; with `BOOST_CONTEXT_TLS_STACK_PROTECTOR` the guard word is inherited as well -/
theorem C65_i386_inherits (cfg : Cfg) (ht : cfg.tsx = false) : (port cfg).Inherits ([mxcsr, x87cw] ++ if cfg.guard then [guard] else []) := by
  intro e σ hd τ ha hmem hdj f hf
  have hres : (port cfg).resM (exec e (port cfg).make σ).1 = ctxOf σ := by
    show (exec e (make cfg) σ).1.gpr eax = ctxOf σ
    rw [make_pre]
    have := steps_dest e ((makeIs cfg).drop 5) (.g eax) (by obtain ⟨_ | _, _ | _⟩ := cfg <;> decide) (pre σ)
    simp only [get_g] at this
    rw [this]
    have n1 : eax ≠ ecx := by decide
    simp [pre, setg, n1]
  rw [hres] at hd
  have hsz : ((port cfg).argTop σ - ctxOf σ).toNat = 0x3c + (arg σ 4 - off A 8).toNat % 16 := ctx_size σ
  rw [hsz] at hd
  obtain ⟨m1, m2, m3, m4, m5, m6, m7, m8, m9⟩ := make_facts cfg e σ (fun a h => hd a (inR_mono h (by omega)))
  rw [ha, hres] at hmem hdj
  have ha' : arg τ 8 = ctxOf σ := ha.trans hres
  have hmem : ∀ a, InR a (ctxOf σ) 0x2c → τ.mem a = (exec e (make cfg) σ).1.mem a := hmem
  have hdj : ∀ a, InR a (ctxOf σ) 0x2c → ¬ InR a (τ.gpr esp - off A 0x1c) 0x1c := hdj
  have hth : thid τ = arg τ 8 + off A 0xc := by
    show load τ.mem (arg τ 8 + off A 0x20) A.k = _
    rw [ha', load_agree hmem (by decide) (by decide), m6]
  obtain ⟨h1, h2, h3⟩ := enter_special cfg
  have hr := fin_rel (IE_ok e τ hth (by rw [ha']; exact hdj)) _ h1
  obtain ⟨s, hs⟩ : ∃ s, s = steps (I e τ).e (jumpIs cfg) (I e τ).σ := ⟨_, rfl⟩
  rw [← hs] at hr
  have hx : ((port cfg).enter e τ).1.fpr f = s.fpr f := by
    rw [hs]
    show (steps e (trampIs cfg) (steps e (jumpIs cfg) τ)).fpr f = _
    exact fpr_keep _ _ _ (by obtain ⟨_ | _, _ | _⟩ := cfg <;> simp [trampIs, Instr.dest]) _
  rw [hx, hr.fpr]
  have hb : (I e τ).β 1 = ctxOf σ := by simp [I, ha']
  simp only [List.mem_append, List.mem_cons, List.not_mem_nil, or_false] at hf
  rcases hf with (rfl | rfl) | hf
  · rw [h2 (mxcsr, 0) (by simp [LF, ht]), ← m7]
    show load τ.mem ((I e τ).β 1 + off A 0) 4 = _
    rw [hb]; exact load_agree hmem (by decide) (by decide)
  · rw [h2 (x87cw, 4) (by simp [LF, ht]), ← m8]
    show load τ.mem ((I e τ).β 1 + off A 4) 2 = _
    rw [hb]; exact load_agree hmem (by decide) (by decide)
  · split at hf
    · rename_i hg
      simp only [List.mem_cons, List.not_mem_nil, or_false] at hf
      subst hf
      rw [h3 hg, ← m9 hg]
      show ((I e τ).sv ⟨.ld 1 8, 0#_⟩).setWidth (8 * A.k) = load (exec e (make cfg) σ).1.mem (ctxOf σ + off A 8) A.k
      rw [BitVec.setWidth_eq]
      show load τ.mem ((I e τ).β 1 + off A 8) A.k + 0#_ = _
      rw [hb, BitVec.add_zero]; exact load_agree hmem (by decide) (by decide)
    · simp at hf

/-- **C65**, with `BOOST_USE_TSX` -/
theorem C65_i386_tsx (cfg : Cfg) (ht : cfg.tsx = true) : (port cfg).Passes [mxcsr, x87cw] := by
  intro e τ f hf
  simp only [List.mem_cons, List.not_mem_nil, or_false] at hf
  have h1 : ∀ s : St A, (steps e (jumpIs cfg) s).fpr f = s.fpr f := fpr_keep e _ f (by
      obtain ⟨_, _ | _⟩ := cfg <;> subst ht <;> rcases hf with rfl | rfl <;> decide)
  have h2 : ∀ s : St A, (steps e (ontopIs cfg) s).fpr f = s.fpr f := fpr_keep e _ f (by
      obtain ⟨_, _ | _⟩ := cfg <;> subst ht <;> rcases hf with rfl | rfl <;> decide)
  have h3 : ∀ s : St A, (steps e (trampIs cfg) s).fpr f = s.fpr f := fpr_keep e _ f (by
      obtain ⟨_, _ | _⟩ := cfg <;> subst ht <;> rcases hf with rfl | rfl <;> decide)
  have h4 : ∀ s : St A, (steps e (makeIs cfg) s).fpr f = s.fpr f := fpr_keep e _ f (by
      obtain ⟨_, _ | _⟩ := cfg <;> subst ht <;> rcases hf with rfl | rfl <;> decide)
  exact ⟨h1 τ, h2 τ, (h3 _).trans (h1 τ), h4 τ⟩

end I386

namespace I386Macho

theorem enter_special (cfg : Cfg) : ∃ h, ∀ x ∈ LF cfg, (CE.fin (jumpIs cfg) h).fpr x.1 = .ld 1 x.2 := by
  obtain ⟨_ | _⟩ := cfg <;> exact ⟨by decide +kernel, by decide +kernel⟩

/-- **C65**, without `BOOST_USE_TSX` -/
theorem C65_i386_macho_inherits (cfg : Cfg) (ht : cfg.tsx = false) : (port cfg).Inherits [mxcsr, x87cw] := by
  intro e σ hd τ ha hmem hdj f hf
  have hres := make_res cfg e σ
  rw [hres] at hd
  have hsz : ((port cfg).argTop σ - ctxOf σ).toNat = 0x3c + (arg σ 4 - off A 8).toNat % 16 := ctx_size σ
  rw [hsz] at hd
  obtain ⟨m1, m2, m3, m4, m5, m7, m8⟩ := make_facts cfg e σ (fun a h => hd a (inR_mono h (by omega)))
  rw [ha, hres] at hmem hdj
  have ha' : arg τ 4 = ctxOf σ := ha.trans hres
  have hmem : ∀ a, InR a (ctxOf σ) 0x24 → τ.mem a = (exec e (make cfg) σ).1.mem a := hmem
  have hdj : ∀ a, InR a (ctxOf σ) 0x24 → ¬ InR a (τ.gpr esp - off A 0x18) 0x18 := hdj
  obtain ⟨h1, h2⟩ := enter_special cfg
  have hr := fin_rel (IE_ok e τ (by rw [ha']; exact hdj)) _ h1
  obtain ⟨s, hs⟩ : ∃ s, s = steps (I e τ).e (jumpIs cfg) (I e τ).σ := ⟨_, rfl⟩
  rw [← hs] at hr
  have hx : ((port cfg).enter e τ).1.fpr f = s.fpr f := by
    rw [hs]
    show (steps e (trampIs cfg) (steps e (jumpIs cfg) τ)).fpr f = _
    exact fpr_keep _ _ _ (by obtain ⟨_ | _⟩ := cfg <;> simp [trampIs, Instr.dest]) _
  rw [hx, hr.fpr]
  have hb : (I e τ).β 1 = ctxOf σ := by simp [I, ha']
  simp only [List.mem_cons, List.not_mem_nil, or_false] at hf
  rcases hf with rfl | rfl
  · rw [h2 (mxcsr, 0) (by simp [LF, ht]), ← m7]
    show load τ.mem ((I e τ).β 1 + off A 0) 4 = _
    rw [hb]; exact load_agree hmem (by decide) (by decide)
  · rw [h2 (x87cw, 4) (by simp [LF, ht]), ← m8]
    show load τ.mem ((I e τ).β 1 + off A 4) 2 = _
    rw [hb]; exact load_agree hmem (by decide) (by decide)

/-- **C65**, with `BOOST_USE_TSX` -/
theorem C65_i386_macho_tsx (cfg : Cfg) (ht : cfg.tsx = true) : (port cfg).Passes [mxcsr, x87cw] := by
  intro e τ f hf
  simp only [List.mem_cons, List.not_mem_nil, or_false] at hf
  have h1 : ∀ s : St A, (steps e (jumpIs cfg) s).fpr f = s.fpr f := fpr_keep e _ f (by
      obtain ⟨_⟩ := cfg <;> subst ht <;> rcases hf with rfl | rfl <;> decide)
  have h2 : ∀ s : St A, (steps e (ontopIs cfg) s).fpr f = s.fpr f := fpr_keep e _ f (by
      obtain ⟨_⟩ := cfg <;> subst ht <;> rcases hf with rfl | rfl <;> decide)
  have h3 : ∀ s : St A, (steps e (trampIs cfg) s).fpr f = s.fpr f := fpr_keep e _ f (by
      obtain ⟨_⟩ := cfg <;> subst ht <;> rcases hf with rfl | rfl <;> decide)
  have h4 : ∀ s : St A, (steps e (makeIs cfg) s).fpr f = s.fpr f := fpr_keep e _ f (by
      obtain ⟨_⟩ := cfg <;> subst ht <;> rcases hf with rfl | rfl <;> decide)
  exact ⟨h1 τ, h2 τ, (h3 _).trans (h1 τ), h4 τ⟩

end I386Macho

end Verif.Asm
