import Verif.Fiber.Eff

/-! # Two-state facts about successful steps -/

namespace Verif.Fiber
open State

theorem capture_val (s : State) (n : CtxId) (xs : List Var) (hx : ∀ x ∈ xs, x < s.nextVar) :
    s.nextVar ≤ (s.capture n xs).nextVar ∧ (∀ x, x < s.nextVar → (s.capture n xs).val x = if x ∈ xs then none else s.val x) ∧
    (∀ x, x < s.nextVar → (s.capture n xs).kind x = s.kind x) := by
  induction xs generalizing s with
  | nil => simp [State.capture]
  | cons x xs ih =>
    simp only [State.capture]
    have := ih ({ (s.setVal x none).newVar (.cap n) (s.val x) with
      caps := upd ((s.setVal x none).newVar (.cap n) (s.val x)).caps n (s.nextVar :: ((s.setVal x none).newVar (.cap n) (s.val x)).caps n) })
      (by intro y hy; have := hx y (by simp [hy]); simp only [State.newVar, State.setVal]; exact Nat.lt_succ_of_lt this)
    simp only [State.newVar, State.setVal, upd_apply] at this ⊢
    obtain ⟨h1, h2, h3⟩ := this
    refine ⟨by omega, ?_, ?_⟩
    · intro y hy
      rw [h2 y (by omega)]
      have : y ≠ s.nextVar := by omega
      simp only [List.mem_cons]
      grind
    · intro y hy
      rw [h3 y (by omega)]
      grind

theorem lt_nextVar {s : State} (hi : Inv s) {x} (h : s.kind x ≠ .dead) : x < s.nextVar := by
  have := hi.oi.fresh x
  grind

/-- old objects keep their value or become empty, except targets of move assignment and swap -/
theorem step_val {s s' : State} {t op} (hi : Inv s) (h : step s t op = .ok s') :
    s.nextVar ≤ s'.nextVar ∧ ∀ x, x < s.nextVar → ¬ Assigns op x →
      s'.val x = s.val x ∨ s'.val x = none := by
  obtain ⟨c, hc, he⟩ := step_eff hi h
  clear h
  cases he
  case create k ls rest xs hf ha s2 h2 =>
    have hc := capture_val ({ s with nextCtx := s.nextCtx + 1 }.addLog (.alloc s.nextCtx)) s.nextCtx xs
      (fun x hx => lt_nextVar hi (accessible_ne_dead (ha x hx)))
    rw [← h2] at hc
    simp [State.addLog] at hc
    refine ⟨by simp; omega, ?_⟩
    intro x hx _
    simp only [upd_apply]
    have := hc.2.1 x hx
    grind
  case destroy s1 f h1 h2 =>
    have hn : s1.nextVar = s.nextVar := by cases h1 <;> rfl
    have hv : ∀ x, ¬ Assigns op x → s1.val x = s.val x ∨ s1.val x = none := by
      cases h1 <;> simp only [upd_apply, Assigns] <;> grind
    obtain ⟨h2⟩ := h2
    cases h2 <;> simp only [fin, sw, State.setFrames, upd_apply] <;> grind
  case resume hd =>
    cases hd <;> simp only [sw, State.setFrames, State.setVal, upd_apply] <;> grind
  case leaveOntop hd =>
    cases hd <;> simp only [State.kill, State.setFrames, State.setVal, upd_apply] <;> grind
  case propOntopForced hd =>
    cases hd <;> simp only [fin, State.kill, State.setFrames, State.setVal, upd_apply] <;> grind
  case exitDone hd =>
    cases hd <;> simp only [upd_apply] <;> grind
  all_goals
    simp only [fin, State.kill, State.newVar, State.setFrames, State.setVal, upd_apply, Assigns]
    first | grind | skip

/-- `lost` changes only by operations that lose a context -/
theorem step_lost {s s' : State} {t op} (hi : Inv s) (h : step s t op = .ok s') (hop : op.loses = false) : s'.lost = s.lost := by
  obtain ⟨c, hc, he⟩ := step_eff hi h
  clear h
  cases he
  case create k ls rest xs hf ha s2 h2 =>
    have hc := capture_same ({ s with nextCtx := s.nextCtx + 1 }.addLog (.alloc s.nextCtx)) s.nextCtx xs
    rw [← h2] at hc
    simp at hc
    simp [hc]
  case destroy s1 f h1 h2 =>
    obtain ⟨h2⟩ := h2
    cases h1 <;> cases h2 <;> rfl
  case resume hd => cases hd <;> rfl
  case leaveOntop hd => cases hd <;> rfl
  case propOntopForced hd => cases hd <;> rfl
  case exitDone hd => cases hd <;> rfl
  case swallow => simp [Op.loses] at hop
  case withThrows => simp [Op.loses] at hop
  all_goals rfl

/-- a lost context stays lost -/
theorem lost_mono {s s' : State} {t op d} (hi : Inv s) (h : step s t op = .ok s') (hd : s.lost d = true) : s'.lost d = true := by
  by_cases hl : op.loses = false
  · rw [step_lost hi h hl]; exact hd
  · obtain ⟨c, hc, he⟩ := step_eff hi h
    clear h
    have ho : op = .swallow ∨ ∃ x n, op = .withThrows x n true := by
      cases op <;> simp_all [Op.loses]
    rcases ho with rfl | ⟨x, n, rfl⟩
    · cases he with
      | swallow => simp [hd]
      | destroy h1 => cases h1
    · cases he with
      | withThrows => simp [hd]
      | destroy h1 => cases h1

/-- finished contexts stay finished, ids of contexts are never reused -/
theorem step_status {s s' : State} {t op} (hi : Inv s) (h : step s t op = .ok s') (d : CtxId) :
    (s.status d = .freed → s'.status d = .freed) ∧
    (s.status d = .terminated → s'.status d = .terminated ∨ s'.status d = .freed) ∧
    (s.status d = .ended → s'.status d = .ended) := by
  obtain ⟨c, hc, he⟩ := step_eff hi h
  have h1 := (hi.ci.curRun t c).1 hc
  have h2 := (hi.ci.absent s.nextCtx).2 (Nat.le_refl _)
  have hval : ∀ x f, s.val x = some f → s.status f.ctx = .suspended := fun x f hx => (hi.vi.valid x f hx).1
  clear h
  cases he
  case create k ls rest xs hf ha s2 h2 =>
    have hc := capture_same ({ s with nextCtx := s.nextCtx + 1 }.addLog (.alloc s.nextCtx)) s.nextCtx xs
    rw [← h2] at hc
    simp at hc
    simp only [hc, upd_apply]; grind
  case destroy s1 f h1 h2 =>
    have hv : ∃ x, s.val x = some f := by cases h1 <;> exact ⟨_, by assumption⟩
    have hs : s1.status = s.status := by cases h1 <;> rfl
    obtain ⟨h2⟩ := h2
    cases h2 <;> simp only [fin, sw, State.setFrames, upd_apply, hs] <;> grind
  case resume hd =>
    cases hd <;> simp only [sw, State.setFrames, State.setVal, upd_apply] <;> grind
  case leaveOntop hd => cases hd <;> simp only [State.kill, State.setFrames] <;> grind
  case propOntopForced hd => cases hd <;> simp only [fin, upd_apply, State.kill, State.setFrames] <;> grind
  case exitDone hd => cases hd <;> simp only [upd_apply] <;> grind
  all_goals
    try simp only [fin, State.kill, State.newVar, State.setFrames, State.setVal, upd_apply]
    first | grind | skip

/-- what a step adds to the log -/
theorem step_logAdd {s s' : State} {t op} (hi : Inv s) (h : step s t op = .ok s') :
    ∃ l, s'.log = l ++ s.log ∧ (∀ d, .enter d ∈ l → .entryJump ∈ s.frames d) ∧
      (∀ d, .dealloc d ∈ l → op = .tick ∧ s.status d = .terminated ∧ s.caps d = [] ∧ ∃ c rest, s.cur t = some c ∧ s.frames c = .exiting d :: rest) ∧
      (∀ d, .alloc d ∈ l → d = s.nextCtx ∧ ∃ xs, op = .create xs .success) ∧
      (∀ i d, .ontop i d ∈ l → i = s.nextId ∧ ∃ x, op = .resumeWith x ∧ ∃ f, s.val x = some f ∧ f.ctx = d) ∧
      (∀ v d, .destroyed v d ∈ l → ∃ rest, s.frames d = .exiting v :: .dtor v :: rest ∧ s.caps v = [] ∧ op = .tick ∧ s.cur t = some d) := by
  obtain ⟨c, hc, he⟩ := step_eff hi h
  have h1 := (hi.ci.curRun t c).1 hc
  have hwf := hi.ci.wf c (by simp [h1])
  have hdt : ∀ x f, s.val x = some f → (∀ d, s.kind x ≠ .exc d) → ∀ w rest, s.frames f.ctx ≠ .dtor w :: rest := by
    intro x f hx hk w rest hh
    exact hi.vi.nonExc x f hk hx w (dtorTop_iff.2 ⟨_, hh⟩)
  have hst : ∀ x f, s.val x = some f → f.ctx ≠ c := by
    intro x f hx hh
    have := (hi.vi.valid x f hx).1
    rw [hh, h1] at this; simp at this
  clear h
  cases he
  case create k ls rest xs hf ha s2 h2 =>
    have hc := capture_same ({ s with nextCtx := s.nextCtx + 1 }.addLog (.alloc s.nextCtx)) s.nextCtx xs
    rw [← h2] at hc
    simp only [State.addLog] at hc
    refine ⟨[.alloc s.nextCtx], ?_, ?_⟩
    · simp [hc]
    · simp
  case destroy s1 f h1 h2 =>
    obtain ⟨h2⟩ := h2
    refine ⟨[], ?_, by simp⟩
    cases h1 <;> cases h2 <;> rfl
  case resume k ls rest x f hf ha hv hd =>
    have hk := accessible_ne_exc ha
    have h3 := hdt x f hv hk
    have h4 := hst x f hv
    cases hd
    case entry rest hf2 =>
      refine ⟨[.enter f.ctx], rfl, ?_, by simp⟩
      simp [sw, State.setFrames, h4] at hf2
      simp [hf2]
    case resume => exact ⟨[], rfl, by simp⟩
    case dtor hf2 => simp [sw, State.setFrames, h4, h3] at hf2
  case resumeWith k ls rest x f hf ha hv =>
    refine ⟨[.ontop s.nextId f.ctx], rfl, ?_⟩
    simp [hv]
  case leaveOntop i x rest hf hd =>
    cases hd
    case entry rest' hf2 =>
      simp [State.kill, State.setFrames] at hf2; subst hf2
      refine ⟨[.enter c], rfl, ?_⟩
      simp [hf]
    case resume => exact ⟨[], rfl, by simp⟩
    case dtor hf2 =>
      simp [State.kill, State.setFrames] at hf2; subst hf2
      rw [hf] at hwf; simp [WF, Adj] at hwf
  case propOntopForced hd => refine ⟨[], ?_, by simp⟩; cases hd <;> rfl
  case exitDone n rest hf hcp hs hd =>
    cases hd
    case entry rest' hf2 =>
      simp at hf2; subst hf2
      refine ⟨[.enter c, .dealloc n], rfl, ?_⟩
      simp [hf, hs, hcp, hc]
    case resume => refine ⟨[.dealloc n], rfl, ?_⟩; simp [hf, hs, hcp, hc]
    case dtor w rest' hf2 =>
      simp at hf2; subst hf2
      rw [hf] at hwf; simp [WF, Adj] at hwf
      obtain ⟨rfl, _⟩ := hwf
      refine ⟨[.destroyed n c, .dealloc n], rfl, ?_⟩
      simp [hf, hs, hcp, hc]
  all_goals refine ⟨[], rfl, by simp⟩

end Verif.Fiber
