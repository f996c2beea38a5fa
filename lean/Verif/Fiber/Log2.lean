import Verif.Fiber.Log

/-! # Invariant of the event log: all steps -/

namespace Verif.Fiber
open State

theorem hasMain_change {k ls m rest ls' m'} : hasMain (.user k ls' m' :: rest) = hasMain (.user k ls m :: rest) := by
  cases k <;> simp [isMain]

/-- changing locals and mode of the innermost user frame -/
theorem LInv.top {s : State} {c k ls m rest ls' m'} (h : LInv s) (hfr : s.frames c = .user k ls m :: rest) :
    LInv (s.setFrames c (.user k ls' m' :: rest)) := by
  refine h.setFrames ?_ ?_
  · simp [hfr]
  · rw [hfr]; exact hasMain_change

theorem LInv.doWithThrows {s : State} {t c k ls rest x n b} (h : LInv s) (hi : Inv s) (hf : s.frames c = .user k ls .normal :: rest) :
    SafeL (s.doWithThrows t c k ls rest x n b) := by
  unfold State.doWithThrows
  split
  · trivial
  · rename_i f hx
    cases b with
    | false =>
      simp only [Bool.false_eq_true, if_false]
      exact h.top hf
    | true =>
    simp only [ontopSwitch, if_true]
    split
    · trivial
    · rename_i s' b hsw
      have h1 : LInv ((s.setVal x none).setFrames c (.resume :: s.frames c)) :=
        (h.objects (s' := s.setVal x none) rfl rfl rfl rfl).setFrames (by simp) (by simp [isMain])
      have h2 := h1.switch hsw (Or.inl rfl) (fun d hd => hi.pre.cur t d hd)
      exact (h2.objects (s' := { s' with lost := upd s'.lost b.ctx true }) rfl rfl rfl rfl).raiseUser

theorem SafeL_push {s : State} {c f rest g} (h : LInv s) (hfr : s.frames c = f :: rest) (hg : g ≠ .entryJump) (hm : isMain g = false) :
    LInv (s.setFrames c (g :: f :: rest)) := by
  refine h.setFrames ?_ ?_
  · simp [hfr, Ne.symm hg]
  · simp [hfr, hm]

theorem userStep_log {s : State} {t c k ls rest op} (hi : Inv s) (h : LInv s) (hcur : s.cur t = some c)
    (hfr : s.frames c = .user k ls .normal :: rest) : SafeL (userStep s t c k ls rest op) := by
  have hrun := (hi.ci.curRun t c).1 hcur
  have hw := hi.ci.wf c (by simp [hrun])
  rw [hfr] at hw
  cases op with
  | newHeap => exact h.objects rfl rfl rfl rfl
  | newLocal => exact (h.objects (s' := s.newVar (.loc c) none) rfl rfl rfl rfl).top hfr
  | moveHeap x => simp only [userStep]; split <;> first | trivial | exact h.objects rfl rfl rfl rfl
  | moveLocal x =>
    simp only [userStep]
    split
    · exact (h.objects (s' := (s.setVal x none).newVar (.loc c) (s.val x)) rfl rfl rfl rfl).top hfr
    · trivial
  | moveAssign y x =>
    simp only [userStep]
    split
    · split
      · exact h
      · split
        · exact h.objects rfl rfl rfl rfl
        · rename_i f hy
          exact (h.objects (s' := (s.setVal y (s.val x)).setVal x none) rfl rfl rfl rfl).destroyFctx ⟨hi.pre.cur, hi.pre.wf⟩ hcur
            (hi.vi.valid y f hy).1
    · trivial
  | swap x y => simp only [userStep]; split <;> first | trivial | exact h.objects rfl rfl rfl rfl
  | drop x =>
    simp only [userStep]
    split
    · refine (h.top hfr).destroyVar ⟨hi.pre.cur, ?_⟩ hcur (fun f hf => (hi.vi.valid x f hf).1)
      intro d hd
      simp only [setFrames_frames, upd_apply]
      split
      · exact ⟨hw.1.change modeOK_normal, hw.2⟩
      · exact hi.ci.wf d hd
    · split
      · exact h.destroyVar hi.pre hcur (fun f hf => (hi.vi.valid x f hf).1)
      · trivial
  | create xs o =>
    simp only [userStep]
    split
    · cases o with
      | success => exact h.doCreate hi hcur hfr
      | allocThrows n => exact h.top hfr
      | fnThrows => trivial
    · trivial
  | resume x => simp only [userStep]; split <;> first | trivial | (rename_i ha; exact h.doResume hi hcur ha)
  | resumeWith x => simp only [userStep]; split <;> first | trivial | exact h.doResumeWith hi
  | withThrows x n b => simp only [userStep]; split <;> first | trivial | exact h.doWithThrows hi hfr
  | call => exact SafeL_push h hfr (by simp) (by simp [isMain])
  | cleanup => exact SafeL_push h hfr (by simp) (by simp [isMain])
  | ret => cases k <;> simp only [userStep] <;> first | trivial | exact h.top hfr
  | retHandle x =>
    simp only [userStep]
    split
    · have := (h.objects (s' := (s.setVal x none).newVar (.ret c) (s.val x)) rfl rfl rfl rfl).top (m' := .returning (some s.nextVar)) (ls' := ls) hfr
      cases k <;> first | trivial | exact this
    · trivial
  | throw n => exact h.top hfr
  | spawn =>
    have habs := (hi.ci.absent s.nextCtx).2 (Nat.le_refl _)
    have hfa := hi.ci.fAbsent _ habs
    refine h.mono rfl rfl ?_ ?_ ?_ ?_ ?_ ?_ ?_ ?_ <;> intro d <;> simp only [upd_apply]
    · grind
    · grind
    · by_cases hd : d = s.nextCtx <;> simp [hd, isMain]; intro h; exact Or.inl h
    · grind
    · grind
    · by_cases hd : d = s.nextCtx <;> simp [hd, isMain]; intro h; exact Or.inl h
    · grind
    · grind
  | catchUser => trivial
  | swallow => trivial
  | tick => trivial

theorem step_log {s : State} {t op} (hi : Inv s) (h : LInv s) : SafeL (step s t op) := by
  unfold step
  cases hcur : s.cur t with
  | none => trivial
  | some c =>
    have hrun := (hi.ci.curRun t c).1 hcur
    have hw := hi.ci.wf c (by simp [hrun])
    have hrunc : ∀ d, s.cur t = some d → s.status d = .running t := hi.pre.cur t
    simp only
    have hcl : ∀ f rest, s.frames c = f :: rest → LInv (s.setFrames c (.user .cleanup [] .normal :: f :: rest)) :=
      fun f rest hfr => SafeL_push h hfr (by simp) (by simp [isMain])
    have hdes : ∀ k x ls m rest, s.frames c = .user k (x :: ls) m :: rest → SafeL ((s.setFrames c (.user k ls m :: rest)).destroyVar t c x) := by
      intro k x ls m rest hfr
      refine (h.top hfr).destroyVar ⟨hi.pre.cur, ?_⟩ hcur (fun f hf => (hi.vi.valid x f hf).1)
      intro d hd
      rw [hfr] at hw
      simp only [setFrames_frames, upd_apply]
      split
      · exact ⟨hw.1.change hw.1.modeOK, hw.2⟩
      · exact hi.ci.wf d hd
    obtain ⟨rest, ⟨k, ls, m, hfr⟩ | ⟨n, hfr⟩⟩ := runTop_iff.1 (hi.ci.runTop c t hrun (by simp))
    · rw [hfr] at hw
      cases m with
      | normal => simp only [hfr]; exact userStep_log hi h hcur hfr
      | unwinding e =>
        cases ls with
        | cons x ls =>
          simp only [hfr]
          cases op <;> simp only <;> try trivial
          case cleanup => exact hcl _ _ hfr
          case tick => exact hdes _ _ _ _ _ hfr
        | nil =>
          simp only [hfr]
          cases op <;> simp only <;> try trivial
          case cleanup => exact hcl _ _ hfr
          case tick =>
            cases k with
            | main => trivial
            | cleanup => trivial
            | call =>
              obtain ⟨k', ls', rest', rfl⟩ := adj_call hw.1
              refine h.setFrames ?_ ?_
              · simp [hfr]
              · simp [hfr]; cases k' <;> simp [isMain]
            | fn =>
              have := adj_fn hw.1
              subst this
              cases e with
              | user n => trivial
              | forced x =>
                simp only [propagate]
                split
                · trivial
                · exact LInv.finish (h.objects rfl rfl rfl rfl) hrunc (by simp [hfr, isMain])
            | ontop i =>
              have h1 : LInv (s.setFrames c rest) := h.setFrames (by simp [hfr]) (by simp [hfr, isMain])
              cases e with
              | user n => exact h1.raiseUser
              | forced x =>
                simp only [propagate]
                split
                · trivial
                · refine LInv.raiseForced (LInv.objects h1 rfl rfl rfl rfl) hrunc ?_
                  simp [hw.2]
          case catchUser =>
            cases k <;> cases e <;> simp only <;> try trivial
            exact h.setFrames (by simp [hfr]) (by simp [hfr, isMain])
          case swallow =>
            cases k <;> cases e <;> simp only <;> try trivial
            have h1 : LInv (s.setFrames c rest) := h.setFrames (by simp [hfr]) (by simp [hfr, isMain])
            split <;> exact h1.objects rfl rfl rfl rfl
      | returning r =>
        cases ls with
        | cons x ls =>
          simp only [hfr]
          cases op <;> simp only <;> try trivial
          case cleanup => exact hcl _ _ hfr
          case tick => exact hdes _ _ _ _ _ hfr
        | nil =>
          simp only [hfr]
          cases op <;> simp only <;> try trivial
          case cleanup => exact hcl _ _ hfr
          case tick =>
            unfold leave
            split
            · have hrest : rest = [] := by
                have := hw.1; cases rest <;> simp_all [Adj]
              subst hrest
              have hmain : hasMain (s.frames c) = true := by simp [hfr, isMain]
              refine h.mono rfl rfl ?_ ?_ ?_ ?_ ?_ ?_ ?_ ?_ <;> intro d <;> simp only [upd_apply] <;> grind
            · exact h.setFrames (by simp [hfr]) (by simp [hfr, isMain])
            · exact h.setFrames (by simp [hfr]) (by simp [hfr, isMain])
            · split
              · trivial
              · have := adj_fn hw.1
                subst this
                exact LInv.finish (h.objects rfl rfl rfl rfl) hrunc (by simp [hfr, isMain])
            · rename_i i x
              have h1 : LInv (s.setFrames c rest) := h.setFrames (by simp [hfr]) (by simp [hfr, isMain])
              have hnd := (hi.ci.popOntop hcur hfr).2
              refine LInv.deliver (LInv.objects h1 rfl rfl rfl rfl) ?_ ?_ ?_
              · intro w hw'; simp at hw'; exact absurd hw' (hnd w)
              · simp [hrun]
              · simp [hw.2]
            · trivial
    · simp only [hfr]
      rw [hfr] at hw
      cases op <;> simp only <;> try trivial
      case cleanup => exact hcl _ _ hfr
      case tick =>
        unfold exitStep
        split
        · rename_i x xs hx
          exact LInv.destroyVar (h.objects rfl rfl rfl rfl) ⟨hi.pre.cur, hi.pre.wf⟩ hcur (fun f hf => (hi.vi.valid x f hf).1)
        · split
          · rename_i hn
            have hnc : n ≠ c := by rintro rfl; simp [hrun] at hn
            have hfn := hi.ci.fTerm n hn
            have hal : .alloc n ∈ s.log := by
              by_cases hal : Event.alloc n ∈ s.log
              · exact hal
              · rcases h.noAlloc n hal with h1 | h1 | h1
                · simp [hn] at h1
                · simp [hn] at h1
                · simp [hfn, isMain] at h1
            refine LInv.deliver ?_ ?_ ?_ ?_
            · obtain ⟨a1,a2,a3,a4,a5,a6,a7,a8,a9,a10,a11,a12,a13⟩ := h
              constructor <;> (try simp only [addLog_log, addLog_status, addLog_frames, addLog_nextId, upd_apply])
              case order => exact a12
              case order2 => exact ⟨hal, a13⟩
              case freed => intro d; have := a1 d; grind
              case freed1 => intro d; have := a1 d; have := a2 d; grind [List.count_eq_zero]
              case entry => intro d; have := a3 d; grind
              case absentA => intro d; have := a5 d; grind
              case allocS =>
                intro d hd
                have := a7 d (by simpa using hd)
                by_cases hdn : d = n
                · subst hdn; simp [hnc]
                · by_cases hdc : d = c
                  · subst hdc; rw [hfr] at this; simp_all
                  · simp [hdn, hdc, this]
              case noAlloc =>
                intro d hd
                have := a8 d (by simpa using hd)
                by_cases hdn : d = n
                · subst hdn; simp at hd; exact absurd hal hd
                · by_cases hdc : d = c
                  · subst hdc; rw [hfr] at this; simpa [hdn, isMain] using this
                  · simpa [hdn, hdc] using this
              all_goals first | assumption | grind
            · intro w hw'
              simp at hw'
              obtain ⟨rest', rfl⟩ := dtorTop_iff.1 hw'
              have := hw.1
              simp [Adj] at this
              simp [this]
            · simp [Ne.symm hnc, hrun]
            · simpa using hw.2
          · trivial

theorem linv_init : LInv init := by
  constructor <;> simp [init, DestroyedAfterDealloc, DeallocAfterAlloc] <;> intro c <;> split <;> simp_all [isMain]

theorem reachable_linv {s : State} (h : Reachable s) : LInv s := by
  induction h with
  | init => exact linv_init
  | @step s s' t op hr hs ih =>
    have := step_log (t := t) (op := op) (reachable_inv hr) ih
    rw [hs] at this
    exact this

end Verif.Fiber
