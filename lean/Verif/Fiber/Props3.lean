import Verif.Fiber.Props2

/-! # Failures, values, construction, progress: C13, C14, C16, C18, C54, C55 -/

namespace Verif.Fiber
open State

/-- neither terminates nor asserts nor is rejected -/
def Fine (r : Res) : Prop := r ≠ .terminate ∧ r ≠ .assertion ∧ r ≠ .rejected

theorem fine_ok {s} : Fine (.ok s) := by simp [Fine]
theorem fine_ub : Fine .ub := by simp [Fine]

theorem finish_fine {s : State} {t c f} : Fine (s.finish t c f) := by
  simp only [State.finish]; split; exact fine_ub; exact fine_ok

theorem deliver_fine {s : State} {c v} : Fine (s.deliver c v) := by
  simp only [State.deliver]; split <;> first | exact fine_ok | exact fine_ub

theorem raiseForced_fine {s : State} {t c f} (h : ∀ v, ¬ DtorTop v (s.frames c)) : Fine (s.raiseForced t c f) := by
  simp only [State.raiseForced]
  split
  · exact finish_fine
  · exact fine_ok
  · rename_i hf; exact absurd (dtorTop_iff.2 ⟨_, hf⟩) (h _)
  · exact fine_ub

theorem destroyFctx_fine {s : State} {t c f} (hn : f.ctx ≠ c) (h : ∀ v, ¬ DtorTop v (s.frames f.ctx)) : Fine (s.destroyFctx t c f) := by
  simp only [State.destroyFctx, State.ontopSwitch, State.switch]
  split
  · exact fine_ub
  · rename_i s1 b hs
    apply raiseForced_fine
    intro v hv
    split at hs
    · simp at hs
    · split at hs
      · simp only [Option.some.injEq, Prod.mk.injEq] at hs
        obtain ⟨rfl, _⟩ := hs
        simp [State.setFrames, hn] at hv
        exact h v hv
      · simp at hs

theorem destroyVar_fine {s : State} {t c x} (h : ∀ f, s.val x = some f → f.ctx ≠ c ∧ ∀ v, ¬ DtorTop v (s.frames f.ctx)) : Fine (s.destroyVar t c x) := by
  simp only [State.destroyVar]
  split
  · exact fine_ok
  · rename_i f hf
    exact destroyFctx_fine (h f hf).1 (h f hf).2

/-! ## C13, C14: specifications -/

/-- The situations in which the program is terminated: moving the function into the new fiber throws; an exception leaves a
thread's main function; leaves a destructor; a user exception leaves a context function, or an on-top function executed on a never
started fiber, or the copy of such a function. -/
inductive Terminates (s : State) (t : Tid) : Op → Prop
  | fnThrows {c k ls rest xs} (hu : UserCode s t c k ls rest) (ha : ∀ x ∈ xs, Handle s x) : Terminates s t (.create xs .fnThrows)
  | main {c e rest} (hr : RunsOn s t c) (hf : s.frames c = .user .main [] (.unwinding e) :: rest) : Terminates s t .tick
  | destructor {c e rest} (hr : RunsOn s t c) (hf : s.frames c = .user .cleanup [] (.unwinding e) :: rest) : Terminates s t .tick
  | fn {c n rest} (hr : RunsOn s t c) (hf : s.frames c = .user .fn [] (.unwinding (.user n)) :: rest) : Terminates s t .tick
  | ontop {c i n} (hr : RunsOn s t c) (hf : s.frames c = [.user (.ontop i) [] (.unwinding (.user n)), .entryJump]) : Terminates s t .tick
  | copy {c k ls rest x d n} (hu : UserCode s t c k ls rest) (ha : Handle s x) (hd : Designates s x d) (hn : NotStarted s d) : Terminates s t (.withThrows x n true)

/-- The situations in which an assertion fails: resuming an empty fiber, and a context function returning an empty fiber. -/
inductive Asserts (s : State) (t : Tid) : Op → Prop
  | resume {c k ls rest x} (hu : UserCode s t c k ls rest) (ha : Handle s x) (hv : s.val x = none) : Asserts s t (.resume x)
  | resumeWith {c k ls rest x} (hu : UserCode s t c k ls rest) (ha : Handle s x) (hv : s.val x = none) : Asserts s t (.resumeWith x)
  | withThrows {c k ls rest x n b} (hu : UserCode s t c k ls rest) (ha : Handle s x) (hv : s.val x = none) : Asserts s t (.withThrows x n b)
  | fnReturn {c x rest} (hr : RunsOn s t c) (hf : s.frames c = .user .fn [] (.returning (some x)) :: rest) (hv : s.val x = none) : Asserts s t .tick

theorem step_class {s : State} {t op} (h : Reachable s) :
    (step s t op = .terminate → Terminates s t op) ∧ (step s t op = .assertion → Asserts s t op) ∧
    (op = .tick → step s t op = .rejected → s.cur t = none ∨ ∃ c k ls rest, UserCode s t c k ls rest) := by
  have hi := reachable_inv h
  cases hcur : s.cur t with
  | none => simp [step, hcur]
  | some c =>
    obtain ⟨h1, h2, h3, hval⟩ := facts hi hcur
    have hdv : ∀ x f, (∀ d, s.kind x ≠ .exc d) → s.val x = some f → f.ctx ≠ c ∧ ∀ v, ¬ DtorTop v (s.frames f.ctx) :=
      fun x f hk hx => ⟨(hval x f hx).2.2, hi.vi.nonExc x f hk hx⟩
    have fine : ∀ r, Fine r → step s t op = r → (step s t op = .terminate → Terminates s t op) ∧
        (step s t op = .assertion → Asserts s t op) ∧
        (op = .tick → step s t op = .rejected → some c = none ∨ ∃ c k ls rest, UserCode s t c k ls rest) := by
      intro r hr hs
      rw [hs]
      exact ⟨fun h => absurd h hr.1, fun h => absurd h hr.2.1, fun _ h => absurd h hr.2.2⟩
    obtain ⟨rest, ⟨k, ls, m, hfr⟩ | ⟨n, hfr⟩⟩ := runTop_iff.1 (hi.ci.runTop c t h1 (by simp))
    · by_cases hm : m = .normal
      · subst hm
        have hu : UserCode s t c k ls rest := ⟨hcur, hfr⟩
        have hstep : step s t op = userStep s t c k ls rest op := by simp [step, hcur, hfr]
        refine ⟨?_, ?_, fun _ _ => .inr ⟨c, k, ls, rest, hu⟩⟩
        all_goals
          intro hs
          rw [hstep] at hs
          cases op <;> simp only [userStep] at hs
        case refine_1.moveAssign y x =>
          exfalso
          split at hs
          · rename_i ha
            split at hs
            · simp at hs
            · split at hs
              · simp at hs
              · rename_i f hf
                exact (destroyFctx_fine (s := (s.setVal y (s.val x)).setVal x none) (t := t) (c := c) (f := f) (hdv y f (accessible_ne_exc ha.2) hf).1
                  (hdv y f (accessible_ne_exc ha.2) hf).2).1 hs
          · simp at hs
        case refine_2.moveAssign y x =>
          exfalso
          split at hs
          · rename_i ha
            split at hs
            · simp at hs
            · split at hs
              · simp at hs
              · rename_i f hf
                exact (destroyFctx_fine (s := (s.setVal y (s.val x)).setVal x none) (t := t) (c := c) (f := f) (hdv y f (accessible_ne_exc ha.2) hf).1
                  (hdv y f (accessible_ne_exc ha.2) hf).2).2.1 hs
          · simp at hs
        case refine_1.drop x =>
          exfalso
          split at hs
          · rename_i hx
            have hkx : s.kind x = .loc c := (hi.oi.locs c x).1 (by rw [hfr]; simp [lvars, Frame.lvars, hx])
            refine (destroyVar_fine ?_).1 hs
            intro f hf
            have := hdv x f (by simp [hkx]) hf
            simp [State.setFrames, this.1]; exact this.2
          · split at hs
            · rename_i hk
              exact (destroyVar_fine (fun f hf => hdv x f (by simp [hk]) hf)).1 hs
            · simp at hs
        case refine_2.drop x =>
          exfalso
          split at hs
          · rename_i hx
            have hkx : s.kind x = .loc c := (hi.oi.locs c x).1 (by rw [hfr]; simp [lvars, Frame.lvars, hx])
            refine (destroyVar_fine ?_).2.1 hs
            intro f hf
            have := hdv x f (by simp [hkx]) hf
            simp [State.setFrames, this.1]; exact this.2
          · split at hs
            · rename_i hk
              exact (destroyVar_fine (fun f hf => hdv x f (by simp [hk]) hf)).2.1 hs
            · simp at hs
        case refine_1.create xs o =>
          split at hs
          · rename_i ha
            cases o with
            | success => simp only at hs; rw [doCreate_eq hi hcur] at hs; simp at hs
            | allocThrows n => simp at hs
            | fnThrows => exact .fnThrows hu (by simp only [List.all_eq_true] at ha; exact fun x hx => accessible_handle (ha x hx))
          · simp at hs
        case refine_2.create xs o =>
          split at hs
          · cases o with
            | success => simp only at hs; rw [doCreate_eq hi hcur] at hs; simp at hs
            | allocThrows n => simp at hs
            | fnThrows => simp at hs
          · simp at hs
        case refine_1.resume x =>
          exfalso
          split at hs
          · simp only [State.doResume] at hs
            split at hs
            · simp at hs
            · split at hs
              · simp at hs
              · exact deliver_fine.1 hs
          · simp at hs
        case refine_2.resume x =>
          split at hs
          · rename_i ha
            simp only [State.doResume] at hs
            split at hs
            · exact .resume hu (accessible_handle ha) (by assumption)
            · split at hs
              · simp at hs
              · exact absurd hs deliver_fine.2.1
          · simp at hs
        case refine_1.withThrows x n b =>
          split at hs
          · rename_i ha
            simp only [State.doWithThrows] at hs
            split at hs
            · simp at hs
            · rename_i f hv
              obtain ⟨hst, _⟩ := hi.vi.valid x f hv
              cases b with
              | false => simp at hs
              | true =>
                simp only [if_true] at hs
                split at hs
                · simp at hs
                · rename_i s1 b hsw
                  obtain ⟨rfl, rfl, _⟩ := switch_some (c := c) (by exact hcur) hsw
                  have hrun := (hi.ci.curRun t c).1 hcur
                  have hfc : f.ctx ≠ c := by rintro e; rw [e] at hst; simp [hrun] at hst
                  refine .copy hu (accessible_handle ha) ⟨f, hv, rfl⟩ ?_
                  have hw := hi.ci.wf f.ctx (by simp [hst])
                  have hnd := hi.vi.nonExc x f (accessible_ne_exc ha) hv
                  simp only [State.raiseUser] at hs
                  split at hs
                  · rename_i r hfr'
                    simp [sw, State.setFrames, State.setVal, hfc] at hfr'
                    rw [hfr'] at hw
                    cases r with
                    | nil => exact hfr'
                    | cons _ _ => simp [WF, Adj] at hw
                  · simp at hs
                  · rename_i w r hfr'
                    simp [sw, State.setFrames, State.setVal, hfc] at hfr'
                    exact absurd (by rw [hfr']; simp [DtorTop]) (hnd w)
                  · simp at hs
          · simp at hs
        case refine_2.withThrows x n b =>
          split at hs
          · rename_i ha
            simp only [State.doWithThrows] at hs
            split at hs
            · exact .withThrows hu (accessible_handle ha) (by assumption)
            · cases b with
              | false => simp at hs
              | true =>
                simp only [if_true] at hs
                split at hs
                · simp at hs
                · simp only [State.raiseUser] at hs
                  split at hs <;> simp at hs
          · simp at hs
        case refine_1.resumeWith x =>
          exfalso
          split at hs
          · simp only [State.doResumeWith] at hs
            split at hs
            · simp at hs
            · split at hs <;> simp at hs
          · simp at hs
        case refine_2.resumeWith x =>
          split at hs
          · rename_i ha
            simp only [State.doResumeWith] at hs
            split at hs
            · exact .resumeWith hu (accessible_handle ha) (by assumption)
            · split at hs <;> simp at hs
          · simp at hs
        all_goals
          exfalso
          first
          | (simp at hs; done)
          | (split at hs <;> simp at hs; done)
          | (split at hs <;> (try split at hs) <;> simp at hs; done)
      · cases ls with
        | cons x ls =>
          have hkx : s.kind x = .loc c := (hi.oi.locs c x).1 (by rw [hfr]; simp [lvars, Frame.lvars])
          have hs : step s t op = match op with
            | .tick => (s.setFrames c (.user k ls m :: rest)).destroyVar t c x
            | .cleanup => .ok (s.setFrames c (.user .cleanup [] .normal :: .user k (x :: ls) m :: rest))
            | _ => .rejected := by
            cases m with
            | normal => exact absurd rfl hm
            | unwinding e => simp only [step, hcur, hfr]; cases op <;> rfl
            | returning r => simp only [step, hcur, hfr]; cases op <;> rfl
          cases op
          case tick =>
            simp only at hs
            refine fine _ (destroyVar_fine ?_) hs
            intro f hf
            have := hdv x f (by simp [hkx]) hf
            simp [State.setFrames, this.1]; exact this.2
          all_goals simp only at hs; simp [hs]
        | nil =>
          cases m with
          | normal => simp at hm
          | unwinding e =>
            have hs : step s t op = match (generalizing := false) op with
              | .tick => propagate s t c k e rest
              | .cleanup => .ok (s.setFrames c (.user .cleanup [] .normal :: .user k [] (.unwinding e) :: rest))
              | .catchUser =>
                match (generalizing := false) k, e with
                | .call, .user _ => .ok (s.setFrames c rest)
                | _, _ => .rejected
              | .swallow =>
                match (generalizing := false) k, e with
                | .call, .forced x =>
                  match (generalizing := false) s.val x with
                  | some f => .ok { (s.setFrames c rest).kill x with lost := upd s.lost f.ctx true }
                  | none => .ok ((s.setFrames c rest).kill x)
                | _, _ => .rejected
              | _ => .rejected := by
              simp only [step, hcur, hfr]; cases op <;> rfl
            rw [hfr] at h2
            have hx : ∀ x, e = .forced x → ∃ f, s.val x = some f := by
              rintro x rfl
              exact Option.ne_none_iff_exists'.1 (hi.vi.excSome x c ((hi.oi.excs c x).1 (by simp [hfr, evars, Frame.evars])))
            cases op
            case tick =>
              simp only at hs
              cases k with
              | main => rw [hs]; simp only [propagate]; exact ⟨fun _ => .main hcur hfr, by simp, by simp⟩
              | cleanup => rw [hs]; simp only [propagate]; exact ⟨fun _ => .destructor hcur hfr, by simp, by simp⟩
              | call =>
                obtain ⟨k', l', r', rfl⟩ := adj_call h2.1
                exact fine _ fine_ok hs
              | fn =>
                cases e with
                | user n => rw [hs]; simp only [propagate]; exact ⟨fun _ => .fn hcur hfr, by simp, by simp⟩
                | forced x =>
                  obtain ⟨f, hf⟩ := hx x rfl
                  refine fine _ ?_ hs
                  simp only [propagate, hf]
                  exact finish_fine
              | ontop i =>
                rcases C12_cases h hcur hfr with rfl | ⟨k', l', r', rfl⟩
                · cases e with
                  | user n =>
                    rw [hs]; simp only [propagate, State.raiseUser, State.setFrames, upd_apply, if_true]
                    exact ⟨fun _ => .ontop hcur hfr, by simp, by simp⟩
                  | forced x =>
                    obtain ⟨f, hf⟩ := hx x rfl
                    refine fine _ ?_ hs
                    simp only [propagate, hf]
                    apply raiseForced_fine
                    simp [State.setFrames, State.kill, DtorTop]
                · cases e with
                  | user n =>
                    refine fine _ ?_ hs
                    simp only [propagate, State.raiseUser, State.setFrames, upd_apply, if_true]
                    exact fine_ok
                  | forced x =>
                    obtain ⟨f, hf⟩ := hx x rfl
                    refine fine _ ?_ hs
                    simp only [propagate, hf]
                    apply raiseForced_fine
                    simp [State.setFrames, State.kill, DtorTop]
            case catchUser =>
              simp only at hs
              rw [hs]
              refine ⟨?_, ?_, by simp⟩
              all_goals split <;> simp
            case swallow =>
              simp only at hs
              rw [hs]
              refine ⟨?_, ?_, by simp⟩
              all_goals
                split
                · split <;> simp
                · simp
            all_goals simp only at hs; simp [hs]
          | returning r =>
            have hs : step s t op = match op with
              | .tick => leave s t c k r rest
              | .cleanup => .ok (s.setFrames c (.user .cleanup [] .normal :: .user k [] (.returning r) :: rest))
              | _ => .rejected := by
              simp only [step, hcur, hfr]; cases op <;> rfl
            rw [hfr] at h2
            cases op
            case tick =>
              simp only at hs
              by_cases hk : k = .fn
              · subst hk
                cases r with
                | none => have := h2.1.modeOK; simp [ModeOK] at this
                | some x =>
                  cases hv : s.val x with
                  | none => rw [hs]; simp only [leave, hv]; exact ⟨by simp, fun _ => .fnReturn hcur hfr hv, by simp⟩
                  | some f =>
                    refine fine _ ?_ hs
                    simp only [leave, hv]
                    exact finish_fine
              · refine fine _ ?_ hs
                cases k <;> cases r <;> simp only [leave] <;> first | exact fine_ok | exact fine_ub | exact deliver_fine | exact absurd rfl hk
            all_goals simp only at hs; simp [hs]
    · have hs : step s t op = match op with
        | .tick => exitStep s t c n rest
        | .cleanup => .ok (s.setFrames c (.user .cleanup [] .normal :: .exiting n :: rest))
        | _ => .rejected := by
        simp only [step, hcur, hfr]; cases op <;> rfl
      cases op
      case tick =>
        simp only at hs
        refine fine _ ?_ hs
        simp only [exitStep]
        split
        · rename_i x xs hc
          apply destroyVar_fine
          intro f hf
          exact hdv x f (by rw [(hi.oi.capv n x).1 (by rw [hc]; simp)]; simp) hf
        · split
          · exact deliver_fine
          · exact fine_ub
      all_goals simp only at hs; simp [hs]

/-- **C13**: the program is terminated exactly in the listed situations. -/
theorem C13_terminate_iff {s : State} (h : Reachable s) (t : Tid) (op : Op) : step s t op = .terminate ↔ Terminates s t op := by
  refine ⟨(step_class h).1, ?_⟩
  intro ht
  cases ht with
  | fnThrows hu ha =>
    rename_i xs
    have : xs.all s.accessible = true := by simp only [List.all_eq_true]; exact fun x hx => handle_accessible (ha x hx)
    simp [step, hu.1, hu.2, userStep, this]
  | main hr hf => simp only [RunsOn] at hr; simp [step, hr, hf, propagate]
  | destructor hr hf => simp only [RunsOn] at hr; simp [step, hr, hf, propagate]
  | fn hr hf => simp only [RunsOn] at hr; simp [step, hr, hf, propagate]
  | ontop hr hf => simp only [RunsOn] at hr; simp [step, hr, hf, propagate, State.raiseUser, State.setFrames]
  | copy hu ha hd hn => exact C12_copy_throws_not_started h hu ha hd hn

example : Reachable (exec hOntopThrow3) ∧ Terminates (exec hOntopThrow3) 0 .tick :=
  ⟨reachable_exec (by decide), .ontop (c := 1) (i := 0) (n := 7) (by decide : (exec hOntopThrow3).cur 0 = some 1) (by decide)⟩

/-- **C14**: an assertion of the library fails exactly when an empty fiber is resumed or a context function returns an empty fiber;
all internal assertions hold. -/
theorem C14_assertion_iff {s : State} (h : Reachable s) (t : Tid) (op : Op) : step s t op = .assertion ↔ Asserts s t op := by
  refine ⟨(step_class h).2.1, ?_⟩
  intro ht
  cases ht with
  | resume hu ha hv => simp [step, hu.1, hu.2, userStep, handle_accessible ha, State.doResume, hv]
  | resumeWith hu ha hv => simp [step, hu.1, hu.2, userStep, handle_accessible ha, State.doResumeWith, hv]
  | withThrows hu ha hv => simp [step, hu.1, hu.2, userStep, handle_accessible ha, State.doWithThrows, hv]
  | fnReturn hr hf hv => simp only [RunsOn] at hr; simp [step, hr, hf, leave, hv]

example : Reachable (exec h1) ∧ Asserts (exec h1) 0 (.resume 0) :=
  ⟨reachable_exec (by decide), .resume (c := 0) (k := .main) (ls := [2, 0]) (rest := []) ⟨by decide, by decide⟩ (.inr (.inl ⟨0, by decide⟩)) (by decide)⟩

/-! ## C54: library code and unwinding never get stuck -/

/-- **C54**: when a thread is not executing user code in its normal mode, its next `tick` succeeds, or it is one of the documented
terminations or assertion failures. -/
theorem C54_no_stuck {s : State} {t : Tid} {c : CtxId} (h : Reachable s) (hr : RunsOn s t c)
    (hn : ∀ k ls rest, s.frames c ≠ .user k ls .normal :: rest) :
    (∃ s', step s t .tick = .ok s') ∨ Terminates s t .tick ∨ Asserts s t .tick := by
  have hc := step_class (t := t) (op := .tick) h
  cases hs : step s t .tick with
  | ok s' => exact .inl ⟨s', rfl⟩
  | rejected =>
    rcases hc.2.2 rfl hs with h1 | ⟨c', k, ls, rest, hu⟩
    · rw [RunsOn, h1] at hr; simp at hr
    · have := hu.1; rw [RunsOn, this] at hr; simp at hr; subst hr
      exact absurd hu.2 (hn _ _ _)
  | terminate => exact .inr (.inl (hc.1 hs))
  | assertion => exact .inr (.inr (hc.2.1 hs))
  | ub => exact absurd hs (C02_no_ub h t .tick)

example : Reachable (exec h2) ∧ RunsOn (exec h2) 0 1 ∧ ∀ k ls rest, (exec h2).frames 1 ≠ .user k ls .normal :: rest := by
  refine ⟨reachable_exec (by decide), (by decide : (exec h2).cur 0 = some 1), ?_⟩
  intro k ls rest
  rw [show (exec h2).frames 1 = [.user .fn [1] (.unwinding (.forced 3)), .entryRun] by decide]
  simp

end Verif.Fiber
