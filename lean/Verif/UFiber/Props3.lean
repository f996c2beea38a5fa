import Verif.UFiber.Props2

/-! # ucontext/winfib: when the program is terminated, when assertions fail, progress (C56) -/

namespace Verif.UFiber
open Verif.Fiber (CtxId Var Tid Kind Exc Mode UKind Frame Status Event Op CreateOutcome upd upd_apply lvars evars rvars exits
  ModeOK SuspTop RunTop DtorTop lvars_cons evars_cons rvars_cons
  dtorTop_iff suspTop_iff runTop_iff)
open State

/-- neither terminates nor asserts nor is rejected -/
def Fine (r : Res) : Prop := r ≠ .terminate ∧ r ≠ .assertion ∧ r ≠ .rejected

theorem fine_ok {s} : Fine (.ok s) := by simp [Fine]
theorem fine_ub : Fine .ub := by simp [Fine]

theorem arrive_fine {s : State} {w} (h : ∀ v, DtorTop v (s.frames w) → s.term v = true) : Fine (s.arrive w) := by
  simp only [State.arrive]
  split
  · exact fine_ok
  · split
    · exact fine_ok
    · split <;> exact fine_ok
  · rename_i v rest hf
    split
    · exact fine_ub
    · rw [if_pos (h v (dtorTop_iff.2 ⟨_, hf⟩))]; exact fine_ok
  · exact fine_ub

/-- a switch followed by `arrive` -/
theorem sw_fine {s : State} {t w lv} (h : ∀ v, DtorTop v (s.frames w) → s.term v = true) :
    Fine (match s.switchTo t w lv with | none => .ub | some s => s.arrive w) := by
  split
  · exact fine_ub
  · rename_i s1 hs
    simp only [State.switchTo] at hs
    split at hs
    · simp at hs
    · split at hs
      · simp only [Option.some.injEq] at hs
        subst hs
        exact arrive_fine h
      · simp at hs

theorem destroyPtr_fine {s : State} {t c w} (hn : w ≠ c) (h : ∀ v, ¬ DtorTop v (s.frames w)) : Fine (s.destroyPtr t c w) := by
  simp only [State.destroyPtr]
  split
  · exact fine_ub
  split
  · exact fine_ok
  split
  · exact fine_ok
  · apply sw_fine
    intro v hv
    simp only [State.setFrames, upd_apply, if_neg hn] at hv
    exact absurd hv (h v)

theorem destroyVar_fine {s : State} {t c x} (h : ∀ w, s.val x = some w → w ≠ c ∧ ∀ v, ¬ DtorTop v (s.frames w)) : Fine (s.destroyVar t c x) := by
  simp only [State.destroyVar]
  split
  · exact fine_ok
  · rename_i w hw
    exact destroyPtr_fine (h w hw).1 (h w hw).2

theorem finish_fine {s : State} {t c w} (hn : w ≠ c) (ht : s.status w ≠ .terminated)
    (h : ∀ v, DtorTop v (s.frames w) → v = c) : Fine (s.finish t c (some w)) := by
  simp only [State.finish]
  rw [if_neg ht]
  apply sw_fine
  intro v hv
  simp only [State.setFrames, upd_apply, if_neg hn] at hv
  have := h v hv
  subst this
  simp [State.setFrames]

/-! ## C56: specification -/

/-- The object designates nothing, or a fiber that has finished (`operator bool` is false). -/
def EmptyOrFinished (s : State) (v : Option CtxId) : Prop := v = none ∨ ∃ w, v = some w ∧ Finished s w

/-- The situations in which the program is terminated: moving the function into the new fiber throws; an exception leaves a
thread's main function; leaves a destructor; a user exception leaves a context function. -/
inductive Terminates (s : State) (t : Tid) : Op → Prop
  | fnThrows {c k ls rest xs} (hu : UserCode s t c k ls rest) (ha : ∀ x ∈ xs, Handle s x) : Terminates s t (.create xs .fnThrows)
  | main {c e rest} (hr : RunsOn s t c) (hf : s.frames c = .user .main [] (.unwinding e) :: rest) : Terminates s t .tick
  | destructor {c e rest} (hr : RunsOn s t c) (hf : s.frames c = .user .cleanup [] (.unwinding e) :: rest) : Terminates s t .tick
  | fn {c n rest} (hr : RunsOn s t c) (hf : s.frames c = .user .fn [] (.unwinding (.user n)) :: rest) : Terminates s t .tick

/-- The situations in which an assertion fails: resuming an object that is empty or designates a finished fiber; a context function
returning such an object; a context function left by a `forced_unwind` that holds a finished fiber. -/
inductive Asserts (s : State) (t : Tid) : Op → Prop
  | resume {c k ls rest x} (hu : UserCode s t c k ls rest) (ha : Handle s x) (hv : EmptyOrFinished s (s.val x)) : Asserts s t (.resume x)
  | resumeWith {c k ls rest x} (hu : UserCode s t c k ls rest) (ha : Handle s x) (hv : EmptyOrFinished s (s.val x)) : Asserts s t (.resumeWith x)
  | fnReturn {c x rest} (hr : RunsOn s t c) (hf : s.frames c = .user .fn [] (.returning (some x)) :: rest)
      (hv : EmptyOrFinished s (s.val x)) : Asserts s t .tick
  | fnUnwind {c x rest} (hr : RunsOn s t c) (hf : s.frames c = .user .fn [] (.unwinding (.forced x)) :: rest)
      (hv : EmptyOrFinished s (s.val x)) : Asserts s t .tick

theorem acc_handle {s : State} {x} (h : s.accessible x = true) : Handle s x := by
  unfold State.accessible at h
  unfold Handle
  split at h <;> simp_all

theorem step_class {s : State} {t op} (h : Reachable s) (hE : NoEarlyDestroy s) :
    (step s t op = .terminate → Terminates s t op) ∧ (step s t op = .assertion → Asserts s t op) ∧
    (op = .tick → step s t op = .rejected → s.cur t = none ∨ ∃ c k ls rest, UserCode s t c k ls rest) := by
  have hi := reachable_inv h hE
  cases hcur : s.cur t with
  | none => simp [step, hcur]
  | some c =>
    have h1 := (hi.ci.curRun t c).1 hcur
    have h2 := hi.ci.wf c (by simp [h1])
    have hne : ∀ x w, s.val x = some w → w ≠ c := by
      rintro x w hx rfl
      have := (hi.vi.valid x w hx).1
      simp [h1] at this
    have hdv : ∀ x w, (∀ d, s.kind x ≠ .exc d) → s.val x = some w → w ≠ c ∧ ∀ v, ¬ DtorTop v (s.frames w) :=
      fun x w hk hx => ⟨hne x w hx, hi.vi.nonExc x w hk hx⟩
    have fine : ∀ r, Fine r → step s t op = r → (step s t op = .terminate → Terminates s t op) ∧
        (step s t op = .assertion → Asserts s t op) ∧
        (op = .tick → step s t op = .rejected → some c = none ∨ ∃ c k ls rest, UserCode s t c k ls rest) := by
      intro r hr hs
      rw [hs]
      exact ⟨fun h => absurd h hr.1, fun h => absurd h hr.2.1, fun _ h => absurd h hr.2.2⟩
    obtain ⟨rest, ⟨k, ls, m, hfr⟩ | ⟨n, hfr⟩⟩ := runTop_iff.1 (hi.ci.runTop c t h1 (by simp))
    · by_cases hm : m = .normal
      · subst hm
        have hu : UserCode s t c k ls rest := ⟨hcur, hfr⟩
        have hstep : step s t op = userStep s t c k ls rest op := by simp [step, hcur, hfr]
        have rej : step s t op = .rejected → (step s t op = .terminate → Terminates s t op) ∧
            (step s t op = .assertion → Asserts s t op) ∧
            (op = .tick → step s t op = .rejected → some c = none ∨ ∃ c k ls rest, UserCode s t c k ls rest) := by
          intro hs; rw [hs]; exact ⟨by simp, by simp, fun _ _ => .inr ⟨c, k, ls, rest, hu⟩⟩
        cases op <;> simp only [userStep] at hstep
        case moveAssign y x =>
          split at hstep
          · rename_i ha
            split at hstep
            · exact fine _ fine_ok hstep
            · split at hstep
              · exact fine _ fine_ok hstep
              · rename_i w hw
                have := hdv y w (accessible_ne_exc ha.2) hw
                exact fine _ (destroyPtr_fine (s := (s.setVal y (s.val x)).setVal x none) this.1 this.2) hstep
          · exact rej hstep
        case drop x =>
          split at hstep
          · rename_i hx
            have hkx : s.kind x = .loc c := (hi.oi.locs c x).1 (by rw [hfr]; simp [lvars_cons, hx, Verif.Fiber.Frame.lvars])
            refine fine _ (destroyVar_fine ?_) hstep
            intro f hf
            have := hdv x f (by simp [hkx]) hf
            simp [State.setFrames, this.1]; exact this.2
          · split at hstep
            · rename_i hk
              exact fine _ (destroyVar_fine (fun f hf => hdv x f (by simp [hk]) hf)) hstep
            · exact rej hstep
        case create xs o =>
          split at hstep
          · rename_i ha
            cases o with
            | success => exact fine _ fine_ok hstep
            | allocThrows n => exact fine _ fine_ok hstep
            | fnThrows =>
              rw [hstep]
              exact ⟨fun _ => .fnThrows hu (by simp only [List.all_eq_true] at ha; exact fun x hx => acc_handle (ha x hx)), by simp, by simp⟩
          · exact rej hstep
        case resume x =>
          split at hstep
          · rename_i ha
            simp only [State.doResume] at hstep
            split at hstep
            · rename_i hv
              rw [hstep]; exact ⟨by simp, fun _ => .resume hu (acc_handle ha) (.inl hv), by simp⟩
            · rename_i w hv
              split at hstep
              · rename_i hw; rw [hstep]; exact ⟨by simp, fun _ => .resume hu (acc_handle ha) (.inr ⟨w, hv, hw⟩), by simp⟩
              · refine fine _ (sw_fine ?_) hstep
                intro v hv'
                have := hdv x w (accessible_ne_exc ha) hv
                simp only [State.setFrames, upd_apply, if_neg this.1] at hv'
                exact absurd hv' (this.2 v)
          · exact rej hstep
        case resumeWith x =>
          split at hstep
          · rename_i ha
            simp only [State.doResumeWith] at hstep
            split at hstep
            · rename_i hv
              rw [hstep]; exact ⟨by simp, fun _ => .resumeWith hu (acc_handle ha) (.inl hv), by simp⟩
            · rename_i w hv
              split at hstep
              · rename_i hw; rw [hstep]; exact ⟨by simp, fun _ => .resumeWith hu (acc_handle ha) (.inr ⟨w, hv, hw⟩), by simp⟩
              · refine fine _ (sw_fine ?_) hstep
                intro v hv'
                have := hdv x w (accessible_ne_exc ha) hv
                simp only [State.setFrames, State.setVal, upd_apply, if_neg this.1] at hv'
                exact absurd hv' (this.2 v)
          · exact rej hstep
        all_goals
          first
          | (exact fine _ fine_ok hstep; done)
          | (exact rej hstep; done)
          | (split at hstep <;> first | exact fine _ fine_ok hstep | exact rej hstep; done)
          | (split at hstep <;> (try split at hstep) <;> first | exact fine _ fine_ok hstep | exact rej hstep; done)
      · cases ls with
        | cons x ls =>
          have hkx : s.kind x = .loc c := (hi.oi.locs c x).1 (by rw [hfr]; simp [lvars_cons, Verif.Fiber.Frame.lvars])
          have hs : step s t op = match op with
            | .tick => (s.setFrames c (.user k ls m :: rest)).destroyVar t c x
            | .cleanup => .ok (s.setFrames c (.user .cleanup [] .normal :: .user k (x :: ls) m :: rest))
            | _ => .rejected := by
            cases m with
            | normal => exact absurd rfl hm
            | unwinding e => simp only [step, hcur, hfr]; cases op <;> rfl
            | returning r => simp only [step, hcur, hfr]; cases op <;> rfl
          cases op
          case tick =>
            simp only at hs
            refine fine _ (destroyVar_fine ?_) hs
            intro f hf
            have := hdv x f (by simp [hkx]) hf
            simp [State.setFrames, this.1]; exact this.2
          all_goals simp only at hs; simp [hs]
        | nil =>
          cases m with
          | normal => simp at hm
          | unwinding e =>
            have hs : step s t op = match (generalizing := false) op with
              | .tick => propagate s t c k e rest
              | .cleanup => .ok (s.setFrames c (.user .cleanup [] .normal :: .user k [] (.unwinding e) :: rest))
              | .catchUser =>
                match (generalizing := false) k, e with
                | .call, .user _ => .ok (s.setFrames c rest)
                | _, _ => .rejected
              | .swallow =>
                match (generalizing := false) k, e with
                | .call, .forced x =>
                  match (generalizing := false) s.val x with
                  | some f => .ok { (s.setFrames c rest).kill x with lost := upd s.lost f true }
                  | none => .ok ((s.setFrames c rest).kill x)
                | _, _ => .rejected
              | _ => .rejected := by
              simp only [step, hcur, hfr]; cases op <;> rfl
            rw [hfr] at h2
            cases op
            case tick =>
              simp only at hs
              cases k with
              | main => rw [hs]; simp only [propagate]; exact ⟨fun _ => .main hcur hfr, by simp, by simp⟩
              | cleanup => rw [hs]; simp only [propagate]; exact ⟨fun _ => .destructor hcur hfr, by simp, by simp⟩
              | call =>
                obtain ⟨k', l', r', rfl⟩ := adj_call h2.1
                exact fine _ fine_ok hs
              | fn =>
                cases e with
                | user n => rw [hs]; simp only [propagate]; exact ⟨fun _ => .fn hcur hfr, by simp, by simp⟩
                | forced x =>
                  have hkx : s.kind x = .exc c := (hi.oi.excs c x).1 (by rw [hfr]; simp [evars_cons, Verif.Fiber.Frame.evars])
                  simp only [propagate] at hs
                  cases hv : s.val x with
                  | none => exact absurd hv (hi.vi.excSome x c hkx)
                  | some w =>
                    by_cases hw : s.status w = .terminated
                    · have he : (s.kill x).finish t c (s.val x) = .assertion := by
                        simp [State.finish, hv, State.kill, hw]
                      rw [hs, he]; exact ⟨by simp, fun _ => .fnUnwind hcur hfr (.inr ⟨w, hv, hw⟩), by simp⟩
                    · rw [hv] at hs
                      exact fine _ (finish_fine (s := s.kill x) (hne x w hv) hw (fun v hv' => hi.vi.excTop x c w v hkx hv hv')) hs
              | ontop i =>
                obtain ⟨rest1, rfl⟩ := adj_ontop h2.1
                obtain ⟨k', ls', rest', rfl⟩ := adj_resume_inv h2.2.1
                exact fine _ fine_ok hs
            case catchUser =>
              simp only at hs
              rw [hs]
              refine ⟨?_, ?_, by simp⟩
              all_goals split <;> simp
            case swallow =>
              simp only at hs
              rw [hs]
              refine ⟨?_, ?_, by simp⟩
              all_goals
                split
                · split <;> simp
                · simp
            all_goals simp only at hs; simp [hs]
          | returning r =>
            have hs : step s t op = match op with
              | .tick => leave s t c k r rest
              | .cleanup => .ok (s.setFrames c (.user .cleanup [] .normal :: .user k [] (.returning r) :: rest))
              | _ => .rejected := by
              simp only [step, hcur, hfr]; cases op <;> rfl
            rw [hfr] at h2
            cases op
            case tick =>
              simp only at hs
              by_cases hk : k = .fn
              · subst hk
                cases r with
                | none => have := h2.1.modeOK; simp [ModeOK] at this
                | some x =>
                  have hkx : s.kind x = .ret c := (hi.oi.rets c x).1 (by rw [hfr]; simp [rvars_cons, Verif.Fiber.Frame.rvars])
                  simp only [leave] at hs
                  cases hv : s.val x with
                  | none => rw [hs, hv]; simp only [State.finish]; exact ⟨by simp, fun _ => .fnReturn hcur hfr (.inl hv), by simp⟩
                  | some w =>
                    by_cases hw : s.status w = .terminated
                    · have he : (s.kill x).finish t c (s.val x) = .assertion := by
                        simp [State.finish, hv, State.kill, hw]
                      rw [hs, he]; exact ⟨by simp, fun _ => .fnReturn hcur hfr (.inr ⟨w, hv, hw⟩), by simp⟩
                    · rw [hv] at hs
                      exact fine _ (finish_fine (s := s.kill x) (hne x w hv) hw (fun v hv' => absurd hv' ((hdv x w (by simp [hkx]) hv).2 v))) hs
              · refine fine _ ?_ hs
                cases k <;> cases r <;> simp only [leave] <;> first | exact fine_ok | exact fine_ub | exact absurd rfl hk | (split <;> first | exact fine_ok | exact fine_ub)
            all_goals simp only at hs; simp [hs]
    · have hs : step s t op = match op with
        | .tick => exitStep s t c n rest
        | .cleanup => .ok (s.setFrames c (.user .cleanup [] .normal :: .exiting n :: rest))
        | _ => .rejected := by
        simp only [step, hcur, hfr]; cases op <;> rfl
      cases op
      case tick =>
        simp only at hs
        refine fine _ ?_ hs
        simp only [exitStep]
        split
        · rename_i x xs hc
          apply destroyVar_fine
          intro f hf
          exact hdv x f (by rw [(hi.oi.capv n x).1 (by rw [hc]; simp)]; simp) hf
        · split
          · split <;> exact fine_ok
          · exact fine_ub
      all_goals simp only at hs; simp [hs]

/-- **C56**: as long as no never started fiber was destroyed, the program is terminated exactly in the listed situations. -/
theorem C56_terminate_iff {s : State} (h : Reachable s) (he : NoEarlyDestroy s) (t : Tid) (op : Op) :
    step s t op = .terminate ↔ Terminates s t op := by
  refine ⟨(step_class h he).1, ?_⟩
  intro ht
  cases ht with
  | fnThrows hu ha =>
    rename_i xs
    have : xs.all s.accessible = true := by simp only [List.all_eq_true]; exact fun x hx => handle_acc (ha x hx)
    simp [step, hu.1, hu.2, userStep, this]
  | main hr hf => simp only [RunsOn] at hr; simp [step, hr, hf, propagate]
  | destructor hr hf => simp only [RunsOn] at hr; simp [step, hr, hf, propagate]
  | fn hr hf => simp only [RunsOn] at hr; simp [step, hr, hf, propagate]

/-- **C56**: as long as no never started fiber was destroyed, an assertion of the library fails exactly when an empty fiber or a
finished one is resumed, or control is returned to such a one at the end of a context function. -/
theorem C56_assertion_iff {s : State} (h : Reachable s) (he : NoEarlyDestroy s) (t : Tid) (op : Op) :
    step s t op = .assertion ↔ Asserts s t op := by
  refine ⟨(step_class h he).2.1, ?_⟩
  have key : ∀ {c : CtxId} {v : Option CtxId} {x}, EmptyOrFinished s v → (s.kill x).finish t c v = .assertion := by
    rintro c v x (rfl | ⟨w, rfl, hw⟩)
    · rfl
    · simp [State.finish, State.kill, show s.status w = .terminated from hw]
  intro ht
  cases ht with
  | resume hu ha hv =>
    rcases hv with hv | ⟨w, hv, hw⟩
    · simp [step, hu.1, hu.2, userStep, handle_acc ha, State.doResume, hv]
    · simp [step, hu.1, hu.2, userStep, handle_acc ha, State.doResume, hv, show s.status w = .terminated from hw]
  | resumeWith hu ha hv =>
    rcases hv with hv | ⟨w, hv, hw⟩
    · simp [step, hu.1, hu.2, userStep, handle_acc ha, State.doResumeWith, hv]
    · simp [step, hu.1, hu.2, userStep, handle_acc ha, State.doResumeWith, hv, show s.status w = .terminated from hw]
  | fnReturn hr hf hv => simp only [RunsOn] at hr; simp [step, hr, hf, leave, key hv]
  | fnUnwind hr hf hv => simp only [RunsOn] at hr; simp [step, hr, hf, propagate, key hv]

/-- **C56**: when a thread is not executing user code in its normal mode, its next `tick` succeeds, or it is one of the listed
terminations or assertion failures. -/
theorem C56_no_stuck {s : State} {t : Tid} {c : CtxId} (h : Reachable s) (he : NoEarlyDestroy s) (hr : RunsOn s t c)
    (hn : ∀ k ls rest, s.frames c ≠ .user k ls .normal :: rest) :
    (∃ s', step s t .tick = .ok s') ∨ Terminates s t .tick ∨ Asserts s t .tick := by
  have hc := step_class (t := t) (op := .tick) h he
  cases hs : step s t .tick with
  | ok s' => exact .inl ⟨s', rfl⟩
  | rejected =>
    rcases hc.2.2 rfl hs with h1 | ⟨c', k, ls, rest, hu⟩
    · rw [RunsOn, h1] at hr; simp at hr
    · have := hu.1; rw [RunsOn, this] at hr; simp at hr; subst hr
      exact absurd hu.2 (hn _ _ _)
  | terminate => exact .inr (.inl (hc.1 hs))
  | assertion => exact .inr (.inr (hc.2.1 hs))
  | ub => exact absurd hs (C22_no_ub h he t .tick)

/-! Non-vacuity.  `hFin`: the fiber returns main's handle; main's `resume()` has returned object 3, which designates the finished
fiber. -/
def hFin : List (Tid × Op) := [(0, .create [] .success), (0, .resume 0), (0, .retHandle 1), (0, .tick), (0, .tick)]

example : Reachable (exec hFin) ∧ NoEarlyDestroy (exec hFin) ∧ Asserts (exec hFin) 0 (.resume 3) :=
  ⟨reachable_exec (by decide), (by decide : (exec hFin).early = false), .resume (c := 0) (k := .main) (ls := [3, 0]) (rest := []) ⟨by decide, by decide⟩
    (.inr (.inl ⟨0, by decide⟩)) (.inr ⟨1, by decide, (by decide : (exec hFin).status 1 = .terminated)⟩)⟩

/-- the fiber function puts its parameter on the heap and returns an empty object -/
def hRetEmpty : List (Tid × Op) := [(0, .create [] .success), (0, .resume 0), (0, .moveHeap 1), (0, .newHeap), (0, .retHandle 3), (0, .tick)]

example : Reachable (exec hRetEmpty) ∧ NoEarlyDestroy (exec hRetEmpty) ∧ Asserts (exec hRetEmpty) 0 .tick :=
  ⟨reachable_exec (by decide), (by decide : (exec hRetEmpty).early = false), .fnReturn (c := 1) (x := 4) (rest := [.entryRun])
    (by decide : (exec hRetEmpty).cur 0 = some 1) (by decide) (.inl (by decide))⟩

/-- a user exception is about to leave the context function -/
def hThrow : List (Tid × Op) := [(0, .create [] .success), (0, .resume 0), (0, .throw 7), (0, .tick)]
example : Reachable (exec hThrow) ∧ NoEarlyDestroy (exec hThrow) ∧ Terminates (exec hThrow) 0 .tick :=
  ⟨reachable_exec (by decide), (by decide : (exec hThrow).early = false), .fn (c := 1) (n := 7) (rest := [.entryRun])
    (by decide : (exec hThrow).cur 0 = some 1) (by decide)⟩

/-- fiber 1 swallows the `forced_unwind` of its destruction, starts fiber 2, which returns to it: `force_unwind` is still set, so
`resume()` throws `forced_unwind` holding the finished fiber 2, which leaves the context function -/
def hSwallow : List (Tid × Op) :=
  [(0, .create [] .success), (0, .resume 0), (0, .call), (0, .resume 1), (0, .drop 2), (0, .swallow), (0, .create [] .success),
   (0, .resume 4), (0, .retHandle 5), (0, .tick), (0, .tick), (0, .tick), (0, .tick)]

example : Reachable (exec hSwallow) ∧ NoEarlyDestroy (exec hSwallow) ∧ Asserts (exec hSwallow) 0 .tick :=
  ⟨reachable_exec (by decide), (by decide : (exec hSwallow).early = false), .fnUnwind (c := 1) (x := 7) (rest := [.entryRun])
    (by decide : (exec hSwallow).cur 0 = some 1) (by decide) (.inr ⟨2, by decide, (by decide : (exec hSwallow).status 2 = .terminated)⟩)⟩

end Verif.UFiber
