import Verif.UCont.Empty

/-! # C68: `continuation` and `callcc` on ucontext and Windows fibers -/

namespace Verif.UCont
open Verif.Fiber (CtxId Var Tid Kind Exc Mode UKind Status Event CreateOutcome upd upd_apply)

/-! ## Vocabulary -/

/-- `x` is a live `continuation` object of user code -/
def Handle (s : State) (x : Var) : Prop :=
  (s.kind x = .heap ∨ (∃ c, s.kind x = .loc c) ∨ ∃ c, s.kind x = .cap c) ∧ s.hidden x = false
/-- object `x` designates context `c` -/
def Designates (s : State) (x : Var) (c : CtxId) : Prop := s.val x = some c
/-- `operator bool` of `x` (468-470) -/
def Valid (s : State) (x : Var) : Prop := ∃ c, s.val x = some c ∧ s.term c = false
/-- thread `t` executes context `c` -/
def RunsOn (s : State) (t : Tid) (c : CtxId) : Prop := s.cur t = some c
def Suspended (s : State) (c : CtxId) : Prop := s.status c = .suspended
/-- the function of context `c` has ended and its stack has not been released -/
def Finished (s : State) (c : CtxId) : Prop := s.status c = .terminated
/-- context `c` was created by `callcc` -/
def Created (s : State) (c : CtxId) : Prop := .alloc c ∈ s.log
/-- the function of context `c` was entered -/
def Entered (s : State) (c : CtxId) : Prop := .enter c ∈ s.log
/-- the stack of context `c` has been given back -/
def Released (s : State) (c : CtxId) : Prop := .dealloc c ∈ s.log
/-- some thread executes `deallocate()` for context `c` on the stack of context `d` -/
def BeingReleased (s : State) (c d : CtxId) : Prop := .exiting c ∈ s.frames d
/-- user code of context `c`, in an activation of kind `k` with local objects `ls`, is about to execute on thread `t` -/
def UserCode (s : State) (t : Tid) (c : CtxId) (k : UKind) (ls : List Var) (rest : List Frame) : Prop :=
  s.cur t = some c ∧ s.frames c = .user k ls .normal :: rest
/-- context `c` is suspended in `resume()`/`resume_with()` called by user code -/
def InResume (s : State) (c : CtxId) (k : UKind) (ls : List Var) (rest : List Frame) : Prop :=
  s.frames c = .resume :: .user k ls .normal :: rest
/-- context `c` is suspended in `callcc()`, whose temporary is `x`, called by user code -/
def InCallcc (s : State) (c : CtxId) (x : Var) (k : UKind) (ls : List Var) (rest : List Frame) : Prop :=
  s.frames c = .resume :: .callcc x .waiting k ls :: rest

/-- some finite history leads from `s` to `s'` -/
inductive Steps : State → State → Prop
  | refl (s : State) : Steps s s
  | tail {s s' s'' : State} {t : Tid} {op : Op} : Steps s s' → step s' t op = .ok s'' → Steps s s''

/-! ## running concrete histories (for the non-vacuity examples) -/

def exec (h : List (Tid × Op)) : State := match run init h with | .ok s => s | _ => init
def runsOk (h : List (Tid × Op)) : Bool := match run init h with | .ok _ => true | _ => false
def runsUb (h : List (Tid × Op)) : Bool := match run init h with | .ub => true | _ => false

theorem steps_run {s s' : State} {h : List (Tid × Op)} (hr : run s h = .ok s') : Steps s s' := by
  suffices ∀ s0, Steps s0 s → Steps s0 s' from this s (.refl s)
  induction h generalizing s with
  | nil => intro s0 h0; simp only [run, Res.ok.injEq] at hr; exact hr ▸ h0
  | cons a h ih =>
    obtain ⟨t, op⟩ := a
    intro s0 h0
    simp only [run] at hr
    split at hr
    · rename_i s1 hs1; exact ih hr s0 (h0.tail hs1)
    · exact absurd hr (by rename_i r hr2; intro h; exact hr2 _ h)

theorem Steps.reachable {s s' : State} (h : Steps s s') (hr : Reachable s) : Reachable s' := by
  induction h with
  | refl => exact hr
  | tail _ hs ih => exact .step ih hs

theorem reachable_exec {h : List (Tid × Op)} (_ : runsOk h = true) : Reachable (exec h) := by
  unfold exec
  split
  · rename_i s hs; exact (steps_run hs).reachable .init
  · exact .init

/-- as `reachable_exec`, for histories that do not swallow `forced_unwind` -/
theorem reachableNS_exec {h : List (Tid × Op)} (_ : runsOk h = true) (hn : ∀ a ∈ h, a.2 ≠ .swallow) : ReachableNS (exec h) := by
  have key : ∀ (h : List (Tid × Op)) (s s' : State), ReachableNS s → (∀ a ∈ h, a.2 ≠ .swallow) → run s h = .ok s' → ReachableNS s' := by
    intro h
    induction h with
    | nil => intro s s' hs _ hr; simp only [run, Res.ok.injEq] at hr; exact hr ▸ hs
    | cons a h ih =>
      obtain ⟨t, op⟩ := a
      intro s s' hs hn hr
      simp only [run] at hr
      split at hr
      · rename_i s1 hs1
        exact ih s1 s' (.step hs (hn (t, op) (by simp)) hs1) (fun a ha => hn a (by simp [ha])) hr
      · exact absurd hr (by rename_i r hr2; intro h; exact hr2 _ h)
  unfold exec
  split
  · rename_i s hs; exact key h _ _ .init hn hs
  · exact .init

/-- main calls `callcc`: context 1 starts (temporary 0, parameter 1), and resumes main back (result 2 of the `resume`, now of `callcc`, in main) -/
def h1 : List (Tid × Op) := [(0, .callcc [] .success), (0, .resume 1)]
/-- then `callcc` returns object 2 to main -/
def h2 : List (Tid × Op) := h1 ++ [(0, .tick)]
/-- main destroys object 2: context 1 is unwound and released -/
def h3 : List (Tid × Op) := h2 ++ [(0, .drop 2), (0, .tick), (0, .tick), (0, .tick)]
/-- context 1 returns main's continuation: `callcc` gives main object 3, which designates the finished context 1 -/
def hFin : List (Tid × Op) := [(0, .callcc [] .success), (0, .retHandle 1), (0, .tick), (0, .tick), (0, .tick)]

example : runsOk h1 = true ∧ runsOk h2 = true ∧ runsOk h3 = true ∧ runsOk hFin = true := by decide
example : (exec h3).log = [.destroyed 1 0, .dealloc 1, .enter 1, .alloc 1] := by decide
example : (exec hFin).val 3 = some 1 ∧ (exec hFin).status 1 = .terminated ∧ (exec hFin).frames 0 = [.user .main [3] .normal] := by decide

/-! ## Refinement -/

theorem run_append (s : UFiber.State) (h h' : List (Tid × Fiber.Op)) :
    UFiber.run s (h ++ h') = (match UFiber.run s h with | .ok s' => UFiber.run s' h' | r => r) := by
  induction h generalizing s with
  | nil => rfl
  | cons a h ih =>
    obtain ⟨t, op⟩ := a
    simp only [List.cons_append, UFiber.run]
    cases UFiber.step s t op with
    | ok s1 => exact ih s1
    | _ => rfl

/-- **One step.** In every reachable state every operation of the continuation API has the result of the corresponding operations of the fiber
API on ucontext: the same state; termination if and only if termination; a failed assertion only where the fiber API fails one; undefined behaviour only
where the fiber API fails an assertion (which is where an object is empty, `C71_undefined_iff`). `callcc` corresponds to construction followed by `resume()`. -/
theorem C68_step_refines {s : State} {t : Tid} {op : Op} (h : Reachable s) :
    Sim (step s t op) (UFiber.run s.abs (fiberOps s t op)) :=
  (step_spec (reachable_facts h).cwf (reachable_facts h).inv).1

/-- **Whole histories.** Every history of the continuation API is a history of the fiber API on ucontext, with the same threads, contexts, objects, values
and events. -/
theorem C68_history_refines {h : List (Tid × Op)} {s : State} (hr : run init h = .ok s) :
    ∃ h', UFiber.run UFiber.init h' = .ok s.abs := by
  have key : ∀ (h : List (Tid × Op)) (s0 s : State), Reachable s0 → (∃ h', UFiber.run UFiber.init h' = .ok s0.abs) → run s0 h = .ok s →
      ∃ h', UFiber.run UFiber.init h' = .ok s.abs := by
    intro h
    induction h with
    | nil => intro s0 s _ hF hr; simp only [run, Res.ok.injEq] at hr; exact hr ▸ hF
    | cons a h ih =>
      obtain ⟨t, op⟩ := a
      intro s0 s h0 ⟨h', hF⟩ hr
      simp only [run] at hr
      split at hr
      · rename_i s1 hs1
        refine ih s1 s (.step h0 hs1) ⟨h' ++ fiberOps s0 t op, ?_⟩ hr
        have := C68_step_refines (op := op) (t := t) h0
        rw [hs1] at this
        rw [run_append, hF]
        exact this
      · exact absurd hr (by rename_i r hr2; intro h; exact hr2 _ h)
  refine key h init s .init ⟨[], ?_⟩ hr
  simp only [UFiber.run, UFiber.Res.ok.injEq]
  simp only [init, State.abs, UFiber.init]
  congr
  funext c
  split <;> rfl

/-- what the view does not change: threads, statuses, object values, flags of the records, events (and it maps stacks frame by frame) -/
example (s : State) : s.abs.cur = s.cur ∧ s.abs.status = s.status ∧ s.abs.val = s.val ∧ s.abs.kind = s.kind ∧ s.abs.caps = s.caps ∧ s.abs.log = s.log ∧
    s.abs.term = s.term ∧ s.abs.unw = s.unw ∧ s.abs.ontop = s.ontop ∧ s.abs.frm = s.frm ∧
    (∀ c, s.abs.frames c = (s.frames c).map Frame.abs) := ⟨rfl, rfl, rfl, rfl, rfl, rfl, rfl, rfl, rfl, rfl, fun _ => rfl⟩

theorem step_run_ok {s s' : State} {t : Tid} {op : Op} (h : Reachable s) (hs : step s t op = .ok s') :
    UFiber.run s.abs (fiberOps s t op) = .ok s'.abs := by
  have := C68_step_refines (op := op) (t := t) h
  rw [hs] at this; exact this

theorem reachableNS_spec {s : State} (h : ReachableNS s) : Reachable s ∧ UFiber.ReachableNS s.abs := by
  induction h with
  | init =>
    refine ⟨.init, ?_⟩
    have : init.abs = UFiber.init := by
      simp only [init, State.abs, UFiber.init]
      congr
      funext c
      split <;> rfl
    rw [this]; exact .init
  | @step s s' t op _ hne hs ih =>
    refine ⟨.step ih.1 hs, ?_⟩
    have := step_run_ok ih.1 hs
    have hall : ∀ a ∈ fiberOps s t op, a.2 ≠ .swallow := by
      intro a ha
      cases op <;> simp only [fiberOps] at ha <;> (try (simp only [List.mem_singleton] at ha; subst ha; first | simp; done | exact absurd rfl hne; done))
      · rename_i xs o
        cases o <;> simp only [List.mem_cons, List.not_mem_nil, or_false] at ha
        · rcases ha with rfl | rfl <;> simp
        · subst ha; simp
        · subst ha; simp
      · split at ha <;> (simp only [List.mem_singleton] at ha; subst ha; simp)
    have key : ∀ (h : List (Tid × Fiber.Op)) (s0 s1 : UFiber.State), UFiber.ReachableNS s0 → (∀ a ∈ h, a.2 ≠ .swallow) → UFiber.run s0 h = .ok s1 →
        UFiber.ReachableNS s1 := by
      intro h
      induction h with
      | nil => intro s0 s1 h0 _ hr; simp only [UFiber.run, UFiber.Res.ok.injEq] at hr; exact hr ▸ h0
      | cons a h ih =>
        obtain ⟨t, op⟩ := a
        intro s0 s1 h0 ha hr
        simp only [UFiber.run] at hr
        split at hr
        · rename_i s2 hs2
          exact ih s2 s1 (.step h0 (ha (t, op) (by simp)) hs2) (fun a h' => ha a (by simp [h'])) hr
        · exact absurd hr (by rename_i r hr2; intro h; exact hr2 _ h)
    exact key _ _ _ ih.2 hall this

theorem steps_abs {s s' : State} (h : Reachable s) (hs : Steps s s') : UFiber.Steps s.abs s'.abs := by
  induction hs with
  | refl => exact .refl _
  | @tail s1 s2 t op h1 h2 ih =>
    have h3 := UFiber.steps_run (step_run_ok (h1.reachable h) h2)
    generalize s2.abs = z at h3
    induction h3 with
    | refl => exact ih
    | tail _ hs ih2 => exact .tail ih2 hs

/-! ## `callcc` in detail -/

theorem handle_accessible {s : State} {x : Var} (h : Handle s x) : s.accessible x = true := by
  obtain ⟨h, hh⟩ := h
  rcases h with h | ⟨e, h⟩ | ⟨e, h⟩ <;> simp [State.accessible, h, hh]

theorem accessible_handle {s : State} {x : Var} (h : s.accessible x = true) : Handle s x := by
  refine ⟨UFiber.acc_handle (accessible_abs h), ?_⟩
  simp only [State.accessible] at h
  split at h <;> simp_all

theorem handle_abs {s : State} {x : Var} (h : Handle s x) : UFiber.Handle s.abs x := h.1

theorem userCode_abs {s : State} {t : Tid} {c : CtxId} {k : UKind} {ls : List Var} {rest : List Frame} (h : UserCode s t c k ls rest) :
    UFiber.UserCode s.abs t c k ls (absL rest) := ⟨h.1, by rw [abs_frames, h.2]; rfl⟩

theorem Facts.early {s : State} (f : Facts s) : UFiber.NoEarlyDestroy s.abs := f.good.early

theorem lt_nextVar {s : State} (h : Reachable s) {x : Var} (hx : s.kind x ≠ .dead) : x < s.nextVar := by
  rcases Nat.lt_or_ge x s.nextVar with h1 | h1
  · exact h1
  · exact absurd ((reachable_facts h).inv.oi.fresh x h1) hx

theorem handle_lt {s : State} (h : Reachable s) {x : Var} (hx : Handle s x) : x < s.nextVar := by
  refine lt_nextVar h ?_
  rcases hx.1 with h | ⟨e, h⟩ | ⟨e, h⟩ <;> rw [h] <;> simp

/-- `callcc(f)`, called by user code of context `c`, `f` having captured `xs`: always succeeds; a context `n` that did not exist before is allocated
and runs on the thread, `f` has been entered with a parameter that designates `c`; `c` is suspended inside `callcc`; nothing else has changed. -/
theorem C68_callcc {s : State} {t : Tid} {c : CtxId} {k : UKind} {ls : List Var} {rest : List Frame} {xs : List Var}
    (h : Reachable s) (hu : UserCode s t c k ls rest) (ha : ∀ x ∈ xs, Handle s x) :
    ∃ s' p x n, step s t (.callcc xs .success) = .ok s' ∧ s.status n = .absent ∧ ¬ Created s n ∧
      RunsOn s' t n ∧ s'.frames n = [.user .fn [p] .normal, .entryRun] ∧ Designates s' p c ∧ Suspended s' c ∧ InCallcc s' c x k ls rest ∧
      s'.log = .enter n :: .alloc n :: s.log ∧ (∀ d, d ≠ c → d ≠ n → s'.frames d = s.frames d ∧ s'.status d = s.status d) ∧
      (∀ y, Handle s y → Handle s' y ∧ s'.val y = if y ∈ xs then none else s.val y) := by
  have f := reachable_facts h
  have hcn : c ≠ s.nextCtx := f.fresh hu.1
  have hall : xs.all s.accessible = true := by simp only [List.all_eq_true]; exact fun x hx => handle_accessible (ha x hx)
  have hst : step s t (.callcc xs .success) = s.doCallcc t c k ls rest xs := by
    simp only [step, hu.1, hu.2, userStep, hall, if_true]
  obtain ⟨s', e0, e1, e2, e3, e4, e5, e6, e7, e8⟩ := doCallcc_eq s t c k ls rest xs hu.1 hcn
  have habs : s.status s.nextCtx = .absent := (f.inv.ci.absent _).2 (Nat.le_refl _)
  refine ⟨s', s.nextVar + xs.length + 1, s.nextVar + xs.length, s.nextCtx, by rw [hst, e0], habs, ?_, ?_, ?_, e7, ?_, ?_, e6, ?_, ?_⟩
  · intro hc; exact (((UFiber.reachable_linv f.reach f.early).alloc _).1 hc).1 habs
  · simp only [RunsOn, e4, upd_apply, if_true]
  · rw [e3]; simp
  · simp only [Suspended, e5, upd_apply, hcn, if_false, if_true]
  · simp only [InCallcc]; rw [e3]; simp [hcn]
  · intro d h1 h3; refine ⟨by rw [e3]; simp [h1, h3], by rw [e5]; simp [h1, h3]⟩
  · intro y hy
    have hlt := handle_lt h hy
    have h8 := e8 (fun x hx => handle_lt h (ha x hx)) y hlt
    refine ⟨⟨?_, ?_⟩, h8.1⟩
    · rw [h8.2]; exact hy.1
    · rw [e1]; simp only [upd_apply]; rw [if_neg (Nat.ne_of_lt (Nat.lt_of_lt_of_le hlt (Nat.le_add_right _ _)))]; exact hy.2

example : Reachable (exec h2) ∧ UserCode (exec h2) 0 0 .main [2] [] ∧ ∀ x ∈ [2], Handle (exec h2) x :=
  ⟨reachable_exec (by decide), ⟨by decide, by decide⟩, by
    intro x hx; simp only [List.mem_singleton] at hx; subst hx; exact ⟨.inr (.inl ⟨0, by decide⟩), by decide⟩⟩

/-- The temporary of `callcc` on which `resume()` was called is empty until its lifetime ends, and user code cannot name it. -/
theorem C68_temporary_empty {s : State} (h : Reachable s) {c : CtxId} {x : Var} {cm : CcMode} {k : UKind} {ls : List Var}
    (hf : .callcc x cm k ls ∈ s.frames c) : s.val x = none ∧ ¬ Handle s x := by
  have h1 : s.hidden x = true := (reachable_facts h).good.fr c _ hf
  exact ⟨(hidden_empty h x h1).2, fun hh => by rw [hh.2] at h1; cases h1⟩

example : Reachable (exec h1) ∧ .callcc 0 (.returning 2) .main [] ∈ (exec h1).frames 0 := ⟨reachable_exec (by decide), by decide⟩

/-- `callcc` returns: the caller gets the object returned by `resume()` as a new local; nothing else changes (the temporary is gone). -/
theorem C68_callcc_returns {s : State} (h : Reachable s) {t : Tid} {c : CtxId} {x y : Var} {k : UKind} {ls : List Var} {rest : List Frame}
    (hr : RunsOn s t c) (hf : s.frames c = .callcc x (.returning y) k ls :: rest) :
    ∃ s', step s t .tick = .ok s' ∧ UserCode s' t c k (y :: ls) rest ∧ s'.kind x = .dead ∧ s'.val = s.val ∧ (∀ z, z ≠ x → s'.kind z = s.kind z) ∧
      s'.status = s.status ∧ s'.log = s.log ∧ s'.cur = s.cur ∧ ∀ d, d ≠ c → s'.frames d = s.frames d := by
  have hx := (C68_temporary_empty h (c := c) (by rw [hf]; exact List.mem_cons_self ..)).1
  simp only [RunsOn] at hr
  refine ⟨(s.setFrames c (.user k (y :: ls) .normal :: rest)).kill x, ?_, ⟨hr, by simp [State.setFrames, State.kill]⟩, by simp [State.kill], ?_, ?_, rfl, rfl, rfl, ?_⟩
  · simp only [step, hr, hf, State.destroyVar]
    have : (s.setFrames c (.user k (y :: ls) .normal :: rest)).val x = none := hx
    rw [this]
  · funext z
    simp only [State.kill, State.setFrames, upd_apply]; split
    · subst z; exact hx.symm
    · rfl
  · intro z hz; simp [State.kill, State.setFrames, hz]
  · intro d hd; simp [State.kill, State.setFrames, hd]

example : Reachable (exec h1) ∧ RunsOn (exec h1) 0 0 ∧ (exec h1).frames 0 = [.callcc 0 (.returning 2) .main []] :=
  ⟨reachable_exec (by decide), (by decide : (exec h1).cur 0 = some 0), by decide⟩

/-- An exception leaving `resume()` inside `callcc` continues in the caller of `callcc`. -/
theorem C68_callcc_throws {s : State} (h : Reachable s) {t : Tid} {c : CtxId} {x : Var} {e : Exc} {k : UKind} {ls : List Var} {rest : List Frame}
    (hr : RunsOn s t c) (hf : s.frames c = .callcc x (.unwinding e) k ls :: rest) :
    ∃ s', step s t .tick = .ok s' ∧ RunsOn s' t c ∧ s'.frames c = .user k ls (.unwinding e) :: rest ∧ s'.kind x = .dead ∧ s'.val = s.val ∧
      s'.status = s.status ∧ s'.log = s.log ∧ ∀ d, d ≠ c → s'.frames d = s.frames d := by
  have hx := (C68_temporary_empty h (c := c) (by rw [hf]; exact List.mem_cons_self ..)).1
  simp only [RunsOn] at hr
  refine ⟨(s.setFrames c (.user k ls (.unwinding e) :: rest)).kill x, ?_, hr, by simp [State.setFrames, State.kill], by simp [State.kill], ?_, rfl, rfl, ?_⟩
  · simp only [step, hr, hf, State.destroyVar]
    have : (s.setFrames c (.user k ls (.unwinding e) :: rest)).val x = none := hx
    rw [this]
  · funext z
    simp only [State.kill, State.setFrames, upd_apply]; split
    · subst z; exact hx.symm
    · rfl
  · intro d hd; simp [State.kill, State.setFrames, hd]

/-- main calls `callcc`, context 1 resumes main with a function that throws -/
def hThrow : List (Tid × Op) := [(0, .callcc [] .success), (0, .resumeWith 1), (0, .moveHeap 2), (0, .throw 7), (0, .tick), (0, .tick)]
example : Reachable (exec hThrow) ∧ RunsOn (exec hThrow) 0 0 ∧ (exec hThrow).frames 0 = [.callcc 0 (.unwinding (.user 7)) .main []] :=
  ⟨reachable_exec (by decide), (by decide : (exec hThrow).cur 0 = some 0), by decide⟩

/-! ## No never-started context -/

/-- Between operations no context is waiting to be started: whatever was created has been entered, exactly once, before user code can see it. (For `fiber`
on ucontext this fails, and with it C22 without the proviso, C23 and C24.) -/
theorem C68_created_is_entered {s : State} (h : Reachable s) (c : CtxId) : s.frames c ≠ [.entryJump] ∧
    (Created s c ↔ Entered s c) ∧ s.log.count (.enter c) ≤ 1 := by
  have f := reachable_facts h
  have hl := UFiber.reachable_linv f.reach f.early
  have h1 : s.frames c ≠ [.entryJump] := by
    intro hh; have := f.good.fr c; rw [hh] at this; simp at this
  refine ⟨h1, ?_, hl.enter1 c⟩
  have he := hl.enter c
  have ha := hl.alloc c
  simp only [abs_log, abs_status, abs_root, abs_frames, Ne, absL_entry] at he ha
  simp only [Created, Entered, he, ha, h1, not_false_eq_true, and_true]

example : Reachable (exec h1) ∧ Created (exec h1) 1 ∧ Entered (exec h1) 1 := by
  refine ⟨reachable_exec (by decide), ?_, ?_⟩
  · show _ ∈ _; decide
  · show _ ∈ _; decide

/-! ## The properties of `fiber` on ucontext, without proviso -/

/-- A context is designated by at most one object. -/
theorem C69_exclusive {s : State} (h : Reachable s) {x y : Var} {c : CtxId} (hx : Designates s x c) (hy : Designates s y c) : x = y :=
  UFiber.C22_exclusive (reachable_facts h).reach (reachable_facts h).early hx hy

theorem exiting_abs {s : State} {c d : CtxId} : (.exiting c ∈ absL (s.frames d)) ↔ .exiting c ∈ s.frames d := by
  simp only [absL, List.mem_map]
  constructor
  · rintro ⟨f, hf, hh⟩
    cases f with
    | exiting n => simp only [Frame.abs, Fiber.Frame.exiting.injEq] at hh; subst hh; exact hf
    | callcc x cm k ls => cases cm <;> simp [Frame.abs] at hh
    | _ => simp [Frame.abs] at hh
  · intro hf; exact ⟨_, hf, rfl⟩

/-- A non-empty object designates a suspended or finished, existing context that nobody runs or releases. -/
theorem C69_no_dangling {s : State} (h : Reachable s) {x : Var} {c : CtxId} (hx : Designates s x c) :
    (Suspended s c ∨ Finished s c) ∧ ¬ Released s c ∧ (∀ t, ¬ RunsOn s t c) ∧ ∀ d, ¬ BeingReleased s c d := by
  obtain ⟨h1, h2, h3, h4⟩ := UFiber.C22_no_dangling (reachable_facts h).reach (reachable_facts h).early hx
  exact ⟨h1, h2, h3, fun d hd => h4 d (exiting_abs.2 hd)⟩

/-- `operator bool` tells whether the object designates a context that can be resumed. -/
theorem C69_bool {s : State} (h : Reachable s) {x : Var} : Valid s x ↔ ∃ c, Designates s x c ∧ Suspended s c :=
  UFiber.C22_bool (reachable_facts h).reach (reachable_facts h).early

/-- A stack is released at most once, and only stacks that were allocated. -/
theorem C70_released_once {s : State} (h : Reachable s) (c : CtxId) :
    s.log.count (.dealloc c) ≤ 1 ∧ (Released s c → Created s c) :=
  ⟨UFiber.C22_released_once (reachable_facts h).reach (reachable_facts h).early c,
    fun hr => UFiber.C22_released_was_created (reachable_facts h).reach (reachable_facts h).early hr⟩

/-- After the release nothing lives or runs on the stack, and nothing designates it, for ever. -/
theorem C70_after_release {s s' : State} (h : Reachable s) {c : CtxId} (hr : Released s c) (hs : Steps s s') :
    Released s' c ∧ s'.log.count (.dealloc c) = 1 ∧ (∀ t, ¬ RunsOn s' t c) ∧ s'.frames c = [] ∧
      (∀ x, s'.kind x ≠ .loc c ∧ s'.kind x ≠ .cap c ∧ s'.kind x ≠ .ret c ∧ s'.kind x ≠ .exc c) ∧ ∀ x, ¬ Designates s' x c := by
  obtain ⟨h1, h2, h3, h4, h5, h6⟩ := UFiber.C22_after_release (reachable_facts h).reach hr (steps_abs h hs)
    (reachable_facts (hs.reachable h)).early
  refine ⟨h1, h2, h3, ?_, h5, h6⟩
  rw [abs_frames] at h4
  simpa [absL] using h4

example : Reachable (exec h3) ∧ Released (exec h3) 1 := ⟨reachable_exec (by decide), by show _ ∈ _; decide⟩

/-- an operation other than `callcc` corresponds to one operation -/
theorem single_op {s : State} {t : Tid} {op : Op} (hop : ∀ xs, op ≠ .callcc xs .success) : ∃ op', fiberOps s t op = [(t, op')] := by
  cases op <;> simp only [fiberOps] <;> (try exact ⟨_, rfl⟩)
  · rename_i xs o
    cases o with
    | success => exact absurd rfl (hop xs)
    | _ => exact ⟨_, rfl⟩
  · split <;> exact ⟨_, rfl⟩

/-- a `callcc` that does not fail to allocate succeeds -/
theorem callcc_cases {s : State} {t : Tid} {xs : List Var} (h : Reachable s) (hs : step s t (.callcc xs .success) ≠ .rejected) :
    ∃ s' n, step s t (.callcc xs .success) = .ok s' ∧ s'.log = .enter n :: .alloc n :: s.log := by
  cases hcur : s.cur t with
  | none => simp [step, hcur] at hs
  | some c =>
    by_cases hf : ∃ k ls rest, s.frames c = .user k ls .normal :: rest
    · obtain ⟨k, ls, rest, hf⟩ := hf
      have hst : step s t (.callcc xs .success) = if xs.all s.accessible then s.doCallcc t c k ls rest xs else .rejected := by
        simp only [step, hcur, hf, userStep]
      rw [hst] at hs ⊢
      split at hs
      · rename_i ha
        rw [if_pos ha]
        obtain ⟨s', e0, _, _, _, _, _, e6, _⟩ := doCallcc_eq s t c k ls rest xs hcur ((reachable_facts h).fresh hcur)
        exact ⟨s', _, e0, e6⟩
      · exact absurd rfl hs
    · exfalso
      simp only [step, hcur] at hs
      have fa := reachable_facts h
      have hrt := fa.inv.ci.runTop c t ((fa.inv.ci.curRun t c).1 hcur) (by simp)
      rw [abs_frames] at hrt
      split at hs <;> first
        | (rename_i hh; exact hf ⟨_, _, _, hh⟩)
        | exact hs rfl
        | skip
      rename_i n1 n2 n3 n4 n5 n6 n7
      rcases hfs : s.frames c with _ | ⟨g, r⟩
      · rw [hfs] at hrt; exact absurd hrt (by simp [Fiber.RunTop])
      · rw [hfs] at hrt
        have hcwf := fa.cwf c
        rw [hfs] at hcwf
        cases g with
        | user k ls m =>
          rcases ls with _ | ⟨x, ls⟩
          · cases m with
            | normal => exact hf ⟨_, _, _, hfs⟩
            | unwinding e => exact n3 _ _ _ hfs
            | returning y => exact n4 _ _ _ hfs
          · exact n2 _ _ _ _ _ hfs
        | callcc x cm k ls =>
          cases cm with
          | waiting => exact absurd hcwf.1 (by simp [OkUnder])
          | returning y => exact n5 _ _ _ _ _ hfs
          | unwinding e => exact n6 _ _ _ _ _ hfs
        | exiting n => exact n7 _ _ hfs
        | _ => exact absurd hrt (by simp [Fiber.RunTop, Frame.abs])

/-- At the moment of release the function has ended and the stack holds nothing any more. -/
theorem C70_at_release {s s' : State} {t : Tid} {op : Op} {c : CtxId} (h : Reachable s) (hs : step s t op = .ok s')
    (hn : ¬ Released s c) (hr : Released s' c) :
    Finished s c ∧ s.frames c = [.exitJump] ∧ (∀ t, ¬ RunsOn s t c) ∧ (∀ x, ¬ Designates s x c) ∧
      ∀ x, s.kind x ≠ .loc c ∧ s.kind x ≠ .cap c ∧ s.kind x ≠ .ret c ∧ s.kind x ≠ .exc c := by
  have hF := (reachable_facts h).reach
  have hstep := step_run_ok h hs
  by_cases hop : ∃ xs, op = .callcc xs .success
  · obtain ⟨xs, rfl⟩ := hop
    exfalso
    obtain ⟨s1, n, h1, hlog⟩ := callcc_cases h (by rw [hs]; simp)
    rw [hs] at h1
    simp only [Res.ok.injEq] at h1
    subst h1
    simp only [Released] at hr hn
    rw [hlog] at hr
    simp only [List.mem_cons, reduceCtorEq, false_or] at hr
    exact hn hr
  · obtain ⟨op', ho⟩ := single_op (s := s) (t := t) (op := op) (fun xs hx => hop ⟨xs, hx⟩)
    rw [ho, run_single] at hstep
    obtain ⟨h1, h2, h3, h4, h5⟩ := UFiber.C22_at_release hF (reachable_facts h).early hstep hn hr
    refine ⟨h1, ?_, h3, h4, h5⟩
    rw [abs_frames] at h2
    rcases hfs : s.frames c with _ | ⟨f, r⟩
    · rw [hfs] at h2; simp at h2
    · rw [hfs] at h2
      simp only [absL_cons, List.cons.injEq] at h2
      have hr' : r = [] := by simpa [absL] using h2.2
      subst hr'
      have := h2.1
      cases f with
      | exitJump => rfl
      | callcc x cm k ls => cases cm <;> simp [Frame.abs] at this
      | _ => simp [Frame.abs] at this

example : let s := exec (h2 ++ [(0, .drop 2), (0, .tick), (0, .tick)])
    Reachable s ∧ ¬ Released s 1 ∧ (match step s 0 .tick with | .ok s' => decide (.dealloc 1 ∈ s'.log) | _ => false) = true :=
  ⟨reachable_exec (by decide), (by decide : ¬ Event.dealloc 1 ∈ _), by decide⟩

/-- Every context that is suspended or finished is owned: some object designates it, or its release is under way; unless a `forced_unwind` was swallowed. -/
theorem C70_no_lost_context {s : State} (h : ReachableNS s) {c : CtxId} (hc : Created s c)
    (hs : Suspended s c ∨ Finished s c) : (∃ x, Designates s x c) ∨ ∃ d, BeingReleased s c d := by
  obtain ⟨hr, hn⟩ := reachableNS_spec h
  rcases UFiber.C22_no_lost_fiber hn (reachable_facts hr).early hc hs with h1 | ⟨d, hd⟩
  · exact .inl h1
  · exact .inr ⟨d, exiting_abs.1 hd⟩

example : ReachableNS (exec h2) ∧ Created (exec h2) 1 ∧ Suspended (exec h2) 1 :=
  ⟨reachableNS_exec (by decide) (by decide), by unfold Created; decide, by unfold Suspended; decide⟩

/-- Nothing leaks: when no object designates anything, threads execute only their main contexts, and no release is under way, every context ever
created has been released. -/
theorem C70_balance {s : State} (h : ReachableNS s) (hv : ∀ x, s.val x = none)
    (ht : ∀ t c, RunsOn s t c → ¬ Created s c) (hr : ∀ c d, ¬ BeingReleased s c d) {c : CtxId} (hc : Created s c) : Released s c := by
  obtain ⟨h1, hn⟩ := reachableNS_spec h
  exact UFiber.C22_balance hn (reachable_facts h1).early hv ht (fun c d hd => hr c d (exiting_abs.1 hd)) hc

/-- as `h3`, then the main function returns -/
def h4 : List (Tid × Op) := h3 ++ [(0, .ret), (0, .tick)]

example : ReachableNS (exec h4) ∧ (∀ x, (exec h4).val x = none) ∧ (∀ t c, RunsOn (exec h4) t c → ¬ Created (exec h4) c) ∧ (∀ c d, ¬ BeingReleased (exec h4) c d) ∧
    Created (exec h4) 1 := by
  have hr : ReachableNS (exec h4) := reachableNS_exec (by decide) (by decide)
  have hi := (reachable_facts (reachableNS_spec hr).1).inv
  refine ⟨hr, fun x => ?_, fun t c => ?_, fun c d => ?_, by unfold Created; decide⟩
  · by_cases hlt : x < (exec h4).nextVar
    · revert x; decide
    · exact hi.vi.deadNone x (hi.oi.fresh x (Nat.not_lt.1 hlt))
  · have : (exec h4).cur t = none := by
      by_cases hlt : t < (exec h4).nextTid
      · revert t; decide
      · exact hi.ci.tids t (Nat.not_lt.1 hlt)
    simp [RunsOn, this]
  · have : (exec h4).frames d = [] := by
      by_cases hlt : d < (exec h4).nextCtx
      · revert d; decide
      · have := hi.ci.fAbsent d ((hi.ci.absent d).2 (Nat.not_lt.1 hlt))
        rw [abs_frames] at this
        simpa [absL] using this
    simp [BeingReleased, this]

/-- A thread executes at most one context, a context is executed by at most one thread, and a running context is in no object. -/
theorem C69_one_thread {s : State} (h : Reachable s) {t t' : Tid} {c : CtxId} (h1 : RunsOn s t c) :
    (RunsOn s t' c → t = t') ∧ ∀ x, ¬ Designates s x c :=
  ⟨(UFiber.C22_one_thread (c' := c) (reachable_facts h).reach (reachable_facts h).early h1).1, fun _ hx => (C69_no_dangling h hx).2.2.1 t h1⟩

/-! ## Transfer of control -/

theorem facts_target {s : State} (h : Reachable s) {t : Tid} {c d : CtxId} {x : Var} (hr : RunsOn s t c) (hd : Designates s x d) : d ≠ c := by
  rintro rfl; exact (C69_no_dangling h hd).2.2.1 t hr

/-- suspended in `resume()` or in `callcc()`: not finished -/
theorem suspended_of_frames {s : State} (h : Reachable s) {d : CtxId} {x : Var} {f : Frame} {rest : List Frame} (hd : Designates s x d)
    (hf : s.frames d = .resume :: f :: rest) : s.status d = .suspended := by
  rcases (C69_no_dangling h hd).1 with h1 | h1
  · exact h1
  · have := (reachable_facts h).inv.ci.fTerm d h1
    rw [abs_frames, hf] at this; simp [Frame.abs] at this

/-- A context suspended in `resume()`, not being unwound and with no function pending, is resumed: that `resume()` returns an object designating the
context that has resumed it. -/
theorem C68_resumed_gets_resumer {s : State} {t : Tid} {c d : CtxId} {k k' : UKind} {ls ls' : List Var} {rest rest' : List Frame} {x : Var}
    (h : Reachable s) (hu : UserCode s t c k ls rest) (ha : Handle s x) (hd : Designates s x d) (hr : InResume s d k' ls' rest')
    (hw : s.unw d = false) (ho : s.ontop d = none) :
    ∃ s' r, step s t (.resume x) = .ok s' ∧ UserCode s' t d k' (r :: ls') rest' ∧ Designates s' r c ∧ Suspended s' c ∧ s'.val x = none ∧
      InResume s' c k ls rest ∧ s'.log = s.log := by
  have hne := facts_target h hu.1 hd
  have hst := suspended_of_frames h hd hr
  have hlt := handle_lt h ha
  have hstep : step s t (.resume x) = s.doResume t c x := by simp only [step, hu.1, hu.2, userStep, handle_accessible ha, if_true]
  rw [hstep]
  have hv : s.val x = some d := hd
  have hr' : s.frames d = .resume :: .user k' ls' .normal :: rest' := hr
  simp only [State.doResume, hv, hst, reduceCtorEq, if_false, State.switchTo, State.setVal, State.setFrames, hu.1, if_true, State.arrive, upd_apply, hne, hr', hw, ho]
  refine ⟨_, s.nextVar, rfl, ⟨?_, ?_⟩, ?_, ?_, ?_, ?_, ?_⟩
  · simp [State.newVar]
  · simp [State.newVar]
  · simp [Designates, State.newVar]
  · simp [Suspended, State.newVar, Ne.symm hne]
  · simp only [State.newVar, upd_apply]; rw [if_neg (Nat.ne_of_lt hlt)]; simp
  · simp [InResume, State.newVar, Ne.symm hne, hu.2]
  · rfl

/-- main is about to resume context 1, which is suspended in `resume()` -/
example : Reachable (exec h2) ∧ UserCode (exec h2) 0 0 .main [2] [] ∧ Handle (exec h2) 2 ∧ Designates (exec h2) 2 1 ∧
    InResume (exec h2) 1 .fn [1] [.entryRun] ∧ (exec h2).unw 1 = false ∧ (exec h2).ontop 1 = none :=
  ⟨reachable_exec (by decide), ⟨by decide, by decide⟩, ⟨.inr (.inl ⟨0, by decide⟩), by decide⟩, (by decide : (exec h2).val 2 = some 1),
    (by decide : (exec h2).frames 1 = _), by decide, by decide⟩

/-- A context suspended in `callcc()`, not being unwound and with no function pending, is resumed: that `callcc()` is about to return an object designating
the context that has resumed it (`C68_callcc_returns` is the next step). -/
theorem C68_callcc_gets_resumer {s : State} {t : Tid} {c d : CtxId} {k k' : UKind} {ls ls' : List Var} {rest rest' : List Frame} {x z : Var}
    (h : Reachable s) (hu : UserCode s t c k ls rest) (ha : Handle s x) (hd : Designates s x d) (hr : InCallcc s d z k' ls' rest')
    (hw : s.unw d = false) (ho : s.ontop d = none) :
    ∃ s' r, step s t (.resume x) = .ok s' ∧ RunsOn s' t d ∧ s'.frames d = .callcc z (.returning r) k' ls' :: rest' ∧ Designates s' r c ∧
      Suspended s' c ∧ InResume s' c k ls rest ∧ s'.log = s.log := by
  have hne := facts_target h hu.1 hd
  have hst := suspended_of_frames h hd hr
  have hstep : step s t (.resume x) = s.doResume t c x := by simp only [step, hu.1, hu.2, userStep, handle_accessible ha, if_true]
  rw [hstep]
  have hv : s.val x = some d := hd
  have hr' : s.frames d = .resume :: .callcc z .waiting k' ls' :: rest' := hr
  simp only [State.doResume, hv, hst, reduceCtorEq, if_false, State.switchTo, State.setVal, State.setFrames, hu.1, if_true, State.arrive, upd_apply, hne, hr', hw, ho]
  refine ⟨_, s.nextVar, rfl, ?_, ?_, ?_, ?_, ?_, ?_⟩
  · simp [RunsOn, State.newVar]
  · simp [State.newVar]
  · simp [Designates, State.newVar]
  · simp [Suspended, State.newVar, Ne.symm hne]
  · simp [InResume, State.newVar, Ne.symm hne, hu.2]
  · rfl

/-- context 1, started by `callcc` of main, is about to resume main -/
example : let s := exec [(0, .callcc [] .success)]
    Reachable s ∧ UserCode s 0 1 .fn [1] [.entryRun] ∧ Handle s 1 ∧ Designates s 1 0 ∧ InCallcc s 0 0 .main [] [] ∧ s.unw 0 = false ∧ s.ontop 0 = none :=
  ⟨reachable_exec (by decide), ⟨by decide, by decide⟩, ⟨.inr (.inl ⟨1, by decide⟩), by decide⟩, (by decide : (exec _).val 1 = some 0),
    (by decide : (exec _).frames 0 = _), by decide, by decide⟩

/-- `resume_with(fn)` of a context that is suspended in `resume()` or in `callcc()` and is not being unwound: `fn` runs at once on the stack of that context,
its parameter designates the caller. -/
theorem C68_on_top {s : State} {t : Tid} {c d : CtxId} {k k' : UKind} {ls ls' : List Var} {rest rest' : List Frame} {x z : Var}
    (h : Reachable s) (hu : UserCode s t c k ls rest) (ha : Handle s x) (hd : Designates s x d)
    (hr : InResume s d k' ls' rest' ∨ InCallcc s d z k' ls' rest') (hw : s.unw d = false) :
    ∃ s' p, step s t (.resumeWith x) = .ok s' ∧ UserCode s' t d (.ontop s.nextId) [p] (s.frames d) ∧
      Designates s' p c ∧ InResume s' c k ls rest ∧ Suspended s' c ∧ s'.log = .ontop s.nextId d :: s.log ∧ s'.nextId = s.nextId + 1 := by
  have hne := facts_target h hu.1 hd
  have hst : s.status d = .suspended := by rcases hr with hr | hr <;> exact suspended_of_frames h hd hr
  have hstep : step s t (.resumeWith x) = s.doResumeWith t c x := by simp only [step, hu.1, hu.2, userStep, handle_accessible ha, if_true]
  rw [hstep]
  have hv : s.val x = some d := hd
  rcases hr with hr | hr
  · have hr' : s.frames d = .resume :: .user k' ls' .normal :: rest' := hr
    simp only [State.doResumeWith, hv, hst, reduceCtorEq, if_false, State.switchTo, State.setVal, State.setFrames, hu.1, if_true, State.arrive, upd_apply, hne, hr', hw]
    refine ⟨_, s.nextVar, rfl, ⟨?_, ?_⟩, ?_, ?_, ?_, ?_, ?_⟩
    · simp [State.newVar, State.addLog]
    · simp [State.newVar, State.addLog]
    · simp [Designates, State.newVar, State.addLog]
    · simp [InResume, State.newVar, State.addLog, Ne.symm hne, hu.2]
    · simp [Suspended, State.newVar, State.addLog, Ne.symm hne]
    · simp [State.newVar, State.addLog]
    · simp [State.newVar, State.addLog]
  · have hr' : s.frames d = .resume :: .callcc z .waiting k' ls' :: rest' := hr
    simp only [State.doResumeWith, hv, hst, reduceCtorEq, if_false, State.switchTo, State.setVal, State.setFrames, hu.1, if_true, State.arrive, upd_apply, hne, hr', hw]
    refine ⟨_, s.nextVar, rfl, ⟨?_, ?_⟩, ?_, ?_, ?_, ?_, ?_⟩
    · simp [State.newVar, State.addLog]
    · simp [State.newVar, State.addLog]
    · simp [Designates, State.newVar, State.addLog]
    · simp [InResume, State.newVar, State.addLog, Ne.symm hne, hu.2]
    · simp [Suspended, State.newVar, State.addLog, Ne.symm hne]
    · simp [State.newVar, State.addLog]
    · simp [State.newVar, State.addLog]

/-- The on-top function returns object `x`: the `resume()` (or `callcc()`) of the context it ran on returns a new object designating what `x` designated; the
function is not stored any more. -/
theorem C68_on_top_returns {s : State} {t : Tid} {d : CtxId} {i : Nat} {k' : UKind} {ls' : List Var} {rest' : List Frame} {x z : Var}
    (hr : RunsOn s t d) (hf : s.frames d = .user (.ontop i) [] (.returning (some x)) :: .resume :: .user k' ls' .normal :: rest' ∨
      s.frames d = .user (.ontop i) [] (.returning (some x)) :: .resume :: .callcc z .waiting k' ls' :: rest') :
    ∃ s' r, step s t .tick = .ok s' ∧ RunsOn s' t d ∧ s'.val r = s.val x ∧ s.nextVar ≤ r ∧ s'.kind x ≠ .ret d ∧ s'.ontop d = none ∧ s'.log = s.log ∧
      s'.status = s.status ∧ (∀ e, e ≠ d → s'.frames e = s.frames e) ∧ (∀ y, y ≠ x → y ≠ r → s'.val y = s.val y ∧ s'.kind y = s.kind y) ∧
      (s.frames d = .user (.ontop i) [] (.returning (some x)) :: .resume :: .user k' ls' .normal :: rest' → UserCode s' t d k' (r :: ls') rest') ∧
      (s.frames d = .user (.ontop i) [] (.returning (some x)) :: .resume :: .callcc z .waiting k' ls' :: rest' →
        s'.frames d = .callcc z (.returning r) k' ls' :: rest') := by
  have hr' : s.cur t = some d := hr
  rcases hf with hf | hf
  · have hs : step s t .tick = .ok ((({ s with ontop := upd s.ontop d none }.kill x).newVar (.loc d) (s.val x)).setFrames d (.user k' (s.nextVar :: ls') .normal :: rest')) := by simp only [step, hr', hf, leave]; rfl
    refine ⟨_, s.nextVar, hs, hr', ?_, Nat.le_refl _, ?_, ?_, rfl, rfl, ?_, ?_, ?_, ?_⟩
    · simp [State.newVar, State.setFrames, State.kill, upd_apply]
    · simp only [State.newVar, State.setFrames, State.kill, upd_apply]; split <;> simp
    · simp [State.newVar, State.setFrames, State.kill, upd_apply]
    · intro e he; simp [State.newVar, State.setFrames, State.kill, upd_apply, he]
    · intro y h1 h2; simp only [State.newVar, State.setFrames, State.kill, upd_apply, if_neg h1, if_neg h2, and_self]
    · intro _; exact ⟨hr', by simp [State.newVar, State.setFrames, State.kill, upd_apply]⟩
    · intro h2; rw [hf] at h2; simp at h2
  · have hs : step s t .tick = .ok ((({ s with ontop := upd s.ontop d none }.kill x).newVar (.loc d) (s.val x)).setFrames d (.callcc z (.returning s.nextVar) k' ls' :: rest')) := by simp only [step, hr', hf, leave]; rfl
    refine ⟨_, s.nextVar, hs, hr', ?_, Nat.le_refl _, ?_, ?_, rfl, rfl, ?_, ?_, ?_, ?_⟩
    · simp [State.newVar, State.setFrames, State.kill, upd_apply]
    · simp only [State.newVar, State.setFrames, State.kill, upd_apply]; split <;> simp
    · simp [State.newVar, State.setFrames, State.kill, upd_apply]
    · intro e he; simp [State.newVar, State.setFrames, State.kill, upd_apply, he]
    · intro y h1 h2; simp only [State.newVar, State.setFrames, State.kill, upd_apply, if_neg h1, if_neg h2, and_self]
    · intro h2; rw [hf] at h2; simp at h2
    · intro _; simp [State.newVar, State.setFrames, State.kill, upd_apply]

example : Reachable (exec [(0, .callcc [] .success), (0, .resumeWith 1), (0, .retHandle 2), (0, .tick)]) ∧
    (exec [(0, .callcc [] .success), (0, .resumeWith 1), (0, .retHandle 2), (0, .tick)]).frames 0 =
      [.user (.ontop 0) [] (.returning (some 3)), .resume, .callcc 0 .waiting .main []] := ⟨reachable_exec (by decide), by decide⟩

/-- Destroying an object whose context is suspended in `resume()` or in `callcc()`: `forced_unwind` is raised there, and the destroying context is
suspended inside the destructor. -/
theorem C68_destroy_unwinds {s : State} {t : Tid} {c d : CtxId} {k k' : UKind} {ls ls' : List Var} {rest rest' : List Frame} {x z : Var}
    (h : Reachable s) (hu : UserCode s t c k ls rest) (ha : Handle s x) (hdr : x ∈ ls ∨ s.kind x = .heap) (hd : Designates s x d)
    (hm : s.root d = false) (hr : InResume s d k' ls' rest' ∨ InCallcc s d z k' ls' rest') :
    ∃ s' e ls1, step s t (.drop x) = .ok s' ∧ RunsOn s' t d ∧ Designates s' e c ∧ s'.kind x = .dead ∧ Suspended s' c ∧ s'.unw d = true ∧
      s'.frames c = .dtor d :: .user k ls1 .normal :: rest ∧ x ∉ ls1 ∧
      (InResume s d k' ls' rest' → s'.frames d = .user k' ls' (.unwinding (.forced e)) :: rest') ∧
      (InCallcc s d z k' ls' rest' → s'.frames d = .callcc z (.unwinding (.forced e)) k' ls' :: rest') := by
  have f := reachable_facts h
  have hne := facts_target h hu.1 hd
  have hst : s.status d = .suspended := by rcases hr with hr | hr <;> exact suspended_of_frames h hd hr
  have hterm : s.term d = false := by
    cases hh : s.term d with
    | false => rfl
    | true => rcases (f.inv.ci.termI d).1 hh with h1 | h1 <;> (rw [abs_status, hst] at h1; cases h1)
  have hlt := handle_lt h ha
  have hnd : ls.Nodup := by
    have := f.inv.oi.locsN c
    rw [abs_frames, hu.2] at this
    simp only [absL_cons, Frame.abs, Fiber.lvars, List.flatMap_cons, Fiber.Frame.lvars] at this
    exact (List.nodup_append.1 this).1
  have main : ∀ s0 : State, s0.cur = s.cur → s0.status = s.status → s0.nextVar = s.nextVar → s0.root = s.root → s0.term = s.term →
      s0.frames d = s.frames d → s0.val x = some d →
      ∀ ls1, s0.frames c = .user k ls1 .normal :: rest → x ∉ ls1 →
      ∃ s' e ls1, s0.destroyVar t c x = .ok s' ∧ RunsOn s' t d ∧ Designates s' e c ∧ s'.kind x = .dead ∧ Suspended s' c ∧ s'.unw d = true ∧
      s'.frames c = .dtor d :: .user k ls1 .normal :: rest ∧ x ∉ ls1 ∧
      (InResume s d k' ls' rest' → s'.frames d = .user k' ls' (.unwinding (.forced e)) :: rest') ∧
      (InCallcc s d z k' ls' rest' → s'.frames d = .callcc z (.unwinding (.forced e)) k' ls' :: rest') := by
    intro s0 g1 g2 g3 g4 g5 g6 g7 ls1 g8 g9
    have hrt : s0.root d = false := by rw [g4]; exact hm
    have htt : s0.term d = false := by rw [g5]; exact hterm
    have hss : s0.status d = .suspended := by rw [g2]; exact hst
    have hcc : s0.cur t = some c := by rw [g1]; exact hu.1
    rcases hr with hr | hr
    · have hfr : s0.frames d = .resume :: .user k' ls' .normal :: rest' := by rw [g6]; exact hr
      have hx : ¬ InCallcc s d z k' ls' rest' := by
        intro hh; simp only [InCallcc, InResume] at hh hr; rw [hr] at hh; cases hh
      simp only [State.destroyVar, g7, State.destroyPtr, State.kill, hss, reduceCtorEq, false_or, if_false, hrt, Bool.false_eq_true, htt,
        State.switchTo, State.setFrames, hcc, if_true, State.arrive, upd_apply, hne, hfr]
      refine ⟨_, s0.nextVar, ls1, rfl, ?_, ?_, ?_, ?_, ?_, ?_, g9, fun _ => ?_, fun hh => absurd hh hx⟩
      · simp [RunsOn, State.newVar]
      · simp [Designates, State.newVar]
      · simp only [State.newVar, upd_apply, if_true]; rw [if_neg (by rw [g3]; exact Nat.ne_of_lt hlt)]
      · simp [Suspended, State.newVar, Ne.symm hne]
      · simp [State.newVar]
      · simp [State.newVar, Ne.symm hne, g8]
      · simp [State.newVar]
    · have hfr : s0.frames d = .resume :: .callcc z .waiting k' ls' :: rest' := by rw [g6]; exact hr
      have hx : ¬ InResume s d k' ls' rest' := by
        intro hh; simp only [InCallcc, InResume] at hh hr; rw [hr] at hh; cases hh
      simp only [State.destroyVar, g7, State.destroyPtr, State.kill, hss, reduceCtorEq, false_or, if_false, hrt, Bool.false_eq_true, htt,
        State.switchTo, State.setFrames, hcc, if_true, State.arrive, upd_apply, hne, hfr]
      refine ⟨_, s0.nextVar, ls1, rfl, ?_, ?_, ?_, ?_, ?_, ?_, g9, fun hh => absurd hh hx, fun _ => ?_⟩
      · simp [RunsOn, State.newVar]
      · simp [Designates, State.newVar]
      · simp only [State.newVar, upd_apply, if_true]; rw [if_neg (by rw [g3]; exact Nat.ne_of_lt hlt)]
      · simp [Suspended, State.newVar, Ne.symm hne]
      · simp [State.newVar]
      · simp [State.newVar, Ne.symm hne, g8]
      · simp [State.newVar]
  by_cases hx : x ∈ ls
  · have hst : step s t (.drop x) = (s.setFrames c (.user k (ls.erase x) .normal :: rest)).destroyVar t c x := by
      simp only [step, hu.1, hu.2, userStep, hx, if_true]
    rw [hst]
    exact main _ rfl rfl rfl rfl rfl (by simp [State.setFrames, hne]) hd (ls.erase x) (by simp [State.setFrames])
      (by rw [hnd.mem_erase_iff]; simp)
  · have hk : s.kind x = .heap := by rcases hdr with h | h; exact absurd h hx; exact h
    have hst : step s t (.drop x) = s.destroyVar t c x := by
      simp only [step, hu.1, hu.2, userStep, hx, if_false, hk, if_true]
    rw [hst]
    exact main s rfl rfl rfl rfl rfl rfl hd ls hu.2 hx

example : Reachable (exec h2) ∧ UserCode (exec h2) 0 0 .main [2] [] ∧ Handle (exec h2) 2 ∧ Designates (exec h2) 2 1 ∧ (exec h2).root 1 = false ∧
    InResume (exec h2) 1 .fn [1] [.entryRun] :=
  ⟨reachable_exec (by decide), ⟨by decide, by decide⟩, ⟨.inr (.inl ⟨0, by decide⟩), by decide⟩, (by decide : (exec h2).val 2 = some 1), by decide,
    (by decide : (exec h2).frames 1 = _)⟩

/-! ## Errors -/

/-- The situations with undefined behaviour: `resume()`/`resume_with()` of an empty object; a context function returning an empty object. -/
inductive NullCall (s : State) (t : Tid) : Op → Prop
  | resume {c k ls rest x} (hu : UserCode s t c k ls rest) (ha : Handle s x) (hv : s.val x = none) : NullCall s t (.resume x)
  | resumeWith {c k ls rest x} (hu : UserCode s t c k ls rest) (ha : Handle s x) (hv : s.val x = none) : NullCall s t (.resumeWith x)
  | fnReturn {c x rest} (hr : RunsOn s t c) (hf : s.frames c = .user .fn [] (.returning (some x)) :: rest) (hv : s.val x = none) : NullCall s t .tick

/-- The situations in which an assertion fails: `resume()`/`resume_with()` of an object that designates a finished context; control is returned to a
finished context at the end of a context function. -/
inductive FinishedCall (s : State) (t : Tid) : Op → Prop
  | resume {c k ls rest x w} (hu : UserCode s t c k ls rest) (ha : Handle s x) (hv : Designates s x w) (hw : Finished s w) : FinishedCall s t (.resume x)
  | resumeWith {c k ls rest x w} (hu : UserCode s t c k ls rest) (ha : Handle s x) (hv : Designates s x w) (hw : Finished s w) :
      FinishedCall s t (.resumeWith x)
  | fnReturn {c x rest w} (hr : RunsOn s t c) (hf : s.frames c = .user .fn [] (.returning (some x)) :: rest) (hv : Designates s x w) (hw : Finished s w) :
      FinishedCall s t .tick
  | fnUnwind {c x rest w} (hr : RunsOn s t c) (hf : s.frames c = .user .fn [] (.unwinding (.forced x)) :: rest) (hv : Designates s x w)
      (hw : Finished s w) : FinishedCall s t .tick

/-- The situations in which the program is terminated: moving the function into the new context throws; an exception leaves a thread's main function;
leaves a destructor; a user exception leaves a context function. -/
inductive Terminates (s : State) (t : Tid) : Op → Prop
  | fnThrows {c k ls rest xs} (hu : UserCode s t c k ls rest) (ha : ∀ x ∈ xs, Handle s x) : Terminates s t (.callcc xs .fnThrows)
  | main {c e rest} (hr : RunsOn s t c) (hf : s.frames c = .user .main [] (.unwinding e) :: rest) : Terminates s t .tick
  | destructor {c e rest} (hr : RunsOn s t c) (hf : s.frames c = .user .cleanup [] (.unwinding e) :: rest) : Terminates s t .tick
  | fn {c n rest} (hr : RunsOn s t c) (hf : s.frames c = .user .fn [] (.unwinding (.user n)) :: rest) : Terminates s t .tick

theorem abs_user {s : State} {c : CtxId} {k : UKind} {m : Mode} {rest : List Fiber.Frame} (hf : s.abs.frames c = .user k [] m :: rest) :
    ∃ r, s.frames c = .user k [] m :: r := by
  rw [abs_frames] at hf
  rcases hfs : s.frames c with _ | ⟨f, r⟩
  · rw [hfs] at hf; simp at hf
  · rw [hfs] at hf
    simp only [absL_cons, List.cons.injEq] at hf
    have h1 := hf.1
    cases f with
    | user k' ls' m' =>
      simp only [Frame.abs, Fiber.Frame.user.injEq] at h1
      obtain ⟨rfl, rfl, rfl⟩ := h1
      exact ⟨r, rfl⟩
    | callcc z cm k' ls' => cases cm <;> simp [Frame.abs] at h1
    | _ => simp [Frame.abs] at h1

theorem tick_ret {s : State} {t : Tid} {c : CtxId} {x : Var} {r : List Frame} (hr : RunsOn s t c) (hf : s.frames c = .user .fn [] (.returning (some x)) :: r) :
    step s t .tick = (s.kill x).finish t c (s.val x) := by
  simp only [RunsOn] at hr
  simp only [step, hr, hf, leave]

theorem tick_unw {s : State} {t : Tid} {c : CtxId} {x : Var} {r : List Frame} (hr : RunsOn s t c)
    (hf : s.frames c = .user .fn [] (.unwinding (.forced x)) :: r) :
    step s t .tick = (s.kill x).finish t c (s.val x) := by
  simp only [RunsOn] at hr
  simp only [step, hr, hf, propagate]

/-- what the failing results of a step mean -/
theorem step_class {s : State} {t : Tid} {op : Op} (h : Reachable s) :
    (step s t op = .terminate → Terminates s t op) ∧ (step s t op = .assertion ∨ step s t op = .ub → NullCall s t op ∨ FinishedCall s t op) := by
  have f := reachable_facts h
  have hsim := C68_step_refines (op := op) (t := t) h
  have hacc : ∀ {x}, op = .resume x ∨ op = .resumeWith x → step s t op ≠ .rejected → ∃ c k ls rest, UserCode s t c k ls rest ∧ Handle s x := by
    intro x ho hne
    cases hcur : s.cur t with
    | none => simp [step, hcur] at hne
    | some c =>
      simp only [step, hcur] at hne
      split at hne
      · rename_i k ls rest hf
        refine ⟨c, k, ls, rest, ⟨hcur, hf⟩, accessible_handle ?_⟩
        rcases ho with rfl | rfl <;>
        · simp only [userStep] at hne
          split at hne
          · assumption
          · exact absurd rfl hne
      all_goals (try (rcases ho with rfl | rfl <;> exact absurd rfl hne))
      exfalso
      rename_i n1 n2 n3 n4 n5 n6 n7
      have hrt := f.inv.ci.runTop c t ((f.inv.ci.curRun t c).1 hcur) (by simp)
      rw [abs_frames] at hrt
      rcases hfs : s.frames c with _ | ⟨g, r⟩
      · rw [hfs] at hrt; exact absurd hrt (by simp [Fiber.RunTop])
      · rw [hfs] at hrt
        have hcwf := f.cwf c
        rw [hfs] at hcwf
        cases g with
        | user k ls m =>
          rcases ls with _ | ⟨x, ls⟩
          · cases m with
            | normal => exact n1 _ _ _ hfs
            | unwinding e => exact n3 _ _ _ hfs
            | returning y => exact n4 _ _ _ hfs
          · exact n2 _ _ _ _ _ hfs
        | callcc x cm k ls =>
          cases cm with
          | waiting => exact absurd hcwf.1 (by simp [OkUnder])
          | returning y => exact n5 _ _ _ _ _ hfs
          | unwinding e => exact n6 _ _ _ _ _ hfs
        | exiting n => exact n7 _ _ hfs
        | _ => exact absurd hrt (by simp [Fiber.RunTop, Frame.abs])
  by_cases hop : ∃ xs, op = .callcc xs .success
  · obtain ⟨xs, rfl⟩ := hop
    by_cases hrej : step s t (.callcc xs .success) = .rejected
    · rw [hrej]; simp
    · obtain ⟨s', n, h1, -⟩ := callcc_cases h hrej
      rw [h1]; simp
  · obtain ⟨op', ho⟩ := single_op (s := s) (t := t) (op := op) (fun xs hx => hop ⟨xs, hx⟩)
    rw [ho, run_single] at hsim
    constructor
    · intro hs
      rw [hs] at hsim
      have hT := (UFiber.C56_terminate_iff f.reach f.early t op').1 hsim
      have htick : op' = .tick → op = .tick := by
        rintro rfl
        cases op <;> simp only [fiberOps, List.cons.injEq, Prod.mk.injEq, reduceCtorEq, and_false, false_and] at ho
        · rename_i xs o; cases o <;> simp at ho
        · rfl
      cases hT with
      | fnThrows hu ha =>
        rename_i c k ls rest xs
        have : op = .callcc xs .fnThrows := by
          cases op <;> simp only [fiberOps, List.cons.injEq, Prod.mk.injEq, reduceCtorEq, and_false, false_and] at ho
          · rename_i xs' o; cases o <;> simp at ho; exact ho ▸ rfl
          · split at ho <;> simp at ho
        subst this
        simp only [step] at hs
        split at hs
        · cases hs
        · rename_i c0 hc0
          split at hs <;> try (cases hs; done)
          rename_i hf
          simp only [userStep] at hs
          split at hs
          · rename_i hall
            exact .fnThrows ⟨hc0, hf⟩ (fun x hx => accessible_handle (List.all_eq_true.1 hall x hx))
          · cases hs
      | main hr hf => obtain ⟨r, hf⟩ := abs_user hf; rw [htick rfl]; exact .main hr hf
      | destructor hr hf => obtain ⟨r, hf⟩ := abs_user hf; rw [htick rfl]; exact .destructor hr hf
      | fn hr hf => obtain ⟨r, hf⟩ := abs_user hf; rw [htick rfl]; exact .fn hr hf
    · intro hs
      have hA : UFiber.step s.abs t op' = .assertion := by
        rcases hs with hs | hs
        · rw [hs] at hsim; exact hsim
        · rw [hs] at hsim
          rcases hsim with h1 | h1
          · exact absurd h1 (UFiber.C22_no_ub f.reach f.early t op')
          · exact h1
      have hne : step s t op ≠ .rejected := by rcases hs with hs | hs <;> rw [hs] <;> simp
      have hAs := (UFiber.C56_assertion_iff f.reach f.early t op').1 hA
      cases hAs with
      | resume hu ha hv =>
        rename_i c k ls rest x
        have : op = .resume x := by
          cases op <;> simp only [fiberOps, List.cons.injEq, Prod.mk.injEq, reduceCtorEq, and_false, false_and, true_and, and_true, Fiber.Op.resume.injEq] at ho
          · rename_i xs' o; cases o <;> simp at ho
          · rw [ho]
          · split at ho <;> simp at ho
        subst this
        obtain ⟨c', k', ls', rest', hu', ha'⟩ := hacc (.inl rfl) hne
        rcases hv with hv | ⟨w, hv, hw⟩
        · exact .inl (.resume hu' ha' hv)
        · exact .inr (.resume hu' ha' hv hw)
      | resumeWith hu ha hv =>
        rename_i c k ls rest x
        have : op = .resumeWith x := by
          cases op <;> simp only [fiberOps, List.cons.injEq, Prod.mk.injEq, reduceCtorEq, and_false, false_and, true_and, and_true, Fiber.Op.resumeWith.injEq] at ho
          · rename_i xs' o; cases o <;> simp at ho
          · rw [ho]
          · split at ho <;> simp at ho
        subst this
        obtain ⟨c', k', ls', rest', hu', ha'⟩ := hacc (.inr rfl) hne
        rcases hv with hv | ⟨w, hv, hw⟩
        · exact .inl (.resumeWith hu' ha' hv)
        · exact .inr (.resumeWith hu' ha' hv hw)
      | fnReturn hr hf hv =>
        have : op = .tick := by
          cases op <;> simp only [fiberOps, List.cons.injEq, Prod.mk.injEq, reduceCtorEq, and_false, false_and] at ho
          · rename_i xs' o; cases o <;> simp at ho
          · rfl
        subst this
        obtain ⟨r, hf⟩ := abs_user hf
        rcases hv with hv | ⟨w, hv, hw⟩
        · exact .inl (.fnReturn hr hf hv)
        · exact .inr (.fnReturn hr hf hv hw)
      | fnUnwind hr hf hv =>
        rename_i c x rest
        have : op = .tick := by
          cases op <;> simp only [fiberOps, List.cons.injEq, Prod.mk.injEq, reduceCtorEq, and_false, false_and] at ho
          · rename_i xs' o; cases o <;> simp at ho
          · rfl
        subst this
        have hx : s.kind x = .exc c := (f.inv.oi.excs c x).1 (by rw [hf]; simp [Fiber.evars, Fiber.Frame.evars])
        obtain ⟨r, hf⟩ := abs_user hf
        rcases hv with hv | ⟨w, hv, hw⟩
        · exact absurd hv (f.inv.vi.excSome x c hx)
        · exact .inr (.fnUnwind hr hf hv hw)

theorem null_ub {s : State} {t : Tid} {op : Op} (h : NullCall s t op) : step s t op = .ub := by
  cases h with
  | resume hu ha hv => simp only [step, hu.1, hu.2, userStep, handle_accessible ha, if_true, State.doResume, hv]
  | resumeWith hu ha hv => simp only [step, hu.1, hu.2, userStep, handle_accessible ha, if_true, State.doResumeWith, hv]
  | fnReturn hr hf hv => rw [tick_ret hr hf]; simp only [State.finish, hv]

theorem finished_assertion {s : State} {t : Tid} {op : Op} (h : FinishedCall s t op) : step s t op = .assertion := by
  cases h with
  | resume hu ha hv hw =>
    simp only [Designates, Finished] at hv hw
    simp only [step, hu.1, hu.2, userStep, handle_accessible ha, if_true, State.doResume, hv, hw]
  | resumeWith hu ha hv hw =>
    simp only [Designates, Finished] at hv hw
    simp only [step, hu.1, hu.2, userStep, handle_accessible ha, if_true, State.doResumeWith, hv, hw]
  | fnReturn hr hf hv hw =>
    simp only [Designates, Finished] at hv hw
    rw [tick_ret hr hf]; simp only [State.finish, hv, State.kill, hw, if_true]
  | fnUnwind hr hf hv hw =>
    simp only [Designates, Finished] at hv hw
    rw [tick_unw hr hf]; simp only [State.finish, hv, State.kill, hw, if_true]

/-- **Undefined behaviour** occurs exactly when an empty object is resumed (by user code or, at the end of the context function, by the library): unlike
`fiber`, `continuation` does not check this, and calls a member function of a null pointer.  Nothing else is undefined. -/
theorem C71_undefined_iff {s : State} (h : Reachable s) (t : Tid) (op : Op) : step s t op = .ub ↔ NullCall s t op := by
  refine ⟨fun hs => ?_, null_ub⟩
  rcases (step_class h).2 (.inr hs) with h1 | h1
  · exact h1
  · rw [finished_assertion h1] at hs; cases hs

/-- **Assertions** fail exactly when a finished context is resumed. -/
theorem C71_assertion_iff {s : State} (h : Reachable s) (t : Tid) (op : Op) : step s t op = .assertion ↔ FinishedCall s t op := by
  refine ⟨fun hs => ?_, finished_assertion⟩
  rcases (step_class h).2 (.inl hs) with h1 | h1
  · rw [null_ub h1] at hs; cases hs
  · exact h1

/-- **Termination**, exactly in the listed situations. -/
theorem C71_terminate_iff {s : State} (h : Reachable s) (t : Tid) (op : Op) : step s t op = .terminate ↔ Terminates s t op := by
  refine ⟨(step_class h).1, fun hT => ?_⟩
  cases hT with
  | fnThrows hu ha =>
    have hall : List.all _ s.accessible = true := List.all_eq_true.2 (fun x hx => handle_accessible (ha x hx))
    simp only [step, hu.1, hu.2, userStep, hall, if_true]
  | main hr hf => simp only [RunsOn] at hr; simp only [step, hr, hf, propagate]
  | destructor hr hf => simp only [RunsOn] at hr; simp only [step, hr, hf, propagate]
  | fn hr hf => simp only [RunsOn] at hr; simp only [step, hr, hf, propagate]

/-- context 1 puts main's continuation on the heap and returns an empty object -/
def hRetEmpty : List (Tid × Op) := [(0, .callcc [] .success), (0, .moveHeap 1), (0, .newHeap), (0, .retHandle 3), (0, .tick)]
/-- context 1 throws -/
def hUser : List (Tid × Op) := [(0, .callcc [] .success), (0, .throw 5), (0, .tick)]

example : Reachable (exec hRetEmpty) ∧ NullCall (exec hRetEmpty) 0 .tick ∧ Reachable (exec hFin) ∧ FinishedCall (exec hFin) 0 (.resume 3) ∧
    Reachable (exec hUser) ∧ Terminates (exec hUser) 0 .tick :=
  ⟨reachable_exec (by decide), .fnReturn (c := 1) (x := 4) (rest := [.entryRun]) (by decide : (exec hRetEmpty).cur 0 = some 1) (by decide) (by decide),
   reachable_exec (by decide), .resume (c := 0) (k := .main) (ls := [3]) (rest := []) (w := 1) ⟨by decide, by decide⟩ ⟨.inr (.inl ⟨0, by decide⟩), by decide⟩
     (by decide : (exec hFin).val 3 = some 1) (by decide : (exec hFin).status 1 = .terminated),
   reachable_exec (by decide), .fn (c := 1) (n := 5) (rest := [.entryRun]) (by decide : (exec hUser).cur 0 = some 1) (by decide)⟩

/-- The documented assertion "not a valid continuation" of `fiber` does not exist here: the empty object of `newLocal` -/
theorem C71_empty_resume_ub : runsUb (h2 ++ [(0, .newLocal), (0, .resume 3)]) = true := by decide

/-- A thread that runs is never stuck: its next step succeeds or is one of the listed failures. -/
theorem C71_no_stuck {s : State} {t : Tid} {c : CtxId} (h : Reachable s) (hr : RunsOn s t c)
    (hn : ∀ k ls rest, s.frames c ≠ .user k ls .normal :: rest) :
    (∃ s', step s t .tick = .ok s') ∨ Terminates s t .tick ∨ NullCall s t .tick ∨ FinishedCall s t .tick := by
  cases hs : step s t .tick with
  | ok s' => exact .inl ⟨s', rfl⟩
  | terminate => exact .inr (.inl ((C71_terminate_iff h t _).1 hs))
  | assertion => exact .inr (.inr (.inr ((C71_assertion_iff h t _).1 hs)))
  | ub => exact .inr (.inr (.inl ((C71_undefined_iff h t _).1 hs)))
  | rejected =>
    exfalso
    simp only [RunsOn] at hr
    simp only [step, hr] at hs
    split at hs <;> first | (rename_i hf; exact hn _ _ _ hf) | skip
    · simp only [State.destroyVar, State.destroyPtr, State.switchTo, State.arrive] at hs
      repeat (split at hs <;> try (cases hs; done))
    · simp only [propagate, State.finish, State.switchTo, State.arrive] at hs
      repeat (split at hs <;> try (cases hs; done))
    · simp only [leave, State.finish, State.switchTo, State.arrive] at hs
      repeat (split at hs <;> try (cases hs; done))
    · simp only [State.destroyVar, State.destroyPtr, State.switchTo, State.arrive] at hs
      repeat (split at hs <;> try (cases hs; done))
    · simp only [State.destroyVar, State.destroyPtr, State.switchTo, State.arrive] at hs
      repeat (split at hs <;> try (cases hs; done))
    · simp only [exitStep, State.destroyVar, State.destroyPtr, State.switchTo, State.arrive] at hs
      repeat (split at hs <;> try (cases hs; done))
    · cases hs

end Verif.UCont
