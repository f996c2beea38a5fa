import Verif.Cont.Hidden
import Verif.Fiber.Props3
import Verif.Fiber.Props4

/-! # C21: `callcc` is creation followed by resumption, and the properties of `fiber` hold for `continuation` -/

namespace Verif.Cont
open Verif.Fiber (CtxId Var Tid Fctx Kind Exc Mode UKind Status Event CreateOutcome upd upd_apply)

/-! ## Vocabulary -/

/-- `x` is a live `continuation` object of user code -/
def Handle (s : State) (x : Var) : Prop :=
  (s.kind x = .heap ∨ (∃ c, s.kind x = .loc c) ∨ ∃ c, s.kind x = .cap c) ∧ s.hidden x = false
/-- object `x` designates (the suspended execution of) context `c` -/
def Designates (s : State) (x : Var) (c : CtxId) : Prop := ∃ f, s.val x = some f ∧ f.ctx = c
/-- thread `t` executes context `c` -/
def RunsOn (s : State) (t : Tid) (c : CtxId) : Prop := s.cur t = some c
def Suspended (s : State) (c : CtxId) : Prop := s.status c = .suspended
/-- context `c` was created by `callcc` -/
def Created (s : State) (c : CtxId) : Prop := .alloc c ∈ s.log
/-- the stack of context `c` has been given back -/
def Released (s : State) (c : CtxId) : Prop := .dealloc c ∈ s.log
/-- user code of context `c`, in an activation of kind `k` with local objects `ls`, is about to execute on thread `t` -/
def UserCode (s : State) (t : Tid) (c : CtxId) (k : UKind) (ls : List Var) (rest : List Frame) : Prop :=
  s.cur t = some c ∧ s.frames c = .user k none ls .normal :: rest
/-- context `c` is suspended in `resume()`/`resume_with()` called by user code -/
def InResume (s : State) (c : CtxId) (k : UKind) (ls : List Var) (rest : List Frame) : Prop :=
  s.frames c = .resume :: .user k none ls .normal :: rest
/-- context `c` is suspended in `callcc()` called by user code -/
def InCallcc (s : State) (c : CtxId) (k : UKind) (ls : List Var) (rest : List Frame) : Prop :=
  ∃ x, s.frames c = .resume :: .callcc x .waiting k none ls :: rest

/-- some finite history leads from `s` to `s'` -/
inductive Steps : State → State → Prop
  | refl (s : State) : Steps s s
  | tail {s s' s'' : State} {t : Tid} {op : Op} : Steps s s' → step s' t op = .ok s'' → Steps s s''

/-! ## running concrete histories (for the non-vacuity examples) -/

def exec (h : List (Tid × Op)) : State := match run init h with | .ok s => s | _ => init
def runsOk (h : List (Tid × Op)) : Bool := match run init h with | .ok _ => true | _ => false

theorem steps_run {s s' : State} {h : List (Tid × Op)} (hr : run s h = .ok s') : Steps s s' := by
  suffices ∀ s0, Steps s0 s → Steps s0 s' from this s (.refl s)
  induction h generalizing s with
  | nil => intro s0 h0; simp only [run, Res.ok.injEq] at hr; exact hr ▸ h0
  | cons a h ih =>
    obtain ⟨t, op⟩ := a
    intro s0 h0
    simp only [run] at hr
    split at hr
    · rename_i s1 hs1; exact ih hr s0 (h0.tail hs1)
    · exact absurd hr (by rename_i r hr2; intro h; exact hr2 _ h)

theorem Steps.reachable {s s' : State} (h : Steps s s') (hr : Reachable s) : Reachable s' := by
  induction h with
  | refl => exact hr
  | tail _ hs ih => exact .step ih hs

theorem reachable_exec {h : List (Tid × Op)} (_ : runsOk h = true) : Reachable (exec h) := by
  unfold exec
  split
  · rename_i s hs; exact (steps_run hs).reachable .init
  · exact .init

/-- as `reachable_exec`, for histories that lose no context -/
theorem reachableNS_exec {h : List (Tid × Op)} (_ : runsOk h = true) (hn : ∀ a ∈ h, a.2.loses = false) : ReachableNS (exec h) := by
  have key : ∀ (h : List (Tid × Op)) (s s' : State), ReachableNS s → (∀ a ∈ h, a.2.loses = false) → run s h = .ok s' → ReachableNS s' := by
    intro h
    induction h with
    | nil => intro s s' hs _ hr; simp only [run, Res.ok.injEq] at hr; exact hr ▸ hs
    | cons a h ih =>
      obtain ⟨t, op⟩ := a
      intro s s' hs hn hr
      simp only [run] at hr
      split at hr
      · rename_i s1 hs1
        exact ih s1 s' (.step hs (hn (t, op) (by simp)) hs1) (fun a ha => hn a (by simp [ha])) hr
      · exact absurd hr (by rename_i r hr2; intro h; exact hr2 _ h)
  unfold exec
  split
  · rename_i s hs; exact key h _ _ .init hn hs
  · exact .init

/-- main calls `callcc`: context 1 starts (temporary 0, parameter 1), and resumes main back (result 2 of the `resume`, now of `callcc`, in main) -/
def h1 : List (Tid × Op) := [(0, .callcc [] .success), (0, .resume 1)]
/-- then `callcc` returns object 2 to main -/
def h2 : List (Tid × Op) := h1 ++ [(0, .tick)]
/-- main destroys object 2: context 1 is unwound and released -/
def h3 : List (Tid × Op) := h2 ++ [(0, .drop 2), (0, .tick), (0, .tick), (0, .tick)]

example : runsOk h1 = true ∧ runsOk h2 = true ∧ runsOk h3 = true := by decide
example : (exec h3).log = [.destroyed 1 0, .dealloc 1, .enter 1, .alloc 1] := by decide

/-! ## Refinement -/

theorem run_append (s : Fiber.State) (h h' : List (Tid × Fiber.Op)) :
    Fiber.run s (h ++ h') = (match Fiber.run s h with | .ok s' => Fiber.run s' h' | r => r) := by
  induction h generalizing s with
  | nil => rfl
  | cons a h ih =>
    obtain ⟨t, op⟩ := a
    simp only [List.cons_append, Fiber.run]
    cases Fiber.step s t op with
    | ok s1 => exact ih s1
    | _ => rfl

/-- **One step.** In every reachable state, every possible operation of the continuation API (`resume_with` with an lvalue function object
excepted, see below) has exactly the result — state, termination, failed assertion — of the corresponding operations of the fiber API: `callcc` that
of construction followed by `resume()` of the object constructed, `resume` that of `resume`, and so on. -/
theorem C21_step_refines {s : State} {t : Tid} {op : Op} (h : Reachable s) (hl : op.lvalueFn = false) (hp : step s t op ≠ .rejected) :
    Fiber.run s.abs (fiberOps s t op) = (step s t op).abs :=
  (step_spec (reachable_spec h).1 (Fiber.reachable_inv (reachable_spec h).2) hl).1 hp

/-- **`callcc`.** -/
theorem C21_callcc_refines {s : State} {t : Tid} {xs : List Var} (h : Reachable s) (hp : step s t (.callcc xs .success) ≠ .rejected) :
    Fiber.run s.abs [(t, .create xs .success), (t, .resume (s.nextVar + xs.length))] = (step s t (.callcc xs .success)).abs :=
  C21_step_refines h rfl hp

/-- **Whole histories.** Every history of the continuation API is a history of the fiber API, with the same threads, contexts, objects, values and
events. -/
theorem C21_history_refines {h : List (Tid × Op)} {s : State} (hr : run init h = .ok s) :
    ∃ h', Fiber.run Fiber.init h' = .ok s.abs := by
  have key : ∀ (h : List (Tid × Op)) (s0 s : State), Reachable s0 → (∃ h', Fiber.run Fiber.init h' = .ok s0.abs) → run s0 h = .ok s →
      ∃ h', Fiber.run Fiber.init h' = .ok s.abs := by
    intro h
    induction h with
    | nil => intro s0 s _ hF hr; simp only [run, Res.ok.injEq] at hr; exact hr ▸ hF
    | cons a h ih =>
      obtain ⟨t, op⟩ := a
      intro s0 s h0 ⟨h', hF⟩ hr
      simp only [run] at hr
      split at hr
      · rename_i s1 hs1
        refine ih s1 s (.step h0 hs1) ⟨h' ++ fiberOps s0 t op, ?_⟩ hr
        have := C21_step_refines (op := op) (t := t) h0 (lvalue_not_ok hs1) (by rw [hs1]; simp)
        rw [run_append, hF]
        simp only []
        rw [this, hs1]; rfl
      · exact absurd hr (by rename_i r hr2; intro h; exact hr2 _ h)
  refine key h init s .init ⟨[], ?_⟩ hr
  simp only [Fiber.run, Fiber.Res.ok.injEq]
  simp only [State.abs, init, Fiber.init, Fiber.State.mk.injEq, true_and]
  refine ⟨?_, trivial⟩
  funext c; split <;> simp [Frame.abs]

/-- what the view does not change: threads, statuses, object values, events (and it maps stacks frame by frame) -/
example (s : State) : s.abs.cur = s.cur ∧ s.abs.status = s.status ∧ s.abs.val = s.val ∧ s.abs.kind = s.kind ∧ s.abs.caps = s.caps ∧ s.abs.log = s.log ∧
    (∀ c, s.abs.frames c = (s.frames c).map Frame.abs) := ⟨rfl, rfl, rfl, rfl, rfl, rfl, fun _ => rfl⟩

theorem reachableNS_spec {s : State} (h : ReachableNS s) : Reachable s ∧ Fiber.ReachableNS s.abs := by
  induction h with
  | init =>
    refine ⟨.init, ?_⟩
    have : init.abs = Fiber.init := by
      simp only [State.abs, init, Fiber.init, Fiber.State.mk.injEq, true_and]
      refine ⟨?_, trivial⟩
      funext c; split <;> simp [Frame.abs]
    rw [this]; exact .init
  | @step s s' t op _ hne hs ih =>
    refine ⟨.step ih.1 hs, ?_⟩
    have := C21_step_refines (op := op) (t := t) ih.1 (lvalue_not_ok hs) (by rw [hs]; simp)
    rw [hs] at this
    have hall : ∀ a ∈ fiberOps s t op, a.2.loses = false := by
      intro a ha
      cases op <;> simp only [fiberOps] at ha <;> (try (simp only [List.mem_singleton] at ha; subst ha; first | rfl | exact hne; done))
      · rename_i xs o
        cases o <;> simp only [List.mem_cons, List.not_mem_nil, or_false] at ha
        · rcases ha with rfl | rfl <;> rfl
        · subst ha; rfl
        · subst ha; rfl
      · split at ha <;> (simp only [List.mem_singleton] at ha; subst ha; rfl)
    have key : ∀ (h : List (Tid × Fiber.Op)) (s0 s1 : Fiber.State), Fiber.ReachableNS s0 → (∀ a ∈ h, a.2.loses = false) → Fiber.run s0 h = .ok s1 →
        Fiber.ReachableNS s1 := by
      intro h
      induction h with
      | nil => intro s0 s1 h0 _ hr; simp only [Fiber.run, Fiber.Res.ok.injEq] at hr; exact hr ▸ h0
      | cons a h ih =>
        obtain ⟨t, op⟩ := a
        intro s0 s1 h0 ha hr
        simp only [Fiber.run] at hr
        split at hr
        · rename_i s2 hs2
          exact ih s2 s1 (.step h0 (ha (t, op) (by simp)) hs2) (fun a h' => ha a (by simp [h'])) hr
        · exact absurd hr (by rename_i r hr2; intro h; exact hr2 _ h)
    exact key _ _ _ ih.2 hall this

/-! ## `callcc` in detail -/

theorem handle_accessible {s : State} {x : Var} (h : Handle s x) : s.accessible x = true := by
  obtain ⟨h, hh⟩ := h
  rcases h with h | ⟨e, h⟩ | ⟨e, h⟩ <;> simp [State.accessible, h, hh]

theorem handle_abs {s : State} {x : Var} (h : Handle s x) : Fiber.Handle s.abs x := h.1

theorem userCode_abs {s : State} {t : Tid} {c : CtxId} {k : UKind} {ls : List Var} {rest : List Frame} (h : UserCode s t c k ls rest) :
    Fiber.UserCode s.abs t c k ls (absL rest) := ⟨h.1, by rw [abs_frames, h.2]; rfl⟩

theorem abs_ok {r : Res} {s1 : Fiber.State} (h : r.abs = .ok s1) : ∃ s', r = .ok s' ∧ s'.abs = s1 := by
  cases r <;> simp only [Res.abs, reduceCtorEq, Fiber.Res.ok.injEq] at h
  exact ⟨_, rfl, h⟩

/-- the stacks after a successful `callcc` -/
theorem doCallcc_frames {s s' : State} {t : Tid} {c : CtxId} {k : UKind} {lib : Option Fctx} {ls : List Var} {rest : List Frame} {xs : List Var}
    (hd : s.doCallcc t c k lib ls rest xs = .ok s') (hcur : s.cur t = some c) (hcn : c ≠ s.nextCtx) :
    s'.frames = upd (upd s.frames c (.resume :: .callcc (s.nextVar + xs.length) .waiting k lib ls :: rest)) s.nextCtx
      [.user .fn none [s.nextVar + xs.length + 1] .normal, .entryRun] := by
  simp only [State.doCallcc, State.jump] at hd
  split at hd
  · cases hd
  · rename_i s1 b h1
    split at hd
    · cases hd
    · rename_i s2 f h2
      have c1 := switch_cur h1
      have c2 := switch_cur h2
      have hf1 : s1.frames = s.frames := by rw [switch_frames h1]; exact capture_frames _ _ _
      have hf2 := switch_frames h2
      have n1 : s1.nextVar = s.nextVar + xs.length := by rw [switch_nextVar h1]; exact capture_nextVar _ _ _
      have n2 : s2.nextVar = s.nextVar + xs.length := by rw [switch_nextVar h2]; exact n1
      have hfn : f.ctx = s.nextCtx := by
        have h3 := c2.2; have h4 : (s1.setFrames s.nextCtx [.entryJump]).cur t = some s.nextCtx := c1.1
        rw [h4] at h3; simpa using h3.symm
      simp only [State.doResume, State.jump, State.setFrames, State.newVar, upd_apply, if_true] at hd
      split at hd
      · cases hd
      · rename_i s3 b3 h3
        have hf3 := switch_frames h3
        have hn3 := switch_nextVar h3
        simp only [State.setVal] at hf3 hn3
        rw [hfn] at hd
        have hfr : s3.frames s.nextCtx = [.entryJump] := by
          rw [hf3]; simp only [upd_apply, Ne.symm hcn, if_false, hf2, State.setFrames, if_true]
        simp only [State.deliver, hfr, Res.ok.injEq] at hd
        subst hd
        funext d
        simp only [State.addLog, State.setFrames, State.newVar, upd_apply]
        split
        · rw [hn3, n2]
        · rename_i hdn
          rw [hf3]
          simp only [upd_apply]
          split
          · rw [n2]
          · rw [hf2]; simp [State.setFrames, hdn, hf1]

/-- `callcc(f)`, called by user code of context `c`, `f` having captured `xs`: always succeeds; a context `n` that did not exist before is allocated
and runs on the thread, `f` has been entered with a parameter that designates `c`; `c` is suspended inside `callcc`; nothing else has changed. -/
theorem C21_callcc {s : State} {t : Tid} {c : CtxId} {k : UKind} {ls : List Var} {rest : List Frame} {xs : List Var}
    (h : Reachable s) (hu : UserCode s t c k ls rest) (ha : ∀ x ∈ xs, Handle s x) :
    ∃ s' p n, step s t (.callcc xs .success) = .ok s' ∧ s.status n = .absent ∧ ¬ Created s n ∧
      RunsOn s' t n ∧ s'.frames n = [.user .fn none [p] .normal, .entryRun] ∧ Designates s' p c ∧ Suspended s' c ∧ InCallcc s' c k ls rest ∧
      s'.log = .enter n :: .alloc n :: s.log ∧ (∀ d, d ≠ c → d ≠ n → s'.frames d = s.frames d ∧ s'.status d = s.status d) ∧
      (∀ y, Handle s y → Handle s' y ∧ s'.val y = if y ∈ xs then none else s.val y) := by
  have hF := (reachable_spec h).2
  have hi := Fiber.reachable_inv hF
  have hall : xs.all s.accessible = true := by simp only [List.all_eq_true]; exact fun x hx => handle_accessible (ha x hx)
  have hst : step s t (.callcc xs .success) = s.doCallcc t c k none ls rest xs := by
    simp only [step, hu.1, hu.2, userStep, hall, if_true]
  have hspec := doCallcc_spec (reachable_spec h).1 hu.1 hu.2 hall
  -- the construction
  obtain ⟨s2, h2, hcr⟩ := Fiber.create_eq hi (userCode_abs hu) (fun x hx => handle_abs (ha x hx))
  have hs := Fiber.capture_same ({ s.abs with nextCtx := s.abs.nextCtx + 1 }.addLog (.alloc s.abs.nextCtx)) s.abs.nextCtx xs
  have hcv := Fiber.capture_val ({ s.abs with nextCtx := s.abs.nextCtx + 1 }.addLog (.alloc s.abs.nextCtx)) s.abs.nextCtx xs
    (fun x hx => Fiber.lt_nextVar hi (Fiber.accessible_ne_dead (accessible_abs (handle_accessible (ha x hx)))))
  rw [← h2] at hs hcv
  simp only [Fiber.State.addLog] at hs hcv
  obtain ⟨e1, e2, e3, e4, e5, e6, e7, e8, e9⟩ := hs
  obtain ⟨q1, q2, q3⟩ := hcv
  have hn2 : s2.nextVar = s.nextVar + xs.length := by
    rw [h2]
    have := abs_capture ({ s with nextCtx := s.nextCtx + 1 }.addLog (.alloc s.nextCtx)) s.nextCtx xs
    have h4 := capture_nextVar ({ s with nextCtx := s.nextCtx + 1 }.addLog (.alloc s.nextCtx)) s.nextCtx xs
    have h5 : ({ s.abs with nextCtx := s.abs.nextCtx + 1 }.addLog (.alloc s.abs.nextCtx)) = ({ s with nextCtx := s.nextCtx + 1 }.addLog (.alloc s.nextCtx)).abs := rfl
    rw [h5]
    show (Fiber.State.capture _ s.nextCtx xs).nextVar = _
    rw [← this]; exact h4
  have habs := (hi.ci.absent s.abs.nextCtx).2 (Nat.le_refl _)
  have hcn : c ≠ s.nextCtx := by
    intro hh; have := (Fiber.facts hi (userCode_abs hu).1).1; rw [hh] at this; rw [show s.nextCtx = s.abs.nextCtx from rfl, habs] at this; simp at this
  -- the resumption
  have hR1 : Fiber.Reachable _ := .step hF hcr
  have hres := Fiber.resume_eq (x := s2.nextVar) (f := ⟨s.nextCtx, 1⟩) (t := t) (c := c) (k := k) (ls := s2.nextVar :: ls) (rest := absL rest)
    (Fiber.reachable_inv hR1) ⟨by rw [show s2.cur = s.cur from e1]; exact hu.1, by simp⟩ (.inr (.inl ⟨c, by simp⟩)) (by simp)
  simp only [Fiber.run, hcr, ← hn2] at hspec
  rw [hres] at hspec
  simp only [Fiber.State.deliver, Fiber.sw, Fiber.State.setVal, Fiber.State.setFrames, upd_apply, Ne.symm hcn, if_false, if_true, abs_nextCtx] at hspec
  obtain ⟨s', hs', he⟩ := abs_ok hspec.1.symm
  have hfr := doCallcc_frames hs' hu.1 hcn
  have hd := he
  simp only [State.abs, Fiber.State.newVar, Fiber.State.setFrames, Fiber.State.addLog, Fiber.State.mk.injEq] at hd
  obtain ⟨d1, d2, d3, d4, d5, d6, d7, d8, d9, d10, d11, d12, d13⟩ := hd
  have hsv : ∀ y, Handle s y → y < s.nextVar := fun y hy => Fiber.lt_nextVar hi (Fiber.accessible_ne_dead (accessible_abs (handle_accessible hy)))
  have hhid : s'.hidden = upd s.hidden (s.nextVar + xs.length) true := by
    have := hid_doCallcc (reachable_good h) t c k none ls rest xs hu.2 s' hs'
    exact this.1
  refine ⟨s', s.nextVar + xs.length + 1, s.nextCtx, by rw [hst, hs'], habs, ((Fiber.reachable_linv hF).absentA _ habs).1, ?_, ?_, ?_, ?_, ?_, ?_, ?_, ?_⟩
  · simp only [RunsOn]; rw [d1]; simp
  · rw [hfr]; simp
  · refine ⟨⟨c, s2.seq c + 1 + 1⟩, ?_, rfl⟩
    rw [d7]; simp only [upd_apply, hn2, if_true, hcn, if_false]
  · simp only [Suspended]; rw [d2]; simp [hcn]
  · exact ⟨s.nextVar + xs.length, by rw [hfr]; simp [hcn]⟩
  · rw [d13, e9]; rfl
  · intro d h1 h3
    refine ⟨by rw [hfr]; simp [h1, h3], ?_⟩
    rw [d2]; simp only [upd_apply, h1, h3, if_false, e2]; rfl
  · intro y hy
    have hlt := hsv y hy
    have hne : y ≠ s2.nextVar := by rw [hn2]; exact Nat.ne_of_lt (Nat.lt_of_lt_of_le hlt (Nat.le_add_right ..))
    have hne1 : y ≠ s2.nextVar + 1 := by rw [hn2]; exact Nat.ne_of_lt (Nat.lt_succ_of_lt (Nat.lt_of_lt_of_le hlt (Nat.le_add_right ..)))
    refine ⟨⟨?_, ?_⟩, ?_⟩
    · rw [d6]; simp only [upd_apply, hne, hne1, if_false]
      rw [q3 y hlt]; exact hy.1
    · rw [hhid]; simp only [upd_apply]; rw [if_neg (by rw [← hn2]; exact hne)]; exact hy.2
    · rw [d7]; simp only [upd_apply, hne, hne1, if_false]; exact q2 y hlt

example : Reachable (exec h2) ∧ UserCode (exec h2) 0 0 .main [2] [] ∧ ∀ x ∈ [2], Handle (exec h2) x :=
  ⟨reachable_exec (by decide), ⟨by decide, by decide⟩, by
    intro x hx; simp only [List.mem_singleton] at hx; subst hx; exact ⟨.inr (.inl ⟨0, by decide⟩), by decide⟩⟩

/-- The temporary of `callcc` on which `resume()` was called is empty until its lifetime ends. -/
theorem C21_temporary_empty {s : State} (h : Reachable s) {c : CtxId} {x : Var} {cm : CcMode} {k : UKind} {lib : Option Fctx} {ls : List Var}
    (hf : .callcc x cm k lib ls ∈ s.frames c) : s.val x = none := by
  have := (reachable_good h).2 c x (by
    simp only [ccx, List.mem_filterMap]; exact ⟨_, hf, rfl⟩)
  exact (hidden_empty h x this).2

example : Reachable (exec h1) ∧ .callcc 0 (.returning 2) .main none [] ∈ (exec h1).frames 0 := ⟨reachable_exec (by decide), by decide⟩

/-- `callcc` returns: the caller gets the object returned by `resume()` as a new local; nothing else changes (the temporary is gone). -/
theorem C21_callcc_returns {s : State} (h : Reachable s) {t : Tid} {c : CtxId} {x y : Var} {k : UKind} {lib : Option Fctx} {ls : List Var} {rest : List Frame}
    (hr : RunsOn s t c) (hf : s.frames c = .callcc x (.returning y) k lib ls :: rest) :
    ∃ s', step s t .tick = .ok s' ∧ UserCode s' t c k (y :: ls) rest ∧ s'.kind x = .dead ∧ s'.val = s.val ∧ (∀ z, z ≠ x → s'.kind z = s.kind z) ∧
      s'.status = s.status ∧ s'.log = s.log ∧ s'.cur = s.cur ∧ ∀ d, d ≠ c → s'.frames d = s.frames d := by
  have hx := C21_temporary_empty h (c := c) (by rw [hf]; exact List.mem_cons_self ..)
  simp only [RunsOn] at hr
  have hlib : lib = none := by
    have := ((reachable_spec h).1 c); rw [hf] at this; exact this.1
  subst hlib
  refine ⟨(s.setFrames c (.user k none (y :: ls) .normal :: rest)).kill x, ?_, ⟨hr, by simp [State.setFrames, State.kill]⟩, by simp [State.kill], ?_, ?_, rfl, rfl, rfl, ?_⟩
  · simp only [step, hr, hf, State.destroyVar]
    have : (s.setFrames c (.user k none (y :: ls) .normal :: rest)).val x = none := hx
    rw [this]
  · funext z
    simp only [State.kill, State.setFrames, upd_apply]; split
    · subst z; exact hx.symm
    · rfl
  · intro z hz; simp [State.kill, State.setFrames, hz]
  · intro d hd; simp [State.kill, State.setFrames, hd]

/-- An exception leaving `resume()` inside `callcc` continues in the caller of `callcc`. -/
theorem C21_callcc_throws {s : State} (h : Reachable s) {t : Tid} {c : CtxId} {x : Var} {e : Exc} {k : UKind} {lib : Option Fctx} {ls : List Var} {rest : List Frame}
    (hr : RunsOn s t c) (hf : s.frames c = .callcc x (.unwinding e) k lib ls :: rest) :
    ∃ s', step s t .tick = .ok s' ∧ RunsOn s' t c ∧ s'.frames c = .user k none ls (.unwinding e) :: rest ∧ s'.kind x = .dead ∧ s'.val = s.val ∧
      s'.status = s.status ∧ s'.log = s.log ∧ ∀ d, d ≠ c → s'.frames d = s.frames d := by
  have hx := C21_temporary_empty h (c := c) (by rw [hf]; exact List.mem_cons_self ..)
  simp only [RunsOn] at hr
  have hlib : lib = none := by
    have := ((reachable_spec h).1 c); rw [hf] at this; exact this.1
  subst hlib
  refine ⟨(s.setFrames c (.user k none ls (.unwinding e) :: rest)).kill x, ?_, hr, by simp [State.setFrames, State.kill], by simp [State.kill], ?_, rfl, rfl, ?_⟩
  · simp only [step, hr, hf, State.destroyVar]
    have : (s.setFrames c (.user k none ls (.unwinding e) :: rest)).val x = none := hx
    rw [this]
  · funext z
    simp only [State.kill, State.setFrames, upd_apply]; split
    · subst z; exact hx.symm
    · rfl
  · intro d hd; simp [State.kill, State.setFrames, hd]

/-- main calls `callcc`, context 1 resumes main with a function that throws -/
def hThrow : List (Tid × Op) := [(0, .callcc [] .success), (0, .resumeWith 1 false), (0, .moveHeap 2), (0, .throw 7), (0, .tick), (0, .tick)]
example : Reachable (exec hThrow) ∧ RunsOn (exec hThrow) 0 0 ∧ (exec hThrow).frames 0 = [.callcc 0 (.unwinding (.user 7)) .main none []] :=
  ⟨reachable_exec (by decide), (by decide : (exec hThrow).cur 0 = some 0), by decide⟩

/-! ## The properties of `fiber`, for `continuation` -/

/-- (C01) A context is designated by at most one object. -/
theorem C21_exclusive {s : State} (h : Reachable s) {x y : Var} {c : CtxId} (hx : Designates s x c) (hy : Designates s y c) : x = y :=
  Fiber.C01_exclusive (reachable_spec h).2 hx hy

/-- (C02) A non-empty object designates a suspended, existing context. -/
theorem C21_no_dangling {s : State} (h : Reachable s) {x : Var} {f : Fctx} (hx : s.val x = some f) :
    Suspended s f.ctx ∧ s.seq f.ctx = f.seq ∧ ¬ Released s f.ctx ∧ ∀ t, ¬ RunsOn s t f.ctx := Fiber.C02_no_dangling (reachable_spec h).2 hx

/-- (C02) No operation leads to undefined behaviour, `resume_with` with an lvalue function object excepted. -/
theorem C21_no_ub {s : State} (h : Reachable s) (t : Tid) (op : Op) (hl : op.lvalueFn = false) : step s t op ≠ .ub := by
  intro hub
  have := C21_step_refines (op := op) (t := t) h hl (by rw [hub]; simp)
  rw [hub] at this
  have key : ∀ (h : List (Tid × Fiber.Op)) (s0 : Fiber.State), Fiber.Reachable s0 → Fiber.run s0 h ≠ .ub := by
    intro h
    induction h with
    | nil => intro s0 _; simp [Fiber.run]
    | cons a h ih =>
      obtain ⟨t, op⟩ := a
      intro s0 h0
      simp only [Fiber.run]
      cases hs : Fiber.step s0 t op with
      | ok s1 => exact ih s1 (.step h0 hs)
      | ub => exact absurd hs (Fiber.C02_no_ub h0 t op)
      | _ => simp
  exact key _ _ (reachable_spec h).2 this

/-- `resume_with` with an lvalue function object (of class type) on a non-empty object: always undefined behaviour, because the tuple is read
with another type than it was made with. -/
theorem C21_lvalue_function_ub {s : State} {t : Tid} {c : CtxId} {k : UKind} {ls : List Var} {rest : List Frame} {x : Var} {d : CtxId}
    (_h : Reachable s) (hu : UserCode s t c k ls rest) (ha : Handle s x) (hd : Designates s x d) : step s t (.resumeWith x true) = .ub := by
  obtain ⟨f, hv, -⟩ := hd
  simp only [step, hu.1, hu.2, userStep, handle_accessible ha, if_true, State.doResumeWith, hv]
  split <;> rfl

example : Reachable (exec h2) ∧ UserCode (exec h2) 0 0 .main [2] [] ∧ Handle (exec h2) 2 ∧ Designates (exec h2) 2 1 :=
  ⟨reachable_exec (by decide), ⟨by decide, by decide⟩, ⟨.inr (.inl ⟨0, by decide⟩), by decide⟩, ⟨1, 2⟩, by decide, rfl⟩

/-- (C03) No suspended context is lost. -/
theorem C21_no_lost_context {s : State} (h : ReachableNS s) {c : CtxId} (hc : Suspended s c) : ∃ x, Designates s x c := by
  obtain ⟨x, hx, _⟩ := Fiber.C03_no_lost_context (reachableNS_spec h).2 hc
  exact ⟨x, hx⟩

example : ReachableNS (exec h2) ∧ Suspended (exec h2) 1 := ⟨reachableNS_exec (by decide) (by decide), by unfold Suspended; decide⟩

/-- (C06) The function given to `callcc` is entered at most once. -/
theorem C21_entered_once {s : State} (h : Reachable s) (c : CtxId) : s.log.count (.enter c) ≤ 1 := Fiber.C06_at_most_once (reachable_spec h).2 c

/-- (C07) A stack is released at most once, and only stacks that were allocated. -/
theorem C21_released_once {s : State} (h : Reachable s) (c : CtxId) :
    s.log.count (.dealloc c) ≤ 1 ∧ (Released s c → Created s c) :=
  ⟨Fiber.C07_released_once (reachable_spec h).2 c, fun hr => Fiber.C07_released_was_created (reachable_spec h).2 hr⟩

theorem steps_abs {s s' : State} (h : Reachable s) (hs : Steps s s') : Fiber.Steps s.abs s'.abs := by
  induction hs with
  | refl => exact .refl _
  | @tail s1 s2 t op h1 h2 ih =>
    have := C21_step_refines (op := op) (t := t) (h1.reachable h) (lvalue_not_ok h2) (by rw [h2]; simp)
    rw [h2] at this
    have h3 := Fiber.steps_run this
    clear this
    generalize s2.abs = z at h3
    induction h3 with
    | refl => exact ih
    | tail _ hs ih2 => exact .tail ih2 hs

/-- (C07) After the release nothing lives or runs on the stack, and nothing designates it, for ever. -/
theorem C21_after_release {s s' : State} (h : Reachable s) {c : CtxId} (hr : Released s c) (hs : Steps s s') :
    Released s' c ∧ s'.log.count (.dealloc c) = 1 ∧ (∀ t, ¬ RunsOn s' t c) ∧ s'.frames c = [] ∧
      (∀ x, s'.kind x ≠ .loc c ∧ s'.kind x ≠ .cap c ∧ s'.kind x ≠ .ret c ∧ s'.kind x ≠ .exc c) ∧ ∀ x, ¬ Designates s' x c := by
  obtain ⟨h1, h2, h3, h4, h5, h6⟩ := Fiber.C07_after_release (reachable_spec h).2 hr (steps_abs h hs)
  refine ⟨h1, h2, h3, ?_, h5, h6⟩
  rw [abs_frames] at h4
  simpa [absL] using h4

/-- (C07) At the moment of release the stack holds nothing any more. -/
theorem C21_at_release {s s' : State} {t : Tid} {op : Op} {c : CtxId} (h : Reachable s) (hs : step s t op = .ok s')
    (hn : ¬ Released s c) (hr : Released s' c) :
    s.frames c = [.exitJump] ∧ (∀ t, ¬ RunsOn s t c) ∧ (∀ x, ¬ Designates s x c) ∧
      ∀ x, s.kind x ≠ .loc c ∧ s.kind x ≠ .cap c ∧ s.kind x ≠ .ret c ∧ s.kind x ≠ .exc c := by
  have hF := (reachable_spec h).2
  have hstep := C21_step_refines (op := op) (t := t) h (lvalue_not_ok hs) (by rw [hs]; simp)
  rw [hs] at hstep
  have fin : ∀ (op' : Fiber.Op), Fiber.step s.abs t op' = .ok s'.abs → s.frames c = [.exitJump] ∧ (∀ t, ¬ RunsOn s t c) ∧ (∀ x, ¬ Designates s x c) ∧
      ∀ x, s.kind x ≠ .loc c ∧ s.kind x ≠ .cap c ∧ s.kind x ≠ .ret c ∧ s.kind x ≠ .exc c := by
    intro op' h1
    obtain ⟨h2, h3, h4, h5⟩ := Fiber.C07_at_release hF h1 hn hr
    refine ⟨?_, h3, h4, h5⟩
    rw [abs_frames] at h2
    rcases hfs : s.frames c with _ | ⟨f, r⟩
    · rw [hfs] at h2; simp at h2
    · rw [hfs] at h2
      simp only [absL_cons, List.cons.injEq] at h2
      have hr' : r = [] := by simpa [absL] using h2.2
      subst hr'
      have := h2.1
      cases f with
      | exitJump => rfl
      | callcc x cm k lib ls => cases cm <;> simp [Frame.abs] at this
      | _ => simp [Frame.abs] at this
  by_cases hop : ∃ xs, op = .callcc xs .success
  · -- neither construction nor `resume` of a fresh context releases anything
    obtain ⟨xs, rfl⟩ := hop
    exfalso
    have hgood : ∃ c0 k ls rest, UserCode s t c0 k ls rest ∧ ∀ x ∈ xs, Handle s x := by
      simp only [step] at hs
      split at hs
      · cases hs
      · rename_i c0 hc0
        split at hs <;> try (cases hs; done)
        rename_i k lib ls rest hf
        have hlib : lib = none := by have := (reachable_spec h).1 c0; rw [hf] at this; exact this.1
        subst hlib
        simp only [userStep] at hs
        split at hs
        · rename_i hall
          refine ⟨c0, k, ls, rest, ⟨hc0, hf⟩, ?_⟩
          intro x hx
          have hacc := List.all_eq_true.1 hall x hx
          refine ⟨Fiber.accessible_handle (accessible_abs hacc), ?_⟩
          simp only [State.accessible] at hacc
          split at hacc <;> simp_all
        · cases hs
    obtain ⟨c0, k, ls, rest, hu, ha⟩ := hgood
    obtain ⟨s1, p, n, h1, _, _, _, _, _, _, _, hlog, _⟩ := C21_callcc h hu ha
    rw [hs] at h1
    simp only [Res.ok.injEq] at h1
    subst h1
    simp only [Released] at hr hn
    rw [hlog] at hr
    simp only [List.mem_cons, reduceCtorEq, false_or] at hr
    exact hn hr
  · have hsingle : ∃ op', fiberOps s t op = [(t, op')] := by
      cases op <;> simp only [fiberOps] <;> (try exact ⟨_, rfl⟩)
      · rename_i xs o
        cases o with
        | success => exact absurd ⟨xs, rfl⟩ hop
        | _ => exact ⟨_, rfl⟩
      · split <;> exact ⟨_, rfl⟩
    obtain ⟨op', ho⟩ := hsingle
    rw [ho, run_single] at hstep
    exact fin op' hstep

/-- (C08) At the end of the program, with no non-empty object left, all stacks have been released, each once. -/
theorem C21_no_leak {s : State} (h : ReachableNS s) (ht : ∀ t, s.cur t = none) (hv : ∀ x, s.val x = none) :
    (s.log.filterMap fun e => match e with | .dealloc c => some c | _ => none).Perm
      (s.log.filterMap fun e => match e with | .alloc c => some c | _ => none) :=
  Fiber.C08_no_leak (reachableNS_spec h).2 ⟨ht, hv⟩

/-- as `h3`, then the main function returns -/
def h4 : List (Tid × Op) := h3 ++ [(0, .ret), (0, .tick)]

example : ReachableNS (exec h4) ∧ (∀ t, (exec h4).cur t = none) ∧ (∀ x, (exec h4).val x = none) ∧ .dealloc 1 ∈ (exec h4).log := by
  have hr : ReachableNS (exec h4) := reachableNS_exec (by decide) (by decide)
  have hi := Fiber.reachable_inv (reachable_spec (reachableNS_spec hr).1).2
  refine ⟨hr, fun t => ?_, fun x => ?_, by decide⟩
  · by_cases hlt : t < (exec h4).nextTid
    · revert t; decide
    · exact hi.ci.tids t (Nat.not_lt.1 hlt)
  · by_cases hlt : x < (exec h4).nextVar
    · revert x; decide
    · exact hi.vi.deadNone x (hi.oi.fresh x (Nat.not_lt.1 hlt))

/-- (C09) A destructor that unwound `v` returns only after the stack of `v` has been released. -/
theorem C21_release_before_return {s : State} (h : Reachable s) {v c : CtxId} {l1 l2 : List Event}
    (hl : s.log = l1 ++ .destroyed v c :: l2) : .dealloc v ∈ l2 := Fiber.C09_release_before_return (reachable_spec h).2 hl

/-- (C11) The function of every `resume_with()` is executed exactly once. -/
theorem C21_on_top_once {s : State} (h : Reachable s) (i : Nat) :
    (s.log.countP (Fiber.isOntop i)) = if i < s.nextId then 1 else 0 := Fiber.C11_exactly_once (reachable_spec h).2 i

/-- (C17) A context runs on at most one thread, and a running context is in no object. -/
theorem C21_one_thread {s : State} (h : Reachable s) {t t' : Tid} {c : CtxId} (h1 : RunsOn s t c) :
    (RunsOn s t' c → t = t') ∧ ∀ x, ¬ Designates s x c :=
  ⟨(Fiber.C17_one_thread (c' := c) (reachable_spec h).2 h1).1, Fiber.C17_running_not_resumable (reachable_spec h).2 h1⟩

theorem abs_inResume {s : State} {c : CtxId} {k : UKind} {ls : List Var} {rest : List Frame} (h : InResume s c k ls rest) :
    Fiber.InResume s.abs c k ls (absL rest) := by
  simp only [Fiber.InResume, abs_frames]; rw [h]; rfl

/-- (C05) A context suspended in `resume()` is resumed: that `resume()` returns an object designating the context that has resumed it. -/
theorem C21_resumed_gets_resumer {s : State} {t : Tid} {c d : CtxId} {k k' : UKind} {ls ls' : List Var} {rest rest' : List Frame} {x : Var}
    (h : Reachable s) (hu : UserCode s t c k ls rest) (ha : Handle s x) (hd : Designates s x d) (hr : InResume s d k' ls' rest') :
    ∃ s' r, step s t (.resume x) = .ok s' ∧ UserCode s' t d k' (r :: ls') rest' ∧ Designates s' r c ∧ Suspended s' c ∧ s'.val x = none ∧
      InResume s' c k ls rest := by
  have hF := (reachable_spec h).2
  have hi := Fiber.reachable_inv hF
  obtain ⟨s1, r, h1, h2, h3, h4, h5, h6⟩ := Fiber.C05_resumed_gets_resumer hF (userCode_abs hu) (handle_abs ha) hd (abs_inResume hr)
  have hv1 := Fiber.C04_consumed (x := x) hF (by trivial) h1
  obtain ⟨f, hv, rfl⟩ := hd
  have hne : f.ctx ≠ c := ((Fiber.facts hi hu.1).2.2.2 x f hv).2.2
  have hst : step s t (.resume x) = s.doResume t c x := by simp only [step, hu.1, hu.2, userStep, handle_accessible ha, if_true]
  have hspec := doResume_spec (s := s) (t := t) (c := c) (x := x) (fun d _ => (reachable_spec h).1 d)
    (by have := (reachable_spec h).1 c; rw [hu.2] at this ⊢; exact ⟨rfl, this.2⟩)
  have hfst : Fiber.step s.abs t (.resume x) = s.abs.doResume t c x := by
    simp only [Fiber.step, (userCode_abs hu).1, (userCode_abs hu).2, Fiber.userStep, Fiber.handle_accessible (handle_abs ha), if_true]
  rw [hfst, hspec.1] at h1
  obtain ⟨s', hs', he⟩ := abs_ok h1
  subst he
  -- the stacks
  have hfr : s'.frames f.ctx = .user k' none (s.nextVar :: ls') .normal :: rest' ∧ s'.frames c = .resume :: .user k none ls .normal :: rest := by
    simp only [State.doResume, hv, State.jump] at hs'
    split at hs'
    · cases hs'
    · rename_i s2 b h7
      have hf2 := switch_frames h7
      have hn2 := switch_nextVar h7
      simp only [State.setFrames, State.setVal] at hf2 hn2
      have : s2.frames f.ctx = .resume :: .user k' none ls' .normal :: rest' := by
        rw [hf2]; simp only [upd_apply, hne, if_false]; exact hr
      simp only [State.deliver, this, Res.ok.injEq] at hs'
      subst hs'
      simp only [State.setFrames, State.newVar, upd_apply, if_true, Ne.symm hne, if_false, hf2, hn2, hu.2, and_self]
  have hrr : r = s.nextVar := by
    have := h2.2
    rw [abs_frames, hfr.1] at this
    simp [Frame.abs] at this
    exact this.symm
  subst hrr
  exact ⟨s', s.nextVar, by rw [hst, hs'], ⟨h2.1, hfr.1⟩, h4, h6, hv1, hfr.2⟩

/-- two contexts: main calls `callcc` (context 1), which resumes main; main then is about to resume it -/
example : Reachable (exec h2) ∧ UserCode (exec h2) 0 0 .main [2] [] ∧ Handle (exec h2) 2 ∧ Designates (exec h2) 2 1 ∧
    InResume (exec h2) 1 .fn [1] [.entryRun] :=
  ⟨reachable_exec (by decide), ⟨by decide, by decide⟩, ⟨.inr (.inl ⟨0, by decide⟩), by decide⟩, ⟨⟨1, 2⟩, by decide, rfl⟩,
    (by decide : (exec h2).frames 1 = _)⟩

/-- (C05 for `callcc`) A context suspended in `callcc()` is resumed: that `callcc()` is about to return an object designating the context that
has resumed it (`C21_callcc_returns` is the next step). -/
theorem C21_callcc_gets_resumer {s : State} {t : Tid} {c d : CtxId} {k k' : UKind} {ls ls' : List Var} {rest rest' : List Frame} {x : Var}
    (h : Reachable s) (hu : UserCode s t c k ls rest) (ha : Handle s x) (hd : Designates s x d) (hr : InCallcc s d k' ls' rest') :
    ∃ s' r z, step s t (.resume x) = .ok s' ∧ RunsOn s' t d ∧ s'.frames d = .callcc z (.returning r) k' none ls' :: rest' ∧ Designates s' r c ∧
      Suspended s' c ∧ InResume s' c k ls rest := by
  have hF := (reachable_spec h).2
  have hi := Fiber.reachable_inv hF
  obtain ⟨f, hv, rfl⟩ := hd
  obtain ⟨z, hr⟩ := hr
  have hne : f.ctx ≠ c := ((Fiber.facts hi hu.1).2.2.2 x f hv).2.2
  obtain ⟨h4, h5⟩ := hi.vi.valid x f hv
  have hsw : ((s.setVal x none).setFrames c (.resume :: s.frames c)).switch t f .suspended true =
      some ({ ((s.setVal x none).setFrames c (.resume :: s.frames c)) with
        cur := upd s.cur t (some f.ctx), status := upd (upd s.status c .suspended) f.ctx (.running t), seq := upd s.seq c (s.seq c + 1) },
        ⟨c, s.seq c + 1⟩) := by
    have h4' : s.status f.ctx = .suspended := h4
    have h5' : s.seq f.ctx = f.seq := h5
    simp [State.switch, State.setVal, State.setFrames, hu.1, h4', h5']
  have hst : step s t (.resume x) = s.doResume t c x := by simp only [step, hu.1, hu.2, userStep, handle_accessible ha, if_true]
  rw [hst]
  simp only [State.doResume, hv, State.jump, hsw]
  have : (upd s.frames c (.resume :: s.frames c)) f.ctx = .resume :: .callcc z .waiting k' none ls' :: rest' := by
    simp only [upd_apply, hne, if_false]; exact hr
  simp only [State.deliver, State.setFrames, this, State.setVal]
  refine ⟨_, s.nextVar, z, rfl, ?_, ?_, ⟨⟨c, s.seq c + 1⟩, ?_, rfl⟩, ?_, ?_⟩
  · simp [RunsOn, State.newVar]
  · simp [State.newVar]
  · simp [State.newVar]
  · simp [Suspended, State.newVar, Ne.symm hne]
  · simp [InResume, State.newVar, Ne.symm hne, hu.2]

/-- context 1, started by `callcc` of main, is about to resume main -/
example : let s := exec [(0, .callcc [] .success)]
    Reachable s ∧ UserCode s 0 1 .fn [1] [.entryRun] ∧ Handle s 1 ∧ Designates s 1 0 ∧ InCallcc s 0 .main [] [] :=
  ⟨reachable_exec (by decide), ⟨by decide, by decide⟩, ⟨.inr (.inl ⟨1, by decide⟩), by decide⟩, ⟨⟨0, 2⟩, by decide, rfl⟩,
    ⟨0, by decide⟩⟩

/-- (C09) Destroying an object whose context is suspended in `resume()` or in `callcc()`: `forced_unwind` is raised there, and the destroying context is
suspended inside the destructor. -/
theorem C21_destroy_unwinds {s : State} {t : Tid} {c d : CtxId} {k k' : UKind} {ls ls' : List Var} {rest rest' : List Frame} {x : Var}
    (h : Reachable s) (hu : UserCode s t c k ls rest) (ha : Handle s x) (hdr : x ∈ ls ∨ s.kind x = .heap) (hd : Designates s x d)
    (hr : InResume s d k' ls' rest' ∨ InCallcc s d k' ls' rest') :
    ∃ s' e ls1, step s t (.drop x) = .ok s' ∧ RunsOn s' t d ∧ Designates s' e c ∧ s'.kind x = .dead ∧ Suspended s' c ∧
      s'.frames c = .dtor d :: .user k none ls1 .normal :: rest ∧ x ∉ ls1 ∧
      (s'.frames d = .user k' none ls' (.unwinding (.forced e)) :: rest' ∨
        ∃ z, s'.frames d = .callcc z (.unwinding (.forced e)) k' none ls' :: rest') := by
  have hF := (reachable_spec h).2
  have hi := Fiber.reachable_inv hF
  obtain ⟨f, hv, rfl⟩ := hd
  have hne : f.ctx ≠ c := ((Fiber.facts hi hu.1).2.2.2 x f hv).2.2
  obtain ⟨h4, h5⟩ := hi.vi.valid x f hv
  have h4' : s.status f.ctx = .suspended := h4
  have h5' : s.seq f.ctx = f.seq := h5
  have hlt : x < s.nextVar := Fiber.lt_nextVar hi (Fiber.accessible_ne_dead (accessible_abs (handle_accessible ha)))
  have hnd : ls.Nodup := by
    have := hi.oi.locsN c
    rw [abs_frames, hu.2] at this
    simp only [absL_cons, Frame.abs, Fiber.lvars, List.flatMap_cons, Fiber.Frame.lvars] at this
    exact (List.nodup_append.1 this).1
  have main : ∀ s0 : State, s0.cur = s.cur → s0.status = s.status → s0.seq = s.seq → s0.nextVar = s.nextVar → s0.frames f.ctx = s.frames f.ctx → s0.val x = some f →
      ∀ ls1, s0.frames c = .user k none ls1 .normal :: rest → x ∉ ls1 →
      ∃ s' e ls1, s0.destroyVar t c x = .ok s' ∧ RunsOn s' t f.ctx ∧ Designates s' e c ∧ s'.kind x = .dead ∧ Suspended s' c ∧
      s'.frames c = .dtor f.ctx :: .user k none ls1 .normal :: rest ∧ x ∉ ls1 ∧
      (s'.frames f.ctx = .user k' none ls' (.unwinding (.forced e)) :: rest' ∨
        ∃ z, s'.frames f.ctx = .callcc z (.unwinding (.forced e)) k' none ls' :: rest') := by
    intro s0 g1 g2 g3 g4 g5 g6 ls1 g7 g8
    have hsw : ((s0.kill x).setFrames c (.dtor f.ctx :: s0.frames c)).switch t f .suspended false =
        some ({ ((s0.kill x).setFrames c (.dtor f.ctx :: s0.frames c)) with
          cur := upd s.cur t (some f.ctx), status := upd (upd s.status c .suspended) f.ctx (.running t), seq := upd s.seq c (s.seq c + 1) },
          ⟨c, s.seq c + 1⟩) := by
      simp [State.switch, State.kill, State.setFrames, g1, g2, g3, hu.1, h4', h5']
    simp only [State.destroyVar, g6, State.destroyFctx, State.ontopSwitch]
    rw [show (s0.kill x).frames c = s0.frames c from rfl, hsw]
    rcases hr with hr | ⟨z, hr⟩
    · have hfr : (upd s0.frames c (.dtor f.ctx :: s0.frames c)) f.ctx = .resume :: .user k' none ls' .normal :: rest' := by
        simp only [upd_apply, hne, if_false, g5]; exact hr
      simp only [State.raiseForced, State.setFrames, State.kill, hfr]
      refine ⟨_, s0.nextVar, ls1, rfl, ?_, ⟨⟨c, s.seq c + 1⟩, ?_, rfl⟩, ?_, ?_, ?_, g8, .inl ?_⟩
      · simp [RunsOn, State.newVar]
      · simp [State.newVar]
      · simp only [State.newVar, upd_apply, if_true]; rw [if_neg (by rw [g4]; exact Nat.ne_of_lt hlt)]
      · simp [Suspended, State.newVar, Ne.symm hne]
      · simp [State.newVar, Ne.symm hne, g7]
      · simp [State.newVar]
    · have hfr : (upd s0.frames c (.dtor f.ctx :: s0.frames c)) f.ctx = .resume :: .callcc z .waiting k' none ls' :: rest' := by
        simp only [upd_apply, hne, if_false, g5]; exact hr
      simp only [State.raiseForced, State.setFrames, State.kill, hfr]
      refine ⟨_, s0.nextVar, ls1, rfl, ?_, ⟨⟨c, s.seq c + 1⟩, ?_, rfl⟩, ?_, ?_, ?_, g8, .inr ⟨z, ?_⟩⟩
      · simp [RunsOn, State.newVar]
      · simp [State.newVar]
      · simp only [State.newVar, upd_apply, if_true]; rw [if_neg (by rw [g4]; exact Nat.ne_of_lt hlt)]
      · simp [Suspended, State.newVar, Ne.symm hne]
      · simp [State.newVar, Ne.symm hne, g7]
      · simp [State.newVar]
  by_cases hx : x ∈ ls
  · have hst : step s t (.drop x) = (s.setFrames c (.user k none (ls.erase x) .normal :: rest)).destroyVar t c x := by
      simp only [step, hu.1, hu.2, userStep, hx, if_true]
    rw [hst]
    exact main _ rfl rfl rfl rfl (by simp [State.setFrames, hne]) hv (ls.erase x) (by simp [State.setFrames])
      (by rw [hnd.mem_erase_iff]; simp)
  · have hk : s.kind x = .heap := by rcases hdr with h | h; exact absurd h hx; exact h
    have hst : step s t (.drop x) = s.destroyVar t c x := by
      simp only [step, hu.1, hu.2, userStep, hx, if_false, hk, if_true]
    rw [hst]
    exact main s rfl rfl rfl rfl rfl hv ls hu.2 hx

example : Reachable (exec h2) ∧ UserCode (exec h2) 0 0 .main [2] [] ∧ Handle (exec h2) 2 ∧ Designates (exec h2) 2 1 ∧
    InResume (exec h2) 1 .fn [1] [.entryRun] :=
  ⟨reachable_exec (by decide), ⟨by decide, by decide⟩, ⟨.inr (.inl ⟨0, by decide⟩), by decide⟩, ⟨⟨1, 2⟩, by decide, rfl⟩,
    (by decide : (exec h2).frames 1 = _)⟩

/-- (C11) `resume_with(fn)` with an rvalue function: `fn` runs at once on top of the target, its parameter designates the caller. -/
theorem C21_on_top {s : State} {t : Tid} {c d : CtxId} {k : UKind} {ls : List Var} {rest : List Frame} {x : Var}
    (h : Reachable s) (hu : UserCode s t c k ls rest) (ha : Handle s x) (hd : Designates s x d) :
    ∃ s' p, step s t (.resumeWith x false) = .ok s' ∧ RunsOn s' t d ∧ s'.frames d = .user (.ontop s.nextId) none [p] .normal :: s.frames d ∧
      Designates s' p c ∧ InResume s' c k ls rest ∧ s'.log = .ontop s.nextId d :: s.log ∧ s'.nextId = s.nextId + 1 := by
  have hF := (reachable_spec h).2
  have hi := Fiber.reachable_inv hF
  obtain ⟨f, hv, rfl⟩ := hd
  have hne : f.ctx ≠ c := ((Fiber.facts hi hu.1).2.2.2 x f hv).2.2
  obtain ⟨h4, h5⟩ := hi.vi.valid x f hv
  have h4' : s.status f.ctx = .suspended := h4
  have h5' : s.seq f.ctx = f.seq := h5
  have hsw : ((s.setVal x none).setFrames c (.resume :: s.frames c)).switch t f .suspended false =
      some ({ ((s.setVal x none).setFrames c (.resume :: s.frames c)) with
        cur := upd s.cur t (some f.ctx), status := upd (upd s.status c .suspended) f.ctx (.running t), seq := upd s.seq c (s.seq c + 1) },
        ⟨c, s.seq c + 1⟩) := by
    simp [State.switch, State.setVal, State.setFrames, hu.1, h4', h5']
  have hst : step s t (.resumeWith x false) = s.doResumeWith t c x false := by simp only [step, hu.1, hu.2, userStep, handle_accessible ha, if_true]
  rw [hst]
  simp only [State.doResumeWith, hv, State.ontopSwitch, hsw]
  refine ⟨_, s.nextVar, rfl, ?_, ?_, ⟨⟨c, s.seq c + 1⟩, ?_, rfl⟩, ?_, ?_, ?_⟩
  · simp [RunsOn, State.newVar, State.setFrames, State.addLog]
  · simp [State.newVar, State.setFrames, State.addLog, State.setVal, hne]
  · simp [State.newVar, State.setFrames, State.addLog, State.setVal]
  · simp [InResume, State.newVar, State.setFrames, State.addLog, State.setVal, Ne.symm hne, hu.2]
  · simp [State.newVar, State.setFrames, State.addLog, State.setVal]
  · simp [State.newVar, State.setFrames, State.addLog, State.setVal]

/-- (C14) Assertions fail exactly on `resume()`/`resume_with()` of an empty object and when the function of a context returns an empty object. -/
theorem C21_assertion_only {s : State} {t : Tid} {op : Op} (h : Reachable s) (hl : op.lvalueFn = false) (hs : step s t op = .assertion) :
    (∃ x, (op = .resume x ∨ op = .resumeWith x false ∨ ∃ n b, op = .withThrows x n b) ∧ s.val x = none) ∨
    (op = .tick ∧ ∃ c x rest, RunsOn s t c ∧ s.frames c = .user .fn none [] (.returning (some x)) :: rest ∧ s.val x = none) := by
  have hF := (reachable_spec h).2
  have hstep := C21_step_refines (op := op) (t := t) h hl (by rw [hs]; simp)
  rw [hs] at hstep
  have hA : ∀ op', Fiber.run s.abs [(t, op')] = .assertion → Fiber.Asserts s.abs t op' := by
    intro op' h1; rw [run_single] at h1; exact (Fiber.C14_assertion_iff hF t op').1 h1
  cases op <;> simp only [fiberOps] at hstep <;> (try (cases hA _ hstep; done))
  · rename_i xs o
    cases o with
    | success =>
      exfalso
      have hgood : ∃ c0 k ls rest, UserCode s t c0 k ls rest ∧ ∀ x ∈ xs, Handle s x := by
        simp only [step] at hs
        split at hs
        · cases hs
        · rename_i c0 hc0
          split at hs <;> try (cases hs; done)
          rename_i k lib ls rest hf
          have hlib : lib = none := by have := (reachable_spec h).1 c0; rw [hf] at this; exact this.1
          subst hlib
          simp only [userStep] at hs
          split at hs
          · rename_i hall
            refine ⟨c0, k, ls, rest, ⟨hc0, hf⟩, ?_⟩
            intro x hx
            have hacc := List.all_eq_true.1 hall x hx
            refine ⟨Fiber.accessible_handle (accessible_abs hacc), ?_⟩
            simp only [State.accessible] at hacc
            split at hacc <;> simp_all
          · cases hs
      obtain ⟨c0, k, ls, rest, hu, ha⟩ := hgood
      obtain ⟨s1, p, n, h1, _⟩ := C21_callcc h hu ha
      rw [hs] at h1; cases h1
    | _ => cases hA _ hstep
  · rename_i x
    cases hA _ hstep with
    | resume hu ha hv => exact .inl ⟨x, .inl rfl, hv⟩
  · rename_i x lv
    simp only [Op.lvalueFn] at hl
    subst hl
    cases hA _ hstep with
    | resumeWith hu ha hv => exact .inl ⟨x, .inr (.inl rfl), hv⟩
  · rename_i x n b
    cases hA _ hstep with
    | withThrows hu ha hv => exact .inl ⟨x, .inr (.inr ⟨n, b, rfl⟩), hv⟩
  · refine .inr ⟨rfl, ?_⟩
    split at hstep
    · cases hA _ hstep
    · rename_i hnot
      cases hA _ hstep with
      | fnReturn hr hf hv =>
        rename_i c x rest
        rw [abs_frames] at hf
        rcases hfs : s.frames c with _ | ⟨f, r⟩
        · rw [hfs] at hf; simp at hf
        · rw [hfs] at hf
          simp only [absL_cons, List.cons.injEq] at hf
          have h1 := hf.1
          have hlib := (reachable_spec h).1 c
          rw [hfs] at hlib
          cases f with
          | user k lib ls m =>
            simp only [Frame.abs, Fiber.Frame.user.injEq] at h1
            obtain ⟨rfl, rfl, rfl⟩ := h1
            have : lib = none := hlib.1
            subst this
            exact ⟨c, x, r, hr, hfs, hv⟩
          | callcc z cm k lib ls => cases cm <;> simp [Frame.abs] at h1
          | _ => simp [Frame.abs] at h1

example : Reachable (exec (h2 ++ [(0, .newLocal)])) ∧ (exec (h2 ++ [(0, .newLocal)])).val 3 = none ∧
    step (exec (h2 ++ [(0, .newLocal)])) 0 (.resume 3) = .assertion := ⟨reachable_exec (by decide), by decide, by
      have : ∀ r : Res, (match r with | .assertion => true | _ => false) = true → r = .assertion := by intro r; cases r <;> simp
      exact this _ (by decide)⟩

end Verif.Cont
