import Verif.EH.UCModel
import Verif.EH.UProps
import Verif.UCont.Props

/-! # C93 for `continuation` on ucontext -/

namespace Verif.EH.UC
open Verif.UCont
open Verif.Fiber (CtxId Var Tid Exc UKind upd upd_apply)

/-! ## The same calls of the runtime as with `fiber` -/

theorem arrPrims_abs (s : State) (w : CtxId) : U.arrPrims s.abs w = arrPrims s w := by
  simp only [U.arrPrims, arrPrims, abs_frames, abs_unw]
  cases s.frames w with
  | nil => rfl
  | cons g rest =>
    cases g <;> (try rfl)
    rename_i cm _ _; cases cm <;> rfl

theorem toPrims_abs (s : State) (v : Option CtxId) : U.toPrims s.abs v = toPrims s v := by
  cases v with
  | none => rfl
  | some w => exact arrPrims_abs s w

theorem destroyPrims_abs (s : State) (v : Option CtxId) : U.destroyPrims s.abs v = destroyPrims s v := by
  cases v with
  | none => rfl
  | some v =>
    simp only [U.destroyPrims, destroyPrims, abs_frames, abs_root, abs_term]
    congr 1
    cases s.frames v with
    | nil => rfl
    | cons g rest =>
      cases g <;> (try rfl)
      rename_i cm _ _; cases cm <;> rfl

theorem inflight_abs (fs : List Frame) : EH.inflight (absL fs) = inflight fs := by
  induction fs with
  | nil => rfl
  | cons f fs ih =>
    simp only [absL] at ih
    cases f with
    | user k ls m => cases m <;> simp [absL, Frame.abs, EH.inflight, inflight, ih]
    | callcc x cm k ls => cases cm <;> simp [absL, Frame.abs, EH.inflight, inflight, ih]
    | _ => simp [absL, Frame.abs, EH.inflight, inflight, ih]

theorem prims_abs {s s' : State} {t : Tid} {op : Op} (hr : Reachable s) (ho : op ≠ .swallow) (hs : step s t op = .ok s') :
    (prims s t op = [] ∧ ∃ xs, op = .callcc xs .success) ∨ ∃ op', fiberOps s t op = [(t, op')] ∧ op' ≠ .swallow ∧ U.prims s.abs t op' = prims s t op := by
  have hw := (reachable_facts hr).cwf
  cases hc : s.cur t with
  | none => simp [step, hc] at hs
  | some c =>
    specialize hw c
    have hc' : s.abs.cur t = some c := hc
    cases hf : s.frames c with
    | nil => simp [step, hc, hf] at hs
    | cons f rest =>
      rw [hf] at hw
      cases f with
      | user k ls m =>
        have hf' : s.abs.frames c = .user k ls m :: absL rest := by rw [abs_frames, hf]; rfl
        cases m with
        | normal =>
          cases op <;> (try (simp [step, hc, hf, userStep] at hs; done)) <;>
            (try (refine .inr ⟨_, rfl, by simp, ?_⟩; simp [U.prims, prims, hc, hc', hf, hf', Frame.abs, destroyPrims_abs, toPrims_abs]; done))
          case callcc xs o =>
            cases o with
            | success => exact .inl ⟨by simp [prims, hc, hf], xs, rfl⟩
            | _ => exact .inr ⟨_, rfl, by simp, by simp [U.prims, prims, hc, hc', hf, hf', Frame.abs]⟩
        | unwinding e =>
          cases ls with
          | nil =>
            cases op <;> (try (simp [step, hc, hf] at hs; done))
            case tick =>
              refine .inr ⟨.tick, by simp [fiberOps, hc, hf], by simp, ?_⟩
              simp only [U.prims, prims, hc, hc', hf, hf', Frame.abs]
              cases k <;> cases e <;> (try rfl)
              simp only [toPrims_abs, abs_val]
            case swallow => exact absurd rfl ho
            all_goals exact .inr ⟨_, rfl, by simp, by simp [U.prims, prims, hc, hc', hf, hf', Frame.abs]⟩
          | cons x ls =>
            cases op <;> (try (simp [step, hc, hf] at hs; done))
            case tick => exact .inr ⟨.tick, by simp [fiberOps, hc, hf], by simp, by simp [U.prims, prims, hc, hc', hf, hf', Frame.abs, destroyPrims_abs, toPrims_abs]⟩
            all_goals exact .inr ⟨_, rfl, by simp, by simp [U.prims, prims, hc, hc', hf, hf', Frame.abs]⟩
        | returning y =>
          cases ls with
          | nil =>
            cases op <;> (try (simp [step, hc, hf] at hs; done))
            case tick =>
              refine .inr ⟨.tick, by simp [fiberOps, hc, hf], by simp, ?_⟩
              simp only [U.prims, prims, hc, hc', hf, hf', Frame.abs]
              cases k <;> cases y <;> (try rfl)
              simp only [toPrims_abs, abs_val]
            all_goals exact .inr ⟨_, rfl, by simp, by simp [U.prims, prims, hc, hc', hf, hf', Frame.abs]⟩
          | cons x ls =>
            cases op <;> (try (simp [step, hc, hf] at hs; done))
            case tick => exact .inr ⟨.tick, by simp [fiberOps, hc, hf], by simp, by simp [U.prims, prims, hc, hc', hf, hf', Frame.abs, destroyPrims_abs, toPrims_abs]⟩
            all_goals exact .inr ⟨_, rfl, by simp, by simp [U.prims, prims, hc, hc', hf, hf', Frame.abs]⟩
      | callcc x cm k ls =>
        have hf' : s.abs.frames c = (Frame.callcc x cm k ls).abs :: absL rest := by rw [abs_frames, hf]; rfl
        cases cm with
        | waiting => simp [step, hc, hf] at hs
        | returning y =>
          cases op <;> (try (simp [step, hc, hf] at hs; done))
          exact .inr ⟨.drop x, by simp [fiberOps, hc, hf], by simp, by simp [U.prims, prims, hc, hc', hf, hf', Frame.abs, destroyPrims_abs, toPrims_abs]⟩
        | unwinding e =>
          cases op <;> (try (simp [step, hc, hf] at hs; done))
          exact .inr ⟨.tick, by simp [fiberOps, hc, hf], by simp, by simp [U.prims, prims, hc, hc', hf, hf', Frame.abs, destroyPrims_abs, toPrims_abs]⟩
      | exiting n =>
        have hf' : s.abs.frames c = .exiting n :: absL rest := by rw [abs_frames, hf]; rfl
        cases op <;> (try (simp [step, hc, hf] at hs; done))
        case tick =>
          refine .inr ⟨.tick, by simp [fiberOps, hc, hf], by simp, ?_⟩
          simp only [U.prims, prims, hc, hc', hf, hf', abs_caps]
          cases s.caps n <;> simp [destroyPrims_abs]
        all_goals exact .inr ⟨_, rfl, by simp, by simp [U.prims, prims, hc, hc', hf, hf', Frame.abs]⟩
      | _ => simp [step, hc, hf] at hs

/-! ## Transfer -/

/-- the state of the fiber machine -/
def EState.abs (a : EState) : U.EState := ⟨a.st.abs, a.g, a.own⟩

/-- rule `R` of continuations corresponds to rule `R'` of fibers -/
structure Lifts (R : EState → Tid → EState → Prop) (R' : U.EState → Tid → U.EState → Prop) : Prop where
  same : ∀ x t y, x.st.cur t = y.st.cur t → R' x t y
  lift : ∀ a t b x, x.st.cur t = a.st.cur t → x.own = a.own → R a t b → R' x t b.abs

theorem lifts_noJump : Lifts NoJumpInCatch U.NoJumpInCatch where
  same x t y h c h1 h2 := absurd (h ▸ h1) h2
  lift a t b x h1 h2 h c h3 h4 := by rw [h2]; exact h c (h1 ▸ h3) h4

theorem lifts_clean : Lifts CleanSwitches U.CleanSwitches where
  same x t y h c h1 h2 := absurd (h ▸ h1) h2
  lift a t b x h1 h2 h c h3 h4 := by
    rw [h2]
    rcases h c (h1 ▸ h3) h4 with ⟨h5, h6⟩ | ⟨v, rest, h5⟩
    · exact .inl ⟨h5, by show EH.inflight (absL (b.st.frames c)) = 0; rw [inflight_abs]; exact h6⟩
    · exact .inr ⟨v, absL rest, by show absL (b.st.frames c) = _; rw [h5]; rfl⟩

theorem lifts_any : Lifts (fun _ _ _ => True) (fun _ _ _ => True) := ⟨fun _ _ _ _ => trivial, fun _ _ _ _ _ _ _ => trivial⟩

theorem upd_same {α : Type} (f : Tid → α) (t : Tid) : upd f t (f t) = f := by
  funext x; simp only [upd_apply]; split <;> simp_all

theorem capture_nextVar (s : UFiber.State) (n : CtxId) (xs : List Var) : (s.capture n xs).nextVar = s.nextVar + xs.length := by
  induction xs generalizing s with
  | nil => rfl
  | cons x xs ih => simp only [UFiber.State.capture, ih, List.length_cons, UFiber.State.newVar, UFiber.State.setVal]; omega

theorem create_cur {s s1 : UFiber.State} {t : Tid} {xs : List Var} (hi : UFiber.Inv s) (h : UFiber.step s t (.create xs .success) = .ok s1) :
    s1.cur = s.cur ∧ s1.val (s.nextVar + xs.length) = some s.nextCtx ∧ s1.frames s.nextCtx = [.entryJump] := by
  obtain ⟨c, hc, he⟩ := UFiber.step_eff h
  have hcn : s.nextCtx ≠ c := by
    intro e
    have h1 := (hi.ci.curRun t c).1 hc
    rw [(hi.ci.absent c).2 (by omega)] at h1; cases h1
  clear h
  cases he with
  | @create k ls rest xs hf ha s2 h2 =>
    refine ⟨(h2 ▸ UFiber.capture_same ({ s with nextCtx := s.nextCtx + 1 }.addLog (.alloc s.nextCtx)) s.nextCtx xs).1, ?_, ?_⟩
    · have : s2.nextVar = s.nextVar + xs.length := by rw [h2, capture_nextVar]; rfl
      simp [this]
    · simp [hcn]
  | destroy h1 => cases h1

/-- A step is one step of the fiber machine, or (`callcc`) two, the first of which changes neither who is executed nor any exception state. -/
theorem EStep.abs {a b : EState} {t : Tid} (hr : Reachable a.st) (hs : EStep a t b) :
    Reachable b.st ∧ ∃ x, (x = a.abs ∨ (U.EStep a.abs t x ∧ x.st.cur = a.st.cur ∧ x.own = a.own ∧ x.g = a.g)) ∧ U.EStep x t b.abs := by
  cases hs with
  | endCatch hc hn => exact ⟨hr, _, .inl rfl, .endCatch hc hn⟩
  | @lib op s' ho hs =>
    refine ⟨.step hr hs, ?_⟩
    have href := step_run_ok hr hs
    rcases prims_abs hr ho hs with ⟨hp, xs, rfl⟩ | ⟨op', ho', hsw, hp⟩
    · simp only [fiberOps, UFiber.run] at href
      split at href
      · next s1 h1 =>
        split at href
        · next s2 h2 =>
          cases href
          have e1 := U.EStep.lib (a := a.abs) (by simp) h1
          have p1 : U.prims a.abs.st t (.create xs .success) = [] := by
            simp only [U.prims]; split <;> (try rfl); split <;> rfl
          obtain ⟨c1, v1, f1⟩ := create_cur (reachable_facts hr).inv h1
          replace v1 : s1.val (a.st.nextVar + xs.length) = some a.st.nextCtx := v1
          replace f1 : s1.frames a.st.nextCtx = [.entryJump] := f1
          have p2 : U.prims s1 t (.resume (a.st.nextVar + xs.length)) = [] := by
            simp only [U.prims]; split <;> (try rfl); split <;> (try rfl)
            · simp only [v1, U.toPrims, U.arrPrims, f1]
          rw [p1] at e1
          replace c1 : s1.cur = a.st.cur := c1
          have e2 := U.EStep.lib (a := a.abs.after s1 t []) (t := t) (by simp) h2
          have p2' : U.prims (a.abs.after s1 t []).st t (.resume (a.st.nextVar + xs.length)) = [] := p2
          rw [p2'] at e2
          have hfin : (a.abs.after s1 t []).after s'.abs t [] = (a.after s' t (prims a.st t (.callcc xs .success))).abs := by
            rw [hp]
            simp only [U.EState.after, EState.abs, EState.after, List.foldl_nil, upd_same]
          rw [hfin] at e2
          exact ⟨_, .inr ⟨e1, c1, rfl, by simp only [U.EState.after, EState.abs, List.foldl_nil, upd_same]⟩, e2⟩
        · next h1 => exact absurd href (h1 _)
      · next h1 => exact absurd href (h1 _)
    · rw [ho', run_single] at href
      have e := U.EStep.lib (a := a.abs) (t := t) hsw href
      have hp' : U.prims a.abs.st t op' = prims a.st t op := hp
      rw [hp'] at e
      exact ⟨_, .inl rfl, e⟩

theorem Hist.abs {R R'} (hl : Lifts R R') {a : EState} (h : Hist R a) : Reachable a.st ∧ U.Hist R' a.abs := by
  induction h with
  | init =>
    refine ⟨.init, ?_⟩
    have : (einit : EState).abs = U.einit := by
      have : UCont.init.abs = UFiber.init := by
        simp only [State.abs, UCont.init, UFiber.init, UFiber.State.mk.injEq, true_and, and_true]
        funext c; split <;> simp [Frame.abs]
      simp only [EState.abs, einit, U.einit, this]
    rw [this]; exact .init
  | @step a b t _ hs hR ih =>
    obtain ⟨hr, ih⟩ := ih
    obtain ⟨hrb, x, hx, hs'⟩ := hs.abs hr
    refine ⟨hrb, ?_⟩
    rcases hx with rfl | ⟨h1, h2, h3, -⟩
    · exact .step ih hs' (hl.lift _ _ _ _ rfl rfl hR)
    · exact .step (.step ih h1 (hl.same _ _ _ (by rw [h2]; rfl))) hs' (hl.lift _ _ _ _ (by rw [h2]) h3 hR)

theorem Hist.any {R} {a : EState} (h : Hist R a) : Hist (fun _ _ _ => True) a := by
  induction h with
  | init => exact .init
  | step _ hs _ ih => exact .step ih hs trivial

/-! ## Concrete histories -/

instance {s : State} {t : Tid} {c : CtxId} : Decidable (RunsOn s t c) := inferInstanceAs (Decidable (s.cur t = some c))
instance {a : EState} {t : Tid} {e : Exc} : Decidable (Rethrows a t e) := inferInstanceAs (Decidable ((a.g t).caught.head? = some e))

inductive EOp
  | lib (op : Op) | endCatch

def erun1 (a : EState) (t : Tid) : EOp → Option EState
  | .lib op => match op, step a.st t op with
    | .swallow, _ => none
    | op, .ok s' => some (a.after s' t (prims a.st t op))
    | _, _ => none
  | .endCatch => match a.st.cur t with
    | some c => if (a.own c).caught = [] then none else some (a.after a.st t [(c, .endCatch)])
    | none => none

/-- run a history; every step must pass the check `k` -/
def erun (k : EState → Tid → EState → Bool) (a : EState) : List (Tid × EOp) → Option EState
  | [] => some a
  | (t, o) :: h => match erun1 a t o with
    | some b => if k a t b then erun k b h else none
    | none => none

theorem erun1_step {a b : EState} {t : Tid} {o : EOp} (h : erun1 a t o = some b) : EStep a t b := by
  cases o with
  | lib op =>
    simp only [erun1] at h
    split at h
    · cases h
    · next s' hn hs => cases h; exact .lib hn hs
    · cases h
  | endCatch =>
    simp only [erun1] at h
    split at h
    · next c hc =>
      split at h
      · cases h
      · next hn => cases h; exact .endCatch hc hn
    · cases h

theorem erun_hist {k : EState → Tid → EState → Bool} {R : EState → Tid → EState → Prop} (hk : ∀ a t b, k a t b = true → R a t b) :
    ∀ {h : List (Tid × EOp)} {a b : EState}, Hist R a → erun k a h = some b → Hist R b
  | [], a, b, ha, he => by simp only [erun, Option.some.injEq] at he; exact he ▸ ha
  | (t, o) :: h, a, b, ha, he => by
    simp only [erun] at he
    split at he
    · next c hc =>
      split at he
      · next hcheck => exact erun_hist hk (.step ha (erun1_step hc) (hk _ _ _ hcheck)) he
      · cases he
    · cases he

def checkA (a : EState) (t : Tid) (b : EState) : Bool := match a.st.cur t with
  | some c => decide (b.st.cur t = some c) || decide ((a.own c).caught = [])
  | none => true

theorem checkA_ok (a : EState) (t : Tid) (b : EState) (h : checkA a t b = true) : NoJumpInCatch a t b := by
  intro c hc hn
  simp only [checkA, hc, Bool.or_eq_true, decide_eq_true_eq] at h
  exact h.resolve_left hn

def isDtor : List Frame → Bool
  | .dtor _ :: _ => true
  | _ => false

def checkB (a : EState) (t : Tid) (b : EState) : Bool := match a.st.cur t with
  | some c => decide (b.st.cur t = some c) || (decide ((a.own c).caught = []) && decide (inflight (b.st.frames c) = 0)) || isDtor (b.st.frames c)
  | none => true

theorem checkB_ok (a : EState) (t : Tid) (b : EState) (h : checkB a t b = true) : CleanSwitches a t b := by
  intro c hc hn
  simp only [checkB, hc, Bool.or_eq_true, Bool.and_eq_true, decide_eq_true_eq] at h
  rcases h with (h | h) | h
  · exact absurd h hn
  · exact .inl h
  · unfold isDtor at h
    split at h
    · next v rest hf => exact .inr ⟨v, rest, hf⟩
    · cases h

def eget (k : EState → Tid → EState → Bool) (h : List (Tid × EOp)) : EState := (erun k einit h).getD einit

theorem eget_hist {k : EState → Tid → EState → Bool} {R : EState → Tid → EState → Prop} (hk : ∀ a t b, k a t b = true → R a t b) (h : List (Tid × EOp)) : Hist R (eget k h) := by
  unfold eget
  cases he : erun k einit h with
  | none => exact .init
  | some b => exact erun_hist hk .init he

def libs (t : Tid) (l : List Op) : List (Tid × EOp) := l.map fun o => (t, .lib o)

/-- `callcc` starts a context, which catches exception 8 -/
def hCatch : List (Tid × EOp) := libs 0 [.callcc [] .success, .call, .throw 8, .catchUser]

/-- as `hCatch`; the handler ends, the context resumes `main`, `main` catches exception 7 -/
def hBack : List (Tid × EOp) := hCatch ++ [(0, .endCatch), (0, .lib (.resume 1))] ++ libs 0 [.tick, .call, .throw 7, .catchUser]

/-- a context is started and suspended; an exception leaves `main` and the destructor of `main`'s `continuation` unwinds the context -/
def hUnwind : List (Tid × EOp) := libs 0 [.callcc [] .success, .resume 1, .tick, .throw 7, .tick]

/-- `main`, in a handler of exception 7, starts a context; the context catches exception 8 and resumes `main` from inside its handler: both jumps break the rule -/
def hBad : List (Tid × EOp) := libs 0 [.call, .throw 7, .catchUser, .callcc [] .success, .call, .throw 8, .catchUser, .resume 1, .tick]

/-- `main` destroys the context of `hUnwind` in a handler of exception 7; a destructor executed in the context catches exception 9 -/
def hNested : List (Tid × EOp) := libs 0 [.callcc [] .success, .resume 1, .tick, .call, .throw 7, .catchUser, .drop 2, .cleanup, .call, .throw 9, .catchUser]

/-- `hUnwind` without its last step -/
def hThrown : List (Tid × EOp) := libs 0 [.callcc [] .success, .resume 1, .tick, .throw 7]

/-! ## The theorems -/

/-- `w` waits in the destructor of a `continuation` that designated `v` -/
def WaitsInDtor (s : State) (w v : CtxId) : Prop := ∃ rest, s.frames w = .dtor v :: rest

/-- If no context is left from inside a catch block, the exceptions that a thread's state lists as being handled are those handled by active handlers of the context it executes. -/
theorem C93_ucontext_continuation_handlers {a : EState} (h : Hist NoJumpInCatch a) {t : Tid} {c : CtxId} (hc : RunsOn a.st t c) : (a.g t).caught = (a.own c).caught :=
  U.C93_ucontext_handlers (h.abs lifts_noJump).2 (reachable_facts (h.abs lifts_noJump).1).early (c := c) hc

/-- … hence `throw;` throws again the exception that the innermost active handler of the context handles. -/
theorem C93_ucontext_continuation_rethrow {a : EState} (h : Hist NoJumpInCatch a) {t : Tid} {c : CtxId} (hc : RunsOn a.st t c) (e : Exc) :
    Rethrows a t e ↔ (a.own c).caught.head? = some e := by
  unfold Rethrows; rw [C93_ucontext_continuation_handlers h hc]

/-- a context that no thread executes has no active handler -/
theorem C93_ucontext_continuation_idle {a : EState} (h : Hist NoJumpInCatch a) {c : CtxId} (hc : ∀ t, ¬ RunsOn a.st t c) : (a.own c).caught = [] :=
  U.C93_ucontext_idle (h.abs lifts_noJump).2 (reachable_facts (h.abs lifts_noJump).1).early (c := c) hc

example : Hist NoJumpInCatch (eget checkA hBack) := eget_hist checkA_ok _
example : RunsOn (eget checkA hBack).st 0 0 ∧ ((eget checkA hBack).own 0).caught = [.user 7] ∧ Rethrows (eget checkA hBack) 0 (.user 7) := by decide +kernel
example : RunsOn (eget checkA hCatch).st 0 1 ∧ ((eget checkA hCatch).own 1).caught = [.user 8] := by decide +kernel

/-- Without the rule it fails: a context with an active handler for exception 7 executes `throw;` and exception 8, handled by another context, is thrown. -/
theorem C93_ucontext_continuation_inside_catch_violated :
    ∃ a, Hist (fun _ _ _ => True) a ∧ RunsOn a.st 0 0 ∧ (a.own 0).caught = [.user 7] ∧ Rethrows a 0 (.user 8) := by
  refine ⟨eget (fun _ _ _ => true) hBad, eget_hist (fun _ _ _ _ => trivial) _, ?_, ?_, ?_⟩ <;> decide +kernel

/-- Whatever the program does: the exceptions in flight of a context are the activations of functions and of `callcc` on its stack that an exception is leaving. -/
theorem C93_ucontext_continuation_own {R} {a : EState} (h : Hist R a) (c : CtxId) : (a.own c).uncaught = inflight (a.st.frames c) :=
  (U.C93_ucontext_own (h.any.abs lifts_any).2 (reachable_facts (h.any.abs lifts_any).1).early c).trans (congrArg Int.ofNat (inflight_abs _))

example : inflight ((eget checkB hUnwind).st.frames 0) = 1 ∧ inflight ((eget checkB hUnwind).st.frames 1) = 1 := by decide +kernel

/-- If contexts are left by `callcc()`, `resume()` or `resume_with()` only without active handler and exception in flight, a context on whose behalf another one is being unwound waits in the destructor
of a `continuation` that designated it. -/
theorem C93_ucontext_continuation_waits {a : EState} (h : Hist CleanSwitches a) {c w : CtxId} (hw : UnwoundFor a.st c w) : a.st.status w = .suspended ∧ WaitsInDtor a.st w c := by
  obtain ⟨h1, rest, h2⟩ := U.C93_ucontext_waits (h.abs lifts_clean).2 (reachable_facts (h.abs lifts_clean).1).early (c := c) (w := w) hw
  refine ⟨h1, ?_⟩
  replace h2 : absL (a.st.frames w) = _ := h2
  unfold WaitsInDtor
  cases hf : a.st.frames w with
  | nil => rw [hf] at h2; cases h2
  | cons f fs =>
    rw [hf] at h2
    simp only [absL, List.map_cons, List.cons.injEq] at h2
    cases f with
    | dtor v => have := h2.1; simp only [Frame.abs, Fiber.Frame.dtor.injEq] at this; subst this; exact ⟨fs, rfl⟩
    | callcc x cm k ls => have := h2.1; cases cm <;> simp [Frame.abs] at this
    | _ => have := h2.1; simp [Frame.abs] at this

theorem unw_of {s : State} {x : Var} {c w : CtxId} (h1 : s.kind x = .exc c) (h2 : s.val x = some w) : UnwoundFor s c w := ⟨x, h1, h2⟩

example : UnwoundFor (eget checkB hUnwind).st 1 0 := unw_of (x := 3) (by decide +kernel) (by decide +kernel)

theorem chain_abs {s : State} {c : CtxId} {l : List CtxId} : U.Chain s.abs c l ↔ Chain s c l := by
  constructor
  · intro h
    induction h with
    | nil h => exact .nil h
    | cons h _ ih => exact .cons h ih
  · intro h
    induction h with
    | nil h => exact .nil h
    | cons h _ ih => exact .cons h ih

/-- If contexts are left by `callcc()`, `resume()` or `resume_with()` only without active handler and exception in flight (the destructor may be executed anywhere), the exception state of a thread
is that of the context it executes, on top of those of the contexts that wait in `~continuation` for it to be unwound; these contexts are uniquely determined. -/
theorem C93_ucontext_continuation_state {a : EState} (h : Hist CleanSwitches a) {t : Tid} {c : CtxId} (hc : RunsOn a.st t c) :
    ∃ l, Chain a.st c l ∧ (∀ l', Chain a.st c l' → l' = l) ∧ a.g t = (a.own c).on (stack a.own l) := by
  obtain ⟨l, hl, hu, hg⟩ := U.C93_ucontext_state (h.abs lifts_clean).2 (reachable_facts (h.abs lifts_clean).1).early (c := c) hc
  exact ⟨l, chain_abs.1 hl, fun l' h' => hu l' (chain_abs.2 h'), hg⟩

/-- … hence `throw;` in a handler throws again what the innermost active handler of the context handles, even if destructors have been executed in handlers of other contexts. -/
theorem C93_ucontext_continuation_rethrow_clean {a : EState} (h : Hist CleanSwitches a) {t : Tid} {c : CtxId} (hc : RunsOn a.st t c) {e : Exc} (he : (a.own c).caught.head? = some e) :
    Rethrows a t e := U.C93_ucontext_rethrow_clean (h.abs lifts_clean).2 (reachable_facts (h.abs lifts_clean).1).early (c := c) hc he

example : Hist CleanSwitches (eget checkB hNested) := eget_hist checkB_ok _
example : RunsOn (eget checkB hNested).st 0 1 ∧ ((eget checkB hNested).own 1).caught = [.user 9] ∧ ((eget checkB hNested).g 0).caught = [.user 9, .user 7] := by decide +kernel

/-- total number of exceptions in flight of the contexts `l` -/
def inflightOf (s : State) (l : List CtxId) : Nat := (l.map fun c => inflight (s.frames c)).sum

/-- `std::uncaught_exceptions()` -/
def uncaughtExceptions (a : EState) (t : Tid) : Int := (a.g t).uncaught

/-- `std::uncaught_exceptions()` counts the exceptions in flight of the context executed and of those waiting in `~continuation` for it. -/
theorem C93_ucontext_continuation_uncaught {a : EState} (h : Hist CleanSwitches a) {t : Tid} {c : CtxId} (hc : RunsOn a.st t c) {l : List CtxId} (hl : Chain a.st c l) :
    uncaughtExceptions a t = inflight (a.st.frames c) + inflightOf a.st l := by
  have := U.C93_ucontext_uncaught (h.abs lifts_clean).2 (reachable_facts (h.abs lifts_clean).1).early (c := c) hc (chain_abs.2 hl)
  have key : U.inflightOf a.abs.st l = inflightOf a.st l := by
    unfold U.inflightOf inflightOf
    refine congrArg List.sum (List.map_congr_left fun c _ => ?_)
    exact inflight_abs _
  rw [key] at this
  rw [← inflight_abs]; exact this

/-- in particular a context that is not being unwound sees its own exceptions only -/
theorem C93_ucontext_continuation_uncaught_own {a : EState} (h : Hist CleanSwitches a) {t : Tid} {c : CtxId} (hc : RunsOn a.st t c) (hn : ∀ w, ¬ UnwoundFor a.st c w) :
    a.g t = a.own c ∧ uncaughtExceptions a t = inflight (a.st.frames c) := by
  refine ⟨(U.C93_ucontext_uncaught_own (h.abs lifts_clean).2 (reachable_facts (h.abs lifts_clean).1).early (c := c) hc hn).1, ?_⟩
  simpa [inflightOf] using C93_ucontext_continuation_uncaught h hc (.nil hn)

example : Hist CleanSwitches (eget checkB hUnwind) := eget_hist checkB_ok _
/-- a context destroyed while an exception leaves the destroying one counts two exceptions, although only one leaves its functions -/
example : RunsOn (eget checkB hUnwind).st 0 1 ∧ uncaughtExceptions (eget checkB hUnwind) 0 = 2 ∧ inflight ((eget checkB hUnwind).st.frames 1) = 1 := by decide +kernel

/-- some history, obeying `R`, in which no thread executes `c` in any state but the last -/
inductive Without (R : EState → Tid → EState → Prop) (c : CtxId) (a : EState) : EState → Prop
  | refl : Without R c a a
  | step {b d t} : Without R c a b → (∀ t, ¬ RunsOn b.st t c) → EStep b t d → R b t d → Without R c a d

theorem Without.abs {c : CtxId} {b z : EState} (hr : Reachable b.st) (h : Without CleanSwitches c b z) : Reachable z.st ∧ U.Without U.CleanSwitches c b.abs z.abs := by
  induction h with
  | refl => exact ⟨hr, .refl⟩
  | @step y d t _ hno hs hR ih =>
    obtain ⟨hry, ih⟩ := ih
    obtain ⟨hrd, x, hx, hs'⟩ := hs.abs hry
    refine ⟨hrd, ?_⟩
    rcases hx with rfl | ⟨h1, h2, h3, -⟩
    · exact .step ih hno hs' (lifts_clean.lift _ _ _ _ rfl rfl hR)
    · refine .step (.step ih hno h1 (lifts_clean.same _ _ _ (by rw [h2]; rfl))) (fun t' h' => hno t' ?_) hs' (lifts_clean.lift _ _ _ _ (by rw [h2]) h3 hR)
      unfold UFiber.RunsOn at h'; rw [h2] at h'; exact h'

/-- A destructor `~continuation` that unwinds a context comes back on the thread that called it, and leaves the thread's exception state as it was at the call: a step of thread `t` begins the
destructor in `c` (`a` to `b`), `c` waits, and when some thread executes `c` again, it is `t`, with the same state. -/
theorem C93_ucontext_continuation_dtor {a b z : EState} {t t' : Tid} {c v : CtxId} (h : Hist CleanSwitches a) (hc : RunsOn a.st t c) (hs : EStep a t b) (hR : CleanSwitches a t b)
    (hb : WaitsInDtor b.st c v) (hn : ¬ RunsOn b.st t c) (hw : Without CleanSwitches c b z) (hz : RunsOn z.st t' c) : t' = t ∧ z.g t = a.g t := by
  obtain ⟨hr, hh⟩ := h.abs lifts_clean
  obtain ⟨hrb, x, hx, hs'⟩ := hs.abs hr
  have hz0 := (reachable_facts (hw.abs hrb).1).early
  have hw' := (hw.abs hrb).2
  have hb' : U.WaitsInDtor b.abs.st c v := by
    obtain ⟨rest, hf⟩ := hb
    exact ⟨absL rest, by show absL (b.st.frames c) = _; rw [hf]; rfl⟩
  rcases hx with rfl | ⟨h1, h2, h3, h4⟩
  · exact U.C93_ucontext_dtor hh hz0 hc hs' (lifts_clean.lift _ _ _ _ rfl rfl hR) hb' hn hw' hz
  · rw [← h4]
    exact U.C93_ucontext_dtor (.step hh h1 (lifts_clean.same _ _ _ (by rw [h2]; rfl))) hz0 (by unfold UFiber.RunsOn; rw [h2]; exact hc) hs' (lifts_clean.lift _ _ _ _ (by rw [h2]) h3 hR) hb' hn hw' hz

/-- run a history during which `c` is suspended -/
def erunW (c : CtxId) (a : EState) : List (Tid × EOp) → Option EState
  | [] => some a
  | (t, o) :: h => if a.st.status c = .suspended then match erun1 a t o with
      | some b => if checkB a t b then erunW c b h else none
      | none => none
    else none

theorem erunW_without {c : CtxId} {a0 : EState} : ∀ {h : List (Tid × EOp)} {a b : EState}, Hist CleanSwitches a → Without CleanSwitches c a0 a → erunW c a h = some b → Without CleanSwitches c a0 b
  | [], a, b, _, hw, he => by simp only [erunW, Option.some.injEq] at he; exact he ▸ hw
  | (t, o) :: h, a, b, ha, hw, he => by
    simp only [erunW] at he
    split at he
    · next hsu =>
      split at he
      · next d hd =>
        split at he
        · next hk =>
          refine erunW_without (.step ha (erun1_step hd) (checkB_ok _ _ _ hk)) (.step hw (fun t' h' => ?_) (erun1_step hd) (checkB_ok _ _ _ hk)) he
          have hi := (reachable_facts (ha.abs lifts_clean).1).inv
          have := (hi.ci.curRun t' c).1 h'
          replace this : a.st.status c = .running t' := this
          rw [this] at hsu; cases hsu
        · cases he
      · cases he
    · cases he

def dtorCase : Bool := match erun1 (eget checkB hThrown) 0 (.lib .tick) with
  | none => false
  | some b => checkB (eget checkB hThrown) 0 b && (isDtor (b.st.frames 0) && (!decide (b.st.cur 0 = some 0) &&
    match erunW 0 b (libs 0 [.tick, .tick]) with
    | none => false
    | some z => decide (z.st.cur 0 = some 0) && decide ((z.g 0).uncaught = 1)))

theorem dtor_case : dtorCase = true := by decide +kernel

/-- a case of `C93_ucontext_continuation_dtor`: an exception leaves `main`, whose `continuation` is destroyed, `main` waits, the context is unwound, `main` is executed again -/
example : ∃ a b z v, Hist CleanSwitches a ∧ RunsOn a.st 0 0 ∧ EStep a 0 b ∧ CleanSwitches a 0 b ∧ WaitsInDtor b.st 0 v ∧ ¬ RunsOn b.st 0 0 ∧ Without CleanSwitches 0 b z ∧ RunsOn z.st 0 0 ∧
    uncaughtExceptions z 0 = 1 := by
  have h := dtor_case
  unfold dtorCase at h
  split at h
  · cases h
  · next b hb =>
    simp only [Bool.and_eq_true, Bool.not_eq_true', decide_eq_false_iff_not] at h
    obtain ⟨h1, h2, h3, h4⟩ := h
    split at h4
    · cases h4
    · next z hz =>
      simp only [Bool.and_eq_true, decide_eq_true_eq] at h4
      have ha : Hist CleanSwitches (eget checkB hThrown) := eget_hist checkB_ok _
      have hs := erun1_step hb
      have hR := checkB_ok _ _ _ h1
      have hd : ∃ v, WaitsInDtor b.st 0 v := by
        unfold isDtor at h2
        split at h2
        · next v rest hf => exact ⟨v, rest, hf⟩
        · cases h2
      obtain ⟨v, hd⟩ := hd
      exact ⟨_, b, z, v, ha, by decide +kernel, hs, hR, hd, h3, erunW_without (.step ha hs hR) .refl hz, h4.1, h4.2⟩

end Verif.EH.UC
