import Verif.EH.InvB

/-! # C93: the exception state of threads -/

namespace Verif.EH
open Verif.Fiber

/-! ## concrete histories -/

instance {s : State} {t : Tid} {c : CtxId} : Decidable (RunsOn s t c) := inferInstanceAs (Decidable (s.cur t = some c))
instance {a : EState} {t : Tid} {e : Exc} : Decidable (Rethrows a t e) := inferInstanceAs (Decidable ((a.g t).caught.head? = some e))

inductive EOp
  | lib (op : Op) | endCatch

def erun1 (a : EState) (t : Tid) : EOp → Option EState
  | .lib op => match op, step a.st t op with
    | .swallow, _ => none
    | op, .ok s' => some (a.after s' t (prims a.st t op))
    | _, _ => none
  | .endCatch => match a.st.cur t with
    | some c => if (a.own c).caught = [] then none else some (a.after a.st t [(c, .endCatch)])
    | none => none

/-- run a history; every step must pass the check `k` -/
def erun (k : EState → Tid → EState → Bool) (a : EState) : List (Tid × EOp) → Option EState
  | [] => some a
  | (t, o) :: h => match erun1 a t o with
    | some b => if k a t b then erun k b h else none
    | none => none

theorem erun1_step {a b : EState} {t : Tid} {o : EOp} (h : erun1 a t o = some b) : EStep a t b := by
  cases o with
  | lib op =>
    simp only [erun1] at h
    split at h
    · cases h
    · next s' hn hs => cases h; exact .lib hn hs
    · cases h
  | endCatch =>
    simp only [erun1] at h
    split at h
    · next c hc =>
      split at h
      · cases h
      · next hn => cases h; exact .endCatch hc hn
    · cases h

theorem erun_hist {k : EState → Tid → EState → Bool} {R : EState → Tid → EState → Prop} (hk : ∀ a t b, k a t b = true → R a t b) :
    ∀ {h : List (Tid × EOp)} {a b : EState}, Hist R a → erun k a h = some b → Hist R b
  | [], a, b, ha, he => by simp only [erun, Option.some.injEq] at he; exact he ▸ ha
  | (t, o) :: h, a, b, ha, he => by
    simp only [erun] at he
    split at he
    · next c hc =>
      split at he
      · next hcheck => exact erun_hist hk (.step ha (erun1_step hc) (hk _ _ _ hcheck)) he
      · cases he
    · cases he

def checkA (a : EState) (t : Tid) (b : EState) : Bool := match a.st.cur t with
  | some c => decide (b.st.cur t = some c) || decide ((a.own c).caught = [])
  | none => true

theorem checkA_ok (a : EState) (t : Tid) (b : EState) (h : checkA a t b = true) : NoJumpInCatch a t b := by
  intro c hc hn
  simp only [checkA, hc, Bool.or_eq_true, decide_eq_true_eq] at h
  exact h.resolve_left hn

def isDtor : List Frame → Bool
  | .dtor _ :: _ => true
  | _ => false

def checkB (a : EState) (t : Tid) (b : EState) : Bool := match a.st.cur t with
  | some c => decide (b.st.cur t = some c) || (decide ((a.own c).caught = []) && decide (inflight (b.st.frames c) = 0)) || isDtor (b.st.frames c)
  | none => true

theorem checkB_ok (a : EState) (t : Tid) (b : EState) (h : checkB a t b = true) : CleanSwitches a t b := by
  intro c hc hn
  simp only [checkB, hc, Bool.or_eq_true, Bool.and_eq_true, decide_eq_true_eq] at h
  rcases h with (h | h) | h
  · exact absurd h hn
  · exact .inl h
  · unfold isDtor at h
    split at h
    · next v rest hf => exact .inr ⟨v, rest, hf⟩
    · cases h

def eget (k : EState → Tid → EState → Bool) (h : List (Tid × EOp)) : EState := (erun k einit h).getD einit

theorem eget_hist {k : EState → Tid → EState → Bool} {R : EState → Tid → EState → Prop} (hk : ∀ a t b, k a t b = true → R a t b) (h : List (Tid × EOp)) : Hist R (eget k h) := by
  unfold eget
  cases he : erun k einit h with
  | none => exact .init
  | some b => exact erun_hist hk .init he

def libs (t : Tid) (l : List Op) : List (Tid × EOp) := l.map fun o => (t, .lib o)

/-- a fiber is created and started and catches exception 8 -/
def hCatch : List (Tid × EOp) := libs 0 [.create [] .success, .resume 0, .call, .throw 8, .catchUser]

/-- as `hCatch`; the handler ends, the fiber resumes `main`, `main` catches exception 7 -/
def hBack : List (Tid × EOp) := hCatch ++ [(0, .endCatch), (0, .lib (.resume 1))] ++ libs 0 [.call, .throw 7, .catchUser]

/-- a fiber is created, started and suspended; an exception leaves `main` and the destructor of `main`'s `fiber` unwinds the fiber -/
def hUnwind : List (Tid × EOp) := libs 0 [.create [] .success, .resume 0, .resume 1, .throw 7, .tick]

/-- as `hUnwind`; the fiber has been unwound -/
def hUnwound : List (Tid × EOp) := hUnwind ++ libs 0 [.tick, .tick, .tick]

/-- `main`, in a handler of exception 7, resumes a fiber; the fiber catches exception 8 and resumes `main` from inside its handler: both jumps break the rule -/
def hBad : List (Tid × EOp) := libs 0 [.create [] .success, .call, .throw 7, .catchUser, .resume 0, .call, .throw 8, .catchUser, .resume 1]

/-! ## the theorems -/

/-- If no context is left from inside a catch block, the exceptions that a thread's state lists as being handled are those handled by active handlers of the context it executes. -/
theorem C93_handlers {a : EState} (h : Hist NoJumpInCatch a) {t : Tid} {c : CtxId} (hc : RunsOn a.st t c) : (a.g t).caught = (a.own c).caught := (ainv h).run t c hc

/-- … hence `throw;` throws again the exception that the innermost active handler of the context handles. -/
theorem C93_rethrow {a : EState} (h : Hist NoJumpInCatch a) {t : Tid} {c : CtxId} (hc : RunsOn a.st t c) (e : Exc) : Rethrows a t e ↔ (a.own c).caught.head? = some e := by
  unfold Rethrows; rw [C93_handlers h hc]

/-- a context that no thread executes has no active handler -/
theorem C93_idle {a : EState} (h : Hist NoJumpInCatch a) {c : CtxId} (hc : ∀ t, ¬ RunsOn a.st t c) : (a.own c).caught = [] := (ainv h).idle c hc

example : Hist NoJumpInCatch (eget checkA hBack) := eget_hist checkA_ok _
example : RunsOn (eget checkA hBack).st 0 0 ∧ ((eget checkA hBack).own 0).caught = [.user 7] ∧ Rethrows (eget checkA hBack) 0 (.user 7) := by
  exact ⟨by unfold RunsOn; decide, by decide, by decide⟩
example : RunsOn (eget checkA hCatch).st 0 1 ∧ ((eget checkA hCatch).own 1).caught = [.user 8] := by
  refine ⟨?_, ?_⟩ <;> decide

/-- Without the rule it fails: a context with an active handler for exception 7 executes `throw;` and exception 8, handled by another context, is thrown. -/
theorem C93_inside_catch_violated : ∃ a, Hist (fun _ _ _ => True) a ∧ RunsOn a.st 0 0 ∧ (a.own 0).caught = [.user 7] ∧ Rethrows a 0 (.user 8) := by
  refine ⟨eget (fun _ _ _ => true) hBad, eget_hist (fun _ _ _ _ => trivial) _, ?_, ?_, ?_⟩ <;> decide

/-- Whatever the program does: the exceptions in flight of a context are the function activations of its stack that an exception is leaving. -/
theorem C93_own {R} {a : EState} (h : Hist R a) (c : CtxId) : (a.own c).uncaught = inflight (a.st.frames c) := hist_own h c

example : inflight ((eget checkB hUnwind).st.frames 0) = 1 ∧ inflight ((eget checkB hUnwind).st.frames 1) = 1 := by decide

/-- a context on whose behalf another one is being unwound waits in the destructor of a `fiber` that designated it -/
theorem C93_waits {R} {a : EState} (h : Hist R a) {c w : CtxId} (hw : UnwoundFor a.st c w) : Suspended a.st w ∧ WaitsInDtor a.st w c := by
  have := unw_top (reachable_inv (hist_reach h)) hw
  exact ⟨this.1, dtorTop_iff.1 this.2⟩

theorem unw_of {s : State} {x : Var} {f : Fctx} {c w : CtxId} (h1 : s.kind x = .exc c) (h2 : s.val x = some f) (h3 : f.ctx = w) : UnwoundFor s c w := ⟨x, f, h1, h2, h3⟩

example : UnwoundFor (eget checkB hUnwind).st 1 0 := unw_of (x := 3) (f := ⟨0, 3⟩) (by decide) (by decide) rfl

/-- If contexts are left by `resume()` or `resume_with()` only without active handler and exception in flight (the destructor may be executed anywhere), the exception state of a thread is that
of the context it executes, on top of those of the contexts that wait in `~fiber` for it to be unwound; these contexts are uniquely determined. -/
theorem C93_state {a : EState} (h : Hist CleanSwitches a) {t : Tid} {c : CtxId} (hc : RunsOn a.st t c) :
    ∃ l, Chain a.st c l ∧ (∀ l', Chain a.st c l' → l' = l) ∧ a.g t = (a.own c).on (stack a.own l) := by
  obtain ⟨l, hl, hg⟩ := (binv h).run t c hc
  exact ⟨l, hl, fun l' hl' => chain_unique (binv h).uniq hl' hl, hg⟩

/-- … hence `throw;` in a handler throws again what the innermost active handler of the context handles, even if destructors have been executed in handlers of other contexts. -/
theorem C93_rethrow_clean {a : EState} (h : Hist CleanSwitches a) {t : Tid} {c : CtxId} (hc : RunsOn a.st t c) {e : Exc} (he : (a.own c).caught.head? = some e) : Rethrows a t e := by
  obtain ⟨l, _, _, hg⟩ := C93_state h hc
  unfold Rethrows
  rw [hg]
  cases hl : (a.own c).caught with
  | nil => rw [hl] at he; cases he
  | cons x xs => rw [hl] at he; simpa [Glob.on, hl] using he

/-- `main` destroys the fiber of `hUnwind` in a handler of exception 7; a destructor executed in the fiber catches exception 9 -/
def hNested : List (Tid × EOp) := libs 0 [.create [] .success, .resume 0, .resume 1, .call, .throw 7, .catchUser, .drop 2, .cleanup, .call, .throw 9, .catchUser]

example : Hist CleanSwitches (eget checkB hNested) := eget_hist checkB_ok _
example : RunsOn (eget checkB hNested).st 0 1 ∧ ((eget checkB hNested).own 1).caught = [.user 9] ∧ ((eget checkB hNested).g 0).caught = [.user 9, .user 7] := by decide +kernel

/-- total number of exceptions in flight of the contexts `l` -/
def inflightOf (s : State) (l : List CtxId) : Nat := (l.map fun c => inflight (s.frames c)).sum

/-- `std::uncaught_exceptions()` counts the exceptions in flight of the context executed and of those waiting in `~fiber` for it. -/
theorem C93_uncaught {a : EState} (h : Hist CleanSwitches a) {t : Tid} {c : CtxId} (hc : RunsOn a.st t c) {l : List CtxId} (hl : Chain a.st c l) :
    uncaughtExceptions a t = inflight (a.st.frames c) + inflightOf a.st l := by
  obtain ⟨l', _, hu, hg⟩ := C93_state h hc
  have := hu l hl; subst this
  have key : ∀ l : List CtxId, (stack a.own l).uncaught = inflightOf a.st l := by
    intro l
    induction l with
    | nil => rfl
    | cons c l ih => simp only [stack, Glob.on, ih, hist_own h, inflightOf, List.map_cons, List.sum_cons]; omega
  unfold uncaughtExceptions
  rw [hg, Glob.on, key, hist_own h]

/-- in particular a context that is not being unwound sees its own exceptions only -/
theorem C93_uncaught_own {a : EState} (h : Hist CleanSwitches a) {t : Tid} {c : CtxId} (hc : RunsOn a.st t c) (hn : ∀ w, ¬ UnwoundFor a.st c w) :
    a.g t = a.own c ∧ uncaughtExceptions a t = inflight (a.st.frames c) := by
  obtain ⟨l, _, hu, hg⟩ := C93_state h hc
  have := hu [] (.nil hn); subst this
  refine ⟨by rw [hg]; simp [stack], ?_⟩
  simpa [inflightOf] using C93_uncaught h hc (.nil hn)

example : Hist CleanSwitches (eget checkB hUnwind) := eget_hist checkB_ok _
/-- a fiber destroyed while an exception leaves the destroying context counts two exceptions, although only one leaves its functions -/
example : RunsOn (eget checkB hUnwind).st 0 1 ∧ uncaughtExceptions (eget checkB hUnwind) 0 = 2 ∧ inflight ((eget checkB hUnwind).st.frames 1) = 1 := by
  exact ⟨by unfold RunsOn; decide, by decide, by decide⟩

/-- some history, obeying `R`, in which no thread executes `c` in any state but the last -/
inductive Without (R : EState → Tid → EState → Prop) (c : CtxId) (a : EState) : EState → Prop
  | refl : Without R c a a
  | step {b d t} : Without R c a b → (∀ t, ¬ RunsOn b.st t c) → EStep b t d → R b t d → Without R c a d

/-- A destructor `~fiber` that unwinds a fiber comes back on the thread that called it, and leaves the thread's exception state as it was at the call: a step of thread `t` begins the destructor in `c`
(`a` to `b`), `c` waits, and when some thread executes `c` again, it is `t`, with the same state. -/
theorem C93_dtor {a b z : EState} {t t' : Tid} {c v : CtxId} (h : Hist CleanSwitches a) (hc : RunsOn a.st t c) (hs : EStep a t b) (hR : CleanSwitches a t b) (hb : WaitsInDtor b.st c v)
    (hn : ¬ RunsOn b.st t c) (hw : Without CleanSwitches c b z) (hz : RunsOn z.st t' c) : t' = t ∧ z.g t = a.g t := by
  have ha := binv h
  have hi := reachable_inv ha.r
  obtain ⟨c0, hc0, ⟨l, hl, hsw⟩, hoth⟩ := step_B ha hs hR
  have hc0 : c0 = c := by unfold RunsOn at hc; rw [hc] at hc0; cases hc0; rfl
  subst hc0
  have hga : a.g t = (a.own c0).on (stack a.own l) := by
    obtain ⟨l', hl', hg⟩ := ha.run t c0 hc
    rw [chain_unique ha.uniq hl hl']; exact hg
  have hbh : Hist CleanSwitches b := .step h hs hR
  -- the state from `b` on, as long as `c0` waits
  let P : EState → Prop := fun y => Hist CleanSwitches y ∧ (∀ x ∈ c0 :: l, y.own x = a.own x) ∧
    ((∃ d pre, y.st.cur t = some d ∧ Chain y.st d (pre ++ c0 :: l)) ∨ (y.st.cur t = some c0 ∧ Chain y.st c0 l))
  have start : P b := by
    refine ⟨hbh, ?_⟩
    cases hsw with
    | stay h => exact absurd h hn
    | push h hl ho hg => exact ⟨ho, .inl ⟨_, [], h, hl⟩⟩
    | pop e h hl ho hz hf hg => exact absurd (dtorTop_iff.2 hb) (hf v)
    | jump e h hd hl hz hf hg => exact absurd (dtorTop_iff.2 hb) (hf v)
    | ended e h hz hf => exact absurd (dtorTop_iff.2 hb) (hf v)
  have all : P z := by
    clear hz
    induction hw with
    | refl => exact start
    | @step y y' t1 _ hno hs1 hR1 ih =>
      obtain ⟨hy, ho, hch⟩ := ih
      have hyB := binv hy
      refine ⟨.step hy hs1 hR1, ?_⟩
      rcases hch with ⟨d, pre, hd, hdl⟩ | ⟨hcc, _⟩
      · obtain ⟨d1, hd1, ⟨l1, hl1, hsw1⟩, hoth1⟩ := step_B hyB hs1 hR1
        by_cases e : t1 = t
        · subst e
          rw [hd] at hd1; cases hd1
          have := chain_unique hyB.uniq hl1 hdl
          subst this
          cases hsw1 with
          | stay h hl ho1 hg => exact ⟨fun x hx => (ho1 x (by simp at hx ⊢; exact .inr hx)).trans (ho x hx), .inl ⟨d, pre, h, hl⟩⟩
          | push h hl ho1 hg => exact ⟨fun x hx => (ho1 x (by simp at hx ⊢; exact .inr (.inr hx))).trans (ho x hx), .inl ⟨_, d :: pre, h, hl⟩⟩
          | @pop w l' e h hl ho1 hz hf hg =>
            cases pre with
            | nil =>
              simp only [List.nil_append, List.cons.injEq] at e
              obtain ⟨rfl, rfl⟩ := e
              exact ⟨fun x hx => (ho1 x hx).trans (ho x hx), .inr ⟨h, hl⟩⟩
            | cons p pre =>
              simp only [List.cons_append, List.cons.injEq] at e
              obtain ⟨rfl, rfl⟩ := e
              exact ⟨fun x hx => (ho1 x (by simp at hx ⊢; exact .inr (.inr hx))).trans (ho x hx), .inl ⟨_, pre, h, hl⟩⟩
          | jump e => simp at e
          | ended e => simp at e
        · obtain ⟨g1, g2, g3, g4⟩ := hoth1 t d (Ne.symm e) hd _ hdl
          exact ⟨fun x hx => (g4 x (by simp at hx ⊢; exact .inr (.inr hx))).trans (ho x hx), .inl ⟨d, pre, g1, g3⟩⟩
      · exact absurd hcc (hno t)
  obtain ⟨hzh, ho, hch⟩ := all
  have hzB := binv hzh
  have hzi := reachable_inv hzB.r
  rcases hch with ⟨d, pre, hd, hdl⟩ | ⟨hcc, hlz⟩
  · obtain ⟨w, hw⟩ := chain_mem hdl (w := c0) (by simp)
    have h1 := (unw_top hzi hw).1
    unfold RunsOn at hz
    rw [(hzi.ci.curRun _ _).1 hz] at h1; cases h1
  · have h1 := (hzi.ci.curRun _ _).1 hz
    rw [(hzi.ci.curRun _ _).1 hcc] at h1; cases h1
    refine ⟨rfl, ?_⟩
    obtain ⟨l', hl', hg⟩ := hzB.run t c0 hcc
    have := chain_unique hzB.uniq hl' hlz; subst this
    rw [hg, hga, ho c0 (by simp), stack_congr fun x hx => ho x (by simp [hx])]

/-- run a history during which `c` is suspended -/
def erunW (c : CtxId) (a : EState) : List (Tid × EOp) → Option EState
  | [] => some a
  | (t, o) :: h => if a.st.status c = .suspended then match erun1 a t o with
      | some b => if checkB a t b then erunW c b h else none
      | none => none
    else none

theorem erunW_without {c : CtxId} {a0 : EState} : ∀ {h : List (Tid × EOp)} {a b : EState}, Hist CleanSwitches a → Without CleanSwitches c a0 a → erunW c a h = some b → Without CleanSwitches c a0 b
  | [], a, b, _, hw, he => by simp only [erunW, Option.some.injEq] at he; exact he ▸ hw
  | (t, o) :: h, a, b, ha, hw, he => by
    simp only [erunW] at he
    split at he
    · next hsu =>
      split at he
      · next d hd =>
        split at he
        · next hk =>
          refine erunW_without (.step ha (erun1_step hd) (checkB_ok _ _ _ hk)) (.step hw (fun t' h' => ?_) (erun1_step hd) (checkB_ok _ _ _ hk)) he
          rw [((reachable_inv (hist_reach ha)).ci.curRun _ _).1 h'] at hsu; cases hsu
        · cases he
      · cases he
    · cases he

/-- `hUnwind` without its last step -/
def hThrown : List (Tid × EOp) := libs 0 [.create [] .success, .resume 0, .resume 1, .throw 7]

def dtorCase : Bool := match erun1 (eget checkB hThrown) 0 (.lib .tick) with
  | none => false
  | some b => checkB (eget checkB hThrown) 0 b && (isDtor (b.st.frames 0) && (!decide (b.st.cur 0 = some 0) &&
    match erunW 0 b (libs 0 [.tick, .tick]) with
    | none => false
    | some z => decide (z.st.cur 0 = some 0) && decide ((z.g 0).uncaught = 1)))

theorem dtor_case : dtorCase = true := by decide +kernel

/-- a case of `C93_dtor`: an exception leaves `main`, whose `fiber` object is destroyed, `main` waits, the fiber is unwound, `main` is executed again -/
example : ∃ a b z v, Hist CleanSwitches a ∧ RunsOn a.st 0 0 ∧ EStep a 0 b ∧ CleanSwitches a 0 b ∧ WaitsInDtor b.st 0 v ∧ ¬ RunsOn b.st 0 0 ∧ Without CleanSwitches 0 b z ∧ RunsOn z.st 0 0 ∧
    uncaughtExceptions z 0 = 1 := by
  have h := dtor_case
  unfold dtorCase at h
  split at h
  · cases h
  · next b hb =>
    simp only [Bool.and_eq_true, Bool.not_eq_true', decide_eq_false_iff_not] at h
    obtain ⟨h1, h2, h3, h4⟩ := h
    split at h4
    · cases h4
    · next z hz =>
      simp only [Bool.and_eq_true, decide_eq_true_eq] at h4
      have ha : Hist CleanSwitches (eget checkB hThrown) := eget_hist checkB_ok _
      have hs := erun1_step hb
      have hR := checkB_ok _ _ _ h1
      have hd : ∃ v, WaitsInDtor b.st 0 v := by
        unfold isDtor at h2
        split at h2
        · next v rest hf => exact ⟨v, rest, hf⟩
        · cases h2
      obtain ⟨v, hd⟩ := hd
      exact ⟨_, b, z, v, ha, by decide, hs, hR, hd, h3, erunW_without (.step ha hs hR) .refl hz, h4.1, h4.2⟩

end Verif.EH
