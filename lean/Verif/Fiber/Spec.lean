import Verif.Fiber.Model

/-! # Vocabulary of the fiber properties

Small definitions used in the property statements.  They only speak about observable things: `fiber` objects and what
they designate, which thread executes which context, what happened (the event log) and the call stacks. -/

namespace Verif.Fiber
open State

/-- `x` is a live `fiber` object of user code (on the heap, local variable, parameter, temporary, or captured). -/
def Handle (s : State) (x : Var) : Prop := s.kind x = .heap ∨ (∃ c, s.kind x = .loc c) ∨ ∃ c, s.kind x = .cap c

/-- object `x` designates (the suspended execution of) context `c` -/
def Designates (s : State) (x : Var) (c : CtxId) : Prop := ∃ f, s.val x = some f ∧ f.ctx = c

/-- thread `t` executes context `c` -/
def RunsOn (s : State) (t : Tid) (c : CtxId) : Prop := s.cur t = some c

def Suspended (s : State) (c : CtxId) : Prop := s.status c = .suspended

/-- a fiber was created as context `c` (its stack was allocated) -/
def Created (s : State) (c : CtxId) : Prop := .alloc c ∈ s.log

/-- the stack of fiber `c` has been given back to its allocator -/
def Released (s : State) (c : CtxId) : Prop := .dealloc c ∈ s.log

/-- context `c` waits inside the destructor of a `fiber` that designated `v` -/
def WaitsInDtor (s : State) (c v : CtxId) : Prop := ∃ rest, s.frames c = .dtor v :: rest

/-- context `c` is suspended in `resume()`/`resume_with()`, called by the user function activation with locals `ls` -/
def InResume (s : State) (c : CtxId) (k : UKind) (ls : List Var) (rest : List Frame) : Prop :=
  s.frames c = .resume :: .user k ls .normal :: rest

/-- fiber `c` exists and its function has not been started -/
def NotStarted (s : State) (c : CtxId) : Prop := s.frames c = [.entryJump]

/-- user code of context `c`, in an activation of kind `k` with locals `ls`, is about to execute on thread `t` -/
def UserCode (s : State) (t : Tid) (c : CtxId) (k : UKind) (ls : List Var) (rest : List Frame) : Prop :=
  s.cur t = some c ∧ s.frames c = .user k ls .normal :: rest

/-- some finite history leads from `s` to `s'` -/
inductive Steps : State → State → Prop
  | refl (s : State) : Steps s s
  | tail {s s' s'' : State} {t : Tid} {op : Op} : Steps s s' → step s' t op = .ok s'' → Steps s s''

/-- no thread executes anything and no object of user code or of the library designates a context -/
def AllQuiet (s : State) : Prop := (∀ t, s.cur t = none) ∧ ∀ x, s.val x = none

/-- How a suspended context may continue when control comes to it: the suspended `resume()` returns an object; its function
starts; `forced_unwind` is raised in `resume()`; a user exception is raised there (copying an on-top function threw); a never started fiber ends at once; an on-top function is pushed;
the release of a finished fiber is pushed. -/
inductive Continues (s s' : State) (d : CtxId) : Prop
  | result {r k ls rest} (h : InResume s d k ls rest) (h' : s'.frames d = .user k (r :: ls) .normal :: rest)
  | starts {p} (h : NotStarted s d) (h' : s'.frames d = [.user .fn [p] .normal, .entryRun])
  | unwinds {x k ls rest} (h : InResume s d k ls rest) (h' : s'.frames d = .user k ls (.unwinding (.forced x)) :: rest)
  | throws {n k ls rest} (h : InResume s d k ls rest) (h' : s'.frames d = .user k ls (.unwinding (.user n)) :: rest)
  | ends (h : NotStarted s d) (h' : s'.frames d = [.exitJump])
  | ontop {i p} (h' : s'.frames d = .user (.ontop i) [p] .normal :: s.frames d)
  | release {n} (h' : s'.frames d = .exiting n :: s.frames d)

/-- In the step `s → s'` a call of `resume()`/`resume_with()` suspended in context `d` returns object `r`. -/
def ResumeReturns (s s' : State) (d : CtxId) (r : Var) : Prop :=
  ∃ pre k ls rest, s.frames d = pre ++ .resume :: .user k ls .normal :: rest ∧ s'.frames d = .user k (r :: ls) .normal :: rest

/-- `e` is an execution of the function of the `i`-th `resume_with()` call -/
def isOntop (i : Nat) : Event → Bool
  | .ontop j _ => decide (j = i)
  | _ => false

/-- operation `op` assigns to (or swaps) the existing object `x` -/
def Assigns : Op → Var → Prop
  | .moveAssign y _, x => x = y
  | .swap y z, x => x = y ∨ x = z
  | _, _ => False

/-! ## running concrete histories (for the non-vacuity examples) -/

/-- state after history `h` from the start (or the start, if `h` is not a possible history) -/
def exec (h : List (Tid × Op)) : State := match run init h with | .ok s => s | _ => init

def runsOk (h : List (Tid × Op)) : Bool := match run init h with | .ok _ => true | _ => false

theorem steps_run {s s' : State} {h : List (Tid × Op)} (hr : run s h = .ok s') : Steps s s' := by
  suffices ∀ s0, Steps s0 s → Steps s0 s' from this s (.refl s)
  induction h generalizing s with
  | nil => intro s0 h0; simp only [run, Res.ok.injEq] at hr; exact hr ▸ h0
  | cons a h ih =>
    obtain ⟨t, op⟩ := a
    intro s0 h0
    simp only [run] at hr
    split at hr
    · rename_i s1 hs1; exact ih hr s0 (h0.tail hs1)
    · exact absurd hr (by rename_i r hr2; intro h; exact hr2 _ h)

theorem Steps.reachable {s s' : State} (h : Steps s s') (hr : Reachable s) : Reachable s' := by
  induction h with
  | refl => exact hr
  | tail _ hs ih => exact .step ih hs

theorem reachable_exec {h : List (Tid × Op)} (_ : runsOk h = true) : Reachable (exec h) := by
  unfold exec
  split
  · rename_i s hs; exact (steps_run hs).reachable .init
  · exact .init

/-- as `reachable_exec`, for histories that lose no context -/
theorem reachableNS_exec {h : List (Tid × Op)} (_ : runsOk h = true) (hn : h.all (fun a => !a.2.loses) = true) :
    ReachableNS (exec h) := by
  have key : ∀ (h : List (Tid × Op)) (s s' : State), ReachableNS s → h.all (fun a => !a.2.loses) = true →
      run s h = .ok s' → ReachableNS s' := by
    intro h
    induction h with
    | nil => intro s s' hs _ hr; simp only [run, Res.ok.injEq] at hr; exact hr ▸ hs
    | cons a h ih =>
      obtain ⟨t, op⟩ := a
      intro s s' hs hn hr
      simp only [List.all_cons, Bool.and_eq_true, Bool.not_eq_true'] at hn
      simp only [run] at hr
      split at hr
      · rename_i s1 hs1
        exact ih s1 s' (.step hs hn.1 hs1) hn.2 hr
      · exact absurd hr (by rename_i r hr2; intro h; exact hr2 _ h)
  unfold exec
  split
  · rename_i s hs; exact key h _ _ .init hn hs
  · exact .init

theorem ReachableNS.reachable {s : State} (h : ReachableNS s) : Reachable s := by
  induction h with
  | init => exact .init
  | step _ _ hs ih => exact .step ih hs

/-! Histories used in the examples.  `h1`: main creates a fiber (object 0, context 1), resumes it (the fiber's function
starts, its parameter is object 1), the fiber resumes main back (main gets object 2, which designates the fiber). -/
def h1 : List (Tid × Op) := [(0, .create [] .success), (0, .resume 0), (0, .resume 1)]

/-- as `h1`, then main starts to destroy object 2: the fiber is being unwound, main waits in the destructor -/
def h2 : List (Tid × Op) := h1 ++ [(0, .drop 2)]

/-- as `h2`, then the unwinding completes: parameter destroyed, function left, stack released, destructor returns -/
def h3 : List (Tid × Op) := h2 ++ [(0, .tick), (0, .tick), (0, .tick)]

example : runsOk h1 = true ∧ runsOk h2 = true ∧ runsOk h3 = true := by decide
example : (exec h3).log = [.destroyed 1 0, .dealloc 1, .enter 1, .alloc 1] := by decide

end Verif.Fiber
