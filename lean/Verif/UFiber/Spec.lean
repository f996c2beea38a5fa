import Verif.UFiber.Model

/-! # Vocabulary of the properties of the ucontext/winfib implementation (see `Verif.Fiber.Spec`) -/

namespace Verif.UFiber
open Verif.Fiber (CtxId Var Tid Kind Exc Mode UKind Frame Status Event Op CreateOutcome upd)
open State

/-- `x` is a live `fiber` object of user code (on the heap, local variable, parameter, temporary, or captured). -/
def Handle (s : State) (x : Var) : Prop := s.kind x = .heap ∨ (∃ c, s.kind x = .loc c) ∨ ∃ c, s.kind x = .cap c

/-- object `x` designates context `c` -/
def Designates (s : State) (x : Var) (c : CtxId) : Prop := s.val x = some c

/-- `operator bool` of `x` (line 518): designates a fiber that has not finished -/
def Valid (s : State) (x : Var) : Prop := ∃ c, s.val x = some c ∧ s.term c = false

/-- thread `t` executes context `c` -/
def RunsOn (s : State) (t : Tid) (c : CtxId) : Prop := s.cur t = some c

/-- a fiber was created as context `c` (its stack was allocated) -/
def Created (s : State) (c : CtxId) : Prop := .alloc c ∈ s.log

/-- the stack of fiber `c` has been given back to its allocator -/
def Released (s : State) (c : CtxId) : Prop := .dealloc c ∈ s.log

/-- fiber `c` exists and its function has not been started -/
def NotStarted (s : State) (c : CtxId) : Prop := s.frames c = [.entryJump]

/-- context `c` is suspended in `resume()`/`resume_with()`, called by the user function activation with locals `ls` -/
def InResume (s : State) (c : CtxId) (k : UKind) (ls : List Var) (rest : List Frame) : Prop :=
  s.frames c = .resume :: .user k ls .normal :: rest

/-- user code of context `c`, in an activation of kind `k` with locals `ls`, is about to execute on thread `t` -/
def UserCode (s : State) (t : Tid) (c : CtxId) (k : UKind) (ls : List Var) (rest : List Frame) : Prop :=
  s.cur t = some c ∧ s.frames c = .user k ls .normal :: rest

/-- no destructor was executed on a never started fiber so far -/
def NoEarlyDestroy (s : State) : Prop := s.early = false

/-- some finite history leads from `s` to `s'` -/
inductive Steps : State → State → Prop
  | refl (s : State) : Steps s s
  | tail {s s' s'' : State} {t : Tid} {op : Op} : Steps s s' → step s' t op = .ok s'' → Steps s s''

/-- `e` is an execution of the function of the `i`-th `resume_with()` call -/
def isOntop (i : Nat) : Event → Bool
  | .ontop j _ => decide (j = i)
  | _ => false

/-- state after history `h` from the start (or the start, if `h` is not a possible history) -/
def exec (h : List (Tid × Op)) : State := match run init h with | .ok s => s | _ => init

def runsOk (h : List (Tid × Op)) : Bool := match run init h with | .ok _ => true | _ => false
def runsUb (h : List (Tid × Op)) : Bool := match run init h with | .ub => true | _ => false
def runsAssert (h : List (Tid × Op)) : Bool := match run init h with | .assertion => true | _ => false
def runsTerminate (h : List (Tid × Op)) : Bool := match run init h with | .terminate => true | _ => false

theorem Steps.reachable {s s' : State} (h : Steps s s') (hr : Reachable s) : Reachable s' := by
  induction h with
  | refl => exact hr
  | tail _ hs ih => exact .step ih hs

theorem steps_run {s s' : State} {h : List (Tid × Op)} (hr : run s h = .ok s') : Steps s s' := by
  suffices ∀ s0, Steps s0 s → Steps s0 s' from this s (.refl s)
  induction h generalizing s with
  | nil => intro s0 h0; simp only [run, Res.ok.injEq] at hr; exact hr ▸ h0
  | cons a h ih =>
    obtain ⟨t, op⟩ := a
    intro s0 h0
    simp only [run] at hr
    split at hr
    · rename_i s1 hs1; exact ih hr s0 (h0.tail hs1)
    · exact absurd hr (by rename_i r hr2; intro h; exact hr2 _ h)

theorem reachable_exec {h : List (Tid × Op)} (_ : runsOk h = true) : Reachable (exec h) := by
  unfold exec
  split
  · rename_i s hs; exact (steps_run hs).reachable .init
  · exact .init

/-! Histories used in the examples.  `h1`: main creates a fiber (object 0, context 1), resumes it (the fiber's function
starts, its parameter is object 1), the fiber resumes main back (main gets object 2, which designates the fiber). -/
def h1 : List (Tid × Op) := [(0, .create [] .success), (0, .resume 0), (0, .resume 1)]

/-- as `h1`, then main starts to destroy object 2: the fiber is being unwound, main waits in the destructor -/
def h2 : List (Tid × Op) := h1 ++ [(0, .drop 2)]

/-- as `h2`, then the unwinding completes: parameter destroyed, function left, stack released, destructor returns -/
def h3 : List (Tid × Op) := h2 ++ [(0, .tick), (0, .tick), (0, .tick)]

example : runsOk h1 = true ∧ runsOk h2 = true ∧ runsOk h3 = true := by decide
example : (exec h3).log = [.destroyed 1 0, .dealloc 1, .enter 1, .alloc 1] := by decide

/-- The defect of `~fiber` on never started fibers, as a history: main creates fiber 1 (object 0) and starts fiber 2 (object
1; parameter 2), which resumes main back (object 3 designates fiber 2). Main puts that on the heap (object 4) and destroys
object 0: the function of fiber 1 starts with object 5, designating main.  It puts it on the heap (6) and returns
object 4: fiber 1 finishes and fiber 2 continues, getting object 8 that designates the finished fiber 1; it puts it on
the heap (9) and resumes main (6): the destructor of object 0 releases fiber 1, to which object 9 still points. -/
def hEarly : List (Tid × Op) :=
  [(0, .create [] .success), (0, .create [] .success), (0, .resume 1), (0, .resume 2), (0, .moveHeap 3), (0, .drop 0),
   (0, .moveHeap 5), (0, .retHandle 4), (0, .tick), (0, .tick), (0, .moveHeap 8), (0, .resume 6), (0, .tick)]

end Verif.UFiber
