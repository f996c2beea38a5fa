import Verif.Fiber.Spec
import Verif.UFiber.Spec

/-! # Vocabulary for comparing the fcontext and the ucontext/winfib implementation of `fiber` (C27)

Both models share objects, frames, operations and numbering, so their states can be compared directly. -/

namespace Verif.Backends
open Verif.Fiber (CtxId Var Tid Kind Exc Mode UKind Frame Status Event Op CreateOutcome Fctx upd)

/-! ## Steps

The release of a finished fiber (`exiting` on top of the stack) is taken together with the step before it: the function objects of
the compared programs capture no fibers, so that it is a single step (`fiber_exit`, `fiber_fcontext.hpp` 74-85; `deallocate()`,
`fiber_ucontext.hpp` 274-277), which happens at different times in the two implementations. -/

/-- the innermost activation is releasing a finished fiber -/
def releasing : List Frame → Bool
  | .exiting _ :: _ => true
  | _ => false

/-- the context thread `t` executes is releasing a finished fiber -/
def fReleasing (s : Fiber.State) (t : Tid) : Bool := match s.cur t with | some c => releasing (s.frames c) | none => false
def uReleasing (s : UFiber.State) (t : Tid) : Bool := match s.cur t with | some c => releasing (s.frames c) | none => false

def fSettle (t : Tid) : Fiber.Res → Fiber.Res
  | .ok s => if fReleasing s t then Fiber.step s t .tick else .ok s
  | r => r

def uSettle (t : Tid) : UFiber.Res → UFiber.Res
  | .ok s => if uReleasing s t then UFiber.step s t .tick else .ok s
  | r => r

/-- one step of thread `t` with the fcontext implementation, including the release of a fiber finished by it -/
def fStep (s : Fiber.State) (t : Tid) (op : Op) : Fiber.Res := fSettle t (Fiber.step s t op)
/-- one step of thread `t` with the ucontext/winfib implementation, including the release of a fiber finished by it -/
def uStep (s : UFiber.State) (t : Tid) (op : Op) : UFiber.Res := uSettle t (UFiber.step s t op)

def fRun (s : Fiber.State) : List (Tid × Op) → Fiber.Res
  | [] => .ok s
  | (t, op) :: h => match fStep s t op with
    | .ok s' => fRun s' h
    | r => r

def uRun (s : UFiber.State) : List (Tid × Op) → UFiber.Res
  | [] => .ok s
  | (t, op) :: h => match uStep s t op with
    | .ok s' => uRun s' h
    | r => r

/-! ## The programs compared (in terms of the fcontext implementation) -/

def isForced : Frame → Bool
  | .user _ _ (.unwinding (.forced _)) => true
  | _ => false

def isOntopFrame : Frame → Bool
  | .user (.ontop _) _ _ => true
  | _ => false

/-- `forced_unwind` is in flight on this stack -/
def BeingUnwound (fs : List Frame) : Prop := fs.any isForced = true
/-- a function passed to `resume_with()` is active on this stack -/
def InOntop (fs : List Frame) : Prop := fs.any isOntopFrame = true

instance (fs) : Decidable (BeingUnwound fs) := inferInstanceAs (Decidable (_ = _))
instance (fs) : Decidable (InOntop fs) := inferInstanceAs (Decidable (_ = _))

/-- the context executed by `t` may suspend itself by `resume()`/`resume_with()`: it is neither being unwound nor inside an on-top
function -/
def MaySwitch (s : Fiber.State) (t : Tid) : Prop :=
  match s.cur t with
  | none => True
  | some c => ¬ BeingUnwound (s.frames c) ∧ ¬ InOntop (s.frames c)

/-- object `x` may be destroyed: it is empty or designates a fiber whose function has been started -/
def MayDestroy (s : Fiber.State) (x : Var) : Prop :=
  match s.val x with
  | none => True
  | some f => .alloc f.ctx ∈ s.log ∧ s.frames f.ctx ≠ [.entryJump]

/-- the target of `resume_with()` is not a never started fiber -/
def Started (s : Fiber.State) (x : Var) : Prop :=
  match s.val x with
  | none => True
  | some f => s.frames f.ctx ≠ [.entryJump]

/-- Operation `op` of thread `t` is one the two implementations agree on. -/
def Allowed (s : Fiber.State) (t : Tid) : Op → Prop
  | .swallow => False
  | .withThrows _ _ _ => False
  | .create xs _ => xs = []
  | .resume _ => MaySwitch s t
  | .resumeWith x => MaySwitch s t ∧ Started s x
  | .drop x => MayDestroy s x
  | .moveAssign y x => y = x ∨ MayDestroy s y
  | .tick =>
    match s.cur t with
    | none => True
    | some c =>
      match s.frames c with
      | .user (.ontop _) [] (.unwinding _) :: _ => False           -- an exception leaves an on-top function
      | .user _ (x :: _) _ :: _ => MayDestroy s x                  -- a local is destroyed
      | _ => True
  | _ => True

instance (s t) : Decidable (MaySwitch s t) := by unfold MaySwitch; split <;> infer_instance
instance (s x) : Decidable (MayDestroy s x) := by unfold MayDestroy; split <;> infer_instance
instance (s x) : Decidable (Started s x) := by unfold Started; split <;> infer_instance
instance (s t op) : Decidable (Allowed s t op) := by
  unfold Allowed; split
  all_goals first | infer_instance | (split <;> first | infer_instance | (split <;> infer_instance))

/-- every operation of the history is allowed in the state in which it is executed -/
def AllowedHist (s : Fiber.State) : List (Tid × Op) → Prop
  | [] => True
  | (t, op) :: h => Allowed s t op ∧ match fStep s t op with | .ok s' => AllowedHist s' h | _ => True

instance decAllowedHist : ∀ (h : List (Tid × Op)) (s : Fiber.State), Decidable (AllowedHist s h)
  | [], _ => isTrue trivial
  | (t, op) :: h, s => by
    unfold AllowedHist
    have : ∀ s', Decidable (AllowedHist s' h) := decAllowedHist h
    cases fStep s t op <;> infer_instance

/-! ## What agrees -/

/-- events other than the release of a stack -/
def notRelease : Event → Bool
  | .dealloc _ => false
  | _ => true

/-- The two states look the same to the program. -/
structure Same (a : Fiber.State) (b : UFiber.State) : Prop where
  /-- every thread executes the same context -/
  threads : ∀ t, b.cur t = a.cur t
  /-- contexts are running, suspended, ended alike -/
  status : ∀ c, b.status c ≠ .terminated → a.status c = b.status c
  /-- a fiber finished with ucontext (its stack not yet released) is finished and released with fcontext -/
  finished : ∀ c, b.status c = .terminated → a.status c = .freed
  /-- the call stacks are the same, frame by frame, including the locals and what each activation is doing -/
  stacks : ∀ c, b.status c ≠ .terminated → b.frames c = a.frames c
  /-- the same objects exist -/
  objects : ∀ x, b.kind x = a.kind x
  /-- they designate the same contexts -/
  handles : ∀ x w, Fiber.Designates a x w ↔ UFiber.Designates b x w ∧ b.status w ≠ .terminated
  /-- `operator bool` agrees -/
  bool : ∀ x, (a.val x).isSome = true ↔ UFiber.Valid b x
  /-- the same context functions and on-top functions were executed, the same fibers created and destroyed, in the same order -/
  events : a.log.filter notRelease = b.log.filter notRelease

/-- Same outcome of two histories. -/
def SameOutcome : Fiber.Res → UFiber.Res → Prop
  | .ok a, .ok b => Same a b
  | .rejected, .rejected => True
  | .terminate, .terminate => True
  | .assertion, .assertion => True
  | _, _ => False

/-! ## A sample program: two fibers, `resume_with`, a fiber that finishes, a fiber that is unwound -/

def hSample : List (Tid × Op) :=
  [(0, .create [] .success), (0, .create [] .success), (0, .resume 0), (0, .resume 2), (0, .resumeWith 3), (0, .retHandle 4), (0, .tick),
   (0, .tick), (0, .resume 6), (0, .resume 1), (0, .retHandle 8), (0, .tick), (0, .tick), (0, .drop 7), (0, .cleanup), (0, .ret), (0, .tick),
   (0, .tick), (0, .tick), (0, .tick), (0, .drop 10)]

end Verif.Backends
