import Verif.Cont.Props
import Verif.UCont.Props
import Verif.Backends.Spec

/-! # Vocabulary for comparing the fcontext and the ucontext/winfib implementation of `continuation` (C88)

Both models share objects, operations and numbering, so their states can be compared directly. -/

namespace Verif.Backends.Cc
open Verif.Fiber (CtxId Var Tid Kind Exc Mode UKind Status Event CreateOutcome Fctx upd)

/-! ## Programs

A program is a history of operations of `Verif.UCont.Op`; the fcontext machine has more operations (function objects whose copies throw, and lvalue function
objects, on which the two implementations disagree). -/

def toC : UCont.Op → Cont.Op
  | .newHeap => .newHeap | .newLocal => .newLocal | .moveHeap x => .moveHeap x | .moveLocal x => .moveLocal x
  | .moveAssign y x => .moveAssign y x | .swap x y => .swap x y | .drop x => .drop x | .callcc xs o => .callcc xs o
  | .resume x => .resume x | .resumeWith x => .resumeWith x false
  | .call => .call | .cleanup => .cleanup | .ret => .ret | .retHandle x => .retHandle x | .throw n => .throw n
  | .catchUser => .catchUser | .swallow => .swallow | .tick => .tick | .spawn => .spawn

/-! ## Steps

As for `fiber`, the release of a finished context (`context_exit`, `continuation_fcontext.hpp` 73-85; `deallocate()`, `continuation_ucontext.hpp` 249-252), which the
implementations do at different times, is taken together with the step before it. -/

def fReleasing (s : Cont.State) (t : Tid) : Bool :=
  match s.cur t with | some c => (match s.frames c with | .exiting _ :: _ => true | _ => false) | none => false
def uReleasing (s : UCont.State) (t : Tid) : Bool :=
  match s.cur t with | some c => (match s.frames c with | .exiting _ :: _ => true | _ => false) | none => false

def fSettle (t : Tid) : Cont.Res → Cont.Res
  | .ok s => if fReleasing s t then Cont.step s t .tick else .ok s
  | r => r

def uSettle (t : Tid) : UCont.Res → UCont.Res
  | .ok s => if uReleasing s t then UCont.step s t .tick else .ok s
  | r => r

/-- one step of thread `t` with fcontext, including the release of a context finished by it -/
def fStep (s : Cont.State) (t : Tid) (op : UCont.Op) : Cont.Res := fSettle t (Cont.step s t (toC op))
/-- one step of thread `t` with ucontext/winfib, including the release of a context finished by it -/
def uStep (s : UCont.State) (t : Tid) (op : UCont.Op) : UCont.Res := uSettle t (UCont.step s t op)

def fRun (s : Cont.State) : List (Tid × UCont.Op) → Cont.Res
  | [] => .ok s
  | (t, op) :: h => match fStep s t op with
    | .ok s' => fRun s' h
    | r => r

def uRun (s : UCont.State) : List (Tid × UCont.Op) → UCont.Res
  | [] => .ok s
  | (t, op) :: h => match uStep s t op with
    | .ok s' => uRun s' h
    | r => r

/-! ## The programs compared (in terms of the fcontext implementation) -/

def isForced : Cont.Frame → Bool
  | .user _ _ _ (.unwinding (.forced _)) => true
  | .callcc _ (.unwinding (.forced _)) _ _ _ => true
  | _ => false

def isOntopFrame : Cont.Frame → Bool
  | .user (.ontop _) _ _ _ => true
  | .callcc _ _ (.ontop _) _ _ => true
  | _ => false

/-- `forced_unwind` is in flight on this stack -/
def BeingUnwound (fs : List Cont.Frame) : Prop := fs.any isForced = true
/-- a function passed to `resume_with()` is active on this stack -/
def InOntop (fs : List Cont.Frame) : Prop := fs.any isOntopFrame = true

instance (fs) : Decidable (BeingUnwound fs) := inferInstanceAs (Decidable (_ = _))
instance (fs) : Decidable (InOntop fs) := inferInstanceAs (Decidable (_ = _))

/-- the context executed by `t` may suspend itself by `resume()`, `resume_with()` or `callcc()`: it is neither being unwound nor inside an on-top function -/
def MaySwitch (s : Cont.State) (t : Tid) : Prop :=
  match s.cur t with
  | none => True
  | some c => ¬ BeingUnwound (s.frames c) ∧ ¬ InOntop (s.frames c)

/-- object `x` may be destroyed: it is empty or designates a context created by `callcc()` -/
def MayDestroy (s : Cont.State) (x : Var) : Prop :=
  match s.val x with
  | none => True
  | some f => .alloc f.ctx ∈ s.log

/-- Operation `op` of thread `t` is one the two implementations agree on. -/
def Allowed (s : Cont.State) (t : Tid) : UCont.Op → Prop
  | .swallow => False
  | .callcc xs _ => xs = [] ∧ MaySwitch s t
  | .resume _ => MaySwitch s t
  | .resumeWith _ => MaySwitch s t
  | .drop x => MayDestroy s x
  | .moveAssign y x => y = x ∨ MayDestroy s y
  | .tick =>
    match s.cur t with
    | none => True
    | some c =>
      match s.frames c with
      | .user (.ontop _) _ [] (.unwinding _) :: _ => False         -- an exception leaves an on-top function
      | .user _ _ (x :: _) _ :: _ => MayDestroy s x                -- a local is destroyed
      | _ => True
  | _ => True

instance (s t) : Decidable (MaySwitch s t) := by unfold MaySwitch; split <;> infer_instance
instance (s x) : Decidable (MayDestroy s x) := by unfold MayDestroy; split <;> infer_instance
instance (s t op) : Decidable (Allowed s t op) := by
  unfold Allowed; split
  all_goals first | infer_instance | (split <;> first | infer_instance | (split <;> infer_instance))

/-- every operation of the history is allowed in the state in which it is executed -/
def AllowedHist (s : Cont.State) : List (Tid × UCont.Op) → Prop
  | [] => True
  | (t, op) :: h => Allowed s t op ∧ match fStep s t op with | .ok s' => AllowedHist s' h | _ => True

instance decAllowedHist : ∀ (h : List (Tid × UCont.Op)) (s : Cont.State), Decidable (AllowedHist s h)
  | [], _ => isTrue trivial
  | (t, op) :: h, s => by
    unfold AllowedHist
    have : ∀ s', Decidable (AllowedHist s' h) := decAllowedHist h
    cases fStep s t op <;> infer_instance

/-! ## What agrees -/

def stripM : Cont.CcMode → UCont.CcMode
  | .waiting => .waiting
  | .returning y => .returning y
  | .unwinding e => .unwinding e

/-- The same activation with the other implementation: the value of the library object `c`, which the fcontext model represents, is left out. -/
def strip : Cont.Frame → UCont.Frame
  | .user k _ ls m => .user k ls m
  | .callcc x cm k _ ls => .callcc x (stripM cm) k ls
  | .entryJump => .entryJump
  | .entryRun => .entryRun
  | .resume => .resume
  | .dtor v => .dtor v
  | .exiting c => .exiting c
  | .exitJump => .exitJump

/-- The two states look the same to the program. -/
structure Same (a : Cont.State) (b : UCont.State) : Prop where
  /-- every thread executes the same context -/
  threads : ∀ t, b.cur t = a.cur t
  /-- contexts are running, suspended, ended alike -/
  status : ∀ c, b.status c ≠ .terminated → a.status c = b.status c
  /-- a context finished with ucontext (its stack not yet released) is finished and released with fcontext -/
  finished : ∀ c, b.status c = .terminated → a.status c = .freed
  /-- the call stacks are the same, frame by frame, including the locals, what each activation is doing, and the activations of `callcc()` -/
  stacks : ∀ c, b.status c ≠ .terminated → b.frames c = (a.frames c).map strip
  /-- the same objects exist -/
  objects : ∀ x, b.kind x = a.kind x
  /-- the same ones are temporaries of `callcc()` -/
  temporaries : ∀ x, b.hidden x = a.hidden x
  /-- they designate the same contexts -/
  handles : ∀ x w, Cont.Designates a x w ↔ UCont.Designates b x w ∧ b.status w ≠ .terminated
  /-- the same context functions and on-top functions were executed, the same contexts created and destroyed, in the same order -/
  events : a.log.filter notRelease = b.log.filter notRelease

/-- Same outcome of two histories.  Where fcontext asserts, the other implementation asserts, too, or has undefined behaviour (use of an empty object). -/
def SameOutcome : Cont.Res → UCont.Res → Prop
  | .ok a, .ok b => Same a b
  | .rejected, .rejected => True
  | .terminate, .terminate => True
  | .assertion, .assertion => True
  | .assertion, .ub => True
  | _, _ => False

end Verif.Backends.Cc
