import Verif.EH.Model
import Verif.UFiber.Spec

/-!
# The exception state of a thread: `fiber` on ucontext

As `Verif.EH.Model`, for the machine of `Verif.UFiber.Model` (`fiber_ucontext.hpp`; `fiber_winfib.hpp` throws and catches at the same places): what each step throws and catches, and on which stack.
Line numbers refer to `fiber_ucontext.hpp`.
-/

namespace Verif.EH.U
open Verif.UFiber
open Verif.Fiber (CtxId Var Tid Exc UKind Mode Frame Op CreateOutcome upd upd_apply)

/-- Context `w` is switched to: if it is suspended in `resume()` or `resume_with()` and its `force_unwind` is set, it throws `forced_unwind` (490-491, 509-510). -/
def arrPrims (s : State) (w : CtxId) : List (CtxId × Prim) :=
  match s.frames w with
  | .resume :: _ => if s.unw w then [(w, .throw)] else []
  | _ => []

/-- `~fiber` (457-466) of an object with value `v`: a fiber that has not finished gets `force_unwind` (460) and is switched to (461). -/
def destroyPrims (s : State) : Option CtxId → List (CtxId × Prim)
  | none => []
  | some v =>
    if s.root v || s.term v then []
    else match s.frames v with
      | .resume :: _ => [(v, .throw)]
      | _ => []

/-- the context that `o` designates is switched to -/
def toPrims (s : State) : Option CtxId → List (CtxId × Prim)
  | none => []
  | some w => arrPrims s w

/-- What a step of thread `t` throws and catches, in this order, and on the stack of which context. -/
def prims (s : State) (t : Tid) (op : Op) : List (CtxId × Prim) :=
  match s.cur t with
  | none => []
  | some c =>
    match s.frames c with
    | .user _ _ .normal :: _ =>
      match op with
      | .throw _ => [(c, .throw)]
      | .create _ (.allocThrows _) => [(c, .throw)]                            -- 310
      | .resume x => toPrims s (s.val x)                                       -- 483-497
      | .resumeWith x => toPrims s (s.val x)                                   -- 499-516
      | .moveAssign y x => if y = x then [] else destroyPrims s (s.val y)      -- 475-481
      | .drop x => destroyPrims s (s.val x)
      | _ => []
    | .user _ (x :: _) _ :: _ => match op with
      | .tick => destroyPrims s (s.val x)
      | _ => []
    | .user k [] (.unwinding e) :: _ => match op with
      | .catchUser => [(c, .beginCatch e)]
      | .tick => match k, e with
        | .fn, .forced x => [(c, .beginCatch (.forced x)), (c, .endCatch)] ++ toPrims s (s.val x)   -- 293-301
        | _, _ => []
      | _ => []
    | .user k [] (.returning o) :: _ => match op with
      | .tick => match k, o with
        | .fn, some x => toPrims s (s.val x)                                   -- 301
        | _, _ => []
      | _ => []
    | .exiting n :: _ => match op with
      | .tick => match s.caps n with                                           -- 258-265, destructor of the function object
        | x :: _ => destroyPrims s (s.val x)
        | [] => []
      | _ => []
    | _ => []

/-- The machine; `g t`: exception state of thread `t`; `own c` (ghost): the exception state context `c` would have if it had one of its own. -/
structure EState where
  st : State
  g : Tid → Glob
  own : CtxId → Glob

/-- the calls `ps` of the runtime are made by thread `t`; the machine is in state `s'` afterwards -/
def EState.after (a : EState) (s' : State) (t : Tid) (ps : List (CtxId × Prim)) : EState where
  st := s'
  g := upd a.g t (ps.foldl (fun g p => p.2.app g) (a.g t))
  own := ps.foldl (fun o p => upd o p.1 (p.2.app (o p.1))) a.own

/-- One step of thread `t`: an operation of `Verif.UFiber.Model` (but no handler swallows `forced_unwind`), or the end of an active handler of the context executed. -/
inductive EStep (a : EState) (t : Tid) : EState → Prop
  | lib {op s'} (ho : op ≠ .swallow) (hs : step a.st t op = .ok s') : EStep a t (a.after s' t (prims a.st t op))
  | endCatch {c} (hc : a.st.cur t = some c) (hn : (a.own c).caught ≠ []) : EStep a t (a.after a.st t [(c, .endCatch)])

def einit : EState := ⟨init, fun _ => .none, fun _ => .none⟩

/-- Histories whose steps obey rule `R`. -/
inductive Hist (R : EState → Tid → EState → Prop) : EState → Prop
  | init : Hist R einit
  | step {a b t} : Hist R a → EStep a t b → R a t b → Hist R b

/-! ## Vocabulary -/

/-- context `c` is being unwound on behalf of `w`: a `forced_unwind` in flight on the stack of `c` designates `w` -/
def UnwoundFor (s : State) (c w : CtxId) : Prop := ∃ x, s.kind x = .exc c ∧ s.val x = some w

/-- `Chain s c l`: `l` are the contexts waiting until `c` has been unwound: the first waits for `c`, the second for the first, … -/
inductive Chain (s : State) : CtxId → List CtxId → Prop
  | nil {c} (h : ∀ w, ¬ UnwoundFor s c w) : Chain s c []
  | cons {c w l} (h : UnwoundFor s c w) (hl : Chain s w l) : Chain s c (w :: l)

/-- the exception that `throw;`, executed now by thread `t`, throws -/
def Rethrows (a : EState) (t : Tid) (e : Exc) : Prop := (a.g t).caught.head? = some e

/-- `std::uncaught_exceptions()` -/
def uncaughtExceptions (a : EState) (t : Tid) : Int := (a.g t).uncaught

/-- "Do not jump from inside a catch block" (`doc/fiber.qbk` 139): a step in which a thread leaves a context begins without an active handler of the context. -/
def NoJumpInCatch (a : EState) (t : Tid) (b : EState) : Prop := ∀ c, a.st.cur t = some c → b.st.cur t ≠ some c → (a.own c).caught = []

/-- A thread leaves a context by `resume()` or `resume_with()` or because the context ends only if the context has no active handler and no exception stays in flight on its stack; the destructor
`~fiber` may be executed anywhere. -/
def CleanSwitches (a : EState) (t : Tid) (b : EState) : Prop :=
  ∀ c, a.st.cur t = some c → b.st.cur t ≠ some c → ((a.own c).caught = [] ∧ inflight (b.st.frames c) = 0) ∨ ∃ v rest, b.st.frames c = .dtor v :: rest

/-- `w` waits in the destructor of a `fiber` that designated `v` -/
def WaitsInDtor (s : State) (w v : CtxId) : Prop := ∃ rest, s.frames w = .dtor v :: rest

end Verif.EH.U
