import Verif.Fiber.Eff

/-!
# The exception state of a thread

The C++ runtime keeps, per *thread*, the stack of exceptions caught by active handlers and the number of exceptions in flight (Itanium C++ ABI: `__cxa_eh_globals` with
`caughtExceptions`, `uncaughtExceptions`).  `throw;`, `std::current_exception()` and `std::uncaught_exceptions()` use them.  The library does not touch them when it switches contexts.
This file adds them to the machine of `Verif.Fiber.Model` (`fiber_fcontext.hpp`; `continuation_fcontext.hpp` throws and catches at the same places): what each step of the machine throws
and catches, and where.  The doc says (`doc/fiber.qbk` 139, `doc/callcc.qbk` 152): "Do not jump from inside a catch block".

Simplifications: `throw;` is the operation `throw` with the exception that the thread's state designates (`Rethrows`); the end of a handler is an operation of its own, possible whenever a
handler of the context is active (user code and compiler may do so in any order); a handler that takes `forced_unwind` and rethrows it counts as a clean-up (one that does not rethrow it is
forbidden by the doc and left out).
-/

namespace Verif.EH
open Verif.Fiber (CtxId Var Tid Fctx Kind Exc Mode UKind Frame Status State Op CreateOutcome upd upd_apply step init)

/-- Exceptions caught by active handlers, innermost first; number of exceptions in flight (the runtime's counter is unsigned). -/
structure Glob where
  caught : List Exc
  uncaught : Int
  deriving DecidableEq, Repr

namespace Glob
def none : Glob := ⟨[], 0⟩
/-- `a` on top of `b` -/
def on (a b : Glob) : Glob := ⟨a.caught ++ b.caught, a.uncaught + b.uncaught⟩
end Glob

/-- Calls of the runtime: `__cxa_throw`/`__cxa_rethrow`, `__cxa_begin_catch`, `__cxa_end_catch` -/
inductive Prim
  | throw | beginCatch (e : Exc) | endCatch
  deriving DecidableEq, Repr

def Prim.app : Prim → Glob → Glob
  | .throw, g => ⟨g.caught, g.uncaught + 1⟩
  | .beginCatch e, g => ⟨e :: g.caught, g.uncaught - 1⟩
  | .endCatch, g => ⟨g.caught.tail, g.uncaught⟩

/-- `~fiber` (`fiber_fcontext.hpp` 296-307) of an object with value `v`: `fiber_unwind` (69) throws on the stack of the fiber destroyed; if the fiber was not started, the handler of
`fiber_entry` (99-101) catches and ends at once. -/
def destroyPrims (s : State) : Option Fctx → List (CtxId × Prim)
  | none => []
  | some f => match s.frames f.ctx with
    | .entryJump :: _ => [(f.ctx, .throw), (f.ctx, .beginCatch (.forced s.nextVar)), (f.ctx, .endCatch)]
    | _ => [(f.ctx, .throw)]

/-- What a step of thread `t` throws and catches, in this order, and on the stack of which context. -/
def prims (s : State) (t : Tid) (op : Op) : List (CtxId × Prim) :=
  match s.cur t with
  | none => []
  | some c =>
    match s.frames c with
    | .user _ _ .normal :: _ =>
      match op with
      | .throw _ => [(c, .throw)]
      | .create _ (.allocThrows _) => [(c, .throw)]                            -- 169
      | .withThrows _ _ false => [(c, .throw)]                                 -- 338
      | .withThrows x _ true => match s.val x with                             -- 110, on the stack of the target
        | some f => [(f.ctx, .throw)]
        | none => []
      | .moveAssign y x => if y = x then [] else destroyPrims s (s.val y)      -- 313-319
      | .drop x => destroyPrims s (s.val x)
      | _ => []
    | .user _ (x :: _) _ :: _ => match op with
      | .tick => destroyPrims s (s.val x)
      | _ => []
    | .user k [] (.unwinding e) :: rest => match op with
      | .catchUser => [(c, .beginCatch e)]
      | .tick => match k, e, rest with
        | .fn, .forced x, _ => [(c, .beginCatch (.forced x)), (c, .endCatch)]                       -- 99-101
        | .ontop _, .forced x, .entryJump :: _ => [(c, .beginCatch (.forced x)), (c, .endCatch)]    -- 99-101
        | _, _, _ => []
      | _ => []
    | .exiting n :: _ => match op with
      | .tick => match s.caps n with                                           -- 130, destructor of the function object
        | x :: _ => destroyPrims s (s.val x)
        | [] => []
      | _ => []
    | _ => []

/-- The machine; `g t`: exception state of thread `t`; `own c` (ghost): the exception state context `c` would have if it had one of its own. -/
structure EState where
  st : State
  g : Tid → Glob
  own : CtxId → Glob

/-- the calls `ps` of the runtime are made by thread `t`; the machine is in state `s'` afterwards -/
def EState.after (a : EState) (s' : State) (t : Tid) (ps : List (CtxId × Prim)) : EState where
  st := s'
  g := upd a.g t (ps.foldl (fun g p => p.2.app g) (a.g t))
  own := ps.foldl (fun o p => upd o p.1 (p.2.app (o p.1))) a.own

/-- One step of thread `t`: an operation of `Verif.Fiber.Model` (but no handler swallows `forced_unwind`), or the end of an active handler of the context executed. -/
inductive EStep (a : EState) (t : Tid) : EState → Prop
  | lib {op s'} (ho : op ≠ .swallow) (hs : step a.st t op = .ok s') : EStep a t (a.after s' t (prims a.st t op))
  | endCatch {c} (hc : a.st.cur t = some c) (hn : (a.own c).caught ≠ []) : EStep a t (a.after a.st t [(c, .endCatch)])

def einit : EState := ⟨init, fun _ => .none, fun _ => .none⟩

/-- Histories whose steps obey rule `R`. -/
inductive Hist (R : EState → Tid → EState → Prop) : EState → Prop
  | init : Hist R einit
  | step {a b t} : Hist R a → EStep a t b → R a t b → Hist R b

/-! ## Vocabulary -/

/-- context `c` is being unwound on behalf of `w`: a `forced_unwind` in flight on the stack of `c` designates `w` (`w` waits in `~fiber`, see `C93_waits`) -/
def UnwoundFor (s : State) (c w : CtxId) : Prop := ∃ x f, s.kind x = .exc c ∧ s.val x = some f ∧ f.ctx = w

/-- `Chain s c l`: `l` are the contexts waiting in `~fiber` until `c` has been unwound: the first waits for `c`, the second for the first, … -/
inductive Chain (s : State) : CtxId → List CtxId → Prop
  | nil {c} (h : ∀ w, ¬ UnwoundFor s c w) : Chain s c []
  | cons {c w l} (h : UnwoundFor s c w) (hl : Chain s w l) : Chain s c (w :: l)

/-- exception states on top of each other -/
def stack (own : CtxId → Glob) : List CtxId → Glob
  | [] => .none
  | c :: l => (own c).on (stack own l)

/-- the exception that `throw;`, executed now by thread `t`, throws -/
def Rethrows (a : EState) (t : Tid) (e : Exc) : Prop := (a.g t).caught.head? = some e

/-- `std::uncaught_exceptions()` -/
def uncaughtExceptions (a : EState) (t : Tid) : Int := (a.g t).uncaught

/-- number of exceptions in flight on a stack: function activations that an exception is leaving -/
def inflight : List Frame → Nat
  | [] => 0
  | .user _ _ (.unwinding _) :: fs => 1 + inflight fs
  | _ :: fs => inflight fs

/-- "Do not jump from inside a catch block" (`doc/fiber.qbk` 139): a step in which a thread leaves a context begins without an active handler of the context (what the library itself catches in the
step is not excused). -/
def NoJumpInCatch (a : EState) (t : Tid) (b : EState) : Prop := ∀ c, a.st.cur t = some c → b.st.cur t ≠ some c → (a.own c).caught = []

/-- A thread leaves a context by `resume()` or `resume_with()` or because the context ends only if the context has no active handler and no exception stays in flight on its stack; the destructor
`~fiber` may be executed anywhere. -/
def CleanSwitches (a : EState) (t : Tid) (b : EState) : Prop :=
  ∀ c, a.st.cur t = some c → b.st.cur t ≠ some c → ((a.own c).caught = [] ∧ inflight (b.st.frames c) = 0) ∨ ∃ v rest, b.st.frames c = .dtor v :: rest

end Verif.EH
