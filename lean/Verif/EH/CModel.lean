import Verif.EH.Model
import Verif.Cont.Hidden

/-!
# The exception state of a thread: `continuation`

As `Verif.EH.Model`, for the machine of `Verif.Cont.Model` (`continuation_fcontext.hpp`): what each step throws and catches, and on which stack.
-/

namespace Verif.EH.C
open Verif.Cont
open Verif.Fiber (CtxId Var Tid Fctx Exc UKind upd upd_apply)

/-- `~continuation` (`continuation_fcontext.hpp` 285-296) of an object with value `v`: `context_unwind` (69) throws on the stack of the context destroyed; if it was not started, the handler of
`context_entry` (99-101) catches and ends at once. -/
def destroyPrims (s : State) : Option Fctx → List (CtxId × Prim)
  | none => []
  | some f => match s.frames f.ctx with
    | .entryJump :: _ => [(f.ctx, .throw), (f.ctx, .beginCatch (.forced s.nextVar)), (f.ctx, .endCatch)]
    | _ => [(f.ctx, .throw)]

/-- What a step of thread `t` throws and catches, in this order, and on the stack of which context. -/
def prims (s : State) (t : Tid) (op : Op) : List (CtxId × Prim) :=
  match s.cur t with
  | none => []
  | some c =>
    match s.frames c with
    | .user _ _ _ .normal :: _ =>
      match op with
      | .throw _ => [(c, .throw)]
      | .callcc _ (.allocThrows _) => [(c, .throw)]                            -- 172
      | .withThrows _ _ false => [(c, .throw)]                                 -- 333
      | .withThrows x _ true => match s.val x with                             -- 111, on the stack of the target
        | some f => [(f.ctx, .throw)]
        | none => []
      | .moveAssign y x => if y = x then [] else destroyPrims s (s.val y)      -- 302-308
      | .drop x => destroyPrims s (s.val x)
      | _ => []
    | .user _ _ (x :: _) _ :: _ => match op with
      | .tick => destroyPrims s (s.val x)
      | _ => []
    | .user _ (some f) [] _ :: _ => match op with                              -- the object `c` of the library (113, 151)
      | .tick => destroyPrims s (some f)
      | _ => []
    | .user k none [] (.unwinding e) :: rest => match op with
      | .catchUser => [(c, .beginCatch e)]
      | .tick => match k, e, rest with
        | .fn, .forced x, _ => [(c, .beginCatch (.forced x)), (c, .endCatch)]                       -- 99-101
        | .ontop _, .forced x, .entryJump :: _ => [(c, .beginCatch (.forced x)), (c, .endCatch)]    -- 99-101
        | _, _, _ => []
      | _ => []
    | .callcc x (.returning _) _ _ _ :: _ => match op with                     -- the temporary of `callcc` (380-387)
      | .tick => destroyPrims s (s.val x)
      | _ => []
    | .callcc x (.unwinding _) _ _ _ :: _ => match op with
      | .tick => destroyPrims s (s.val x)
      | _ => []
    | .exiting n :: _ => match op with
      | .tick => match s.caps n with                                           -- 132, destructor of the function object
        | x :: _ => destroyPrims s (s.val x)
        | [] => []
      | _ => []
    | _ => []

/-- The machine; `g t`: exception state of thread `t`; `own c` (ghost): the exception state context `c` would have if it had one of its own. -/
structure EState where
  st : State
  g : Tid → Glob
  own : CtxId → Glob

/-- the calls `ps` of the runtime are made by thread `t`; the machine is in state `s'` afterwards -/
def EState.after (a : EState) (s' : State) (t : Tid) (ps : List (CtxId × Prim)) : EState where
  st := s'
  g := upd a.g t (ps.foldl (fun g p => p.2.app g) (a.g t))
  own := ps.foldl (fun o p => upd o p.1 (p.2.app (o p.1))) a.own

/-- One step of thread `t`: an operation of `Verif.Cont.Model` (but no handler swallows `forced_unwind`), or the end of an active handler of the context executed. -/
inductive EStep (a : EState) (t : Tid) : EState → Prop
  | lib {op s'} (ho : op ≠ .swallow) (hs : step a.st t op = .ok s') : EStep a t (a.after s' t (prims a.st t op))
  | endCatch {c} (hc : a.st.cur t = some c) (hn : (a.own c).caught ≠ []) : EStep a t (a.after a.st t [(c, .endCatch)])

def einit : EState := ⟨init, fun _ => .none, fun _ => .none⟩

/-- Histories whose steps obey rule `R`. -/
inductive Hist (R : EState → Tid → EState → Prop) : EState → Prop
  | init : Hist R einit
  | step {a b t} : Hist R a → EStep a t b → R a t b → Hist R b

/-! ## Vocabulary -/

/-- context `c` is being unwound on behalf of `w`: a `forced_unwind` in flight on the stack of `c` designates `w` -/
def UnwoundFor (s : State) (c w : CtxId) : Prop := ∃ x f, s.kind x = .exc c ∧ s.val x = some f ∧ f.ctx = w

/-- `Chain s c l`: `l` are the contexts waiting in `~continuation` until `c` has been unwound: the first waits for `c`, the second for the first, … -/
inductive Chain (s : State) : CtxId → List CtxId → Prop
  | nil {c} (h : ∀ w, ¬ UnwoundFor s c w) : Chain s c []
  | cons {c w l} (h : UnwoundFor s c w) (hl : Chain s w l) : Chain s c (w :: l)

/-- the exception that `throw;`, executed now by thread `t`, throws -/
def Rethrows (a : EState) (t : Tid) (e : Exc) : Prop := (a.g t).caught.head? = some e

/-- number of exceptions in flight on a stack: activations of user functions or of `callcc` that an exception is leaving -/
def inflight : List Frame → Nat
  | [] => 0
  | .user _ _ _ (.unwinding _) :: fs => 1 + inflight fs
  | .callcc _ (.unwinding _) _ _ _ :: fs => 1 + inflight fs
  | _ :: fs => inflight fs

/-- "Do not jump from inside a catch block" (`doc/callcc.qbk` 152): a step in which a thread leaves a context begins without an active handler of the context. -/
def NoJumpInCatch (a : EState) (t : Tid) (b : EState) : Prop := ∀ c, a.st.cur t = some c → b.st.cur t ≠ some c → (a.own c).caught = []

/-- A thread leaves a context by `callcc()`, `resume()` or `resume_with()` or because the context ends only if the context has no active handler and no exception stays in flight on its stack;
the destructor `~continuation` may be executed anywhere. -/
def CleanSwitches (a : EState) (t : Tid) (b : EState) : Prop :=
  ∀ c, a.st.cur t = some c → b.st.cur t ≠ some c → ((a.own c).caught = [] ∧ inflight (b.st.frames c) = 0) ∨ ∃ v rest, b.st.frames c = .dtor v :: rest

end Verif.EH.C
