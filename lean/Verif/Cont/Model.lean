import Verif.Fiber.Model

/-!
# Executable model of `boost::context::continuation` / `callcc` on top of fcontext

Models `/repo/include/boost/context/continuation_fcontext.hpp` (all line numbers below refer to that file).  The machine is
written independently of the one of `fiber` (`Verif.Fiber.Model`); only plain data types (identifiers, object kinds, modes,
statuses, events) are shared.  The differences of the header to `fiber_fcontext.hpp` are all modelled:

* no object is constructed from a function; `callcc` (371-398) is `continuation{create_context1(...)}.resume()`, the
  temporary lives until the caller of `callcc` gets the result;
* `record::run` (150-165) and `context_ontop` (107-121) have a library object `c`: `Ctx c{fctx}; c = fn(std::move(c));`;
* `resume()`, `resume_with()` also exist for lvalues (310-312, 325-328);
* `resume_with` stores `std::make_tuple(fn)`, a tuple of the *decayed* type (333), and `context_ontop<continuation, Fn>` reads
  a `std::tuple<Fn>` (109-111), which for an lvalue function object is a tuple of a *reference*.

The same general simplifications as in `Verif.Fiber.Model` apply.  In addition: a context function or on-top function
taking `continuation &&` is modelled like one taking `continuation` by value (its parameter is an object destroyed when the function
is left; by reference, the library object `c` is reset at the same moment by the move assignment). -/

namespace Verif.Cont
open Verif.Fiber (CtxId Var Tid Fctx Kind Exc Mode UKind Status Event CreateOutcome upd)

/-- Where the activation of `callcc` (380-387) stands: waiting in `resume()`; `resume()` returned object `y`, the temporary is about to
be destroyed; `resume()` threw `e`, the temporary is about to be destroyed. -/
inductive CcMode
  | waiting | returning (y : Var) | unwinding (e : Exc)
  deriving DecidableEq, Repr

inductive Frame
  /-- user code.  For context functions and on-top functions `lib` is the value of the library object `c` in the calling
  `record::run` (151) resp. `context_ontop` (113); for other functions it is not used. -/
  | user (k : UKind) (lib : Option Fctx) (ls : List Var) (m : Mode)
  /-- an activation of `callcc` (380-387) with temporary `x`, called by the user code activation `k, lib, ls` -/
  | callcc (x : Var) (cm : CcMode) (k : UKind) (lib : Option Fctx) (ls : List Var)
  /-- `context_entry` inside `jump_fcontext` of line 95 -/
  | entryJump
  /-- `context_entry` inside `rec->run` of line 97 -/
  | entryRun
  /-- `resume` (314-323) or `resume_with` (330-342) waiting -/
  | resume
  /-- `~continuation` (285-296) waiting for the unwinding of `victim` -/
  | dtor (victim : CtxId)
  /-- `context_exit` (73-85) for finished context `c` -/
  | exiting (c : CtxId)
  /-- `context_entry` inside `ontop_fcontext` of line 103 -/
  | exitJump
  deriving DecidableEq, Repr

/-- As `Verif.Fiber.State`; `hidden x`: `x` is the temporary of a `callcc`, which user code cannot name. -/
structure State where
  cur     : Tid → Option CtxId
  status  : CtxId → Status
  seq     : CtxId → Nat
  frames  : CtxId → List Frame
  /-- `continuation` objects captured in `record::fn_` (line 128) -/
  caps    : CtxId → List Var
  kind    : Var → Kind
  /-- member `fctx_` (line 274) -/
  val     : Var → Option Fctx
  nextCtx : Nat
  nextVar : Nat
  nextTid : Nat
  nextId  : Nat
  lost    : CtxId → Bool
  hidden  : Var → Bool
  log     : List Event

inductive Res
  | ok (s : State) | rejected | terminate | assertion | ub

namespace State

def setFrames (s : State) (c : CtxId) (fs : List Frame) : State := { s with frames := upd s.frames c fs }
def setVal (s : State) (x : Var) (v : Option Fctx) : State := { s with val := upd s.val x v }
def kill (s : State) (x : Var) : State := { s with kind := upd s.kind x .dead, val := upd s.val x none }
/-- a new object (`continuation{fctx}` 276-278, default construction 281) -/
def newVar (s : State) (k : Kind) (v : Option Fctx) : State :=
  { s with kind := upd s.kind s.nextVar k, val := upd s.val s.nextVar v, nextVar := s.nextVar + 1 }
def addLog (s : State) (e : Event) : State := { s with log := e :: s.log }

/-- Objects user code can name. -/
def accessible (s : State) (x : Var) : Bool :=
  match s.kind x with
  | .heap | .loc _ | .cap _ => !s.hidden x
  | _ => false

/-- the switch of `jump_fcontext`/`ontop_fcontext`, as in `Verif.Fiber.Model` -/
def switch (s : State) (t : Tid) (f : Fctx) (leave : Status) (allowRaw : Bool) : Option (State × Fctx) :=
  match s.cur t with
  | none => none
  | some c =>
    if (s.status f.ctx = .suspended ∨ (allowRaw = true ∧ s.status f.ctx = .raw)) ∧ s.seq f.ctx = f.seq then
      some ({ s with
        cur := upd s.cur t (some f.ctx)
        status := upd (upd s.status c leave) f.ctx (.running t)
        seq := upd s.seq c (s.seq c + 1) }, ⟨c, s.seq c + 1⟩)
    else none

def jump (s : State) (t : Tid) (f : Fctx) : Option (State × Fctx) := s.switch t f .suspended true
def ontopSwitch (s : State) (t : Tid) (f : Fctx) (leave : Status) : Option (State × Fctx) := s.switch t f leave false

/-- Lines 99-104 and 73-85: `context_entry` of `c` finishes, `context_exit` on top of `f`. -/
def finish (s : State) (t : Tid) (c : CtxId) (f : Fctx) : Res :=
  let s := s.setFrames c [.exitJump]
  match s.ontopSwitch t f .terminated with
  | none => .ub
  | some (s, _) => .ok (s.setFrames f.ctx (.exiting c :: s.frames f.ctx))

/-- `jump_fcontext`/`ontop_fcontext` returns `{v, nullptr}` in context `c`: at line 95 (then 97 and 150-155: object `c` gets `v`, the
parameter of the context function is moved from it), at line 316/334 below user code (a new object is returned) or below `callcc`
(the new object is the result of `callcc`), or at line 287. -/
def deliver (s : State) (c : CtxId) (v : Option Fctx) : Res :=
  match s.frames c with
  | .entryJump :: rest =>
    .ok (((s.newVar (.loc c) v).setFrames c (.user .fn none [s.nextVar] .normal :: .entryRun :: rest)).addLog (.enter c))
  | .resume :: .user k lib ls m :: rest =>
    .ok ((s.newVar (.loc c) v).setFrames c (.user k lib (s.nextVar :: ls) m :: rest))
  | .resume :: .callcc x .waiting k lib ls :: rest =>
    .ok ((s.newVar (.loc c) v).setFrames c (.callcc x (.returning s.nextVar) k lib ls :: rest))
  | .dtor w :: rest => .ok ((s.setFrames c rest).addLog (.destroyed w c))
  | _ => .ub

/-- A user exception leaves the on-top function (115) into the suspension point of `c`. -/
def raiseUser (s : State) (c : CtxId) (n : Nat) : Res :=
  match s.frames c with
  | .entryJump :: _ => .terminate
  | .resume :: .user k lib ls _ :: rest => .ok (s.setFrames c (.user k lib ls (.unwinding (.user n)) :: rest))
  | .resume :: .callcc x .waiting k lib ls :: rest => .ok (s.setFrames c (.callcc x (.unwinding (.user n)) k lib ls :: rest))
  | .dtor _ :: _ => .terminate
  | _ => .ub

/-- `forced_unwind(f)` is thrown at the suspension point of `c` (line 69 or out of an on-top function). -/
def raiseForced (s : State) (t : Tid) (c : CtxId) (f : Fctx) : Res :=
  match s.frames c with
  | .entryJump :: _ => s.finish t c f
  | .resume :: .user k lib ls _ :: rest =>
    .ok ((s.newVar (.exc c) (some f)).setFrames c (.user k lib ls (.unwinding (.forced s.nextVar)) :: rest))
  | .resume :: .callcc x .waiting k lib ls :: rest =>
    .ok ((s.newVar (.exc c) (some f)).setFrames c (.callcc x (.unwinding (.forced s.nextVar)) k lib ls :: rest))
  | .dtor _ :: _ => .terminate
  | _ => .ub

/-- `~continuation` (285-296) with non-null member -/
def destroyFctx (s : State) (t : Tid) (c : CtxId) (f : Fctx) : Res :=
  let s := s.setFrames c (.dtor f.ctx :: s.frames c)
  match s.ontopSwitch t f .suspended with
  | none => .ub
  | some (s, back) => s.raiseForced t f.ctx back

def destroyVar (s : State) (t : Tid) (c : CtxId) (x : Var) : Res :=
  match s.val x with
  | none => .ok (s.kill x)
  | some f => (s.kill x).destroyFctx t c f

/-- `resume() &&` (314-323); `resume() &` (310-312) calls it for the same object. -/
def doResume (s : State) (t : Tid) (c : CtxId) (x : Var) : Res :=
  match s.val x with
  | none => .assertion                                    -- 315
  | some f =>
    let s := (s.setVal x none).setFrames c (.resume :: s.frames c)
    match s.jump t f with
    | none => .ub
    | some (s, back) => s.deliver f.ctx (some back)

/-- `resume_with(fn) &&` (330-342), called directly or by `resume_with(fn) &` (325-328), and `context_ontop` (107-121).  `lv`: `fn` is an
lvalue of class type, i.e. `Fn = F &`: then the `std::tuple<F>` made at 333 is read as a `std::tuple<F &>` at 109-111, whose first
word is taken for the address of the function object: undefined behaviour on top of the target. -/
def doResumeWith (s : State) (t : Tid) (c : CtxId) (x : Var) (lv : Bool) : Res :=
  match s.val x with
  | none => .assertion                                    -- 332
  | some f =>
    let s := (s.setVal x none).setFrames c (.resume :: s.frames c)
    match s.ontopSwitch t f .suspended with
    | none => .ub
    | some (s, back) =>
      if lv then .ub
      else
        let s := { s with nextId := s.nextId + 1 }
        -- 113 and 115: object `c` gets `back`, the parameter is moved from it
        .ok (((s.newVar (.loc f.ctx) (some back)).setFrames f.ctx
          (.user (.ontop (s.nextId - 1)) none [s.nextVar] .normal :: s.frames f.ctx)).addLog (.ontop (s.nextId - 1) f.ctx))

/-- `resume_with` (330-342) where constructing the function object throws user exception `n`: `make_tuple` in the caller (333,
`inTarget = false`), or the copy at the beginning of `context_ontop`, on top of the target (111, `inTarget = true`): then `t.fctx`, the
only pointer to the resuming context, has not been wrapped into a `continuation` yet (113) and is dropped. -/
def doWithThrows (s : State) (t : Tid) (c : CtxId) (k : UKind) (lib : Option Fctx) (ls : List Var) (rest : List Frame) (x : Var) (n : Nat) (inTarget : Bool) : Res :=
  match s.val x with
  | none => .assertion                                    -- 332
  | some f =>
    if inTarget then
      let s := (s.setVal x none).setFrames c (.resume :: s.frames c)
      match s.ontopSwitch t f .suspended with
      | none => .ub
      | some (s, back) => { s with lost := upd s.lost back.ctx true }.raiseUser f.ctx n
    else .ok (s.setFrames c (.user k lib ls (.unwinding (.user n)) :: rest))

/-- Moves the listed objects into `fn_` of record `n` (line 145). -/
def capture (s : State) (n : CtxId) : List Var → State
  | [] => s
  | x :: xs =>
    let v := s.val x
    let s' := (s.setVal x none).newVar (.cap n) v
    ({ s' with caps := upd s'.caps n (s.nextVar :: s'.caps n) }).capture n xs

/-- `callcc` (380-387, 389-398): `create_context1` (170-211) creates the context and returns its `fcontext_t`, of which a temporary
`continuation` is made and resumed at once. -/
def doCallcc (s : State) (t : Tid) (c : CtxId) (k : UKind) (lib : Option Fctx) (ls : List Var) (rest : List Frame) (xs : List Var) : Res :=
  let n := s.nextCtx
  let s := { s with nextCtx := n + 1 }.addLog (.alloc n)                             -- 172
  let s := s.capture n xs                                                             -- 178
  let s := { s with status := upd s.status n .raw, seq := upd s.seq n 0 }             -- 208
  match s.jump t ⟨n, 0⟩ with                                                          -- 210
  | none => .ub
  | some (s, back) =>
    let s := s.setFrames n [.entryJump]                                               -- 95
    match s.jump t back with
    | none => .ub
    | some (s, f) =>
      let x := s.nextVar
      let s := { s.newVar (.loc c) (some f) with hidden := upd s.hidden x true }      -- 384: the temporary
      (s.setFrames c (.callcc x .waiting k lib ls :: rest)).doResume t c x            -- 386: .resume()

end State

inductive Op
  | newHeap | newLocal
  /-- move construction (298-300) -/
  | moveHeap (x : Var) | moveLocal (x : Var)
  /-- move assignment (302-308) -/
  | moveAssign (y x : Var)
  /-- `swap` (366-368) -/
  | swap (x y : Var)
  | drop (x : Var)
  /-- `callcc` of a function that captures `xs` by move -/
  | callcc (xs : List Var) (o : CreateOutcome)
  /-- `resume()`, on an lvalue or on an rvalue -/
  | resume (x : Var)
  /-- `resume_with(fn)`; `lv`: `fn` is an lvalue of class type -/
  | resumeWith (x : Var) (lv : Bool)
  /-- `resume_with` with a function object whose construction in the caller (333) or copy in the target (111) throws -/
  | withThrows (x : Var) (n : Nat) (inTarget : Bool)
  | call | cleanup | ret
  | retHandle (x : Var)
  | throw (n : Nat)
  | catchUser | swallow | tick | spawn
  deriving DecidableEq, Repr

open State

/-- user code in control -/
def userStep (s : State) (t : Tid) (c : CtxId) (k : UKind) (lib : Option Fctx) (ls : List Var) (rest : List Frame) : Op → Res
  | .newHeap => .ok (s.newVar .heap none)
  | .newLocal => .ok ((s.newVar (.loc c) none).setFrames c (.user k lib (s.nextVar :: ls) .normal :: rest))
  | .moveHeap x => if s.accessible x then .ok ((s.setVal x none).newVar .heap (s.val x)) else .rejected
  | .moveLocal x =>
    if s.accessible x then
      .ok (((s.setVal x none).newVar (.loc c) (s.val x)).setFrames c (.user k lib (s.nextVar :: ls) .normal :: rest))
    else .rejected
  | .moveAssign y x =>
    if s.accessible x ∧ s.accessible y then
      if y = x then .ok s                                                             -- 303
      else
        let old := s.val y
        let s' := (s.setVal y (s.val x)).setVal x none                                -- 304-305
        match old with                                                                -- ~tmp, 306
        | none => .ok s'
        | some f => s'.destroyFctx t c f
    else .rejected
  | .swap x y =>
    if s.accessible x ∧ s.accessible y then .ok ((s.setVal x (s.val y)).setVal y (s.val x)) else .rejected
  | .drop x =>
    if x ∈ ls then (s.setFrames c (.user k lib (ls.erase x) .normal :: rest)).destroyVar t c x
    else if s.kind x = .heap then s.destroyVar t c x
    else .rejected
  | .callcc xs o =>
    if xs.all s.accessible then
      match o with
      | .success => s.doCallcc t c k lib ls rest xs
      | .allocThrows n => .ok (s.setFrames c (.user k lib ls (.unwinding (.user n)) :: rest))   -- 172
      | .fnThrows => .terminate                                                               -- 140-146
    else .rejected
  | .resume x => if s.accessible x then s.doResume t c x else .rejected
  | .resumeWith x lv => if s.accessible x then s.doResumeWith t c x lv else .rejected
  | .withThrows x n b => if s.accessible x then s.doWithThrows t c k lib ls rest x n b else .rejected
  | .call => .ok (s.setFrames c (.user .call none [] .normal :: .user k lib ls .normal :: rest))
  | .cleanup => .ok (s.setFrames c (.user .cleanup none [] .normal :: .user k lib ls .normal :: rest))
  | .ret =>
    match k with
    | .main | .call | .cleanup => .ok (s.setFrames c (.user k lib ls (.returning none) :: rest))
    | _ => .rejected
  | .retHandle x =>
    if s.accessible x then
      match k with
      | .fn | .ontop _ =>
        .ok (((s.setVal x none).newVar (.ret c) (s.val x)).setFrames c (.user k lib ls (.returning (some s.nextVar)) :: rest))
      | _ => .rejected
    else .rejected
  | .throw n => .ok (s.setFrames c (.user k lib ls (.unwinding (.user n)) :: rest))
  | .spawn =>
    let n := s.nextCtx
    .ok { s with
      cur := upd s.cur s.nextTid (some n), status := upd s.status n (.running s.nextTid), seq := upd s.seq n 0,
      frames := upd s.frames n [.user .main none [] .normal], nextCtx := n + 1, nextTid := s.nextTid + 1 }
  | .catchUser => .rejected
  | .swallow => .rejected
  | .tick => .rejected

/-- An exception leaves a frame of user code without remaining locals (and, for functions called by the library, whose library
object `c` has been destroyed). -/
def propagate (s : State) (t : Tid) (c : CtxId) (k : UKind) (e : Exc) (rest : List Frame) : Res :=
  match k, rest with
  | .main, _ => .terminate
  | .cleanup, _ => .terminate
  | .call, .user k' lib' ls' _ :: rest' => .ok (s.setFrames c (.user k' lib' ls' (.unwinding e) :: rest'))
  | .fn, _ =>
    match e with
    | .user _ => .terminate                                      -- context_entry is noexcept, 88 and 99
    | .forced x =>
      match s.val x with                                         -- 100-103
      | none => .assertion                                       -- 102
      | some f => (s.kill x).finish t c f
  | .ontop _, _ =>
    match e with
    | .user n => (s.setFrames c rest).raiseUser c n
    | .forced x =>
      match s.val x with
      | none => .ub
      | some f => ((s.setFrames c rest).kill x).raiseForced t c f
  | _, _ => .ub

/-- A frame of user code without remaining locals returns; for functions called by the library the result has been moved into the library
object `c`, whose previous value has been destroyed. -/
def leave (s : State) (t : Tid) (c : CtxId) (k : UKind) (x : Option Var) (rest : List Frame) : Res :=
  match k, x with
  | .main, none =>
    .ok { s with cur := upd s.cur t none, status := upd s.status c .ended, frames := upd s.frames c [] }
  | .call, none => .ok (s.setFrames c rest)
  | .cleanup, none => .ok (s.setFrames c rest)
  | .fn, some x =>                                               -- 153-163, 97, 102-103
    match s.val x with
    | none => .assertion                                         -- 102
    | some f => (s.kill x).finish t c f
  | .ontop _, some x => ((s.setFrames c rest).kill x).deliver c (s.val x)     -- 115-120
  | _, _ => .ub

/-- `context_exit` of `n` (73-85), `destroy` (130-137) -/
def exitStep (s : State) (t : Tid) (c : CtxId) (n : CtxId) (rest : List Frame) : Res :=
  match s.caps n with
  | x :: xs => ({ s with caps := upd s.caps n xs }).destroyVar t c x
  | [] =>
    if s.status n = .terminated then
      (({ s with status := upd s.status n .freed, frames := upd (upd s.frames n []) c rest }).addLog (.dealloc n)).deliver
        c none
    else .ub

/-- One step of thread `t`. -/
def step (s : State) (t : Tid) (op : Op) : Res :=
  match s.cur t with
  | none => .rejected
  | some c =>
    match s.frames c with
    | .user k lib ls .normal :: rest => userStep s t c k lib ls rest op
    | .user k lib (x :: ls) m :: rest =>
      match op with
      | .tick => (s.setFrames c (.user k lib ls m :: rest)).destroyVar t c x
      | .cleanup => .ok (s.setFrames c (.user .cleanup none [] .normal :: .user k lib (x :: ls) m :: rest))
      | _ => .rejected
    -- the library object `c` still has a value: destroyed by unwinding, or by `tmp` of the move assignment
    | .user k (some f) [] m :: rest =>
      match op with
      | .tick => (s.setFrames c (.user k none [] m :: rest)).destroyFctx t c f
      | _ => .rejected
    | .user k none [] (.unwinding e) :: rest =>
      match op with
      | .tick => propagate s t c k e rest
      | .cleanup => .ok (s.setFrames c (.user .cleanup none [] .normal :: .user k none [] (.unwinding e) :: rest))
      | .catchUser =>
        match k, e with
        | .call, .user _ => .ok (s.setFrames c rest)
        | _, _ => .rejected
      | .swallow =>
        match k, e with
        | .call, .forced x =>
          match s.val x with
          | some f => .ok { (s.setFrames c rest).kill x with lost := upd s.lost f.ctx true }
          | none => .ok ((s.setFrames c rest).kill x)
        | _, _ => .rejected
      | _ => .rejected
    | .user k none [] (.returning x) :: rest =>
      match op with
      | .tick => leave s t c k x rest
      | .cleanup => .ok (s.setFrames c (.user .cleanup none [] .normal :: .user k none [] (.returning x) :: rest))
      | _ => .rejected
    -- `callcc` is left: `~continuation` of the temporary `x`, the result becomes a local object of the caller
    | .callcc x (.returning y) k lib ls :: rest =>
      match op with
      | .tick => (s.setFrames c (.user k lib (y :: ls) .normal :: rest)).destroyVar t c x
      | _ => .rejected
    | .callcc x (.unwinding e) k lib ls :: rest =>
      match op with
      | .tick => (s.setFrames c (.user k lib ls (.unwinding e) :: rest)).destroyVar t c x
      | _ => .rejected
    | .exiting n :: rest =>
      match op with
      | .tick => exitStep s t c n rest
      | .cleanup => .ok (s.setFrames c (.user .cleanup none [] .normal :: .exiting n :: rest))
      | _ => .rejected
    | _ => .ub

/-- Thread 0 runs its main function in context 0; no other context exists. -/
def init : State where
  cur := fun t => if t = 0 then some 0 else none
  status := fun c => if c = 0 then .running 0 else .absent
  seq := fun _ => 0
  frames := fun c => if c = 0 then [.user .main none [] .normal] else []
  caps := fun _ => []
  kind := fun _ => .dead
  val := fun _ => none
  nextCtx := 1
  nextVar := 0
  nextTid := 1
  nextId := 0
  lost := fun _ => false
  hidden := fun _ => false
  log := []

/-- Runs a history; stops at the first step that is not `ok`. -/
def run (s : State) : List (Tid × Op) → Res
  | [] => .ok s
  | (t, op) :: h => match step s t op with
    | .ok s' => run s' h
    | r => r

/-- the operation passes an lvalue function object to `resume_with` -/
def Op.lvalueFn : Op → Bool
  | .resumeWith _ lv => lv
  | _ => false

/-- States reachable by some history. -/
inductive Reachable : State → Prop
  | init : Reachable init
  | step {s s' : State} {t : Tid} {op : Op} : Reachable s → step s t op = .ok s' → Reachable s'

/-- Operations that drop the only pointer to a suspended context: user code swallows `forced_unwind`; copying a function
object throws in the target of `resume_with`. -/
def Op.loses : Op → Bool
  | .swallow => true
  | .withThrows _ _ b => b
  | _ => false

/-- States reachable by histories without such operations. -/
inductive ReachableNS : State → Prop
  | init : ReachableNS init
  | step {s s' : State} {t : Tid} {op : Op} : ReachableNS s → op.loses = false → step s t op = .ok s' → ReachableNS s'

end Verif.Cont
