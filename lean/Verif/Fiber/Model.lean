/-!
# Executable model of `boost::context::fiber` on top of fcontext

Models `/repo/include/boost/context/fiber_fcontext.hpp` (all line numbers below refer to that file unless another
one is named).  `continuation_fcontext.hpp` has the same control structure (`context_unwind`, `context_exit`,
`context_entry`, `context_ontop`, lines 67-121; class `continuation`, lines 256-369).

User code is *adversarial*: whenever user code is in control, any operation of the public API or of the core language
(call, return, throw, catch, run a destructor) may come next.  A history is a list of `(thread, operation)` pairs.

Simplifications, valid for the whole file:
* a C++ function activation is a frame carrying only the `fiber` objects among its locals (most recent first) and its
  mode (running, returning, being unwound); other data of user code is irrelevant to the library;
* an `fcontext_t` value is a pair (context, number of the suspension).  The real value is the stack pointer; pairing it
  with the suspension number makes every use of an outdated pointer detectable (`Res.ub`);
* one API call up to the next context switch is one atomic step of the thread (the library has no internal locking and
  requires a handle object to be used by one thread at a time).
-/

namespace Verif.Fiber

abbrev CtxId := Nat
abbrev Var := Nat
abbrev Tid := Nat

/-- A non-null `fcontext_t` (`detail/fcontext.hpp` 24): the context and the number of the suspension it belongs to. -/
structure Fctx where
  ctx : CtxId
  seq : Nat
  deriving DecidableEq, Repr

/-- Where a variable of type `fiber` (or of type `fcontext_t`, for `ret`/`exc`) lives.
* `heap`: static or dynamic storage, owned by no frame;
* `loc c`: a local (or parameter, or temporary) of a user frame on the stack of context `c`;
* `cap c`: member of the function object `fn_` stored in the record of fiber `c` (`fiber_record::fn_`, line 126);
* `ret c`: the returned object `c` of `fiber_record::run` (155/157) or `fiber_ontop` (113), on the stack of `c`;
* `exc c`: member `fctx` of a `forced_unwind` in flight on the stack of `c` (`detail/exception.hpp` 24-33). -/
inductive Kind
  | dead | heap
  | loc (c : CtxId) | cap (c : CtxId) | ret (c : CtxId) | exc (c : CtxId)
  deriving DecidableEq, Repr

/-- Exceptions: any user exception, or `detail::forced_unwind` whose member `fctx` is variable `x`. -/
inductive Exc
  | user (n : Nat) | forced (x : Var)
  deriving DecidableEq, Repr

/-- What a user function activation is doing. `returning (some x)`: `x` holds the returned `fiber`. -/
inductive Mode
  | normal | unwinding (e : Exc) | returning (x : Option Var)
  deriving DecidableEq, Repr

/-- Role of a user function activation: main function of a thread, context function of a fiber, nested call (also: a
`try` block), destructor body (implicitly `noexcept`), function passed to `resume_with` (numbered by call). -/
inductive UKind
  | main | fn | call | cleanup | ontop (id : Nat)
  deriving DecidableEq, Repr

/-- Frames of a call stack; the library frames are the suspension points and activations of the header. -/
inductive Frame
  /-- user code -/
  | user (k : UKind) (ls : List Var) (m : Mode)
  /-- `fiber_entry` inside `jump_fcontext` of line 95: fiber created, function not started -/
  | entryJump
  /-- `fiber_entry` inside `rec->run` (line 97), the context function is running above -/
  | entryRun
  /-- `fiber::resume` (326-332) or `resume_with` (339-346) waiting in jump_fcontext/ontop_fcontext -/
  | resume
  /-- `~fiber` (296-307) waiting in ontop_fcontext for the unwinding of `victim` -/
  | dtor (victim : CtxId)
  /-- `fiber_exit` (74-85) destroying the record and stack of finished fiber `c` -/
  | exiting (c : CtxId)
  /-- `fiber_entry` inside `ontop_fcontext` of line 103; never continued -/
  | exitJump
  deriving DecidableEq, Repr

/-- Life of a context. `raw`: `make_fcontext` done, never entered. `terminated`: has left its stack through line 103,
the stack still exists. `freed`: stack given back. `ended`: root context of a thread whose main function has returned. -/
inductive Status
  | absent | raw | running (t : Tid) | suspended | terminated | freed | ended
  deriving DecidableEq, Repr

/-- Observable events, newest first in `State.log`. -/
inductive Event
  /-- `salloc.allocate()` for fiber `c` (line 169) -/
  | alloc (c : CtxId)
  /-- `salloc.deallocate(sctx)` for fiber `c` (line 134) -/
  | dealloc (c : CtxId)
  /-- context function of `c` invoked (line 155/157) -/
  | enter (c : CtxId)
  /-- function of the `id`-th `resume_with` invoked on context `c` (line 113) -/
  | ontop (id : Nat) (c : CtxId)
  /-- `~fiber` on a handle of `victim` returned in context `c` -/
  | destroyed (victim : CtxId) (c : CtxId)
  deriving DecidableEq, Repr

structure State where
  /-- context executed by a thread -/
  cur     : Tid → Option CtxId
  status  : CtxId → Status
  /-- number of suspensions so far -/
  seq     : CtxId → Nat
  /-- call stack, innermost first -/
  frames  : CtxId → List Frame
  /-- `fiber` objects captured in `fn_` of the record of `c`, in order of destruction -/
  caps    : CtxId → List Var
  kind    : Var → Kind
  /-- member `fctx_` (line 264) of a `fiber` object; `none` is `nullptr` -/
  val     : Var → Option Fctx
  nextCtx : Nat
  nextVar : Nat
  nextTid : Nat
  /-- number of `resume_with` calls so far (ghost) -/
  nextId  : Nat
  /-- ghost: the only pointer to this context was dropped (see `Op.loses`) -/
  lost    : CtxId → Bool
  log     : List Event

/-- Result of a step. `rejected`: the operation is not possible in this state (for instance user code does not own
control, or names an object that does not exist). -/
inductive Res
  | ok (s : State)
  | rejected
  /-- `std::terminate` -/
  | terminate
  /-- `BOOST_ASSERT` fails -/
  | assertion
  /-- undefined behaviour: jump to an outdated/running/freed context, on-top call on a raw context, release of a stack
  in use, ... -/
  | ub

/-- function update -/
def upd {α β : Type} [DecidableEq α] (f : α → β) (a : α) (b : β) : α → β := fun x => if x = a then b else f x

namespace State

def setFrames (s : State) (c : CtxId) (fs : List Frame) : State := { s with frames := upd s.frames c fs }
def setVal (s : State) (x : Var) (v : Option Fctx) : State := { s with val := upd s.val x v }
/-- end of the lifetime of an object -/
def kill (s : State) (x : Var) : State := { s with kind := upd s.kind x .dead, val := upd s.val x none }
/-- a new object (`fiber{fctx}`, lines 266-268, default construction 271) named `s.nextVar` -/
def newVar (s : State) (k : Kind) (v : Option Fctx) : State :=
  { s with kind := upd s.kind s.nextVar k, val := upd s.val s.nextVar v, nextVar := s.nextVar + 1 }
def addLog (s : State) (e : Event) : State := { s with log := e :: s.log }

/-- Objects user code can name (directly or through references). -/
def accessible (s : State) (x : Var) : Bool :=
  match s.kind x with
  | .heap => true | .loc _ => true | .cap _ => true | _ => false

/-- The register/stack switch of `jump_fcontext` / `ontop_fcontext` (`detail/fcontext.hpp` 36-48, `src/asm`): thread
`t` leaves its current context, which gets status `leave`, and continues in the context designated by `f`.  Returns the
`fcontext_t` of the context left.  `none` = undefined behaviour: `f` is not a context suspended there and then. -/
def switch (s : State) (t : Tid) (f : Fctx) (leave : Status) (allowRaw : Bool) : Option (State × Fctx) :=
  match s.cur t with
  | none => none
  | some c =>
    if (s.status f.ctx = .suspended ∨ (allowRaw = true ∧ s.status f.ctx = .raw)) ∧ s.seq f.ctx = f.seq then
      some ({ s with
        cur := upd s.cur t (some f.ctx)
        status := upd (upd s.status c leave) f.ctx (.running t)
        seq := upd s.seq c (s.seq c + 1) }, ⟨c, s.seq c + 1⟩)
    else none

/-- `jump_fcontext` (`src/asm/jump_*`): also enters raw contexts. -/
def jump (s : State) (t : Tid) (f : Fctx) : Option (State × Fctx) := s.switch t f .suspended true

/-- the switching part of `ontop_fcontext`; on a raw context the assembler of some platforms (i386, s390x) corrupts the
entry arguments, so the model counts that as undefined behaviour. -/
def ontopSwitch (s : State) (t : Tid) (f : Fctx) (leave : Status) : Option (State × Fctx) := s.switch t f leave false

/-- Lines 99-104: `fiber_entry` of `c` finishes and executes `fiber_exit` on top of `f` (lines 103, 74-85). -/
def finish (s : State) (t : Tid) (c : CtxId) (f : Fctx) : Res :=
  let s := s.setFrames c [.exitJump]
  match s.ontopSwitch t f .terminated with
  | none => .ub
  | some (s, _) => .ok (s.setFrames f.ctx (.exiting c :: s.frames f.ctx))

/-- `jump_fcontext`/`ontop_fcontext` returns transfer `{v, nullptr}` in context `c`, whose innermost frame is a
suspension point: line 95 (then line 97 and 155 invoke the context function with `fiber{v}`), line 326 resp. 339 (a new
`fiber` object is returned to the caller), or line 298 (the transfer is ignored). -/
def deliver (s : State) (c : CtxId) (v : Option Fctx) : Res :=
  match s.frames c with
  | .entryJump :: rest =>
    .ok ((((s.newVar (.loc c) v).setFrames c (.user .fn [s.nextVar] .normal :: .entryRun :: rest))).addLog (.enter c))
  | .resume :: .user k ls m :: rest =>
    .ok ((s.newVar (.loc c) v).setFrames c (.user k (s.nextVar :: ls) m :: rest))
  | .dtor w :: rest => .ok ((s.setFrames c rest).addLog (.destroyed w c))
  | _ => .ub

/-- A user exception leaves the on-top function (113) into the suspension point of `c`: out of `resume` into its caller,
into the `noexcept` functions `fiber_entry` (line 88, only `forced_unwind` is caught) or `~fiber`. -/
def raiseUser (s : State) (c : CtxId) (n : Nat) : Res :=
  match s.frames c with
  | .entryJump :: _ => .terminate
  | .resume :: .user k ls _ :: rest => .ok (s.setFrames c (.user k ls (.unwinding (.user n)) :: rest))
  | .dtor _ :: _ => .terminate
  | _ => .ub

/-- `forced_unwind(f)` is thrown at the suspension point of `c` (line 69, or out of an on-top function): `fiber_entry`
catches it (99-100) and finishes; `resume` lets it out to its caller; `~fiber` is `noexcept`. -/
def raiseForced (s : State) (t : Tid) (c : CtxId) (f : Fctx) : Res :=
  match s.frames c with
  | .entryJump :: _ => s.finish t c f
  | .resume :: .user k ls _ :: rest =>
    .ok ((s.newVar (.exc c) (some f)).setFrames c (.user k ls (.unwinding (.forced s.nextVar)) :: rest))
  | .dtor _ :: _ => .terminate
  | _ => .ub

/-- `~fiber` (296-307) with non-null `fctx_ = f`, executed by context `c` on thread `t`:
`ontop_fcontext(f, nullptr, fiber_unwind)`. The member has been set to null by `exchange` before (done by callers). -/
def destroyFctx (s : State) (t : Tid) (c : CtxId) (f : Fctx) : Res :=
  let s := s.setFrames c (.dtor f.ctx :: s.frames c)
  match s.ontopSwitch t f .suspended with
  | none => .ub
  | some (s, back) => s.raiseForced t f.ctx back

/-- `~fiber` of object `x` (296-307); its lifetime ends. -/
def destroyVar (s : State) (t : Tid) (c : CtxId) (x : Var) : Res :=
  match s.val x with
  | none => .ok (s.kill x)
  | some f => (s.kill x).destroyFctx t c f

/-- `fiber::resume` (324-333), caller is user code of context `c`. -/
def doResume (s : State) (t : Tid) (c : CtxId) (x : Var) : Res :=
  match s.val x with
  | none => .assertion                                    -- line 325
  | some f =>
    let s := (s.setVal x none).setFrames c (.resume :: s.frames c)
    match s.jump t f with
    | none => .ub
    | some (s, back) => s.deliver f.ctx (some back)

/-- `fiber::resume_with` (335-347) and `fiber_ontop` (107-119): a new activation of the given function, with parameter
`fiber{t.fctx}`, on top of the target.  (For a function object whose copy throws see `doWithThrows`.) -/
def doResumeWith (s : State) (t : Tid) (c : CtxId) (x : Var) : Res :=
  match s.val x with
  | none => .assertion                                    -- line 337
  | some f =>
    let s := (s.setVal x none).setFrames c (.resume :: s.frames c)
    match s.ontopSwitch t f .suspended with
    | none => .ub
    | some (s, back) =>
      let s := { s with nextId := s.nextId + 1 }
      .ok (((s.newVar (.loc f.ctx) (some back)).setFrames f.ctx
        (.user (.ontop (s.nextId - 1)) [s.nextVar] .normal :: s.frames f.ctx)).addLog (.ontop (s.nextId - 1) f.ctx))

/-- `fiber::resume_with` (335-347) where constructing the function object throws user exception `n`: `auto p =
std::forward<Fn>(fn)` in the caller (338, `inTarget = false`), or its copy `auto p = *static_cast<Fn*>(t.data)` at the
beginning of `fiber_ontop`, on top of the target (110, `inTarget = true`): then `t.fctx`, the only pointer to the
resuming context, has not been wrapped into a `fiber` yet and is dropped (ghost `lost`). -/
def doWithThrows (s : State) (t : Tid) (c : CtxId) (k : UKind) (ls : List Var) (rest : List Frame) (x : Var) (n : Nat) (inTarget : Bool) : Res :=
  match s.val x with
  | none => .assertion                                    -- line 337
  | some f =>
    if inTarget then
      let s := (s.setVal x none).setFrames c (.resume :: s.frames c)
      match s.ontopSwitch t f .suspended with
      | none => .ub
      | some (s, back) => { s with lost := upd s.lost back.ctx true }.raiseUser f.ctx n
    else .ok (s.setFrames c (.user k ls (.unwinding (.user n)) :: rest))

/-- Moves the listed `fiber` objects into the function object of record `n` (`fn_(std::forward<Fn>(fn))`, line 142). -/
def capture (s : State) (n : CtxId) : List Var → State
  | [] => s
  | x :: xs =>
    let v := s.val x
    let s' := (s.setVal x none).newVar (.cap n) v
    ({ s' with caps := upd s'.caps n (s.nextVar :: s'.caps n) }).capture n xs

/-- `create_fiber1` (167-208) with a stack obtained: allocate, construct the record (moves `xs` into it), `make_fcontext`
(205), `jump_fcontext(fctx, record)` into `fiber_entry` (87-95), which jumps back (95); the constructor stores the
returned `fcontext_t` in a new local `fiber` of the creating user frame. -/
def doCreate (s : State) (t : Tid) (c : CtxId) (k : UKind) (ls : List Var) (rest : List Frame) (xs : List Var) : Res :=
  let n := s.nextCtx
  let s := { s with nextCtx := n + 1 }.addLog (.alloc n)                             -- 169
  let s := s.capture n xs                                                             -- 175
  let s := { s with status := upd s.status n .raw, seq := upd s.seq n 0 }             -- 205
  match s.jump t ⟨n, 0⟩ with                                                          -- 207
  | none => .ub
  | some (s, back) =>
    let s := s.setFrames n [.entryJump]                                               -- 95
    match s.jump t back with
    | none => .ub
    | some (s, f) => .ok ((s.newVar (.loc c) (some f)).setFrames c (.user k (s.nextVar :: ls) .normal :: rest))

end State

/-- How construction of a fiber goes: succeeds; `salloc.allocate()` throws (line 169); moving the function into the
record throws (the record constructor 138 is `noexcept`). -/
inductive CreateOutcome
  | success | allocThrows (n : Nat) | fnThrows
  deriving DecidableEq, Repr

inductive Op
  /-- default construction of a fiber object, on the heap or as a local -/
  | newHeap | newLocal
  /-- `fiber y{std::move(x)}` (309-311), `y` on the heap or local -/
  | moveHeap (x : Var) | moveLocal (x : Var)
  /-- `y = std::move(x)` (313-319) -/
  | moveAssign (y x : Var)
  /-- `swap` (381-383) -/
  | swap (x y : Var)
  /-- end of the lifetime of a heap object or of a local/temporary of the innermost frame -/
  | drop (x : Var)
  /-- construction of a fiber from a function that captures `xs` by move -/
  | create (xs : List Var) (o : CreateOutcome)
  | resume (x : Var)
  | resumeWith (x : Var)
  /-- `resume_with` with a function object whose construction in the caller (338) or copy in the target (110) throws -/
  | withThrows (x : Var) (n : Nat) (inTarget : Bool)
  /-- call of a nested user function / entering of a try block -/
  | call
  /-- a user-written destructor starts to run -/
  | cleanup
  /-- `return;` from a nested function, destructor or the thread's main function -/
  | ret
  /-- `return std::move(x);` from a context function or on-top function -/
  | retHandle (x : Var)
  | throw (n : Nat)
  /-- a handler of the caller takes the user exception leaving the innermost frame -/
  | catchUser
  /-- a handler takes `forced_unwind` and does not rethrow it: forbidden by doc/fiber.qbk -/
  | swallow
  /-- the language runtime continues: destroys the next local of a frame being left, leaves it, or `fiber_exit` proceeds -/
  | tick
  /-- a new thread starts -/
  | spawn
  deriving DecidableEq, Repr

open State

/-- Innermost frame of the running context is user code in mode normal. -/
def userStep (s : State) (t : Tid) (c : CtxId) (k : UKind) (ls : List Var) (rest : List Frame) : Op → Res
  | .newHeap => .ok (s.newVar .heap none)
  | .newLocal => .ok ((s.newVar (.loc c) none).setFrames c (.user k (s.nextVar :: ls) .normal :: rest))
  | .moveHeap x => if s.accessible x then .ok ((s.setVal x none).newVar .heap (s.val x)) else .rejected
  | .moveLocal x =>
    if s.accessible x then
      .ok (((s.setVal x none).newVar (.loc c) (s.val x)).setFrames c (.user k (s.nextVar :: ls) .normal :: rest))
    else .rejected
  | .moveAssign y x =>
    if s.accessible x ∧ s.accessible y then
      if y = x then .ok s                                                             -- 314
      else
        let old := s.val y
        let s' := (s.setVal y (s.val x)).setVal x none                                -- 315-316
        match old with                                                                -- ~tmp, 317
        | none => .ok s'
        | some f => s'.destroyFctx t c f
    else .rejected
  | .swap x y =>
    if s.accessible x ∧ s.accessible y then .ok ((s.setVal x (s.val y)).setVal y (s.val x)) else .rejected
  | .drop x =>
    if x ∈ ls then (s.setFrames c (.user k (ls.erase x) .normal :: rest)).destroyVar t c x
    else if s.kind x = .heap then s.destroyVar t c x
    else .rejected
  | .create xs o =>
    if xs.all s.accessible then
      match o with
      | .success => s.doCreate t c k ls rest xs
      | .allocThrows n => .ok (s.setFrames c (.user k ls (.unwinding (.user n)) :: rest))
      | .fnThrows => .terminate
    else .rejected
  | .resume x => if s.accessible x then s.doResume t c x else .rejected
  | .resumeWith x => if s.accessible x then s.doResumeWith t c x else .rejected
  | .withThrows x n b => if s.accessible x then s.doWithThrows t c k ls rest x n b else .rejected
  | .call => .ok (s.setFrames c (.user .call [] .normal :: .user k ls .normal :: rest))
  | .cleanup => .ok (s.setFrames c (.user .cleanup [] .normal :: .user k ls .normal :: rest))
  | .ret =>
    match k with
    | .main | .call | .cleanup => .ok (s.setFrames c (.user k ls (.returning none) :: rest))
    | _ => .rejected
  | .retHandle x =>
    if s.accessible x then
      match k with
      | .fn | .ontop _ =>
        .ok (((s.setVal x none).newVar (.ret c) (s.val x)).setFrames c (.user k ls (.returning (some s.nextVar)) :: rest))
      | _ => .rejected
    else .rejected
  | .throw n => .ok (s.setFrames c (.user k ls (.unwinding (.user n)) :: rest))
  | .spawn =>
    let n := s.nextCtx
    .ok { s with
      cur := upd s.cur s.nextTid (some n), status := upd s.status n (.running s.nextTid), seq := upd s.seq n 0,
      frames := upd s.frames n [.user .main [] .normal], nextCtx := n + 1, nextTid := s.nextTid + 1 }
  | .catchUser => .rejected
  | .swallow => .rejected
  | .tick => .rejected

/-- A frame of user code without remaining locals is left by exception `e`. -/
def propagate (s : State) (t : Tid) (c : CtxId) (k : UKind) (e : Exc) (rest : List Frame) : Res :=
  match k, rest with
  | .main, _ => .terminate                                       -- no handler in this thread
  | .cleanup, _ => .terminate                                    -- destructors are noexcept
  | .call, .user k' ls' _ :: rest' => .ok (s.setFrames c (.user k' ls' (.unwinding e) :: rest'))
  | .fn, _ =>
    match e with
    | .user _ => .terminate                                      -- fiber_entry is noexcept, 88 and 99
    | .forced x =>
      match s.val x with                                         -- 100-103
      | none => .assertion                                       -- 102
      | some f => (s.kill x).finish t c f
  | .ontop _, _ =>
    match e with
    | .user n => (s.setFrames c rest).raiseUser c n
    | .forced x =>
      match s.val x with
      | none => .ub                                              -- excluded by `Inv.excSome`
      | some f => ((s.setFrames c rest).kill x).raiseForced t c f
  | _, _ => .ub

/-- A frame of user code without remaining locals returns. -/
def leave (s : State) (t : Tid) (c : CtxId) (k : UKind) (x : Option Var) (rest : List Frame) : Res :=
  match k, x with
  | .main, none =>                                               -- end of the thread
    .ok { s with cur := upd s.cur t none, status := upd s.status c .ended, frames := upd s.frames c [] }
  | .call, none => .ok (s.setFrames c rest)
  | .cleanup, none => .ok (s.setFrames c rest)
  | .fn, some x =>                                               -- 155-162, 97, 102-103
    match s.val x with
    | none => .assertion                                         -- 102
    | some f => (s.kill x).finish t c f
  | .ontop _, some x => ((s.setFrames c rest).kill x).deliver c (s.val x)     -- 113-118
  | _, _ => .ub

/-- `fiber_exit` of fiber `n` (74-85), `destroy` (128-135): the captured objects are destroyed one after the other, then the
stack is given back and `{nullptr, nullptr}` is returned at the suspension point of `c`. -/
def exitStep (s : State) (t : Tid) (c : CtxId) (n : CtxId) (rest : List Frame) : Res :=
  match s.caps n with
  | x :: xs => ({ s with caps := upd s.caps n xs }).destroyVar t c x
  | [] =>
    if s.status n = .terminated then
      (({ s with status := upd s.status n .freed, frames := upd (upd s.frames n []) c rest }).addLog (.dealloc n)).deliver
        c none
    else .ub

/-- One step of thread `t`. -/
def step (s : State) (t : Tid) (op : Op) : Res :=
  match s.cur t with
  | none => .rejected
  | some c =>
    match s.frames c with
    | .user k ls .normal :: rest => userStep s t c k ls rest op
    | .user k (x :: ls) m :: rest =>
      match op with
      | .tick => (s.setFrames c (.user k ls m :: rest)).destroyVar t c x
      | .cleanup => .ok (s.setFrames c (.user .cleanup [] .normal :: .user k (x :: ls) m :: rest))
      | _ => .rejected
    | .user k [] (.unwinding e) :: rest =>
      match op with
      | .tick => propagate s t c k e rest
      | .cleanup => .ok (s.setFrames c (.user .cleanup [] .normal :: .user k [] (.unwinding e) :: rest))
      | .catchUser =>
        match k, e with
        | .call, .user _ => .ok (s.setFrames c rest)
        | _, _ => .rejected
      | .swallow =>
        match k, e with
        | .call, .forced x =>
          match s.val x with
          | some f => .ok { (s.setFrames c rest).kill x with lost := upd s.lost f.ctx true }
          | none => .ok ((s.setFrames c rest).kill x)
        | _, _ => .rejected
      | _ => .rejected
    | .user k [] (.returning x) :: rest =>
      match op with
      | .tick => leave s t c k x rest
      | .cleanup => .ok (s.setFrames c (.user .cleanup [] .normal :: .user k [] (.returning x) :: rest))
      | _ => .rejected
    | .exiting n :: rest =>
      match op with
      | .tick => exitStep s t c n rest
      | .cleanup => .ok (s.setFrames c (.user .cleanup [] .normal :: .exiting n :: rest))
      | _ => .rejected
    | _ => .ub

/-- Thread 0 runs its main function in context 0; no fiber exists. -/
def init : State where
  cur := fun t => if t = 0 then some 0 else none
  status := fun c => if c = 0 then .running 0 else .absent
  seq := fun _ => 0
  frames := fun c => if c = 0 then [.user .main [] .normal] else []
  caps := fun _ => []
  kind := fun _ => .dead
  val := fun _ => none
  nextCtx := 1
  nextVar := 0
  nextTid := 1
  nextId := 0
  lost := fun _ => false
  log := []

/-- Runs a history; stops at the first step that is not `ok`. -/
def run (s : State) : List (Tid × Op) → Res
  | [] => .ok s
  | (t, op) :: h => match step s t op with
    | .ok s' => run s' h
    | r => r

/-- States reachable by some history. -/
inductive Reachable : State → Prop
  | init : Reachable init
  | step {s s' : State} {t : Tid} {op : Op} : Reachable s → step s t op = .ok s' → Reachable s'

/-- Operations that drop the only pointer to a suspended context: user code swallows `forced_unwind`; copying a function
object throws in the target of `resume_with`. -/
def Op.loses : Op → Bool
  | .swallow => true
  | .withThrows _ _ b => b
  | _ => false

/-- States reachable by histories without such operations. -/
inductive ReachableNS : State → Prop
  | init : ReachableNS init
  | step {s s' : State} {t : Tid} {op : Op} :
      ReachableNS s → op.loses = false → step s t op = .ok s' → ReachableNS s'

end Verif.Fiber
