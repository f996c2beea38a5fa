import Verif.Fiber.Model

/-!
# Executable model of `boost::context::fiber` on ucontext and on Windows fibers

Models `/repo/include/boost/context/fiber_ucontext.hpp` (line numbers below refer to it unless another file is named).
`fiber_winfib.hpp` 65-417 and `continuation_ucontext.hpp` 79-519 / `continuation_winfib.hpp` have the same control
structure: `swapcontext` is `SwitchToFiber`, `makecontext` is `CreateFiber`; the record fields and every `if` are the same.
(Differences not visible in the model: `continuation::resume` has no assertion for an empty object, it dereferences a null
pointer; `winfib` calls `DeleteFiber` in the record's destructor.)

Vocabulary (objects, frames, operations, histories) is shared with the model of the fcontext implementation
(`Verif.Fiber.Model`), so that the two can be compared; the frames mean here
* `entryJump`: `makecontext` done, `fiber_entry_func` (69-81) not entered: the fiber has never been started;
* `entryRun`: `fiber_capture_record::run` (279-303) waiting for the context function (289-291);
* `resume`: `fiber::resume`/`resume_with` (483-516) suspended in `swapcontext` (160/222), or executing `ontop(ptr)`
  (493/512) if an `ontop` frame lies on it;
* `dtor v`: `~fiber` (457-466) inside `ptr_->resume()` (461), or (below `exiting v`) inside `ptr_->deallocate()` (464);
* `exiting v`: `~fiber` inside `ptr_->deallocate()` (464): `destroy` (258-265) runs the destructors of the record of `v`;
* `exitJump`: `run` of a finished fiber, suspended in line 301 for ever.

Simplifications, in addition to those of `Verif.Fiber.Model`:
* a `fiber` object is the pointer `ptr_` to an activation record; the record of context `c` is the fields `root`, `frm`,
  `ontop`, `term`, `unw` at `c`;
* `getcontext`/`makecontext`/`CreateFiber` do not fail;
* `resume()`/`resume_with()` of an object that designates a finished fiber (precondition: `operator bool` is true) ends in the
  assertion of line 302; what runs on the finished stack before that is not modelled;
* the closure stored in `ontop` is identified by the number of the `resume_with()` call that stored it; destroying a closure
  while it executes (line 494 in a nested activation) is not counted as undefined behaviour;
* a freed record is only known to be freed; reading it is undefined behaviour.
-/

namespace Verif.UFiber
open Verif.Fiber (CtxId Var Tid Kind Exc Mode UKind Frame Status Event Op CreateOutcome upd)

structure State where
  /-- context executed by a thread; `fiber_activation_record::current()` (103, `src/fiber.cpp` 23-33) -/
  cur     : Tid → Option CtxId
  status  : CtxId → Status
  frames  : CtxId → List Frame
  /-- `fiber` objects captured in `fn_` (line 256) of the record of `c` -/
  caps    : CtxId → List Var
  kind    : Var → Kind
  /-- member `ptr_` (line 424) of a `fiber` object; member `from` (245) of a `forced_unwind` -/
  val     : Var → Option CtxId
  /-- `main_ctx` (87) -/
  root    : CtxId → Bool
  /-- `from` (88) -/
  frm     : CtxId → Option CtxId
  /-- `ontop` (89) -/
  ontop   : CtxId → Option Nat
  /-- `terminated` (90) -/
  term    : CtxId → Bool
  /-- `force_unwind` (91) -/
  unw     : CtxId → Bool
  nextCtx : Nat
  nextVar : Nat
  nextTid : Nat
  /-- number of `resume_with` calls so far (ghost) -/
  nextId  : Nat
  /-- ghost: no object designates this context any more although it has not been released: `forced_unwind` was swallowed,
  the destructor of a handle of a thread's main context did nothing, or line 461 dropped the pointer -/
  lost    : CtxId → Bool
  /-- ghost: some `~fiber` was executed on a never started fiber -/
  early   : Bool
  log     : List Event

inductive Res
  | ok (s : State)
  | rejected
  /-- `std::terminate` -/
  | terminate
  /-- `BOOST_ASSERT` fails -/
  | assertion
  /-- undefined behaviour: freed record used, switch to a context that is not suspended -/
  | ub

namespace State

def setFrames (s : State) (c : CtxId) (fs : List Frame) : State := { s with frames := upd s.frames c fs }
def setVal (s : State) (x : Var) (v : Option CtxId) : State := { s with val := upd s.val x v }
/-- end of the lifetime of an object -/
def kill (s : State) (x : Var) : State := { s with kind := upd s.kind x .dead, val := upd s.val x none }
/-- a new object (`fiber{ptr}`, 426-428, default construction 431) named `s.nextVar` -/
def newVar (s : State) (k : Kind) (v : Option CtxId) : State :=
  { s with kind := upd s.kind s.nextVar k, val := upd s.val s.nextVar v, nextVar := s.nextVar + 1 }
def addLog (s : State) (e : Event) : State := { s with log := e :: s.log }

/-- Objects user code can name (directly or through references). -/
def accessible (s : State) (x : Var) : Bool :=
  match s.kind x with
  | .heap => true | .loc _ => true | .cap _ => true | _ => false

/-- `fiber_activation_record::resume` of record `w` up to and including `swapcontext` (139-160; the same part of
`resume_with`, 173-222): `from = current(); current() = this; swapcontext`.  The context left gets status `leave`.
`none` = undefined behaviour: `w` is not suspended. -/
def switchTo (s : State) (t : Tid) (w : CtxId) (leave : Status) : Option State :=
  match s.cur t with
  | none => none
  | some c =>
    if s.status w = .suspended then
      some { s with
        frm := upd s.frm w (some c)
        cur := upd s.cur t (some w)
        status := upd (upd s.status c leave) w (.running t) }
    else none

/-- What context `w` does after it has been switched to.
* never started: `run` (279-291) invokes the context function with `Ctx c{ from }` (285; `from` is not cleared);
* suspended in `fiber::resume`/`resume_with`: `ptr = exchange(current()->from, nullptr)` (169/231), then
  `force_unwind` → `throw forced_unwind{ptr}` (490-491/509-510), otherwise `ontop` → call it with `Ctx c{ptr}` (492-493,
  198-199), otherwise return `{ptr}` (496);
* suspended in `~fiber`: the pointer is dropped (461), assertion 462, then `deallocate()` (464). -/
def arrive (s : State) (w : CtxId) : Res :=
  match s.frames w with
  | .entryJump :: rest =>
    .ok (((s.newVar (.loc w) (s.frm w)).setFrames w (.user .fn [s.nextVar] .normal :: .entryRun :: rest)).addLog (.enter w))
  | .resume :: .user k ls m :: rest =>
    let p := s.frm w
    let s := { s with frm := upd s.frm w none }
    if s.unw w then
      .ok ((s.newVar (.exc w) p).setFrames w (.user k ls (.unwinding (.forced s.nextVar)) :: rest))
    else match s.ontop w with
      | some i =>
        .ok (((s.newVar (.loc w) p).setFrames w
          (.user (.ontop i) [s.nextVar] .normal :: .resume :: .user k ls m :: rest)).addLog (.ontop i w))
      | none => .ok ((s.newVar (.loc w) p).setFrames w (.user k (s.nextVar :: ls) m :: rest))
  | .dtor v :: rest =>
    let s := { s with frm := upd s.frm w none,
                      lost := fun z => s.lost z || (decide (s.frm w = some z) && decide (z ≠ v)) }
    if s.status v = .freed then .ub                                                  -- 462 reads a freed record
    else if s.term v then .ok (s.setFrames w (.exiting v :: .dtor v :: rest)) else .assertion
  | _ => .ub

/-- `~fiber` (457-466) with `ptr_ = v`, executed by context `c` on thread `t`. -/
def destroyPtr (s : State) (t : Tid) (c : CtxId) (v : CtxId) : Res :=
  if s.status v = .freed ∨ s.status v = .ended ∨ s.status v = .absent then .ub
  else if s.root v then .ok { s with lost := upd s.lost v true }                     -- 458
  else if s.term v then .ok (s.setFrames c (.exiting v :: s.frames c))               -- 459, 464
  else
    let s := { s with unw := upd s.unw v true                                        -- 460
                      early := s.early || decide (s.frames v = [Frame.entryJump]) }
    match (s.setFrames c (.dtor v :: s.frames c)).switchTo t v .suspended with       -- 461
    | none => .ub
    | some s => s.arrive v

/-- `~fiber` of object `x` (457-466); its lifetime ends. -/
def destroyVar (s : State) (t : Tid) (c : CtxId) (x : Var) : Res :=
  match s.val x with
  | none => .ok (s.kill x)
  | some v => (s.kill x).destroyPtr t c v

/-- End of `run` (296-301): the fields are reset, `std::move(c).resume()` with `c.ptr_ = p`. -/
def finish (s : State) (t : Tid) (c : CtxId) (p : Option CtxId) : Res :=
  let s := { s with frm := upd s.frm c none, ontop := upd s.ontop c none,            -- 297-298
                    term := upd s.term c true, unw := upd s.unw c false }            -- 299-300
  match p with
  | none => .assertion                                                               -- 484
  | some w =>
    if s.status w = .terminated then .assertion                                      -- 302, in `w`
    else match (s.setFrames c [.exitJump]).switchTo t w .terminated with             -- 301
      | none => .ub
      | some s => s.arrive w

/-- `fiber::resume` (483-497), caller is user code of context `c`. -/
def doResume (s : State) (t : Tid) (c : CtxId) (x : Var) : Res :=
  match s.val x with
  | none => .assertion                                                               -- 484
  | some w =>
    if s.status w = .terminated then .assertion                                      -- 302, in `w`
    else match ((s.setVal x none).setFrames c (.resume :: s.frames c)).switchTo t w .suspended with
      | none => .ub
      | some s => s.arrive w

/-- `fiber::resume_with` (499-516) and `fiber_activation_record::resume_with` (173-233): as `resume`, after storing the
function in the record of the target (`current()->ontop = ...`, 197-208). -/
def doResumeWith (s : State) (t : Tid) (c : CtxId) (x : Var) : Res :=
  match s.val x with
  | none => .assertion                                                               -- 501
  | some w =>
    if s.status w = .terminated then .assertion                                      -- 302, in `w`
    else
      let s := { s with ontop := upd s.ontop w (some s.nextId), nextId := s.nextId + 1 }
      match ((s.setVal x none).setFrames c (.resume :: s.frames c)).switchTo t w .suspended with
      | none => .ub
      | some s => s.arrive w

/-- Moves the listed `fiber` objects into the function object of record `n` (line 271). -/
def capture (s : State) (n : CtxId) : List Var → State
  | [] => s
  | x :: xs =>
    let v := s.val x
    let s' := (s.setVal x none).newVar (.cap n) v
    ({ s' with caps := upd s'.caps n (s.nextVar :: s'.caps n) }).capture n xs

/-- `create_fiber1` (306-356) with a stack obtained: allocate, construct the record (moves `xs` into it), `makecontext`; no
switch takes place.  The constructor (448-450) stores the record in a new local `fiber`. -/
def doCreate (s : State) (c : CtxId) (k : UKind) (ls : List Var) (rest : List Frame) (xs : List Var) : Res :=
  let n := s.nextCtx
  let s := { s with nextCtx := n + 1 }.addLog (.alloc n)                             -- 310
  let s := s.capture n xs                                                             -- 316
  let s := { s with status := upd s.status n .suspended, frames := upd s.frames n [.entryJump],
                    root := upd s.root n false, frm := upd s.frm n none, ontop := upd s.ontop n none,
                    term := upd s.term n false, unw := upd s.unw n false }            -- 86-91, 345
  .ok ((s.newVar (.loc c) (some n)).setFrames c (.user k (s.nextVar :: ls) .normal :: rest))

end State

open State

/-- Innermost frame of the running context is user code in mode normal. -/
def userStep (s : State) (t : Tid) (c : CtxId) (k : UKind) (ls : List Var) (rest : List Frame) : Op → Res
  | .newHeap => .ok (s.newVar .heap none)
  | .newLocal => .ok ((s.newVar (.loc c) none).setFrames c (.user k (s.nextVar :: ls) .normal :: rest))
  | .moveHeap x => if s.accessible x then .ok ((s.setVal x none).newVar .heap (s.val x)) else .rejected  -- 471-473
  | .moveLocal x =>
    if s.accessible x then
      .ok (((s.setVal x none).newVar (.loc c) (s.val x)).setFrames c (.user k (s.nextVar :: ls) .normal :: rest))
    else .rejected
  | .moveAssign y x =>
    if s.accessible x ∧ s.accessible y then
      if y = x then .ok s                                                             -- 476
      else
        let old := s.val y
        let s' := (s.setVal y (s.val x)).setVal x none                                -- 477-478
        match old with                                                                -- ~tmp, 479
        | none => .ok s'
        | some v => s'.destroyPtr t c v
    else .rejected
  | .swap x y =>                                                                      -- 550-552
    if s.accessible x ∧ s.accessible y then .ok ((s.setVal x (s.val y)).setVal y (s.val x)) else .rejected
  | .drop x =>
    if x ∈ ls then (s.setFrames c (.user k (ls.erase x) .normal :: rest)).destroyVar t c x
    else if s.kind x = .heap then s.destroyVar t c x
    else .rejected
  | .create xs o =>
    if xs.all s.accessible then
      match o with
      | .success => s.doCreate c k ls rest xs
      | .allocThrows n => .ok (s.setFrames c (.user k ls (.unwinding (.user n)) :: rest))
      | .fnThrows => .terminate                                                       -- 268, noexcept
    else .rejected
  | .resume x => if s.accessible x then s.doResume t c x else .rejected
  | .resumeWith x => if s.accessible x then s.doResumeWith t c x else .rejected
  -- a throwing copy of the function object (`fiber_ucontext.hpp` 181-212 throws after `current() = this` at 179): `Verif.UFiber.Records`
  | .withThrows _ _ _ => .rejected
  | .call => .ok (s.setFrames c (.user .call [] .normal :: .user k ls .normal :: rest))
  | .cleanup => .ok (s.setFrames c (.user .cleanup [] .normal :: .user k ls .normal :: rest))
  | .ret =>
    match k with
    | .main | .call | .cleanup => .ok (s.setFrames c (.user k ls (.returning none) :: rest))
    | _ => .rejected
  | .retHandle x =>
    if s.accessible x then
      match k with
      | .fn | .ontop _ =>
        .ok (((s.setVal x none).newVar (.ret c) (s.val x)).setFrames c (.user k ls (.returning (some s.nextVar)) :: rest))
      | _ => .rejected
    else .rejected
  | .throw n => .ok (s.setFrames c (.user k ls (.unwinding (.user n)) :: rest))
  | .spawn =>                                                                         -- 107-119, src/fiber.cpp 34-50
    let n := s.nextCtx
    .ok { s with
      cur := upd s.cur s.nextTid (some n), status := upd s.status n (.running s.nextTid),
      frames := upd s.frames n [.user .main [] .normal], root := upd s.root n true,
      frm := upd s.frm n none, ontop := upd s.ontop n none, term := upd s.term n false, unw := upd s.unw n false,
      nextCtx := n + 1, nextTid := s.nextTid + 1 }
  | .catchUser => .rejected
  | .swallow => .rejected
  | .tick => .rejected

/-- A frame of user code without remaining locals is left by exception `e`. -/
def propagate (s : State) (t : Tid) (c : CtxId) (k : UKind) (e : Exc) (rest : List Frame) : Res :=
  match k, rest with
  | .main, _ => .terminate                                       -- no handler in this thread
  | .cleanup, _ => .terminate                                    -- destructors are noexcept
  | .call, .user k' ls' _ :: rest' => .ok (s.setFrames c (.user k' ls' (.unwinding e) :: rest'))
  | .fn, _ =>
    match e with
    | .user _ => .terminate                                      -- fiber_entry_func is noexcept (76), 293
    | .forced x => (s.kill x).finish t c (s.val x)               -- 293-301
  | .ontop _, .resume :: .user k' ls' _ :: rest' =>              -- out of 493 resp. 512: `ontop` stays as it is
    .ok (s.setFrames c (.user k' ls' (.unwinding e) :: rest'))
  | _, _ => .ub

/-- A frame of user code without remaining locals returns. -/
def leave (s : State) (t : Tid) (c : CtxId) (k : UKind) (x : Option Var) (rest : List Frame) : Res :=
  match k, x with
  | .main, none =>                                               -- end of the thread
    .ok { s with cur := upd s.cur t none, status := upd s.status c .ended, frames := upd s.frames c [] }
  | .call, none => .ok (s.setFrames c rest)
  | .cleanup, none => .ok (s.setFrames c rest)
  | .fn, some x => (s.kill x).finish t c (s.val x)               -- 289-301
  | .ontop _, some x =>                                          -- 199-206, 493-496
    match rest with
    | .resume :: .user k' ls' m' :: rest' =>
      let v := s.val x
      let s := ({ s with ontop := upd s.ontop c none }).kill x
      .ok ((s.newVar (.loc c) v).setFrames c (.user k' (s.nextVar :: ls') m' :: rest'))
    | _ => .ub
  | _, _ => .ub

/-- `deallocate()` of the finished fiber `n` (274-277, 258-265): the captured objects are destroyed one after the other, then
the stack is given back, and `~fiber` returns. -/
def exitStep (s : State) (t : Tid) (c : CtxId) (n : CtxId) (rest : List Frame) : Res :=
  match s.caps n with
  | x :: xs => ({ s with caps := upd s.caps n xs }).destroyVar t c x
  | [] =>
    if s.status n = .terminated then
      let s := ({ s with status := upd s.status n .freed, frames := upd s.frames n [] }).addLog (.dealloc n)
      match rest with
      | .dtor v :: rest' => .ok ((s.setFrames c rest').addLog (.destroyed v c))
      | _ => .ok (s.setFrames c rest)
    else .ub

/-- One step of thread `t`. -/
def step (s : State) (t : Tid) (op : Op) : Res :=
  match s.cur t with
  | none => .rejected
  | some c =>
    match s.frames c with
    | .user k ls .normal :: rest => userStep s t c k ls rest op
    | .user k (x :: ls) m :: rest =>
      match op with
      | .tick => (s.setFrames c (.user k ls m :: rest)).destroyVar t c x
      | .cleanup => .ok (s.setFrames c (.user .cleanup [] .normal :: .user k (x :: ls) m :: rest))
      | _ => .rejected
    | .user k [] (.unwinding e) :: rest =>
      match op with
      | .tick => propagate s t c k e rest
      | .cleanup => .ok (s.setFrames c (.user .cleanup [] .normal :: .user k [] (.unwinding e) :: rest))
      | .catchUser =>
        match k, e with
        | .call, .user _ => .ok (s.setFrames c rest)
        | _, _ => .rejected
      | .swallow =>
        match k, e with
        | .call, .forced x =>
          match s.val x with
          | some v => .ok { (s.setFrames c rest).kill x with lost := upd s.lost v true }
          | none => .ok ((s.setFrames c rest).kill x)
        | _, _ => .rejected
      | _ => .rejected
    | .user k [] (.returning x) :: rest =>
      match op with
      | .tick => leave s t c k x rest
      | .cleanup => .ok (s.setFrames c (.user .cleanup [] .normal :: .user k [] (.returning x) :: rest))
      | _ => .rejected
    | .exiting n :: rest =>
      match op with
      | .tick => exitStep s t c n rest
      | .cleanup => .ok (s.setFrames c (.user .cleanup [] .normal :: .exiting n :: rest))
      | _ => .rejected
    | _ => .ub

/-- Thread 0 runs its main function in context 0; no fiber exists. -/
def init : State where
  cur := fun t => if t = 0 then some 0 else none
  status := fun c => if c = 0 then .running 0 else .absent
  frames := fun c => if c = 0 then [.user .main [] .normal] else []
  caps := fun _ => []
  kind := fun _ => .dead
  val := fun _ => none
  root := fun c => c == 0
  frm := fun _ => none
  ontop := fun _ => none
  term := fun _ => false
  unw := fun _ => false
  nextCtx := 1
  nextVar := 0
  nextTid := 1
  nextId := 0
  lost := fun _ => false
  early := false
  log := []

/-- Runs a history; stops at the first step that is not `ok`. -/
def run (s : State) : List (Tid × Op) → Res
  | [] => .ok s
  | (t, op) :: h => match step s t op with
    | .ok s' => run s' h
    | r => r

/-- States reachable by some history. -/
inductive Reachable : State → Prop
  | init : Reachable init
  | step {s s' : State} {t : Tid} {op : Op} : Reachable s → step s t op = .ok s' → Reachable s'

end Verif.UFiber
