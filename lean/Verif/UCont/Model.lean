import Verif.UFiber.Model

/-!
# Executable model of `boost::context::continuation` / `callcc` on ucontext and on Windows fibers

Models `/repo/include/boost/context/continuation_ucontext.hpp` (line numbers below refer to it).  `continuation_winfib.hpp` 65-456 has the same control
structure (`SwitchToFiber` for `swapcontext`, `CreateFiber` for `makecontext`).  The machine is written independently of the one of `fiber` on
ucontext (`Verif.UFiber.Model`); only plain data types are shared.  Differences of the header to `fiber_ucontext.hpp`, all modelled:

* no object is constructed from a function; `callcc` (535-550) is `continuation{create_context1(...)}.resume()`, the temporary lives
  until the caller of `callcc` gets the result;
* `resume()`, `resume_with()` (430-466) do not assert that the object is not empty: they call a member function of a null pointer, and so does
  `run()` (276) when the context function returns an empty object: undefined behaviour;
* `resume()`, `resume_with()` also exist for lvalues (426-428, 445-449); the function object is stored by value (175), so that an lvalue is copied.

The same simplifications as in `Verif.UFiber.Model` apply.  In addition: the library object `c` of `run` (260) and of the closure (176) is empty while the
function runs, since the parameter is moved from it; its further life is not represented.
-/

namespace Verif.UCont
open Verif.Fiber (CtxId Var Tid Kind Exc Mode UKind Status Event CreateOutcome upd)

/-- Where the activation of `callcc` (535-541) stands: waiting in `resume()`; `resume()` returned object `y`, the temporary is about to be
destroyed; `resume()` threw `e`, the temporary is about to be destroyed. -/
inductive CcMode
  | waiting | returning (y : Var) | unwinding (e : Exc)
  deriving DecidableEq, Repr

inductive Frame
  /-- user code -/
  | user (k : UKind) (ls : List Var) (m : Mode)
  /-- an activation of `callcc` (535-541) with temporary `x`, called by the user code activation `k, ls` -/
  | callcc (x : Var) (cm : CcMode) (k : UKind) (ls : List Var)
  /-- `makecontext` done, `entry_func` (66-77) not entered -/
  | entryJump
  /-- `run` (254-278) waiting for the context function (263-266) -/
  | entryRun
  /-- `resume`/`resume_with` (430-466) suspended in `swapcontext` (138/197), or executing `ontop(ptr)` (439/462) -/
  | resume
  /-- `~continuation` (400-409) of an object designating `victim`, inside `ptr_->resume()` (404) or `deallocate()` (407) -/
  | dtor (victim : CtxId)
  /-- `deallocate()` (249-252) of finished context `c` -/
  | exiting (c : CtxId)
  /-- `run` of a finished context, suspended in line 276 for ever -/
  | exitJump
  deriving DecidableEq, Repr

/-- As `Verif.UFiber.State`; `hidden x`: `x` is the temporary of a `callcc`, which user code cannot name. -/
structure State where
  /-- `activation_record::current()` (93) -/
  cur     : Tid → Option CtxId
  status  : CtxId → Status
  frames  : CtxId → List Frame
  /-- `continuation` objects captured in `fn_` (231) -/
  caps    : CtxId → List Var
  kind    : Var → Kind
  /-- member `ptr_` (391) of a `continuation` object; member `from` (220) of a `forced_unwind` -/
  val     : Var → Option CtxId
  /-- `main_ctx` (82) -/
  root    : CtxId → Bool
  /-- `from` (83) -/
  frm     : CtxId → Option CtxId
  /-- `ontop` (84) -/
  ontop   : CtxId → Option Nat
  /-- `terminated` (85) -/
  term    : CtxId → Bool
  /-- `force_unwind` (86) -/
  unw     : CtxId → Bool
  nextCtx : Nat
  nextVar : Nat
  nextTid : Nat
  nextId  : Nat
  lost    : CtxId → Bool
  /-- ghost: some `~continuation` was executed on a never started context -/
  early   : Bool
  hidden  : Var → Bool
  log     : List Event

inductive Res
  | ok (s : State) | rejected | terminate | assertion | ub

namespace State

def setFrames (s : State) (c : CtxId) (fs : List Frame) : State := { s with frames := upd s.frames c fs }
def setVal (s : State) (x : Var) (v : Option CtxId) : State := { s with val := upd s.val x v }
def kill (s : State) (x : Var) : State := { s with kind := upd s.kind x .dead, val := upd s.val x none }
/-- a new object (`continuation{ptr}` 393-395, default construction 398) -/
def newVar (s : State) (k : Kind) (v : Option CtxId) : State :=
  { s with kind := upd s.kind s.nextVar k, val := upd s.val s.nextVar v, nextVar := s.nextVar + 1 }
def addLog (s : State) (e : Event) : State := { s with log := e :: s.log }

/-- Objects user code can name. -/
def accessible (s : State) (x : Var) : Bool :=
  match s.kind x with
  | .heap | .loc _ | .cap _ => !s.hidden x
  | _ => false

/-- `activation_record::resume` of record `w` up to and including `swapcontext` (120-138; the same part of `resume_with`, 152-197).  The context
left gets status `leave`.  `none` = undefined behaviour: `w` is not suspended. -/
def switchTo (s : State) (t : Tid) (w : CtxId) (leave : Status) : Option State :=
  match s.cur t with
  | none => none
  | some c =>
    if s.status w = .suspended then
      some { s with
        frm := upd s.frm w (some c)
        cur := upd s.cur t (some w)
        status := upd (upd s.status c leave) w (.running t) }
    else none

/-- What context `w` does after it has been switched to: never started: `run` (254-266) invokes the context function with `Ctx c{ from }` (260);
suspended in `resume`/`resume_with` called by user code or by `callcc`: `ptr = exchange(current()->from, nullptr)` (147/206), then `force_unwind` → throw
(436-437/459-460), otherwise `ontop` → call it (438-440/461-463), otherwise return `{ptr}` (442/465); suspended in `~continuation`: pointer dropped (404),
assertion 405, `deallocate()` (407). -/
def arrive (s : State) (w : CtxId) : Res :=
  match s.frames w with
  | .entryJump :: rest =>
    .ok (((s.newVar (.loc w) (s.frm w)).setFrames w (.user .fn [s.nextVar] .normal :: .entryRun :: rest)).addLog (.enter w))
  | .resume :: .user k ls m :: rest =>
    let p := s.frm w
    let s := { s with frm := upd s.frm w none }
    if s.unw w then
      .ok ((s.newVar (.exc w) p).setFrames w (.user k ls (.unwinding (.forced s.nextVar)) :: rest))
    else match s.ontop w with
      | some i =>
        .ok (((s.newVar (.loc w) p).setFrames w
          (.user (.ontop i) [s.nextVar] .normal :: .resume :: .user k ls m :: rest)).addLog (.ontop i w))
      | none => .ok ((s.newVar (.loc w) p).setFrames w (.user k (s.nextVar :: ls) m :: rest))
  | .resume :: .callcc x .waiting k ls :: rest =>
    let p := s.frm w
    let s := { s with frm := upd s.frm w none }
    if s.unw w then
      .ok ((s.newVar (.exc w) p).setFrames w (.callcc x (.unwinding (.forced s.nextVar)) k ls :: rest))
    else match s.ontop w with
      | some i =>
        .ok (((s.newVar (.loc w) p).setFrames w
          (.user (.ontop i) [s.nextVar] .normal :: .resume :: .callcc x .waiting k ls :: rest)).addLog (.ontop i w))
      | none => .ok ((s.newVar (.loc w) p).setFrames w (.callcc x (.returning s.nextVar) k ls :: rest))
  | .dtor v :: rest =>
    let s := { s with frm := upd s.frm w none,
                      lost := fun z => s.lost z || (decide (s.frm w = some z) && decide (z ≠ v)) }
    if s.status v = .freed then .ub                                                  -- 405 reads a freed record
    else if s.term v then .ok (s.setFrames w (.exiting v :: .dtor v :: rest)) else .assertion
  | _ => .ub

/-- `~continuation` (400-409) with `ptr_ = v`, executed by context `c` on thread `t`. -/
def destroyPtr (s : State) (t : Tid) (c : CtxId) (v : CtxId) : Res :=
  if s.status v = .freed ∨ s.status v = .ended ∨ s.status v = .absent then .ub
  else if s.root v then .ok { s with lost := upd s.lost v true }                     -- 401
  else if s.term v then .ok (s.setFrames c (.exiting v :: s.frames c))               -- 402, 407
  else
    let s := { s with unw := upd s.unw v true                                        -- 403
                      early := s.early || decide (s.frames v = [Frame.entryJump]) }
    match (s.setFrames c (.dtor v :: s.frames c)).switchTo t v .suspended with       -- 404
    | none => .ub
    | some s => s.arrive v

/-- `~continuation` of object `x` (400-409); its lifetime ends. -/
def destroyVar (s : State) (t : Tid) (c : CtxId) (x : Var) : Res :=
  match s.val x with
  | none => .ok (s.kill x)
  | some v => (s.kill x).destroyPtr t c v

/-- End of `run` (271-276): the fields are reset, `c.resume()` with `c.ptr_ = p`. -/
def finish (s : State) (t : Tid) (c : CtxId) (p : Option CtxId) : Res :=
  let s := { s with frm := upd s.frm c none, ontop := upd s.ontop c none,            -- 272-273
                    term := upd s.term c true, unw := upd s.unw c false }            -- 274-275
  match p with
  | none => .ub                                                                      -- 434: member call on a null pointer
  | some w =>
    if s.status w = .terminated then .assertion                                      -- 277, in `w`
    else match (s.setFrames c [.exitJump]).switchTo t w .terminated with             -- 276
      | none => .ub
      | some s => s.arrive w

/-- `resume() &&` (430-443); `resume() &` (426-428) calls it for the same object. -/
def doResume (s : State) (t : Tid) (c : CtxId) (x : Var) : Res :=
  match s.val x with
  | none => .ub                                                                      -- 434: member call on a null pointer
  | some w =>
    if s.status w = .terminated then .assertion                                      -- 277, in `w`
    else match ((s.setVal x none).setFrames c (.resume :: s.frames c)).switchTo t w .suspended with
      | none => .ub
      | some s => s.arrive w

/-- `resume_with(fn) &&` (451-466), called directly or by `resume_with(fn) &` (445-449), and `activation_record::resume_with` (151-208): as `resume`,
after storing a copy of the function in the record of the target (175-186). -/
def doResumeWith (s : State) (t : Tid) (c : CtxId) (x : Var) : Res :=
  match s.val x with
  | none => .ub                                                                      -- 457: member call on a null pointer
  | some w =>
    if s.status w = .terminated then .assertion                                      -- 277, in `w`
    else
      let s := { s with ontop := upd s.ontop w (some s.nextId), nextId := s.nextId + 1 }
      match ((s.setVal x none).setFrames c (.resume :: s.frames c)).switchTo t w .suspended with
      | none => .ub
      | some s => s.arrive w

/-- Moves the listed objects into the function object of record `n` (246). -/
def capture (s : State) (n : CtxId) : List Var → State
  | [] => s
  | x :: xs =>
    let v := s.val x
    let s' := (s.setVal x none).newVar (.cap n) v
    ({ s' with caps := upd s'.caps n (s.nextVar :: s'.caps n) }).capture n xs

/-- `callcc` (535-541, 543-550): `create_context1` (281-323) creates the record, of which a temporary `continuation` is made and resumed at once. -/
def doCallcc (s : State) (t : Tid) (c : CtxId) (k : UKind) (ls : List Var) (rest : List Frame) (xs : List Var) : Res :=
  let n := s.nextCtx
  let s := { s with nextCtx := n + 1 }.addLog (.alloc n)                             -- 285
  let s := s.capture n xs                                                             -- 291
  let s := { s with status := upd s.status n .suspended, frames := upd s.frames n [.entryJump],
                    root := upd s.root n false, frm := upd s.frm n none, ontop := upd s.ontop n none,
                    term := upd s.term n false, unw := upd s.unw n false }            -- 81-86, 315
  let x := s.nextVar
  let s := { s.newVar (.loc c) (some n) with hidden := upd s.hidden x true }          -- 538: the temporary
  (s.setFrames c (.callcc x .waiting k ls :: rest)).doResume t c x                    -- 540: .resume()

end State

inductive Op
  | newHeap | newLocal
  /-- move construction (414-416) -/
  | moveHeap (x : Var) | moveLocal (x : Var)
  /-- move assignment (418-424) -/
  | moveAssign (y x : Var)
  /-- `swap` (500-502) -/
  | swap (x y : Var)
  | drop (x : Var)
  /-- `callcc` of a function that captures `xs` by move -/
  | callcc (xs : List Var) (o : CreateOutcome)
  /-- `resume()`, on an lvalue or on an rvalue -/
  | resume (x : Var)
  /-- `resume_with(fn)` -/
  | resumeWith (x : Var)
  | call | cleanup | ret
  | retHandle (x : Var)
  | throw (n : Nat)
  | catchUser | swallow | tick | spawn
  deriving DecidableEq, Repr

open State

/-- user code in control -/
def userStep (s : State) (t : Tid) (c : CtxId) (k : UKind) (ls : List Var) (rest : List Frame) : Op → Res
  | .newHeap => .ok (s.newVar .heap none)
  | .newLocal => .ok ((s.newVar (.loc c) none).setFrames c (.user k (s.nextVar :: ls) .normal :: rest))
  | .moveHeap x => if s.accessible x then .ok ((s.setVal x none).newVar .heap (s.val x)) else .rejected
  | .moveLocal x =>
    if s.accessible x then
      .ok (((s.setVal x none).newVar (.loc c) (s.val x)).setFrames c (.user k (s.nextVar :: ls) .normal :: rest))
    else .rejected
  | .moveAssign y x =>
    if s.accessible x ∧ s.accessible y then
      if y = x then .ok s                                                             -- 419
      else
        let old := s.val y
        let s' := (s.setVal y (s.val x)).setVal x none                                -- 420-421
        match old with                                                                -- ~tmp, 422
        | none => .ok s'
        | some v => s'.destroyPtr t c v
    else .rejected
  | .swap x y =>
    if s.accessible x ∧ s.accessible y then .ok ((s.setVal x (s.val y)).setVal y (s.val x)) else .rejected
  | .drop x =>
    if x ∈ ls then (s.setFrames c (.user k (ls.erase x) .normal :: rest)).destroyVar t c x
    else if s.kind x = .heap then s.destroyVar t c x
    else .rejected
  | .callcc xs o =>
    if xs.all s.accessible then
      match o with
      | .success => s.doCallcc t c k ls rest xs
      | .allocThrows n => .ok (s.setFrames c (.user k ls (.unwinding (.user n)) :: rest))     -- 285
      | .fnThrows => .terminate                                                               -- 243, noexcept
    else .rejected
  | .resume x => if s.accessible x then s.doResume t c x else .rejected
  | .resumeWith x => if s.accessible x then s.doResumeWith t c x else .rejected
  | .call => .ok (s.setFrames c (.user .call [] .normal :: .user k ls .normal :: rest))
  | .cleanup => .ok (s.setFrames c (.user .cleanup [] .normal :: .user k ls .normal :: rest))
  | .ret =>
    match k with
    | .main | .call | .cleanup => .ok (s.setFrames c (.user k ls (.returning none) :: rest))
    | _ => .rejected
  | .retHandle x =>
    if s.accessible x then
      match k with
      | .fn | .ontop _ =>
        .ok (((s.setVal x none).newVar (.ret c) (s.val x)).setFrames c (.user k ls (.returning (some s.nextVar)) :: rest))
      | _ => .rejected
    else .rejected
  | .throw n => .ok (s.setFrames c (.user k ls (.unwinding (.user n)) :: rest))
  | .spawn =>                                                                         -- 97-103, src/continuation.cpp 34-50
    let n := s.nextCtx
    .ok { s with
      cur := upd s.cur s.nextTid (some n), status := upd s.status n (.running s.nextTid),
      frames := upd s.frames n [.user .main [] .normal], root := upd s.root n true,
      frm := upd s.frm n none, ontop := upd s.ontop n none, term := upd s.term n false, unw := upd s.unw n false,
      nextCtx := n + 1, nextTid := s.nextTid + 1 }
  | .catchUser => .rejected
  | .swallow => .rejected
  | .tick => .rejected

/-- A frame of user code without remaining locals is left by exception `e`. -/
def propagate (s : State) (t : Tid) (c : CtxId) (k : UKind) (e : Exc) (rest : List Frame) : Res :=
  match k, rest with
  | .main, _ => .terminate
  | .cleanup, _ => .terminate
  | .call, .user k' ls' _ :: rest' => .ok (s.setFrames c (.user k' ls' (.unwinding e) :: rest'))
  | .fn, _ =>
    match e with
    | .user _ => .terminate                                      -- entry_func is noexcept (71), 268
    | .forced x => (s.kill x).finish t c (s.val x)               -- 268-276
  | .ontop _, .resume :: .user k' ls' _ :: rest' =>              -- out of 439 resp. 462: `ontop` stays as it is
    .ok (s.setFrames c (.user k' ls' (.unwinding e) :: rest'))
  | .ontop _, .resume :: .callcc x .waiting k' ls' :: rest' => .ok (s.setFrames c (.callcc x (.unwinding e) k' ls' :: rest'))
  | _, _ => .ub

/-- A frame of user code without remaining locals returns. -/
def leave (s : State) (t : Tid) (c : CtxId) (k : UKind) (x : Option Var) (rest : List Frame) : Res :=
  match k, x with
  | .main, none =>                                               -- end of the thread
    .ok { s with cur := upd s.cur t none, status := upd s.status c .ended, frames := upd s.frames c [] }
  | .call, none => .ok (s.setFrames c rest)
  | .cleanup, none => .ok (s.setFrames c rest)
  | .fn, some x => (s.kill x).finish t c (s.val x)               -- 263-276
  | .ontop _, some x =>                                          -- 177-184, 439-442
    match rest with
    | .resume :: .user k' ls' m' :: rest' =>
      let v := s.val x
      let s := ({ s with ontop := upd s.ontop c none }).kill x
      .ok ((s.newVar (.loc c) v).setFrames c (.user k' (s.nextVar :: ls') m' :: rest'))
    | .resume :: .callcc z .waiting k' ls' :: rest' =>
      let v := s.val x
      let s := ({ s with ontop := upd s.ontop c none }).kill x
      .ok ((s.newVar (.loc c) v).setFrames c (.callcc z (.returning s.nextVar) k' ls' :: rest'))
    | _ => .ub
  | _, _ => .ub

/-- `deallocate()` of the finished context `n` (249-252, 233-240). -/
def exitStep (s : State) (t : Tid) (c : CtxId) (n : CtxId) (rest : List Frame) : Res :=
  match s.caps n with
  | x :: xs => ({ s with caps := upd s.caps n xs }).destroyVar t c x
  | [] =>
    if s.status n = .terminated then
      let s := ({ s with status := upd s.status n .freed, frames := upd s.frames n [] }).addLog (.dealloc n)
      match rest with
      | .dtor v :: rest' => .ok ((s.setFrames c rest').addLog (.destroyed v c))
      | _ => .ok (s.setFrames c rest)
    else .ub

/-- One step of thread `t`. -/
def step (s : State) (t : Tid) (op : Op) : Res :=
  match s.cur t with
  | none => .rejected
  | some c =>
    match s.frames c with
    | .user k ls .normal :: rest => userStep s t c k ls rest op
    | .user k (x :: ls) m :: rest =>
      match op with
      | .tick => (s.setFrames c (.user k ls m :: rest)).destroyVar t c x
      | .cleanup => .ok (s.setFrames c (.user .cleanup [] .normal :: .user k (x :: ls) m :: rest))
      | _ => .rejected
    | .user k [] (.unwinding e) :: rest =>
      match op with
      | .tick => propagate s t c k e rest
      | .cleanup => .ok (s.setFrames c (.user .cleanup [] .normal :: .user k [] (.unwinding e) :: rest))
      | .catchUser =>
        match k, e with
        | .call, .user _ => .ok (s.setFrames c rest)
        | _, _ => .rejected
      | .swallow =>
        match k, e with
        | .call, .forced x =>
          match s.val x with
          | some v => .ok { (s.setFrames c rest).kill x with lost := upd s.lost v true }
          | none => .ok ((s.setFrames c rest).kill x)
        | _, _ => .rejected
      | _ => .rejected
    | .user k [] (.returning x) :: rest =>
      match op with
      | .tick => leave s t c k x rest
      | .cleanup => .ok (s.setFrames c (.user .cleanup [] .normal :: .user k [] (.returning x) :: rest))
      | _ => .rejected
    -- `callcc` is left: `~continuation` of the temporary `x`, the result becomes a local object of the caller
    | .callcc x (.returning y) k ls :: rest =>
      match op with
      | .tick => (s.setFrames c (.user k (y :: ls) .normal :: rest)).destroyVar t c x
      | _ => .rejected
    | .callcc x (.unwinding e) k ls :: rest =>
      match op with
      | .tick => (s.setFrames c (.user k ls (.unwinding e) :: rest)).destroyVar t c x
      | _ => .rejected
    | .exiting n :: rest =>
      match op with
      | .tick => exitStep s t c n rest
      | .cleanup => .ok (s.setFrames c (.user .cleanup [] .normal :: .exiting n :: rest))
      | _ => .rejected
    | _ => .ub

/-- Thread 0 runs its main function in context 0; no other context exists. -/
def init : State where
  cur := fun t => if t = 0 then some 0 else none
  status := fun c => if c = 0 then .running 0 else .absent
  frames := fun c => if c = 0 then [.user .main [] .normal] else []
  caps := fun _ => []
  kind := fun _ => .dead
  val := fun _ => none
  root := fun c => c == 0
  frm := fun _ => none
  ontop := fun _ => none
  term := fun _ => false
  unw := fun _ => false
  nextCtx := 1
  nextVar := 0
  nextTid := 1
  nextId := 0
  lost := fun _ => false
  early := false
  hidden := fun _ => false
  log := []

/-- Runs a history; stops at the first step that is not `ok`. -/
def run (s : State) : List (Tid × Op) → Res
  | [] => .ok s
  | (t, op) :: h => match step s t op with
    | .ok s' => run s' h
    | r => r

/-- States reachable by some history. -/
inductive Reachable : State → Prop
  | init : Reachable init
  | step {s s' : State} {t : Tid} {op : Op} : Reachable s → step s t op = .ok s' → Reachable s'

/-- States reachable by histories in which no `forced_unwind` is swallowed. -/
inductive ReachableNS : State → Prop
  | init : ReachableNS init
  | step {s s' : State} {t : Tid} {op : Op} : ReachableNS s → op ≠ .swallow → step s t op = .ok s' → ReachableNS s'

end Verif.UCont
