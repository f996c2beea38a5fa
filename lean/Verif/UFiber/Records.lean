import Verif.UFiber.Props3

/-!
# Activation records and machine contexts apart (C86)

In `Verif.UFiber.Model` the record `current()` designates, the record a context is saved in and the context executed are one and the same.  Here they are separate, as
in `fiber_ucontext.hpp`: `swapcontext( & from->uctx, & uctx)` saves what the thread executes in the record `from`, whatever context that record was made for, and
continues what was saved in `this`.  The additional operation is `resume_with` with a function object whose copy throws (`withThrows`): the closure is made in lines
181-212, after `from = current()` (175) and `current() = this` (179).

`State` and its operations are those of `Verif.UFiber.Model`; `State.cur` is the context (stack) executed.  Comments give the lines where a record is reached through
`current()`, `from` or `this`.
-/

namespace Verif.UFiber
open Verif.Fiber (CtxId Var Tid Kind Exc Mode UKind Frame Status Event Op CreateOutcome upd upd_apply)
open State

structure X where
  s : State
  /-- `fiber_activation_record::current()` (103; thread local, `src/fiber.cpp` 23-33): the record it designates -/
  curr : Tid → Option CtxId
  /-- the context that is continued by switching to the record: contents of `uctx` (85) -/
  saved : CtxId → CtxId

inductive XRes
  | ok (x : X)
  | rejected
  | terminate
  | assertion
  | ub

namespace X

/-- an operation that does not switch -/
def keep (x : X) : Res → XRes
  | .ok s => .ok { x with s := s }
  | .rejected => .rejected
  | .terminate => .terminate
  | .assertion => .assertion
  | .ub => .ub

/-- `fiber_activation_record::resume` of record `w` up to and including `swapcontext` (139-160; the same part of `resume_with`, 173-222) -/
def switchTo (x : X) (t : Tid) (w : CtxId) (leave : Status) : Option X :=
  match x.s.cur t, x.curr t with
  | some c, some r =>
    let saved := upd x.saved r c                                                     -- 160: & from->uctx
    let d := saved w                                                                 -- 160: & uctx
    if x.s.status d = .suspended then
      some { s := { x.s with frm := upd x.s.frm w (some r)                           -- 140: from = current()
                             cur := upd x.s.cur t (some d)
                             status := upd (upd x.s.status c leave) d (.running t) }
             curr := upd x.curr t (some w)                                           -- 144: current() = this
             saved := saved }
    else none
  | _, _ => none

/-- What context `d` does after it has been switched to through record `w = current()`: a new one executes `run` of its own record (279-291: `from` is
`this->from`); one in `resume`/`resume_with` continues with the members of `current()` (169/231, 490-496/509-515), one in `~fiber` with 169 and 462. -/
def arrive (x : X) (d w : CtxId) : XRes :=
  let s := x.s
  match s.frames d with
  | .entryJump :: rest =>
    .ok { x with s := ((s.newVar (.loc d) (s.frm d)).setFrames d (.user .fn [s.nextVar] .normal :: .entryRun :: rest)).addLog (.enter d) }
  | .resume :: .user k ls m :: rest =>
    let p := s.frm w
    let s := { s with frm := upd s.frm w none }
    if s.unw w then
      .ok { x with s := (s.newVar (.exc d) p).setFrames d (.user k ls (.unwinding (.forced s.nextVar)) :: rest) }
    else match s.ontop w with
      | some i =>
        .ok { x with s := ((s.newVar (.loc d) p).setFrames d
          (.user (.ontop i) [s.nextVar] .normal :: .resume :: .user k ls m :: rest)).addLog (.ontop i d) }
      | none => .ok { x with s := (s.newVar (.loc d) p).setFrames d (.user k (s.nextVar :: ls) m :: rest) }
  | .dtor v :: rest =>
    let s := { s with frm := upd s.frm w none,
                      lost := fun z => s.lost z || (decide (s.frm w = some z) && decide (z ≠ v)) }
    if s.status v = .freed then .ub
    else if s.term v then .ok { x with s := s.setFrames d (.exiting v :: .dtor v :: rest) } else .assertion
  | _ => .ub

/-- switch to record `w`, then `arrive`.  If what was saved there is a finished context, it continues in `run` behind line 301: `force_unwind` of the record
(490-491) is thrown out of `run` into `fiber_entry_func`, which is `noexcept` (76); otherwise assertion 302. -/
def go (x : X) (t : Tid) (w : CtxId) (leave : Status) : XRes :=
  if x.s.status (x.saved w) = .terminated then (if x.s.unw w then .terminate else .assertion)
  else match x.switchTo t w leave with
    | none => .ub
    | some x => x.arrive (x.saved w) w

/-- `~fiber` (457-466) with `ptr_ = v`, executed by context `c` on thread `t` -/
def destroyPtr (x : X) (t : Tid) (c : CtxId) (v : CtxId) : XRes :=
  let s := x.s
  if s.status v = .freed ∨ s.status v = .ended ∨ s.status v = .absent then .ub
  else if s.root v then .ok { x with s := { s with lost := upd s.lost v true } }     -- 458
  else if s.term v then .ok { x with s := s.setFrames c (.exiting v :: s.frames c) } -- 459, 464
  else
    let s := { s with unw := upd s.unw v true                                        -- 460
                      early := s.early || decide (s.frames v = [Frame.entryJump]) }
    { x with s := s.setFrames c (.dtor v :: s.frames c) }.go t v .suspended          -- 461

/-- `~fiber` of object `y` (457-466); its lifetime ends -/
def destroyVar (x : X) (t : Tid) (c : CtxId) (y : Var) : XRes :=
  match x.s.val y with
  | none => .ok { x with s := x.s.kill y }
  | some v => { x with s := x.s.kill y }.destroyPtr t c v

/-- end of `run` (296-301) of context `c`: the members of its own record are reset, then `resume()` of `p` -/
def finish (x : X) (t : Tid) (c : CtxId) (p : Option CtxId) : XRes :=
  let s := { x.s with frm := upd x.s.frm c none, ontop := upd x.s.ontop c none,      -- 297-298
                      term := upd x.s.term c true, unw := upd x.s.unw c false }      -- 299-300
  match p with
  | none => .assertion                                                               -- 484
  | some w => { x with s := s.setFrames c [.exitJump] }.go t w .terminated           -- 301

/-- `fiber::resume` (483-497) -/
def doResume (x : X) (t : Tid) (c : CtxId) (y : Var) : XRes :=
  match x.s.val y with
  | none => .assertion                                                               -- 484
  | some w => { x with s := (x.s.setVal y none).setFrames c (.resume :: x.s.frames c) }.go t w .suspended

/-- `fiber::resume_with` (499-516) and `fiber_activation_record::resume_with` (173-233) -/
def doResumeWith (x : X) (t : Tid) (c : CtxId) (y : Var) : XRes :=
  match x.s.val y with
  | none => .assertion                                                               -- 501
  | some w =>
    if x.s.status (x.saved w) = .terminated then (if x.s.unw w then .terminate else .assertion)
    else
      let s := { x.s with ontop := upd x.s.ontop w (some x.s.nextId), nextId := x.s.nextId + 1 }   -- 179, 197-208
      { x with s := (s.setVal y none).setFrames c (.resume :: s.frames c) }.go t w .suspended

/-- `fiber::resume_with` where making the closure throws user exception `n`: `ptr_` has been cleared (505-506), `from` and `current()` have been set (175, 179), the
assignment to `ontop` and everything behind it is not executed -/
def doWithThrows (x : X) (t : Tid) (c : CtxId) (k : UKind) (ls : List Var) (rest : List Frame) (y : Var) (n : Nat) : XRes :=
  match x.s.val y with
  | none => .assertion                                                               -- 501
  | some w =>
    .ok { x with
      s := { (x.s.setVal y none).setFrames c (.user k ls (.unwinding (.user n)) :: rest) with frm := upd x.s.frm w (x.curr t) }
      curr := upd x.curr t (some w) }

end X

open X

/-- user code in mode normal: operations that may switch, the additional one, and the others -/
def xuserStep (x : X) (t : Tid) (c : CtxId) (k : UKind) (ls : List Var) (rest : List Frame) (op : Op) : XRes :=
  let s := x.s
  match op with
  | .moveAssign y z =>
    if s.accessible z ∧ s.accessible y then
      if y = z then .ok x                                                             -- 476
      else
        let x' := { x with s := (s.setVal y (s.val z)).setVal z none }                -- 477-478
        match s.val y with
        | none => .ok x'
        | some v => x'.destroyPtr t c v                                               -- ~tmp, 479
    else .rejected
  | .drop y =>
    if y ∈ ls then { x with s := s.setFrames c (.user k (ls.erase y) .normal :: rest) }.destroyVar t c y
    else if s.kind y = .heap then x.destroyVar t c y
    else .rejected
  | .resume y => if s.accessible y then x.doResume t c y else .rejected
  | .resumeWith y => if s.accessible y then x.doResumeWith t c y else .rejected
  | .withThrows y n _ => if s.accessible y then x.doWithThrows t c k ls rest y n else .rejected
  | .spawn =>
    match userStep s t c k ls rest .spawn with
    | .ok s' => .ok { x with s := s', curr := upd x.curr s.nextTid (some s.nextCtx) } -- src/fiber.cpp 34-50
    | r => x.keep r
  | op => x.keep (userStep s t c k ls rest op)

/-- a frame without remaining locals is left by exception `e` -/
def xpropagate (x : X) (t : Tid) (c : CtxId) (k : UKind) (e : Exc) (rest : List Frame) : XRes :=
  match k, e with
  | .fn, .forced y => { x with s := x.s.kill y }.finish t c (x.s.val y)               -- 293-301
  | _, _ => x.keep (propagate x.s t c k e rest)

/-- a frame without remaining locals returns -/
def xleave (x : X) (t : Tid) (c : CtxId) (k : UKind) (y : Option Var) (rest : List Frame) : XRes :=
  match k, y with
  | .main, none =>
    match leave x.s t c .main none rest with
    | .ok s' => .ok { x with s := s', curr := upd x.curr t none }
    | r => x.keep r
  | .fn, some y => { x with s := x.s.kill y }.finish t c (x.s.val y)                  -- 289-301
  | .ontop _, some y =>
    match rest, x.curr t with
    | .resume :: .user k' ls' m' :: rest', some r =>
      let v := x.s.val y
      let s := ({ x.s with ontop := upd x.s.ontop r none }).kill y                    -- 494/513: current()->ontop = nullptr
      .ok { x with s := (s.newVar (.loc c) v).setFrames c (.user k' (s.nextVar :: ls') m' :: rest') }
    | _, _ => .ub
  | k, y => x.keep (leave x.s t c k y rest)

/-- `deallocate()` of the finished fiber `n` -/
def xexitStep (x : X) (t : Tid) (c : CtxId) (n : CtxId) (rest : List Frame) : XRes :=
  match x.s.caps n with
  | y :: ys => { x with s := { x.s with caps := upd x.s.caps n ys } }.destroyVar t c y
  | [] => x.keep (exitStep x.s t c n rest)

/-- one step of thread `t` -/
def xstep (x : X) (t : Tid) (op : Op) : XRes :=
  match x.s.cur t with
  | none => .rejected
  | some c =>
    match x.s.frames c with
    | .user k ls .normal :: rest => xuserStep x t c k ls rest op
    | .user k (y :: ls) m :: rest =>
      match op with
      | .tick => { x with s := x.s.setFrames c (.user k ls m :: rest) }.destroyVar t c y
      | op => x.keep (step x.s t op)
    | .user k [] (.unwinding e) :: rest =>
      match op with
      | .tick => xpropagate x t c k e rest
      | op => x.keep (step x.s t op)
    | .user k [] (.returning y) :: rest =>
      match op with
      | .tick => xleave x t c k y rest
      | op => x.keep (step x.s t op)
    | .exiting n :: rest =>
      match op with
      | .tick => xexitStep x t c n rest
      | op => x.keep (step x.s t op)
    | _ => .ub

def xrun (x : X) : List (Tid × Op) → XRes
  | [] => .ok x
  | (t, op) :: h => match xstep x t op with
    | .ok x' => xrun x' h
    | r => r

/-! ## Specification -/

/-- `current()` designates the record of the context the thread executes, and every record is the one its own context is saved in -/
def X.Coherent (x : X) : Prop := x.curr = x.s.cur ∧ ∀ c, x.saved c = c

/-- the state of the simpler model, with coherent records -/
def State.records (s : State) : X := ⟨s, s.cur, fun c => c⟩

def Res.records : Res → XRes
  | .ok s => .ok s.records
  | .rejected => .rejected
  | .terminate => .terminate
  | .assertion => .assertion
  | .ub => .ub

/-- the operation is not a `resume_with` whose closure cannot be made -/
def NoThrow : Op → Prop
  | .withThrows _ _ _ => False
  | _ => True

/-! ## Proofs -/

theorem upd_same {α β : Type} [DecidableEq α] (f : α → β) (a : α) : upd f a (f a) = f := by
  funext b; simp only [upd_apply]; split
  · rename_i h; rw [h]
  · rfl

theorem upd_id (c : CtxId) : upd (fun c : CtxId => c) c c = fun c => c := upd_same (fun c : CtxId => c) c

theorem records_switchTo (s : State) (t : Tid) (w : CtxId) (lv : Status) : s.records.switchTo t w lv = (s.switchTo t w lv).map State.records := by
  unfold X.switchTo State.switchTo State.records
  cases hc : s.cur t with
  | none => rfl
  | some c =>
    simp only [hc, upd_id]
    split <;> rfl

theorem records_arrive (s : State) (w : CtxId) : s.records.arrive w w = (s.arrive w).records := by
  unfold X.arrive State.arrive
  have e : s.records.s = s := rfl
  simp only [e]
  cases hf : s.frames w with
  | nil => rfl
  | cons f rest =>
    cases f with
    | resume =>
      cases rest with
      | nil => rfl
      | cons g rest =>
        cases g with
        | user k ls m =>
          cases hu : s.unw w with
          | true => simp only; rfl
          | false => cases ho : s.ontop w <;> simp only <;> rfl
        | _ => rfl
    | dtor v =>
      by_cases h1 : s.status v = .freed
      · simp only [if_pos h1]; rfl
      · simp only [if_neg h1]
        cases h2 : s.term v <;> rfl
    | _ => rfl

/-- what `go` is in the simpler model -/
theorem records_go (s : State) (t : Tid) (w : CtxId) (lv : Status) (hu : s.status w = .terminated → s.unw w = false) :
    s.records.go t w lv = (if s.status w = .terminated then Res.assertion else match s.switchTo t w lv with | none => .ub | some s => s.arrive w).records := by
  unfold X.go
  show (if s.status w = .terminated then _ else _) = _
  by_cases h : s.status w = .terminated
  · rw [if_pos h, if_pos h]
    show (if s.unw w = true then _ else _) = _
    rw [hu h]; rfl
  · rw [if_neg h, if_neg h, records_switchTo]
    cases s.switchTo t w lv with
    | none => rfl
    | some s' => exact records_arrive s' w

theorem records_destroyPtr {s : State} (t : Tid) (c v : CtxId) (hu : s.status v = .terminated → s.term v = true) :
    s.records.destroyPtr t c v = (s.destroyPtr t c v).records := by
  unfold X.destroyPtr State.destroyPtr
  show (if s.status v = .freed ∨ s.status v = .ended ∨ s.status v = .absent then _ else _) = _
  split
  · rfl
  show (if s.root v = true then _ else _) = _
  split
  · rfl
  show (if s.term v = true then _ else _) = _
  split
  · rfl
  · rename_i ht
    have hn : s.status v ≠ .terminated := fun h => ht (hu h)
    refine (records_go (State.setFrames { s with unw := upd s.unw v true, early := s.early || decide (s.frames v = [Frame.entryJump]) } c (.dtor v :: s.frames c)) t v .suspended (fun h => absurd h hn)).trans ?_
    exact congrArg Res.records (if_neg hn)

/-- what is needed of reachable states -/
def TU (s : State) : Prop := ∀ c, s.status c = .terminated → s.term c = true ∧ s.unw c = false

theorem records_destroyVar {s : State} (t : Tid) (c : CtxId) (y : Var) (h : TU s) : s.records.destroyVar t c y = (s.destroyVar t c y).records := by
  unfold X.destroyVar State.destroyVar
  show (match s.val y with | none => _ | some v => _ : XRes) = _
  cases s.val y with
  | none => rfl
  | some v => exact records_destroyPtr (s := s.kill y) t c v (fun hh => (h v hh).1)

theorem records_finish {s : State} (t : Tid) (c : CtxId) (p : Option CtxId) (h : TU s) : s.records.finish t c p = (s.finish t c p).records := by
  unfold X.finish State.finish
  cases p with
  | none => rfl
  | some w =>
    refine (records_go (State.setFrames _ c [.exitJump]) t w .terminated ?_).trans ?_
    · intro hh
      have := (h w hh).2
      show upd s.unw c false w = false
      rw [upd_apply]; split
      · rfl
      · exact this
    · rfl

theorem records_resume {s : State} (t : Tid) (c : CtxId) (y : Var) (h : TU s) : s.records.doResume t c y = (s.doResume t c y).records := by
  unfold X.doResume State.doResume
  show (match s.val y with | none => _ | some w => _ : XRes) = _
  cases s.val y with
  | none => rfl
  | some w => exact (records_go ((s.setVal y none).setFrames c (.resume :: s.frames c)) t w .suspended (fun hh => (h w hh).2)).trans rfl

theorem records_resumeWith {s : State} (t : Tid) (c : CtxId) (y : Var) (h : TU s) : s.records.doResumeWith t c y = (s.doResumeWith t c y).records := by
  unfold X.doResumeWith State.doResumeWith
  show (match s.val y with | none => _ | some w => _ : XRes) = _
  cases s.val y with
  | none => rfl
  | some w =>
    show (if s.status w = .terminated then (if s.unw w = true then _ else _) else _) = _
    by_cases ht : s.status w = .terminated
    · rw [if_pos ht, (h w ht).2]; simp only [if_pos ht]; rfl
    · rw [if_neg ht]; simp only [if_neg ht]
      refine (records_go ((({ s with ontop := upd s.ontop w (some s.nextId), nextId := s.nextId + 1 } : State).setVal y none).setFrames c (.resume :: s.frames c)) t w .suspended (fun hh => absurd hh ht)).trans ?_
      exact congrArg Res.records (if_neg ht)

/-- an operation that leaves `cur` alone -/
theorem records_keep {s : State} {r : Res} (h : ∀ s', r = .ok s' → s'.cur = s.cur) : s.records.keep r = r.records := by
  cases r with
  | ok s' => show XRes.ok _ = XRes.ok _; simp only [State.records, h s' rfl]
  | _ => rfl

theorem userStep_cur {s s' : State} {t c k ls rest op} (hn : match op with | .moveAssign _ _ | .drop _ | .resume _ | .resumeWith _ | .spawn => False | _ => True)
    (h : userStep s t c k ls rest op = .ok s') : s'.cur = s.cur := by
  cases op <;> simp only [userStep] at h hn <;> first | exact hn.elim | skip
  all_goals (try split at h) <;> (try simp only [Res.ok.injEq, reduceCtorEq] at h) <;> (try (subst h; rfl))
  all_goals (try split at h) <;> (try simp only [Res.ok.injEq, reduceCtorEq] at h) <;> (try (subst h; rfl))
  · simp only [State.doCreate, Res.ok.injEq] at h
    subst h
    exact (capture_keep _ _ _).2.2.2.2.2.1

theorem records_userStep {s : State} (t : Tid) (c : CtxId) (k : UKind) (ls : List Var) (rest : List Frame) (op : Op) (ho : NoThrow op) (h : TU s) :
    xuserStep s.records t c k ls rest op = (userStep s t c k ls rest op).records := by
  have key := fun hn => records_keep (s := s) (r := userStep s t c k ls rest op) (fun s' hs => userStep_cur hn hs)
  cases op with
  | moveAssign y z =>
    simp only [xuserStep, userStep]
    show (if s.accessible z = true ∧ s.accessible y = true then _ else _) = _
    split
    · split
      · rfl
      · show (match s.val y with | none => _ | some v => _ : XRes) = _
        cases s.val y with
        | none => rfl
        | some v => exact records_destroyPtr (s := (s.setVal y (s.val z)).setVal z none) t c v (fun hh => (h v hh).1)
    · rfl
  | drop y =>
    simp only [xuserStep, userStep]
    show (if y ∈ ls then _ else _) = _
    split
    · exact records_destroyVar (s := s.setFrames c _) t c y h
    · show (if s.kind y = .heap then _ else _) = _
      split
      · exact records_destroyVar t c y h
      · rfl
  | resume y =>
    simp only [xuserStep, userStep]
    show (if s.accessible y = true then _ else _) = _
    split
    · exact records_resume t c y h
    · rfl
  | resumeWith y =>
    simp only [xuserStep, userStep]
    show (if s.accessible y = true then _ else _) = _
    split
    · exact records_resumeWith t c y h
    · rfl
  | withThrows y n b => exact ho.elim
  | spawn => rfl
  | _ => exact key trivial

theorem records_step {s : State} (t : Tid) (op : Op) (ho : NoThrow op) (h : TU s) : xstep s.records t op = (step s t op).records := by
  unfold xstep
  have e0 : s.records.s = s := rfl
  have key := records_keep (s := s) (r := step s t op)
  simp only [e0]
  cases hc : s.cur t with
  | none => simp only [step, hc]; rfl
  | some c =>
    simp only
    cases hf : s.frames c with
    | nil => simp only [step, hc, hf]; rfl
    | cons f rest =>
      cases f with
      | user k ls m =>
        cases m with
        | normal => simp only [step, hc, hf]; exact records_userStep t c k ls rest op ho h
        | unwinding e =>
          cases ls with
          | cons y ls =>
            cases op with
            | tick => simp only [step, hc, hf]; exact records_destroyVar (s := s.setFrames c _) t c y h
            | _ => refine key (fun s' hs => ?_); simp [step, hc, hf] at hs; try (subst hs; rfl)
          | nil =>
            cases op with
            | tick =>
              simp only [step, hc, hf]
              unfold xpropagate propagate
              cases k with
              | fn =>
                cases e with
                | user n => rfl
                | forced y => exact records_finish (s := s.kill y) t c (s.val y) h
              | main => rfl
              | cleanup => rfl
              | call => cases rest with
                | nil => rfl
                | cons g rest => cases g <;> rfl
              | ontop i => cases rest with
                | nil => rfl
                | cons g rest => cases g <;> cases rest <;> first | rfl | (rename_i g' _; cases g' <;> rfl)
            | catchUser =>
              refine key (fun s' hs => ?_)
              simp only [step, hc, hf] at hs
              split at hs <;> simp only [Res.ok.injEq, reduceCtorEq] at hs
              subst hs; rfl
            | swallow =>
              refine key (fun s' hs => ?_)
              simp only [step, hc, hf] at hs
              split at hs
              · split at hs <;> (simp only [Res.ok.injEq] at hs; subst hs; rfl)
              · simp at hs
            | _ => refine key (fun s' hs => ?_); simp [step, hc, hf] at hs; try (subst hs; rfl)
        | returning y =>
          cases ls with
          | cons y ls =>
            cases op with
            | tick => simp only [step, hc, hf]; exact records_destroyVar (s := s.setFrames c _) t c y h
            | _ => refine key (fun s' hs => ?_); simp [step, hc, hf] at hs; try (subst hs; rfl)
          | nil =>
            cases op with
            | tick =>
              simp only [step, hc, hf]
              unfold xleave
              cases k with
              | fn =>
                cases y with
                | none => rfl
                | some y => exact records_finish (s := s.kill y) t c (s.val y) h
              | main => cases y <;> rfl
              | ontop i =>
                cases y with
                | none => rfl
                | some y =>
                  have e1 : s.records.curr t = some c := hc
                  simp only [leave, e1]
                  cases rest with
                  | nil => rfl
                  | cons g rest => cases g <;> cases rest <;> first | rfl | (rename_i g' _; cases g' <;> rfl)
              | call => cases y <;> rfl
              | cleanup => cases y <;> rfl
            | _ => refine key (fun s' hs => ?_); simp [step, hc, hf] at hs; try (subst hs; rfl)
      | exiting n =>
        cases op with
        | tick =>
          simp only [step, hc, hf]
          unfold xexitStep
          simp only [e0]
          cases hcap : s.caps n with
          | cons y ys =>
            simp only [exitStep, hcap]
            exact records_destroyVar (s := { s with caps := upd s.caps n ys }) t c y h
          | nil =>
            refine records_keep (s := s) (r := exitStep s t c n rest) (fun s' hs => ?_)
            simp only [exitStep, hcap] at hs
            split at hs
            · split at hs <;> (simp only [Res.ok.injEq] at hs; subst hs; rfl)
            · simp at hs
        | _ => refine key (fun s' hs => ?_); simp [step, hc, hf] at hs; try (subst hs; rfl)
      | _ => simp only [step, hc, hf]; rfl

/-- a finished context is not being unwound -/
theorem eff_term_unw {s s' : State} {t c op} (hi : Inv s) (hcur : s.cur t = some c) (h : Eff s t c op s')
    (ih : ∀ d, s.term d = true → s.unw d = false) (d : CtxId) : s'.term d = true → s'.unw d = false := by
  have hrun := (hi.ci.curRun t c).1 hcur
  have hih := ih d
  have harr : ∀ {s s' : State} {w}, Arr s w s' → s'.term = s.term ∧ s'.unw = s.unw := fun h => by cases h <;> exact ⟨rfl, rfl⟩
  cases h with
  | resume _ _ _ hs ha => rw [(harr ha).1, (harr ha).2]; exact hih
  | resumeWith _ _ _ hs ha => rw [(harr ha).1, (harr ha).2]; exact hih
  | propFn _ hd2 =>
    obtain ⟨_, hs, ha⟩ := hd2; rw [(harr ha).1, (harr ha).2]
    show upd _ _ _ _ = _ → upd _ _ _ _ = _
    simp only [upd_apply]; split
    · intro _; rfl
    · exact hih
  | leaveFn _ hd2 =>
    obtain ⟨_, hs, ha⟩ := hd2; rw [(harr ha).1, (harr ha).2]
    show upd _ _ _ _ = _ → upd _ _ _ _ = _
    simp only [upd_apply]; split
    · intro _; rfl
    · exact hih
  | create _ _ h2 =>
    have hc := capture_keep ({ s with nextCtx := s.nextCtx + 1 }.addLog (.alloc s.nextCtx)) s.nextCtx
    simp only [upd_apply]; split
    · intro _; rfl
    · rw [h2, (hc _).2.2.2.2.2.2.2.2.1, (hc _).2.2.2.2.2.2.2.2.2.1]; exact hih
  | destroy h1 h2 =>
    have e : ∀ {s1 v op}, PreDst s c v op s1 → s1.term = s.term ∧ s1.unw = s.unw := fun h => by cases h <;> exact ⟨rfl, rfl⟩
    obtain ⟨e1, e2⟩ := e h1
    cases h2 with
    | root => intro hh; rw [e2]; exact hih (by rwa [e1] at hh)
    | term => intro hh; simp only [setFrames_unw] at *; rw [e2]; exact hih (by rw [← e1]; exact hh)
    | unwind _ ht hs ha =>
      rw [(harr ha).1, (harr ha).2]
      show _ → upd _ _ _ _ = _
      intro hh
      have hh : s.term d = true := by rw [← e1]; exact hh
      rw [upd_apply]; split
      · rename_i hd; rw [e1, ← hd, hh] at ht; cases ht
      · rw [e2]; exact hih hh
  | spawn =>
    simp only [upd_apply]; split
    · intro _; rfl
    · exact hih
  | _ => exact hih

theorem reachable_tu {s : State} (h : Reachable s) (he : NoEarlyDestroy s) : TU s := by
  have key : ∀ d, s.term d = true → s.unw d = false := by
    induction h with
    | init => intro d hd; rfl
    | @step s s' t op hs hst ih =>
      have he1 := step_early hst he
      obtain ⟨d, hcur, heff⟩ := step_eff hst
      exact fun d => eff_term_unw (reachable_inv hs he1) hcur heff (ih he1) d
  have hi := reachable_inv h he
  intro c hc
  have := (hi.ci.termI c).2 (.inl hc)
  exact ⟨this, key c this⟩

/-! ### Without throwing copies -/

/-- **C86**: as long as no closure fails to be made (and no never started fiber was destroyed), the records are coherent: every operation does what it does in the model in
which a context and its record are one, and afterwards `current()` designates the record of the context executed. -/
theorem C86_step_coherent {s : State} (h : Reachable s) (he : NoEarlyDestroy s) (t : Tid) (op : Op) (ho : NoThrow op) :
    xstep s.records t op = (step s t op).records ∧ ∀ x', xstep s.records t op = .ok x' → x'.Coherent := by
  have h1 := records_step t op ho (reachable_tu h he)
  refine ⟨h1, fun x' hx => ?_⟩
  rw [h1] at hx
  cases hs : step s t op with
  | ok s' => rw [hs] at hx; cases hx; exact ⟨rfl, fun _ => rfl⟩
  | _ => rw [hs] at hx; cases hx

theorem run_early {h : List (Tid × Op)} {s s' : State} (hr : run s h = .ok s') (he : s'.early = false) : s.early = false := by
  induction h generalizing s with
  | nil => cases hr; exact he
  | cons a h ih =>
    simp only [run] at hr
    cases hs : step s a.1 a.2 with
    | ok s1 => rw [hs] at hr; exact step_early hs (ih hr)
    | _ => rw [hs] at hr; cases hr

theorem run_records {h : List (Tid × Op)} {s s' : State} (hs : Reachable s) (ho : ∀ a ∈ h, NoThrow a.2) (hr : run s h = .ok s') (he : NoEarlyDestroy s') :
    xrun s.records h = .ok s'.records := by
  induction h generalizing s with
  | nil => cases hr; rfl
  | cons a h ih =>
    simp only [run] at hr
    cases hst : step s a.1 a.2 with
    | ok s1 =>
      rw [hst] at hr
      have he1 : s1.early = false := run_early hr he
      have h1 := records_step a.1 a.2 (ho a (List.mem_cons_self ..)) (reachable_tu hs (step_early hst he1))
      rw [hst] at h1
      simp only [xrun, h1]
      exact ih (.step hs hst) (fun b hb => ho b (List.mem_cons_of_mem _ hb)) hr
    | _ => rw [hst] at hr; cases hr

/-- **C86**: the same for histories. -/
theorem C86_history_coherent {h : List (Tid × Op)} {s : State} (ho : ∀ a ∈ h, NoThrow a.2) (hr : run init h = .ok s) (he : NoEarlyDestroy s) :
    ∃ x, xrun init.records h = .ok x ∧ x.s = s ∧ x.Coherent := ⟨s.records, run_records .init ho hr he, rfl, rfl, fun _ => rfl⟩

/-! ### A closure that cannot be made -/

/-- **C86**, defect: in every state, if making the closure throws, the exception leaves `resume_with()` in the caller; but the object has lost its context `d`, no other object
designates it, and `current()` designates the record of `d` while the thread goes on executing the caller `c`. -/
theorem C86_throw {s : State} {t : Tid} {c d : CtxId} {k : UKind} {ls : List Var} {rest : List Frame} {y : Var} (n : Nat) (b : Bool)
    (h : Reachable s) (he : NoEarlyDestroy s) (hu : UserCode s t c k ls rest) (ha : Handle s y) (hd : Designates s y d) :
    ∃ x', xstep s.records t (.withThrows y n b) = .ok x' ∧ RunsOn x'.s t c ∧ x'.s.frames c = .user k ls (.unwinding (.user n)) :: rest ∧
      (∀ z, ¬ Designates x'.s z d) ∧ x'.curr t = some d ∧ d ≠ c ∧ ¬ x'.Coherent ∧ x'.s.status = s.status ∧ x'.s.log = s.log ∧ (∀ e, e ≠ c → x'.s.frames e = s.frames e) := by
  have hacc : s.accessible y = true := by
    unfold State.accessible
    rcases ha with h1 | ⟨_, h1⟩ | ⟨_, h1⟩ <;> rw [h1]
  obtain ⟨hc, hf⟩ := hu
  have hdc : d ≠ c := by
    rintro rfl
    exact (C22_no_dangling h he hd).2.2.1 t hc
  have e0 : s.records.s = s := rfl
  refine ⟨{ s.records with
      s := { (s.setVal y none).setFrames c (.user k ls (.unwinding (.user n)) :: rest) with frm := upd s.frm d (s.records.curr t) }
      curr := upd s.records.curr t (some d) }, ?_, ?_, ?_, ?_, ?_, hdc, ?_, ?_, ?_, ?_⟩
  · simp only [xstep, e0, hc, hf, xuserStep, hacc, if_true]
    unfold X.doWithThrows
    have : s.val y = some d := hd
    simp only [e0, this]
  · exact hc
  · show upd s.frames c _ c = _; simp [upd_apply]
  · intro z hz
    have hz : upd s.val y none z = some d := hz
    rw [upd_apply] at hz
    split at hz
    · cases hz
    · rename_i hne
      exact hne (C22_exclusive h he hz hd)
  · show upd _ _ _ _ = _; simp [upd_apply]
  · rintro ⟨h1, _⟩
    have h1 := congrFun h1 t
    have h2 : upd s.records.curr t (some d) t = s.cur t := h1
    rw [upd_apply, if_pos rfl, hc] at h2
    exact hdc (by simpa using h2)
  · rfl
  · rfl
  · intro e hne
    show upd s.frames c _ e = _
    simp [upd_apply, hne]

theorem switchTo_eq {x : X} {t : Tid} {c r w e : CtxId} {lv : Status} (hc : x.s.cur t = some c) (hr : x.curr t = some r) (he : upd x.saved r c w = e) (hs : x.s.status e = .suspended) :
    x.switchTo t w lv = some ⟨{ x.s with frm := upd x.s.frm w (some r), cur := upd x.s.cur t (some e), status := upd (upd x.s.status c lv) e (.running t) },
      upd x.curr t (some w), upd x.saved r c⟩ := by
  unfold X.switchTo
  simp only [hc, hr, he, hs, if_true]

/-- **C86**, defect: what the next switch away from the caller does.  The context resumed gets an object that designates `d` where it should designate `c`; `c` is saved in the record
of `d`, over what was saved there. -/
theorem C86_next_resume {x : X} {t : Tid} {c d e : CtxId} {k k' : UKind} {ls ls' : List Var} {rest rest' : List Frame} {z : Var}
    (hu : UserCode x.s t c k ls rest) (hd : x.curr t = some d) (ha : Handle x.s z) (hz : Designates x.s z e) (he : x.saved e = e) (hed : e ≠ d) (hec : e ≠ c)
    (hs : Suspended x.s e) (hn : InResume x.s e k' ls' rest') (hw : x.s.unw e = false) (ho : x.s.ontop e = none) :
    ∃ x' p, xstep x t (.resume z) = .ok x' ∧ UserCode x'.s t e k' (p :: ls') rest' ∧ Designates x'.s p d ∧ x'.saved d = c ∧ Suspended x'.s c ∧ x'.curr t = some e ∧
      ∀ r, r ≠ d → x'.saved r = x.saved r := by
  have hacc : x.s.accessible z = true := by
    unfold State.accessible
    rcases ha with h1 | ⟨_, h1⟩ | ⟨_, h1⟩ <;> rw [h1]
  obtain ⟨hc, hf⟩ := hu
  have hz : x.s.val z = some e := hz
  have hs : x.s.status e = .suspended := hs
  have hn : x.s.frames e = .resume :: .user k' ls' .normal :: rest' := hn
  have hse : upd x.saved d c e = e := by rw [upd_apply, if_neg hed, he]
  obtain ⟨s1, e1⟩ : ∃ s1 : State, s1 = { x.s with val := upd x.s.val z none, frames := upd x.s.frames c (.resume :: x.s.frames c), cur := upd x.s.cur t (some e), status := upd (upd x.s.status c .suspended) e (.running t), frm := upd (upd x.s.frm e (some d)) e none } := ⟨_, rfl⟩
  refine ⟨⟨(s1.newVar (.loc e) (some d)).setFrames e (.user k' (s1.nextVar :: ls') .normal :: rest'), upd x.curr t (some e), upd x.saved d c⟩, x.s.nextVar, ?_, ?_, ?_, ?_, ?_, ?_, ?_⟩
  · have hst : ((x.s.setVal z none).setFrames c (.resume :: x.s.frames c)).status e = .suspended := hs
    have hsw : ({ x with s := (x.s.setVal z none).setFrames c (.resume :: x.s.frames c) } : X).switchTo t e .suspended =
        some ⟨{ x.s with val := upd x.s.val z none, frames := upd x.s.frames c (.resume :: x.s.frames c), cur := upd x.s.cur t (some e), status := upd (upd x.s.status c .suspended) e (.running t), frm := upd x.s.frm e (some d) }, upd x.curr t (some e), upd x.saved d c⟩ := by
      exact switchTo_eq (x := { x with s := (x.s.setVal z none).setFrames c (.resume :: x.s.frames c) }) hc hd hse hst
    have hgo : xstep x t (.resume z) = ({ x with s := (x.s.setVal z none).setFrames c (.resume :: x.s.frames c) } : X).go t e .suspended := by
      simp only [xstep, hc, hf, xuserStep, hacc, if_true]
      unfold X.doResume
      simp only [hz, hf]
    rw [hgo]
    unfold X.go
    have hst' : ¬ ((x.s.setVal z none).setFrames c (.resume :: x.s.frames c)).status (x.saved e) = .terminated := by rw [he, hst]; simp
    rw [if_neg hst', hsw]
    show X.arrive _ (upd x.saved d c e) e = _
    rw [hse]
    unfold X.arrive
    have hfr : upd x.s.frames c (.resume :: x.s.frames c) e = .resume :: .user k' ls' .normal :: rest' := by rw [upd_apply, if_neg hec, hn]
    simp only [hfr, hw, ho, upd_apply, if_true, Bool.false_eq_true, if_false, e1]
  · rw [e1]; exact ⟨by show upd _ _ _ _ = _; simp [upd_apply], by show upd _ _ _ _ = _; simp [upd_apply]⟩
  · rw [e1]; show upd _ _ _ _ = _; simp [upd_apply]
  · show upd _ _ _ _ = _; simp [upd_apply]
  · rw [e1]; show upd _ _ _ _ = _
    simp [upd_apply, Ne.symm hec]
  · show upd _ _ _ _ = _; simp [upd_apply]
  · intro r hr; show upd _ _ _ _ = _; simp [upd_apply, hr]

/-- **C86**, defect: resuming through the wrong object, which designates `d`, continues the caller `c` that was saved over it; `current()` goes on designating the record of `d`. -/
theorem C86_wrong_handle_resumes {x : X} {t : Tid} {c d e r : CtxId} {k k' : UKind} {ls ls' : List Var} {rest rest' : List Frame} {z : Var}
    (hu : UserCode x.s t e k ls rest) (hr : x.curr t = some r) (ha : Handle x.s z) (hz : Designates x.s z d) (hrd : r ≠ d) (hd : x.saved d = c) (hec : e ≠ c)
    (hs : Suspended x.s c) (hn : InResume x.s c k' ls' rest') (hw : x.s.unw d = false) (ho : x.s.ontop d = none) :
    ∃ x' p, xstep x t (.resume z) = .ok x' ∧ UserCode x'.s t c k' (p :: ls') rest' ∧ Designates x'.s p r ∧ x'.curr t = some d ∧ x'.s.frm d = none := by
  have hacc : x.s.accessible z = true := by
    unfold State.accessible
    rcases ha with h1 | ⟨_, h1⟩ | ⟨_, h1⟩ <;> rw [h1]
  obtain ⟨hc, hf⟩ := hu
  have hz : x.s.val z = some d := hz
  have hs : x.s.status c = .suspended := hs
  have hn : x.s.frames c = .resume :: .user k' ls' .normal :: rest' := hn
  have hse : upd x.saved r e d = c := by rw [upd_apply, if_neg (Ne.symm hrd), hd]
  obtain ⟨s1, e1⟩ : ∃ s1 : State, s1 = { x.s with val := upd x.s.val z none, frames := upd x.s.frames e (.resume :: x.s.frames e), cur := upd x.s.cur t (some c), status := upd (upd x.s.status e .suspended) c (.running t), frm := upd (upd x.s.frm d (some r)) d none } := ⟨_, rfl⟩
  refine ⟨⟨(s1.newVar (.loc c) (some r)).setFrames c (.user k' (s1.nextVar :: ls') .normal :: rest'), upd x.curr t (some d), upd x.saved r e⟩, x.s.nextVar, ?_, ?_, ?_, ?_, ?_⟩
  · have hst : ((x.s.setVal z none).setFrames e (.resume :: x.s.frames e)).status c = .suspended := hs
    have hsw : ({ x with s := (x.s.setVal z none).setFrames e (.resume :: x.s.frames e) } : X).switchTo t d .suspended =
        some ⟨{ x.s with val := upd x.s.val z none, frames := upd x.s.frames e (.resume :: x.s.frames e), cur := upd x.s.cur t (some c), status := upd (upd x.s.status e .suspended) c (.running t), frm := upd x.s.frm d (some r) }, upd x.curr t (some d), upd x.saved r e⟩ :=
      switchTo_eq (x := { x with s := (x.s.setVal z none).setFrames e (.resume :: x.s.frames e) }) hc hr hse hst
    have hgo : xstep x t (.resume z) = ({ x with s := (x.s.setVal z none).setFrames e (.resume :: x.s.frames e) } : X).go t d .suspended := by
      simp only [xstep, hc, hf, xuserStep, hacc, if_true]
      unfold X.doResume
      simp only [hz, hf]
    rw [hgo]
    unfold X.go
    have hst' : ¬ ((x.s.setVal z none).setFrames e (.resume :: x.s.frames e)).status (x.saved d) = .terminated := by rw [hd, hst]; simp
    rw [if_neg hst', hsw]
    show X.arrive _ (upd x.saved r e d) d = _
    rw [hse]
    unfold X.arrive
    have hfr : upd x.s.frames e (.resume :: x.s.frames e) c = .resume :: .user k' ls' .normal :: rest' := by rw [upd_apply, if_neg (Ne.symm hec), hn]
    simp only [hfr, hw, ho, upd_apply, if_true, Bool.false_eq_true, if_false, e1]
  · rw [e1]; exact ⟨by show upd _ _ _ _ = _; simp [upd_apply], by show upd _ _ _ _ = _; simp [upd_apply]⟩
  · rw [e1]; show upd _ _ _ _ = _; simp [upd_apply]
  · show upd _ _ _ _ = _; simp [upd_apply]
  · rw [e1]; show upd _ _ _ _ = _; simp [upd_apply]

/-! ### The context that was to be resumed -/

/-- nothing continues what context `d` was doing (frames `fr`): no thread executes it, no record has it saved; its function has not ended and nobody is releasing its stack -/
structure Lost (d : CtxId) (fr : List Frame) (x : X) : Prop where
  cur : ∀ t, x.s.cur t ≠ some d
  saved : ∀ r, x.saved r ≠ d
  old : d < x.s.nextCtx
  unfinished : x.s.term d = false
  unreleased : ∀ e, .exiting d ∉ x.s.frames e
  frames : x.s.frames d = fr
  log : .dealloc d ∉ x.s.log

namespace Lost
variable {d : CtxId} {fr : List Frame} {x : X}

theorem of (h : Lost d fr x) {x' : X} (hc : ∀ t, x'.s.cur t = some d → ∃ t, x.s.cur t = some d) (hs : ∀ r, x'.saved r = d → ∃ r, x.saved r = d) (hn : x.s.nextCtx ≤ x'.s.nextCtx)
    (ht : x'.s.term d = true → x.s.term d = true) (he : ∀ e, .exiting d ∈ x'.s.frames e → ∃ e, .exiting d ∈ x.s.frames e) (hf : x'.s.frames d = x.s.frames d)
    (hl : .dealloc d ∈ x'.s.log → .dealloc d ∈ x.s.log) : Lost d fr x' where
  cur t hh := (hc t hh).elim h.cur
  saved r hh := (hs r hh).elim h.saved
  old := Nat.lt_of_lt_of_le h.old hn
  unfinished := by
    cases hh : x'.s.term d with
    | false => rfl
    | true => have := ht hh; rw [h.unfinished] at this; cases this
  unreleased e hh := (he e hh).elim h.unreleased
  frames := hf.trans h.frames
  log hh := h.log (hl hh)

/-- nothing of interest changes but the frames of a context -/
theorem sf (h : Lost d fr x) {s' : State} {c : CtxId} {fs : List Frame} (hcd : c ≠ d) (hfs : .exiting d ∉ fs) (hf : s'.frames = upd x.s.frames c fs)
    (hc : s'.cur = x.s.cur) (hn : x.s.nextCtx ≤ s'.nextCtx) (ht : s'.term = x.s.term) (hl : .dealloc d ∈ s'.log → .dealloc d ∈ x.s.log) : Lost d fr { x with s := s' } := by
  refine h.of (fun t hh => ⟨t, by rw [← hc]; exact hh⟩) (fun r hh => ⟨r, hh⟩) hn (fun hh => by rw [← ht]; exact hh) (fun e hh => ?_) ?_ hl
  · have hh : _ ∈ s'.frames e := hh
    rw [hf, upd_apply] at hh
    split at hh
    · exact absurd hh hfs
    · exact ⟨e, hh⟩
  · show s'.frames d = _
    rw [hf, upd_apply, if_neg (Ne.symm hcd)]

/-- nothing of interest changes -/
theorem same (h : Lost d fr x) {s' : State} (hf : s'.frames = x.s.frames) (hc : s'.cur = x.s.cur) (hn : x.s.nextCtx ≤ s'.nextCtx) (ht : s'.term = x.s.term)
    (hl : .dealloc d ∈ s'.log → .dealloc d ∈ x.s.log) : Lost d fr { x with s := s' } :=
  h.of (fun t hh => ⟨t, by rw [← hc]; exact hh⟩) (fun r hh => ⟨r, hh⟩) hn (fun hh => by rw [← ht]; exact hh) (fun e hh => ⟨e, by rw [← hf]; exact hh⟩) (by show s'.frames d = _; rw [hf]) hl

theorem top (h : Lost d fr x) {c : CtxId} {f : Frame} {rest : List Frame} (hf : x.s.frames c = f :: rest) : .exiting d ∉ rest ∧ f ≠ .exiting d :=
  ⟨fun hh => h.unreleased c (by rw [hf]; exact List.mem_cons_of_mem _ hh), fun hh => h.unreleased c (by rw [hf, hh]; exact List.mem_cons_self ..)⟩

theorem arrive (h : Lost d fr x) {e w : CtxId} (he : e ≠ d) {x' : X} (hx : x.arrive e w = .ok x') : Lost d fr x' := by
  unfold X.arrive at hx
  cases hf : x.s.frames e with
  | nil => simp [hf] at hx
  | cons f rest =>
    obtain ⟨h1, h2⟩ := h.top hf
    cases f with
    | entryJump =>
      simp only [hf, XRes.ok.injEq] at hx
      subst hx
      exact h.sf he (by simpa using h1) rfl rfl (Nat.le_refl _) rfl (fun hh => by simpa using hh)
    | resume =>
      cases rest with
      | nil => simp [hf] at hx
      | cons g rest =>
        cases g with
        | user k ls m =>
          simp only [List.mem_cons, not_or] at h1
          simp only [hf] at hx
          split at hx
          · cases hx; exact h.sf he (by simpa using h1.2) rfl rfl (Nat.le_refl _) rfl (fun hh => by simpa using hh)
          · split at hx
            · cases hx; exact h.sf he (by simpa using h1.2) rfl rfl (Nat.le_refl _) rfl (fun hh => by simpa using hh)
            · cases hx; exact h.sf he (by simpa using h1.2) rfl rfl (Nat.le_refl _) rfl (fun hh => by simpa using hh)
        | _ => simp [hf] at hx
    | dtor v =>
      simp only [hf] at hx
      split at hx
      · cases hx
      · split at hx
        · rename_i hv
          cases hx
          refine h.sf he ?_ rfl rfl (Nat.le_refl _) rfl id
          simp only [List.mem_cons, not_or]
          refine ⟨fun hh => ?_, by simp, h1⟩
          cases hh
          have := h.unfinished
          rw [this] at hv; cases hv
        · cases hx
    | _ => simp [hf] at hx

theorem switchTo (h : Lost d fr x) {t : Tid} {w : CtxId} {lv : Status} {x' : X} (hx : x.switchTo t w lv = some x') : Lost d fr x' ∧ x'.saved w ≠ d := by
  unfold X.switchTo at hx
  split at hx
  · rename_i c r hc hr
    have hcd : c ≠ d := fun hh => h.cur t (by rw [hc, hh])
    have hsv : ∀ q, upd x.saved r c q ≠ d := by
      intro q; rw [upd_apply]; split
      · exact hcd
      · exact h.saved q
    simp only at hx
    split at hx
    · cases hx
      refine ⟨h.of (fun t' hh => ?_) (fun q hh => absurd hh (hsv q)) (Nat.le_refl _) id (fun e hh => ⟨e, hh⟩) rfl id, hsv w⟩
      have hh : upd x.s.cur t (some (upd x.saved r c w)) t' = some d := hh
      rw [upd_apply] at hh
      split at hh
      · exact absurd (by simpa using hh) (hsv w)
      · exact ⟨t', hh⟩
    · cases hx
  · cases hx

theorem go (h : Lost d fr x) {t : Tid} {w : CtxId} {lv : Status} {x' : X} (hx : x.go t w lv = .ok x') : Lost d fr x' := by
  unfold X.go at hx
  split at hx
  · split at hx <;> cases hx
  · cases hs : x.switchTo t w lv with
    | none => simp [hs] at hx
    | some x1 =>
      simp only [hs] at hx
      obtain ⟨h1, h2⟩ := h.switchTo hs
      exact h1.arrive h2 hx

theorem destroyPtr (h : Lost d fr x) {t : Tid} {c v : CtxId} (hcd : c ≠ d) {x' : X} (hx : x.destroyPtr t c v = .ok x') : Lost d fr x' := by
  unfold X.destroyPtr at hx
  simp only at hx
  split at hx
  · cases hx
  · split at hx
    · cases hx; exact h.same rfl rfl (Nat.le_refl _) rfl id
    · split at hx
      · rename_i hv
        cases hx
        refine h.sf hcd ?_ rfl rfl (Nat.le_refl _) rfl id
        simp only [List.mem_cons, not_or]
        refine ⟨fun hh => ?_, h.unreleased c⟩
        cases hh
        rw [h.unfinished] at hv; cases hv
      · refine Lost.go ?_ hx
        refine h.sf hcd ?_ rfl rfl (Nat.le_refl _) rfl id
        simp only [List.mem_cons, not_or]
        exact ⟨by simp, h.unreleased c⟩

theorem destroyVar (h : Lost d fr x) {t : Tid} {c : CtxId} {y : Var} (hcd : c ≠ d) {x' : X} (hx : x.destroyVar t c y = .ok x') : Lost d fr x' := by
  unfold X.destroyVar at hx
  have hk : Lost d fr { x with s := x.s.kill y } := h.same rfl rfl (Nat.le_refl _) rfl id
  split at hx
  · cases hx; exact hk
  · exact hk.destroyPtr hcd hx

theorem finish (h : Lost d fr x) {t : Tid} {c : CtxId} {p : Option CtxId} (hcd : c ≠ d) {x' : X} (hx : x.finish t c p = .ok x') : Lost d fr x' := by
  unfold X.finish at hx
  cases p with
  | none => simp at hx
  | some w =>
    simp only at hx
    refine Lost.go ?_ hx
    refine h.of (fun t hh => ⟨t, hh⟩) (fun r hh => ⟨r, hh⟩) (Nat.le_refl _) (fun hh => ?_) (fun e hh => ?_) ?_ id
    · have hh : upd x.s.term c true d = true := hh
      rwa [upd_apply, if_neg (Ne.symm hcd)] at hh
    · have hh : _ ∈ upd x.s.frames c [.exitJump] e := hh
      rw [upd_apply] at hh
      split at hh
      · simp at hh
      · exact ⟨e, hh⟩
    · show upd x.s.frames c [.exitJump] d = _
      rw [upd_apply, if_neg (Ne.symm hcd)]

theorem doResume (h : Lost d fr x) {t : Tid} {c : CtxId} {y : Var} (hcd : c ≠ d) {x' : X} (hx : x.doResume t c y = .ok x') : Lost d fr x' := by
  unfold X.doResume at hx
  split at hx
  · cases hx
  · refine Lost.go ?_ hx
    refine h.sf hcd ?_ rfl rfl (Nat.le_refl _) rfl id
    simp only [List.mem_cons, not_or]
    exact ⟨by simp, h.unreleased c⟩

theorem doResumeWith (h : Lost d fr x) {t : Tid} {c : CtxId} {y : Var} (hcd : c ≠ d) {x' : X} (hx : x.doResumeWith t c y = .ok x') : Lost d fr x' := by
  unfold X.doResumeWith at hx
  split at hx
  · cases hx
  · split at hx
    · split at hx <;> cases hx
    · simp only at hx
      refine Lost.go ?_ hx
      refine h.sf hcd ?_ rfl rfl (Nat.le_refl _) rfl id
      simp only [List.mem_cons, not_or]
      exact ⟨by simp, h.unreleased c⟩

theorem keep {r : Res} (hr : ∀ s', r = .ok s' → Lost d fr { x with s := s' }) {x' : X} (hx : x.keep r = .ok x') : Lost d fr x' := by
  cases r with
  | ok s' => cases hx; exact hr s' rfl
  | _ => cases hx

theorem userStep (h : Lost d fr x) {t : Tid} {c : CtxId} {k : UKind} {ls : List Var} {rest : List Frame} {op : Op} (hcd : c ≠ d) (hf : x.s.frames c = .user k ls .normal :: rest)
    (hn : match op with | .moveAssign _ _ | .drop _ | .resume _ | .resumeWith _ | .spawn => False | _ => True) {s' : State}
    (hx : userStep x.s t c k ls rest op = .ok s') : Lost d fr { x with s := s' } := by
  have hr := (h.top hf).1
  cases op with
  | create xs o =>
    simp only [Verif.UFiber.userStep] at hx
    split at hx
    · cases o with
      | success =>
        simp only [State.doCreate, Res.ok.injEq] at hx
        have hk := capture_keep ({ x.s with nextCtx := x.s.nextCtx + 1 }.addLog (.alloc x.s.nextCtx)) x.s.nextCtx xs
        subst hx
        have hne : d ≠ x.s.nextCtx := Nat.ne_of_lt h.old
        obtain ⟨s2, e2⟩ : ∃ s2, s2 = ({ x.s with nextCtx := x.s.nextCtx + 1 }.addLog (.alloc x.s.nextCtx)).capture x.s.nextCtx xs := ⟨_, rfl⟩
        rw [← e2] at hk ⊢
        obtain ⟨-, kf, kl, kn, -, kc, -, -, -, kt, -, -⟩ := hk
        refine h.of (fun t hh => ⟨t, ?_⟩) (fun r hh => ⟨r, hh⟩) ?_ (fun hh => ?_) (fun e hh => ?_) ?_ (fun hh => ?_)
        · have hh : s2.cur t = some d := hh
          rw [kc] at hh; exact hh
        · show _ ≤ s2.nextCtx
          rw [kn]; exact Nat.le_succ _
        · have hh : upd s2.term x.s.nextCtx false d = true := hh
          rw [upd_apply, if_neg hne, kt] at hh; exact hh
        · have hh : _ ∈ upd (upd s2.frames x.s.nextCtx [.entryJump]) c (.user k (s2.nextVar :: ls) .normal :: rest) e := hh
          rw [upd_apply] at hh
          split at hh
          · exact absurd hh (by simpa using hr)
          · rw [upd_apply] at hh
            split at hh
            · simp at hh
            · rw [kf] at hh; exact ⟨e, hh⟩
        · show upd (upd s2.frames x.s.nextCtx [.entryJump]) c _ d = _
          rw [upd_apply, if_neg (Ne.symm hcd), upd_apply, if_neg hne, kf]; rfl
        · have hh : _ ∈ s2.log := hh
          rw [kl] at hh
          simpa [State.addLog] using hh
      | allocThrows n => cases hx; exact h.sf hcd (by simpa using hr) rfl rfl (Nat.le_refl _) rfl id
      | fnThrows => cases hx
    · cases hx
  | newHeap => cases hx; exact h.same rfl rfl (Nat.le_refl _) rfl id
  | newLocal => cases hx; exact h.sf hcd (by simpa using hr) rfl rfl (Nat.le_refl _) rfl id
  | moveHeap y =>
    simp only [Verif.UFiber.userStep] at hx
    split at hx
    · cases hx; exact h.same rfl rfl (Nat.le_refl _) rfl id
    · cases hx
  | moveLocal y =>
    simp only [Verif.UFiber.userStep] at hx
    split at hx
    · cases hx; exact h.sf hcd (by simpa using hr) rfl rfl (Nat.le_refl _) rfl id
    · cases hx
  | swap y z =>
    simp only [Verif.UFiber.userStep] at hx
    split at hx
    · cases hx; exact h.same rfl rfl (Nat.le_refl _) rfl id
    · cases hx
  | call => cases hx; exact h.sf hcd (by simpa using hr) rfl rfl (Nat.le_refl _) rfl id
  | cleanup => cases hx; exact h.sf hcd (by simpa using hr) rfl rfl (Nat.le_refl _) rfl id
  | throw n => cases hx; exact h.sf hcd (by simpa using hr) rfl rfl (Nat.le_refl _) rfl id
  | ret =>
    simp only [Verif.UFiber.userStep] at hx
    split at hx <;> first | (cases hx; done) | (cases hx; exact h.sf hcd (by simpa using hr) rfl rfl (Nat.le_refl _) rfl id)
  | retHandle y =>
    simp only [Verif.UFiber.userStep] at hx
    split at hx
    · split at hx <;> first | (cases hx; done) | (cases hx; exact h.sf hcd (by simpa using hr) rfl rfl (Nat.le_refl _) rfl id)
    · cases hx
  | withThrows _ _ _ => cases hx
  | catchUser => cases hx
  | swallow => cases hx
  | tick => cases hx
  | _ => exact hn.elim

theorem spawn (h : Lost d fr x) {t : Tid} {c : CtxId} {k : UKind} {ls : List Var} {rest : List Frame} {s' : State} (hx : Verif.UFiber.userStep x.s t c k ls rest .spawn = .ok s') (f : Tid → Option CtxId) :
    Lost d fr { x with s := s', curr := f } := by
  cases hx
  have hne : d ≠ x.s.nextCtx := Nat.ne_of_lt h.old
  refine h.of (fun t hh => ?_) (fun r hh => ⟨r, hh⟩) (Nat.le_succ _) (fun hh => ?_) (fun e hh => ?_) ?_ id
  · have hh : upd x.s.cur x.s.nextTid (some x.s.nextCtx) t = some d := hh
    rw [upd_apply] at hh
    split at hh
    · exact absurd (by simpa using hh.symm) hne
    · exact ⟨t, hh⟩
  · have hh : upd x.s.term x.s.nextCtx false d = true := hh
    rwa [upd_apply, if_neg hne] at hh
  · have hh : _ ∈ upd x.s.frames x.s.nextCtx _ e := hh
    rw [upd_apply] at hh
    split at hh
    · simp at hh
    · exact ⟨e, hh⟩
  · show upd x.s.frames x.s.nextCtx _ d = _
    rw [upd_apply, if_neg hne]

theorem xuserStep (h : Lost d fr x) {t : Tid} {c : CtxId} {k : UKind} {ls : List Var} {rest : List Frame} {op : Op} (hcd : c ≠ d) (hf : x.s.frames c = .user k ls .normal :: rest) {x' : X}
    (hx : xuserStep x t c k ls rest op = .ok x') : Lost d fr x' := by
  have hr := (h.top hf).1
  have key := fun hn => Lost.keep (x := x) (x' := x') (r := Verif.UFiber.userStep x.s t c k ls rest op) (fun s' hs => h.userStep hcd hf hn hs)
  cases op with
  | moveAssign y z =>
    simp only [Verif.UFiber.xuserStep] at hx
    split at hx
    · split at hx
      · cases hx; exact h
      · have h1 : Lost d fr { x with s := (x.s.setVal y (x.s.val z)).setVal z none } := h.same rfl rfl (Nat.le_refl _) rfl id
        split at hx
        · cases hx; exact h1
        · exact h1.destroyPtr hcd hx
    · cases hx
  | drop y =>
    simp only [Verif.UFiber.xuserStep] at hx
    split at hx
    · refine Lost.destroyVar ?_ hcd hx
      exact h.sf hcd (by simpa using hr) rfl rfl (Nat.le_refl _) rfl id
    · split at hx
      · exact h.destroyVar hcd hx
      · cases hx
  | resume y =>
    simp only [Verif.UFiber.xuserStep] at hx
    split at hx
    · exact h.doResume hcd hx
    · cases hx
  | resumeWith y =>
    simp only [Verif.UFiber.xuserStep] at hx
    split at hx
    · exact h.doResumeWith hcd hx
    · cases hx
  | withThrows y n b =>
    simp only [Verif.UFiber.xuserStep] at hx
    split at hx
    · unfold X.doWithThrows at hx
      split at hx
      · cases hx
      · cases hx
        refine Lost.of (h.sf (s' := { (x.s.setVal y none).setFrames c (.user k ls (.unwinding (.user n)) :: rest) with frm := x.s.frm }) hcd
          (fs := .user k ls (.unwinding (.user n)) :: rest) (by simpa using hr) rfl rfl (Nat.le_refl _) rfl id) (fun t hh => ⟨t, hh⟩) (fun r hh => ⟨r, hh⟩) (Nat.le_refl _) id (fun e hh => ⟨e, hh⟩) rfl id
    · cases hx
  | spawn =>
    simp only [Verif.UFiber.xuserStep] at hx
    have h1 : Verif.UFiber.userStep x.s t c k ls rest .spawn = .ok _ := rfl
    rw [h1] at hx
    cases hx
    exact h.spawn (c := c) (k := k) (ls := ls) (rest := rest) h1 _
  | _ => exact key trivial hx

theorem step (h : Lost d fr x) {t : Tid} {op : Op} {x' : X} (hx : xstep x t op = .ok x') : Lost d fr x' := by
  unfold xstep at hx
  cases hc : x.s.cur t with
  | none => simp [hc] at hx
  | some c =>
    have hcd : c ≠ d := fun hh => h.cur t (by rw [hc, hh])
    simp only [hc] at hx
    cases hf : x.s.frames c with
    | nil => simp [hf] at hx
    | cons f rest =>
      obtain ⟨hr, hft⟩ := h.top hf
      have hcl : ∀ {f : Frame} {rest}, .exiting d ∉ f :: rest → Lost d fr { x with s := x.s.setFrames c (.user .cleanup [] .normal :: f :: rest) } := fun hh =>
        h.sf hcd (by simpa using hh) rfl rfl (Nat.le_refl _) rfl id
      have hall : .exiting d ∉ f :: rest := by rw [← hf]; exact h.unreleased c
      cases f with
      | user k ls m =>
        cases m with
        | normal => simp only [hf] at hx; exact h.xuserStep hcd hf hx
        | unwinding e =>
          cases ls with
          | cons y ls =>
            cases op with
            | tick =>
              simp only [hf] at hx
              refine Lost.destroyVar ?_ hcd hx
              exact h.sf hcd (by simpa using hr) rfl rfl (Nat.le_refl _) rfl id
            | _ => refine Lost.keep (r := Verif.UFiber.step x.s t _) (fun s' hs => ?_) (by simpa only [hf] using hx)
                   simp [Verif.UFiber.step, hc, hf] at hs; try (subst hs; exact hcl hall)
          | nil =>
            cases op with
            | tick =>
              simp only [hf] at hx
              unfold xpropagate at hx
              split at hx
              · refine Lost.finish ?_ hcd hx
                exact h.same rfl rfl (Nat.le_refl _) rfl id
              · refine Lost.keep (fun s' hs => ?_) hx
                unfold propagate at hs
                split at hs
                · cases hs
                · cases hs
                · cases hs; exact h.sf hcd (by simpa using hr) rfl rfl (Nat.le_refl _) rfl id
                · split at hs
                  · cases hs
                  · rename_i hno; exact (hno _ rfl rfl).elim
                · cases hs; exact h.sf hcd (by simpa using hr) rfl rfl (Nat.le_refl _) rfl id
                · cases hs
            | catchUser =>
              refine Lost.keep (r := Verif.UFiber.step x.s t _) (fun s' hs => ?_) (by simpa only [hf] using hx)
              simp only [Verif.UFiber.step, hc, hf] at hs
              split at hs <;> simp only [Res.ok.injEq, reduceCtorEq] at hs
              subst hs; exact h.sf hcd hr rfl rfl (Nat.le_refl _) rfl id
            | swallow =>
              refine Lost.keep (r := Verif.UFiber.step x.s t _) (fun s' hs => ?_) (by simpa only [hf] using hx)
              simp only [Verif.UFiber.step, hc, hf] at hs
              split at hs
              · split at hs <;> (simp only [Res.ok.injEq] at hs; subst hs; exact h.sf hcd hr rfl rfl (Nat.le_refl _) rfl id)
              · simp at hs
            | _ => refine Lost.keep (r := Verif.UFiber.step x.s t _) (fun s' hs => ?_) (by simpa only [hf] using hx)
                   simp [Verif.UFiber.step, hc, hf] at hs; try (subst hs; exact hcl hall)
        | returning y =>
          cases ls with
          | cons y ls =>
            cases op with
            | tick =>
              simp only [hf] at hx
              refine Lost.destroyVar ?_ hcd hx
              exact h.sf hcd (by simpa using hr) rfl rfl (Nat.le_refl _) rfl id
            | _ => refine Lost.keep (r := Verif.UFiber.step x.s t _) (fun s' hs => ?_) (by simpa only [hf] using hx)
                   simp [Verif.UFiber.step, hc, hf] at hs; try (subst hs; exact hcl hall)
          | nil =>
            cases op with
            | tick =>
              simp only [hf] at hx
              unfold xleave at hx
              split at hx
              · simp only [leave] at hx
                cases hx
                refine h.of (fun t' hh => ?_) (fun r hh => ⟨r, hh⟩) (Nat.le_refl _) id (fun e hh => ?_) ?_ id
                · have hh : upd x.s.cur t none t' = some d := hh
                  rw [upd_apply] at hh
                  split at hh
                  · cases hh
                  · exact ⟨t', hh⟩
                · have hh : _ ∈ upd x.s.frames c [] e := hh
                  rw [upd_apply] at hh
                  split at hh
                  · simp at hh
                  · exact ⟨e, hh⟩
                · show upd x.s.frames c [] d = _
                  rw [upd_apply, if_neg (Ne.symm hcd)]
              · refine Lost.finish ?_ hcd hx
                exact h.same rfl rfl (Nat.le_refl _) rfl id
              · split at hx
                · cases hx; exact h.sf hcd (by simpa using hr) rfl rfl (Nat.le_refl _) rfl id
                · cases hx
              · refine Lost.keep (fun s' hs => ?_) hx
                unfold leave at hs
                split at hs
                · rename_i hno _ _; exact (hno rfl rfl).elim
                · cases hs; exact h.sf hcd hr rfl rfl (Nat.le_refl _) rfl id
                · cases hs; exact h.sf hcd hr rfl rfl (Nat.le_refl _) rfl id
                · rename_i hno _; exact (hno _ rfl rfl).elim
                · rename_i hno; exact (hno _ _ rfl rfl).elim
                · cases hs
            | _ => refine Lost.keep (r := Verif.UFiber.step x.s t _) (fun s' hs => ?_) (by simpa only [hf] using hx)
                   simp [Verif.UFiber.step, hc, hf] at hs; try (subst hs; exact hcl hall)
      | exiting n =>
        cases op with
        | tick =>
          simp only [hf] at hx
          unfold xexitStep at hx
          split at hx
          · refine Lost.destroyVar ?_ hcd hx
            exact h.same rfl rfl (Nat.le_refl _) rfl id
          · rename_i hcap
            refine Lost.keep (fun s' hs => ?_) hx
            have hnd : n ≠ d := fun hh => hft (by rw [hh])
            simp only [exitStep, hcap] at hs
            split at hs
            · have h1 : Lost d fr { x with s := { x.s with status := upd x.s.status n .freed, frames := upd x.s.frames n [] }.addLog (.dealloc n) } :=
                h.sf hnd (by simp) rfl rfl (Nat.le_refl _) rfl (fun hh => by
                  have hh : _ ∈ Event.dealloc n :: x.s.log := hh
                  rcases List.mem_cons.1 hh with hh | hh
                  · cases hh; exact (hnd rfl).elim
                  · exact hh)
              split at hs
              · cases hs
                exact h1.sf hcd (by simpa using hr) rfl rfl (Nat.le_refl _) rfl (fun hh => by
                  have hh : _ ∈ Event.destroyed _ _ :: _ := hh
                  rcases List.mem_cons.1 hh with hh | hh
                  · cases hh
                  · exact hh)
              · cases hs
                exact h1.sf hcd hr rfl rfl (Nat.le_refl _) rfl id
            · simp at hs
        | _ => refine Lost.keep (r := Verif.UFiber.step x.s t _) (fun s' hs => ?_) (by simpa only [hf] using hx)
               simp [Verif.UFiber.step, hc, hf] at hs; try (subst hs; exact hcl hall)
      | _ => simp [hf] at hx

end Lost

/-- `current()` of thread `t`, which executes `c`, designates the record of another context `d`; `d` is suspended in the middle of its function and saved in its own record, as are all contexts -/
structure Hijacked (x : X) (t : Tid) (c d : CtxId) : Prop where
  runs : RunsOn x.s t c
  curr : x.curr t = some d
  ne : d ≠ c
  saved : ∀ r, x.saved r = r
  cur : ∀ t, x.s.cur t ≠ some d
  old : d < x.s.nextCtx
  unfinished : x.s.term d = false
  unreleased : ∀ e, .exiting d ∉ x.s.frames e
  log : .dealloc d ∉ x.s.log

/-- **C86**, defect: that is the state after the closure could not be made for a suspended `d`. -/
theorem C86_throw_hijacks {s : State} {t : Tid} {c d : CtxId} {k : UKind} {ls : List Var} {rest : List Frame} {y : Var} (n : Nat) (b : Bool)
    (h : Reachable s) (he : NoEarlyDestroy s) (hu : UserCode s t c k ls rest) (ha : Handle s y) (hd : Designates s y d) (hs : Suspended s d)
    {x' : X} (hx : xstep s.records t (.withThrows y n b) = .ok x') : Hijacked x' t c d := by
  have hacc : s.accessible y = true := by
    unfold State.accessible
    rcases ha with h1 | ⟨_, h1⟩ | ⟨_, h1⟩ <;> rw [h1]
  have hi := reachable_inv h he
  have hl := reachable_linv h he
  obtain ⟨hc, hf⟩ := hu
  have hs : s.status d = .suspended := hs
  have hval : s.val y = some d := hd
  have hne : ∀ t, s.cur t ≠ some d := fun t hh => by
    have := (hi.ci.curRun t d).1 hh; rw [hs] at this; cases this
  have hdc : d ≠ c := fun hh => hne t (by rw [hc, hh])
  have hun : ∀ e, .exiting d ∉ s.frames e := fun e hh => by
    have := hi.ci.exitT d e (List.count_pos_iff.2 hh)
    rw [hs] at this; cases this
  have e0 : s.records.s = s := rfl
  simp only [xstep, e0, hc, hf, xuserStep, hacc, if_true] at hx
  unfold X.doWithThrows at hx
  simp only [e0, hval, XRes.ok.injEq] at hx
  subst hx
  refine ⟨hc, ?_, hdc, fun _ => rfl, hne, ?_, ?_, ?_, ?_⟩
  · show upd _ _ _ _ = _; simp [upd_apply]
  · refine Nat.lt_of_not_le fun hh => ?_
    have := (hi.ci.absent d).2 hh
    rw [hs] at this; cases this
  · cases hh : s.term d with
    | false => exact hh
    | true =>
      have := (hi.ci.termI d).1 hh
      rw [hs] at this; rcases this with h1 | h1 <;> cases h1
  · intro e hh
    have hh : _ ∈ upd s.frames c (.user k ls (.unwinding (.user n)) :: rest) e := hh
    rw [upd_apply] at hh
    split at hh
    · refine hun c ?_
      rw [hf]
      simpa using hh
    · exact hun e hh
  · intro hh
    have := (hl.freed d).1 hh
    rw [hs] at this; cases this

/-- **C86**, defect: when the caller then switches away, to whatever record, nothing continues `d` any more. -/
theorem C86_switch_loses {x x' : X} {t : Tid} {c d w : CtxId} {lv : Status} (h : Hijacked x t c d) (hw : x.switchTo t w lv = some x') : Lost d (x.s.frames d) x' := by
  have hsv : ∀ q, upd x.saved d c q ≠ d := by
    intro q; rw [upd_apply]; split
    · exact Ne.symm h.ne
    · rename_i hq; rw [h.saved]; exact hq
  by_cases hst : x.s.status (upd x.saved d c w) = .suspended
  · rw [switchTo_eq h.runs h.curr rfl hst] at hw
    cases hw
    refine ⟨fun t' hh => ?_, hsv, h.old, h.unfinished, h.unreleased, rfl, h.log⟩
    have hh : upd x.s.cur t (some (upd x.saved d c w)) t' = some d := hh
    rw [upd_apply] at hh
    split at hh
    · exact hsv w (by simpa using hh)
    · exact h.cur t' hh
  · have hr : x.s.cur t = some c := h.runs
    unfold X.switchTo at hw
    simp only [hr, h.curr, if_neg hst] at hw
    cases hw

theorem Lost.run {d : CtxId} {fr : List Frame} {h : List (Tid × Op)} {x x' : X} (hl : Lost d fr x) (hr : xrun x h = .ok x') : Lost d fr x' := by
  induction h generalizing x with
  | nil => cases hr; exact hl
  | cons a h ih =>
    simp only [xrun] at hr
    cases hs : xstep x a.1 a.2 with
    | ok x1 => rw [hs] at hr; exact ih (hl.step hs) hr
    | _ => rw [hs] at hr; cases hr

/-- **C86**, defect: a lost context is lost for ever.  After every further history no thread executes it, its frames (with their local objects) are what they were, and its stack
has not been released. -/
theorem C86_lost_forever {d : CtxId} {fr : List Frame} {h : List (Tid × Op)} {x x' : X} (hl : Lost d fr x) (hr : xrun x h = .ok x') :
    (∀ t, ¬ RunsOn x'.s t d) ∧ x'.s.frames d = fr ∧ .dealloc d ∉ x'.s.log := ⟨(hl.run hr).cur, (hl.run hr).frames, (hl.run hr).log⟩

/-- **C86**, defect: put together for `resume()`: if the closure cannot be made for a suspended `d`, the exception is handled by the caller, and the caller resumes the fiber `e`
through `z`, then `d` is never continued and its stack never released, whatever the program does. -/
theorem C86_throw_loses {x x' x'' : X} {t : Tid} {c d : CtxId} {k : UKind} {ls : List Var} {rest : List Frame} {z : Var} {h : List (Tid × Op)}
    (hj : Hijacked x t c d) (hu : UserCode x.s t c k ls rest) (hx : xstep x t (.resume z) = .ok x') (hr : xrun x' h = .ok x'') :
    (∀ t, ¬ RunsOn x''.s t d) ∧ x''.s.frames d = x.s.frames d ∧ .dealloc d ∉ x''.s.log := by
  obtain ⟨hc, hf⟩ := hu
  simp only [xstep, hc, hf, xuserStep] at hx
  split at hx
  · unfold X.doResume at hx
    split at hx
    · cases hx
    · rename_i w _
      have hj' : Hijacked { x with s := (x.s.setVal z none).setFrames c (.resume :: x.s.frames c) } t c d := by
        refine ⟨hj.runs, hj.curr, hj.ne, hj.saved, hj.cur, hj.old, hj.unfinished, fun e hh => ?_, hj.log⟩
        have hh : _ ∈ upd x.s.frames c (.resume :: x.s.frames c) e := hh
        rw [upd_apply] at hh
        split at hh
        · exact hj.unreleased c (by simpa using hh)
        · exact hj.unreleased e hh
      unfold X.go at hx
      split at hx
      · split at hx <;> cases hx
      · cases hs : X.switchTo { x with s := (x.s.setVal z none).setFrames c (.resume :: x.s.frames c) } t w .suspended with
        | none => simp [hs] at hx
        | some x1 =>
          simp only [hs] at hx
          have hl := C86_switch_loses hj' hs
          have e1 : ({ x with s := (x.s.setVal z none).setFrames c (.resume :: x.s.frames c) } : X).s.frames d = x.s.frames d := by
            show upd _ _ _ _ = _
            rw [upd_apply, if_neg hj.ne]; rfl
          rw [e1] at hl
          exact C86_lost_forever (hl.arrive (hl.saved w) hx) hr
  · cases hx

/-! ### Examples -/

/-- what is observed -/
def XRes.obs {α : Type} (f : X → α) : XRes → Option α
  | .ok x => some (f x)
  | _ => none

/-- main creates a fiber (context 1), which resumes main; main calls a function that executes `resume_with` (object 2 designates the fiber) and catches the exception of the
copy; it creates another fiber (context 2, object 3) -/
def throwing : List (Tid × Op) :=
  [(0, .create [] .success), (0, .resume 0), (0, .resume 1), (0, .call), (0, .withThrows 2 7 false), (0, .catchUser), (0, .create [] .success)]

/-- The hypotheses of `C86_throw` and `C86_throw_hijacks` are met: context 1 is suspended in `resume`, object 2 designates it. -/
example : ∃ s, run init (throwing.take 4) = .ok s ∧ UserCode s 0 0 .call [] [.user .main [2, 0] .normal] ∧ Handle s 2 ∧ Designates s 2 1 ∧ Suspended s 1 ∧ NoEarlyDestroy s :=
  ⟨_, rfl, ⟨rfl, rfl⟩, .inr (.inl ⟨0, rfl⟩), rfl, rfl, rfl⟩

/-- those of `C86_next_resume` (but for the parameter of a new fiber) and `C86_throw_loses` as well -/
example : ∃ x, xrun init.records throwing = .ok x ∧ UserCode x.s 0 0 .main [3, 2, 0] [] ∧ x.curr 0 = some 1 ∧ Designates x.s 3 2 ∧ x.s.frames 1 = [.resume, .user .fn [1] .normal, .entryRun] :=
  ⟨_, rfl, ⟨rfl, rfl⟩, rfl, rfl, rfl⟩

/-- **C86**, defect: the second fiber is resumed by main; the object it gets designates the first fiber; main is saved in the record of the first fiber. -/
theorem C86_wrong_resumer : (xrun init.records (throwing ++ [(0, .resume 3)])).obs (fun x => (x.s.cur 0, x.s.val 4, x.curr 0, x.saved 1)) =
    some (some 2, some 1, some 2, 0) := by decide

/-- the hypotheses of `C86_wrong_handle_resumes` are met there -/
example : ∃ x, xrun init.records (throwing ++ [(0, .resume 3)]) = .ok x ∧ UserCode x.s 0 2 .fn [4] [.entryRun] ∧ x.curr 0 = some 2 ∧ Handle x.s 4 ∧ Designates x.s 4 1 ∧ x.saved 1 = 0 ∧
    Suspended x.s 0 ∧ InResume x.s 0 .main [3, 2, 0] [] ∧ x.s.unw 1 = false ∧ x.s.ontop 1 = none := ⟨_, rfl, ⟨rfl, rfl⟩, rfl, .inr (.inl ⟨2, rfl⟩), rfl, rfl, rfl, rfl, rfl, rfl⟩

/-- **C86**, defect: if the second fiber destroys that object, the forced unwinding is thrown in main, where nobody catches it. -/
theorem C86_main_unwound : xrun init.records (throwing ++ [(0, .resume 3), (0, .drop 4), (0, .tick), (0, .tick), (0, .tick), (0, .tick)]) = .terminate := by rfl

/-- main creates fibers 1 and 2; fiber 1 resumes main and is handed to fiber 2, which executes `resume_with` on it, catches the exception of the copy and returns to main -/
def throwingFiber : List (Tid × Op) :=
  [(0, .create [] .success), (0, .resume 0), (0, .resume 1), (0, .create [2] .success), (0, .resume 4), (0, .call), (0, .withThrows 3 7 false), (0, .catchUser),
   (0, .retHandle 5), (0, .tick), (0, .tick)]

/-- **C86**, defect: main gets an object that designates fiber 1 (which is not finished), though it is fiber 2 that has finished; nothing designates fiber 2, whose stack has not been released;
destroying the object terminates the program. -/
theorem C86_finished_unreachable : (xrun init.records throwingFiber).obs (fun x => (x.s.cur 0, x.s.val 7, x.s.term 1, x.s.term 2, (List.range x.s.nextVar).map x.s.val, x.saved 1)) =
      some (some 0, some 1, false, true, [none, none, none, none, none, none, none, some 1], 2) ∧
    xrun init.records (throwingFiber ++ [(0, .drop 7)]) = .terminate := ⟨rfl, rfl⟩

end Verif.UFiber
