import Verif.Migrate.Spec
import Verif.EH.Inv

/-! # C96: contexts have no affinity to threads, `fiber` on fcontext -/

namespace Verif.Fiber
open Verif.Migrate

/-- Threads `t` and `u` have exchanged the contexts they execute; nothing else differs. -/
def State.exchange (s : State) (t u : Tid) : State :=
  { s with cur := fun v => s.cur (other t u v), status := fun c => Migrate.status t u (s.status c) }

def Res.exchange (t u : Tid) : Res → Res
  | .ok s => .ok (s.exchange t u)
  | .rejected => .rejected
  | .terminate => .terminate
  | .assertion => .assertion
  | .ub => .ub

section
variable {s : State} {t u v : Tid}

@[simp] theorem exch_cur (w : Tid) : (s.exchange t u).cur (other t u w) = s.cur w := by simp [State.exchange, other_other]
@[simp] theorem exch_status (c : CtxId) : (s.exchange t u).status c = Migrate.status t u (s.status c) := rfl
@[simp] theorem exch_seq : (s.exchange t u).seq = s.seq := rfl
@[simp] theorem exch_frames : (s.exchange t u).frames = s.frames := rfl
@[simp] theorem exch_caps : (s.exchange t u).caps = s.caps := rfl
@[simp] theorem exch_kind : (s.exchange t u).kind = s.kind := rfl
@[simp] theorem exch_val : (s.exchange t u).val = s.val := rfl
@[simp] theorem exch_nextVar : (s.exchange t u).nextVar = s.nextVar := rfl
@[simp] theorem exch_nextCtx : (s.exchange t u).nextCtx = s.nextCtx := rfl
@[simp] theorem exch_nextTid : (s.exchange t u).nextTid = s.nextTid := rfl
@[simp] theorem exch_nextId : (s.exchange t u).nextId = s.nextId := rfl
@[simp] theorem exch_lost : (s.exchange t u).lost = s.lost := rfl
@[simp] theorem exch_acc (x : Var) : (s.exchange t u).accessible x = s.accessible x := rfl
@[simp] theorem exch_acc' : (s.exchange t u).accessible = s.accessible := rfl

theorem setFrames_exch (c : CtxId) (fs : List Frame) : (s.exchange t u).setFrames c fs = (s.setFrames c fs).exchange t u := rfl
theorem setVal_exch (x : Var) (f : Option Fctx) : (s.exchange t u).setVal x f = (s.setVal x f).exchange t u := rfl
theorem kill_exch (x : Var) : (s.exchange t u).kill x = (s.kill x).exchange t u := rfl
theorem newVar_exch (k : Kind) (f : Option Fctx) : (s.exchange t u).newVar k f = (s.newVar k f).exchange t u := rfl
theorem addLog_exch (e : Event) : (s.exchange t u).addLog e = (s.addLog e).exchange t u := rfl

theorem ite_exch {p : Prop} [Decidable p] {a b a' b' : Res} (h1 : p → a' = a.exchange t u) (h2 : ¬ p → b' = b.exchange t u) :
    (if p then a' else b') = (if p then a else b).exchange t u := by
  split
  · next h => exact h1 h
  · next h => exact h2 h

theorem upd_status (f : CtxId → Status) (c : CtxId) (x : Status) :
    upd (fun c => Migrate.status t u (f c)) c (Migrate.status t u x) = fun d => Migrate.status t u (upd f c x d) := by
  funext d; simp only [upd_apply]; split <;> rfl

theorem upd_cur (f : Tid → Option CtxId) (w : Tid) (x : Option CtxId) : upd (fun w => f (other t u w)) (other t u w) x = fun w' => upd f w x (other t u w') := by
  funext w'
  simp only [upd_apply]
  by_cases h : w' = other t u w
  · subst h; simp [other_other]
  · rw [if_neg h, if_neg (fun e => h (other_eq.1 e))]

theorem switch_exch {f : Fctx} {l : Status} {b : Bool} (hl : ∀ w, l ≠ .running w) :
    (s.exchange t u).switch (other t u v) f l b = (s.switch v f l b).map fun p => (p.1.exchange t u, p.2) := by
  have e1 : Migrate.status t u l = l := by cases l <;> first | rfl | exact absurd rfl (hl _)
  simp only [State.switch, exch_cur, exch_status, exch_seq, status_susp, status_raw]
  cases s.cur v with
  | none => rfl
  | some c =>
    simp only
    split
    · simp only [Option.map_some, Option.some.injEq, Prod.mk.injEq, and_true]
      simp only [State.exchange, State.mk.injEq, true_and, and_true]
      refine ⟨upd_cur .., ?_⟩
      have : Migrate.status t u (.running v) = .running (other t u v) := rfl
      rw [← this]
      have h2 := upd_status (t := t) (u := u) s.status c l
      rw [e1] at h2
      rw [h2, upd_status]
    · rfl

theorem finish_exch {c : CtxId} {f : Fctx} : (s.exchange t u).finish (other t u v) c f = (s.finish v c f).exchange t u := by
  simp only [State.finish, State.ontopSwitch, setFrames_exch]
  rw [switch_exch (by simp)]
  cases (s.setFrames c [.exitJump]).switch v f .terminated false <;> rfl

theorem deliver_exch {c : CtxId} {x : Option Fctx} : (s.exchange t u).deliver c x = (s.deliver c x).exchange t u := by
  simp only [State.deliver, exch_frames]
  split <;> rfl

theorem raiseUser_exch {c : CtxId} {n : Nat} : (s.exchange t u).raiseUser c n = (s.raiseUser c n).exchange t u := by
  simp only [State.raiseUser, exch_frames]
  split <;> rfl

theorem raiseForced_exch {c : CtxId} {f : Fctx} : (s.exchange t u).raiseForced (other t u v) c f = (s.raiseForced v c f).exchange t u := by
  simp only [State.raiseForced, exch_frames]
  split
  · exact finish_exch
  all_goals rfl

theorem destroyFctx_exch {c : CtxId} {f : Fctx} : (s.exchange t u).destroyFctx (other t u v) c f = (s.destroyFctx v c f).exchange t u := by
  simp only [State.destroyFctx, State.ontopSwitch, setFrames_exch, exch_frames]
  rw [switch_exch (by simp)]
  cases (s.setFrames c (.dtor f.ctx :: s.frames c)).switch v f .suspended false with
  | none => rfl
  | some p => exact raiseForced_exch

theorem destroyVar_exch {c : CtxId} {x : Var} : (s.exchange t u).destroyVar (other t u v) c x = (s.destroyVar v c x).exchange t u := by
  simp only [State.destroyVar, exch_val]
  split
  · rfl
  · rw [kill_exch]; exact destroyFctx_exch

theorem doResume_exch {c : CtxId} {x : Var} : (s.exchange t u).doResume (other t u v) c x = (s.doResume v c x).exchange t u := by
  simp only [State.doResume, State.jump, exch_val]
  split
  · rfl
  · next f _ =>
    simp only [setVal_exch, setFrames_exch, exch_frames]
    rw [switch_exch (by simp)]
    cases ((s.setVal x none).setFrames c (.resume :: s.frames c)).switch v f .suspended true with
    | none => rfl
    | some p => exact deliver_exch

theorem doResumeWith_exch {c : CtxId} {x : Var} : (s.exchange t u).doResumeWith (other t u v) c x = (s.doResumeWith v c x).exchange t u := by
  simp only [State.doResumeWith, State.ontopSwitch, exch_val]
  split
  · rfl
  · next f _ =>
    simp only [setVal_exch, setFrames_exch, exch_frames]
    rw [switch_exch (by simp)]
    cases ((s.setVal x none).setFrames c (.resume :: s.frames c)).switch v f .suspended false <;> rfl

theorem doWithThrows_exch {c : CtxId} {k ls rest x n b} : (s.exchange t u).doWithThrows (other t u v) c k ls rest x n b = (s.doWithThrows v c k ls rest x n b).exchange t u := by
  simp only [State.doWithThrows, State.ontopSwitch, exch_val]
  split
  · rfl
  · next f _ =>
    split
    · simp only [setVal_exch, setFrames_exch, exch_frames]
      rw [switch_exch (by simp)]
      cases ((s.setVal x none).setFrames c (.resume :: s.frames c)).switch v f .suspended false with
      | none => rfl
      | some p => exact raiseUser_exch (s := { p.1 with lost := upd p.1.lost p.2.ctx true })
    · rfl

theorem capture_exch {n : CtxId} {xs : List Var} : (s.exchange t u).capture n xs = (s.capture n xs).exchange t u := by
  induction xs generalizing s with
  | nil => rfl
  | cons x xs ih =>
    simp only [State.capture]
    exact ih (s := { (s.setVal x none).newVar (.cap n) (s.val x) with
      caps := upd ((s.setVal x none).newVar (.cap n) (s.val x)).caps n (s.nextVar :: ((s.setVal x none).newVar (.cap n) (s.val x)).caps n) })

theorem doCreate_exch {c : CtxId} {k ls rest xs} : (s.exchange t u).doCreate (other t u v) c k ls rest xs = (s.doCreate v c k ls rest xs).exchange t u := by
  simp only [State.doCreate, State.jump]
  have h1 : ({ s.exchange t u with nextCtx := (s.exchange t u).nextCtx + 1 }.addLog (.alloc (s.exchange t u).nextCtx)).capture (s.exchange t u).nextCtx xs =
      (({ s with nextCtx := s.nextCtx + 1 }.addLog (.alloc s.nextCtx)).capture s.nextCtx xs).exchange t u := by
    change ((({ s with nextCtx := s.nextCtx + 1 } : State).addLog (.alloc s.nextCtx)).exchange t u).capture s.nextCtx xs = _
    exact capture_exch
  rw [h1]
  obtain ⟨s1, hs1⟩ : ∃ s1, s1 = ({ s with nextCtx := s.nextCtx + 1 }.addLog (.alloc s.nextCtx)).capture s.nextCtx xs := ⟨_, rfl⟩
  rw [← hs1]
  have h2 : ({ s1.exchange t u with status := upd (s1.exchange t u).status (s.exchange t u).nextCtx .raw, seq := upd (s1.exchange t u).seq (s.exchange t u).nextCtx 0 } : State) =
      { s1 with status := upd s1.status s.nextCtx .raw, seq := upd s1.seq s.nextCtx 0 }.exchange t u := by
    simp only [State.exchange, State.mk.injEq, true_and, and_true]
    exact upd_status (t := t) (u := u) s1.status s.nextCtx .raw
  rw [h2]
  obtain ⟨s2, hs2⟩ : ∃ s2 : State, s2 = { s1 with status := upd s1.status s.nextCtx .raw, seq := upd s1.seq s.nextCtx 0 } := ⟨_, rfl⟩
  rw [← hs2, switch_exch (by simp), exch_nextCtx]
  cases s2.switch v ⟨s.nextCtx, 0⟩ .suspended true with
  | none => rfl
  | some p =>
    simp only [Option.map_some, setFrames_exch]
    rw [switch_exch (by simp)]
    cases (p.1.setFrames s.nextCtx [.entryJump]).switch v p.2 .suspended true <;> rfl

theorem userStep_exch {c : CtxId} {k ls rest} (ht : t < s.nextTid) (hu : u < s.nextTid) (op : Op) :
    userStep (s.exchange t u) (other t u v) c k ls rest op = (userStep s v c k ls rest op).exchange t u := by
  cases op <;> simp only [userStep, exch_acc, exch_acc', exch_val, exch_kind]
  case moveHeap => exact ite_exch (fun _ => rfl) (fun _ => rfl)
  case moveLocal => exact ite_exch (fun _ => rfl) (fun _ => rfl)
  case moveAssign y x =>
    refine ite_exch (fun _ => ite_exch (fun _ => rfl) (fun _ => ?_)) (fun _ => rfl)
    cases s.val y with
    | none => rfl
    | some f => simp only [setVal_exch]; exact destroyFctx_exch
  case swap => exact ite_exch (fun _ => rfl) (fun _ => rfl)
  case drop => exact ite_exch (fun _ => by rw [setFrames_exch]; exact destroyVar_exch) (fun _ => ite_exch (fun _ => destroyVar_exch) (fun _ => rfl))
  case create xs o =>
    refine ite_exch (fun _ => ?_) (fun _ => rfl)
    cases o with
    | success => exact doCreate_exch
    | _ => rfl
  case resume => exact ite_exch (fun _ => doResume_exch) (fun _ => rfl)
  case resumeWith => exact ite_exch (fun _ => doResumeWith_exch) (fun _ => rfl)
  case withThrows => exact ite_exch (fun _ => doWithThrows_exch) (fun _ => rfl)
  case ret => cases k <;> rfl
  case retHandle => refine ite_exch (fun _ => ?_) (fun _ => rfl); cases k <;> rfl
  case spawn =>
    simp only [Res.exchange, exch_nextTid, exch_nextCtx, exch_seq, exch_frames]
    simp only [State.exchange, Res.ok.injEq, State.mk.injEq, true_and, and_true]
    have h1 := other_new ht hu
    refine ⟨?_, ?_⟩
    · have := upd_cur (t := t) (u := u) s.cur s.nextTid (some s.nextCtx)
      rw [h1] at this; exact this
    · have := upd_status (t := t) (u := u) s.status s.nextCtx (.running s.nextTid)
      rw [show Migrate.status t u (.running s.nextTid) = .running s.nextTid by simp [Migrate.status, h1]] at this
      exact this
  all_goals rfl

theorem propagate_exch {c : CtxId} {k e rest} : propagate (s.exchange t u) (other t u v) c k e rest = (propagate s v c k e rest).exchange t u := by
  simp only [propagate, exch_val]
  split <;> (try rfl)
  · split
    · rfl
    · split
      · rfl
      · rw [kill_exch]; exact finish_exch
  · split
    · rw [setFrames_exch]; exact raiseUser_exch
    · split
      · rfl
      · rw [setFrames_exch, kill_exch]; exact raiseForced_exch

theorem leave_exch {c : CtxId} {k x rest} : leave (s.exchange t u) (other t u v) c k x rest = (leave s v c k x rest).exchange t u := by
  simp only [leave, exch_val]
  split <;> (try rfl)
  · simp only [Res.exchange, State.exchange, Res.ok.injEq, State.mk.injEq, true_and, and_true]
    exact ⟨upd_cur .., upd_status (t := t) (u := u) s.status c .ended⟩
  · split
    · rfl
    · rw [kill_exch]; exact finish_exch
  · rw [setFrames_exch, kill_exch]; exact deliver_exch

theorem exitStep_exch {c n : CtxId} {rest} : exitStep (s.exchange t u) (other t u v) c n rest = (exitStep s v c n rest).exchange t u := by
  simp only [exitStep, exch_caps, exch_status, status_term]
  split
  · next x xs _ => exact destroyVar_exch (s := { s with caps := upd s.caps n xs })
  · split
    · have h : ({ s.exchange t u with status := upd (s.exchange t u).status n .freed, frames := upd (upd (s.exchange t u).frames n []) c rest } : State) =
          { s with status := upd s.status n .freed, frames := upd (upd s.frames n []) c rest }.exchange t u := by
        simp only [State.exchange, State.mk.injEq, true_and, and_true]
        exact upd_status (t := t) (u := u) s.status n .freed
      refine (congrArg (fun z : State => (z.addLog (.dealloc n)).deliver c none) h).trans ?_
      simp only [addLog_exch]; exact deliver_exch
    · rfl

end

/-- **C96, one step.** If two threads exchange the contexts they execute, an operation has the same outcome - result, stacks, objects, events - as before, with the two threads exchanged: nothing
depends on the thread a context is executed by. -/
theorem C96_step {s : State} {t u : Tid} (ht : t < s.nextTid) (hu : u < s.nextTid) (v : Tid) (op : Op) :
    step (s.exchange t u) (other t u v) op = (step s v op).exchange t u := by
  simp only [step, exch_cur, exch_frames]
  split
  · rfl
  · split
    · exact userStep_exch ht hu op
    · split
      · rw [setFrames_exch]; exact destroyVar_exch
      all_goals rfl
    · split
      · exact propagate_exch
      · rfl
      · split <;> rfl
      · split
        · simp only [exch_val]; split <;> rfl
        · rfl
      · rfl
    · split
      · exact leave_exch
      all_goals rfl
    · split
      · exact exitStep_exch
      all_goals rfl
    · rfl

/-- **C96, whole histories.** After threads `t` and `u` have exchanged the contexts they execute, every history, with the two threads exchanged, has the same outcome with the two threads exchanged. -/
theorem C96_history {s : State} (h : Reachable s) {t u : Tid} (ht : t < s.nextTid) (hu : u < s.nextTid) (l : List (Tid × Op)) :
    run (s.exchange t u) (history t u l) = (run s l).exchange t u := by
  induction l generalizing s with
  | nil => rfl
  | cons a l ih =>
    obtain ⟨v, op⟩ := a
    show run _ ((other t u v, op) :: history t u l) = _
    simp only [run, C96_step ht hu]
    cases hs : step s v op with
    | ok s' =>
      have hn := EH.step_nextTid (reachable_inv h) hs
      exact ih (.step h hs) (Nat.lt_of_lt_of_le ht hn) (Nat.lt_of_lt_of_le hu hn)
    | _ => rfl

/-- what the exchange changes: who executes which context, and nothing else; exchanging twice changes nothing -/
theorem C96_exchange (s : State) (t u : Tid) : (s.exchange t u).cur t = s.cur u ∧ (s.exchange t u).cur u = s.cur t ∧ (∀ v, v ≠ t → v ≠ u → (s.exchange t u).cur v = s.cur v) ∧
    (s.exchange t u).frames = s.frames ∧ (s.exchange t u).val = s.val ∧ (s.exchange t u).kind = s.kind ∧ (s.exchange t u).caps = s.caps ∧ (s.exchange t u).log = s.log ∧
    (∀ c, (s.exchange t u).status c = .suspended ↔ s.status c = .suspended) ∧ (s.exchange t u).exchange t u = s := by
  refine ⟨by simp [State.exchange, other], ?_, fun v h1 h2 => by simp [State.exchange, other, h1, h2], rfl, rfl, rfl, rfl, rfl, fun c => by simp, ?_⟩
  · simp only [State.exchange, other]; split <;> simp_all
  · simp only [State.exchange, other_other]
    have : ∀ x, Migrate.status t u (Migrate.status t u x) = x := by intro x; cases x <;> simp [Migrate.status, other_other]
    simp only [this]

/-- fiber 1 has been created and started by `main`, has resumed `main`, and a second thread has been started -/
def hMigrate : List (Tid × Op) := [(0, .create [] .success), (0, .resume 0), (0, .resume 1), (0, .spawn)]

example : Reachable (exec hMigrate) := reachable_exec (by decide)
example : (0 : Tid) < (exec hMigrate).nextTid ∧ (1 : Tid) < (exec hMigrate).nextTid ∧ (exec hMigrate).cur 0 = some 0 ∧ (exec hMigrate).cur 1 = some 2 := by decide
/-- thread 1 resumes the fiber instead of thread 0 -/
example : (match run ((exec hMigrate).exchange 0 1) (history 0 1 [(0, .resume 2)]) with | .ok s => s.cur 1 | _ => none) = some 1 := by decide

end Verif.Fiber
