import Verif.Names.Cont

/-! # C99: what was recorded before does not influence operations, `continuation` on fcontext -/

namespace Verif.Cont
open Verif.Fiber (CtxId Var Tid Fctx Kind Exc Mode UKind Status Event CreateOutcome upd upd_apply  )

/-- the state with events `l` recorded before all others -/
def State.older (s : State) (l : List Event) : State := { s with log := s.log ++ l }

def Res.older (l : List Event) : Res → Res
  | .ok s => .ok (s.older l)
  | .rejected => .rejected
  | .terminate => .terminate
  | .assertion => .assertion
  | .ub => .ub

section
variable {s : State} {l : List Event} {v : Tid}

@[simp] theorem old_cur : (s.older l).cur = s.cur := rfl
@[simp] theorem old_status : (s.older l).status = s.status := rfl
@[simp] theorem old_seq : (s.older l).seq = s.seq := rfl
@[simp] theorem old_frames : (s.older l).frames = s.frames := rfl
@[simp] theorem old_caps : (s.older l).caps = s.caps := rfl
@[simp] theorem old_kind : (s.older l).kind = s.kind := rfl
@[simp] theorem old_val : (s.older l).val = s.val := rfl
@[simp] theorem old_nextVar : (s.older l).nextVar = s.nextVar := rfl
@[simp] theorem old_nextCtx : (s.older l).nextCtx = s.nextCtx := rfl
@[simp] theorem old_nextTid : (s.older l).nextTid = s.nextTid := rfl
@[simp] theorem old_nextId : (s.older l).nextId = s.nextId := rfl
@[simp] theorem old_hidden : (s.older l).hidden = s.hidden := rfl
@[simp] theorem old_lost : (s.older l).lost = s.lost := rfl
@[simp] theorem old_acc (x : Var) : (s.older l).accessible x = s.accessible x := rfl
@[simp] theorem old_acc' : (s.older l).accessible = s.accessible := rfl

theorem setFrames_old (c : CtxId) (fs : List Frame) : (s.older l).setFrames c fs = (s.setFrames c fs).older l := rfl
theorem setVal_old (x : Var) (f : Option Fctx) : (s.older l).setVal x f = (s.setVal x f).older l := rfl
theorem kill_old (x : Var) : (s.older l).kill x = (s.kill x).older l := rfl
theorem newVar_old (k : Kind) (f : Option Fctx) : (s.older l).newVar k f = (s.newVar k f).older l := rfl
theorem addLog_old (e : Event) : (s.older l).addLog e = (s.addLog e).older l := rfl

theorem ite_old {p : Prop} {i j : Decidable p} {a b a' b' : Res} (h1 : p → a' = a.older l) (h2 : ¬ p → b' = b.older l) : (@ite _ p i a' b') = (@ite _ p j a b).older l := by
  by_cases h : p
  · rw [if_pos h, if_pos h]; exact h1 h
  · rw [if_neg h, if_neg h]; exact h2 h

theorem switch_old {f : Fctx} {lv : Status} {b : Bool} : (s.older l).switch v f lv b = (s.switch v f lv b).map fun p => (p.1.older l, p.2) := by
  simp only [State.switch, old_cur, old_status, old_seq]
  cases s.cur v with
  | none => rfl
  | some c =>
    simp only
    by_cases h : (s.status f.ctx = .suspended ∨ (b = true ∧ s.status f.ctx = .raw)) ∧ s.seq f.ctx = f.seq
    · rw [if_pos h]; exact if_pos h
    · rw [if_neg h]; exact if_neg h

theorem finish_old {c : CtxId} {f : Fctx} : (s.older l).finish v c f = (s.finish v c f).older l := by
  simp only [State.finish, State.ontopSwitch, setFrames_old]
  rw [switch_old ]
  cases (s.setFrames c [.exitJump]).switch v f .terminated false <;> rfl

theorem deliver_old {c : CtxId} {x : Option Fctx} : (s.older l).deliver c x = (s.deliver c x).older l := by
  simp only [State.deliver, old_frames]
  split <;> rfl

theorem raiseUser_old {c : CtxId} {n : Nat} : (s.older l).raiseUser c n = (s.raiseUser c n).older l := by
  simp only [State.raiseUser, old_frames]
  split <;> rfl

theorem raiseForced_old {c : CtxId} {f : Fctx} : (s.older l).raiseForced v c f = (s.raiseForced v c f).older l := by
  simp only [State.raiseForced, old_frames]
  split
  · exact finish_old
  all_goals rfl

theorem destroyFctx_old {c : CtxId} {f : Fctx} : (s.older l).destroyFctx v c f = (s.destroyFctx v c f).older l := by
  simp only [State.destroyFctx, State.ontopSwitch, setFrames_old, old_frames]
  rw [switch_old ]
  cases (s.setFrames c (.dtor f.ctx :: s.frames c)).switch v f .suspended false with
  | none => rfl
  | some p => exact raiseForced_old

theorem destroyVar_old {c : CtxId} {x : Var} : (s.older l).destroyVar v c x = (s.destroyVar v c x).older l := by
  simp only [State.destroyVar, old_val]
  split
  · rfl
  · rw [kill_old]; exact destroyFctx_old

theorem doResume_old {c : CtxId} {x : Var} : (s.older l).doResume v c x = (s.doResume v c x).older l := by
  simp only [State.doResume, State.jump, old_val]
  split
  · rfl
  · next f _ =>
    simp only [setVal_old, setFrames_old, old_frames]
    rw [switch_old ]
    cases ((s.setVal x none).setFrames c (.resume :: s.frames c)).switch v f .suspended true with
    | none => rfl
    | some p => exact deliver_old

theorem doResumeWith_old {c : CtxId} {x : Var} {lv : Bool} : (s.older l).doResumeWith v c x lv = (s.doResumeWith v c x lv).older l := by
  simp only [State.doResumeWith, State.ontopSwitch, old_val]
  split
  · rfl
  · next f _ =>
    simp only [setVal_old, setFrames_old, old_frames]
    rw [switch_old ]
    cases ((s.setVal x none).setFrames c (.resume :: s.frames c)).switch v f .suspended false with
    | none => rfl
    | some p => cases lv <;> rfl

theorem doWithThrows_old {c : CtxId} {k lib ls rest x n b} : (s.older l).doWithThrows v c k lib ls rest x n b = (s.doWithThrows v c k lib ls rest x n b).older l := by
  simp only [State.doWithThrows, State.ontopSwitch, old_val]
  split
  · rfl
  · next f _ =>
    split
    · simp only [setVal_old, setFrames_old, old_frames]
      rw [switch_old ]
      cases ((s.setVal x none).setFrames c (.resume :: s.frames c)).switch v f .suspended false with
      | none => rfl
      | some p => exact raiseUser_old (s := { p.1 with lost := upd p.1.lost p.2.ctx true })
    · rfl

theorem capture_old {n : CtxId} {xs : List Var} : (s.older l).capture n xs = (s.capture n xs).older l := by
  induction xs generalizing s with
  | nil => rfl
  | cons x xs ih =>
    simp only [State.capture]
    exact ih (s := { (s.setVal x none).newVar (.cap n) (s.val x) with
      caps := upd ((s.setVal x none).newVar (.cap n) (s.val x)).caps n (s.nextVar :: ((s.setVal x none).newVar (.cap n) (s.val x)).caps n) })

theorem doCallcc_old {c : CtxId} {k lib ls rest xs} : (s.older l).doCallcc v c k lib ls rest xs = (s.doCallcc v c k lib ls rest xs).older l := by
  simp only [State.doCallcc, State.jump]
  have h1 : ({ s.older l with nextCtx := (s.older l).nextCtx + 1 }.addLog (.alloc (s.older l).nextCtx)).capture (s.older l).nextCtx xs =
      (({ s with nextCtx := s.nextCtx + 1 }.addLog (.alloc s.nextCtx)).capture s.nextCtx xs).older l := by
    change ((({ s with nextCtx := s.nextCtx + 1 } : State).addLog (.alloc s.nextCtx)).older l).capture s.nextCtx xs = _
    exact capture_old
  rw [h1]
  obtain ⟨s1, hs1⟩ : ∃ s1, s1 = ({ s with nextCtx := s.nextCtx + 1 }.addLog (.alloc s.nextCtx)).capture s.nextCtx xs := ⟨_, rfl⟩
  rw [← hs1]
  have h2 : ({ s1.older l with status := upd (s1.older l).status (s.older l).nextCtx .raw, seq := upd (s1.older l).seq (s.older l).nextCtx 0 } : State) =
      { s1 with status := upd s1.status s.nextCtx .raw, seq := upd s1.seq s.nextCtx 0 }.older l := by
    rfl
  rw [h2]
  obtain ⟨s2, hs2⟩ : ∃ s2 : State, s2 = { s1 with status := upd s1.status s.nextCtx .raw, seq := upd s1.seq s.nextCtx 0 } := ⟨_, rfl⟩
  rw [← hs2, switch_old , old_nextCtx]
  cases s2.switch v ⟨s.nextCtx, 0⟩ .suspended true with
  | none => rfl
  | some p =>
    simp only [Option.map_some, setFrames_old]
    rw [switch_old ]
    cases (p.1.setFrames s.nextCtx [.entryJump]).switch v p.2 .suspended true with
    | none => rfl
    | some q =>
      exact doResume_old (s := State.setFrames { q.1.newVar (.loc c) (some q.2) with hidden := upd q.1.hidden q.1.nextVar true } c (.callcc q.1.nextVar .waiting k lib ls :: rest))

theorem userStep_old {c : CtxId} {k lib ls rest} (op : Op) :
    userStep (s.older l) v c k lib ls rest op = (userStep s v c k lib ls rest op).older l := by
  cases op <;> simp only [userStep, old_acc, old_acc', old_val, old_kind]
  case moveHeap => exact ite_old (fun _ => rfl) (fun _ => rfl)
  case moveLocal => exact ite_old (fun _ => rfl) (fun _ => rfl)
  case moveAssign y x =>
    refine ite_old (fun _ => ite_old (fun _ => rfl) (fun _ => ?_)) (fun _ => rfl)
    cases s.val y with
    | none => rfl
    | some f => simp only [setVal_old]; exact destroyFctx_old
  case swap => exact ite_old (fun _ => rfl) (fun _ => rfl)
  case drop => exact ite_old (fun _ => by rw [setFrames_old]; exact destroyVar_old) (fun _ => ite_old (fun _ => destroyVar_old) (fun _ => rfl))
  case callcc xs o =>
    refine ite_old (fun _ => ?_) (fun _ => rfl)
    cases o with
    | success => exact doCallcc_old
    | _ => rfl
  case resume => exact ite_old (fun _ => doResume_old) (fun _ => rfl)
  case resumeWith => exact ite_old (fun _ => doResumeWith_old) (fun _ => rfl)
  case withThrows => exact ite_old (fun _ => doWithThrows_old) (fun _ => rfl)
  case ret => cases k <;> rfl
  case retHandle => refine ite_old (fun _ => ?_) (fun _ => rfl); cases k <;> rfl
  all_goals rfl

theorem propagate_old {c : CtxId} {k e rest} : propagate (s.older l) v c k e rest = (propagate s v c k e rest).older l := by
  simp only [propagate, old_val]
  split <;> (try rfl)
  · split
    · rfl
    · split
      · rfl
      · rw [kill_old]; exact finish_old
  · split
    · rw [setFrames_old]; exact raiseUser_old
    · split
      · rfl
      · rw [setFrames_old, kill_old]; exact raiseForced_old

theorem leave_old {c : CtxId} {k x rest} : leave (s.older l) v c k x rest = (leave s v c k x rest).older l := by
  simp only [leave, old_val]
  split <;> (try rfl)
  · split
    · rfl
    · rw [kill_old]; exact finish_old
  · rw [setFrames_old, kill_old]; exact deliver_old

theorem exitStep_old {c n : CtxId} {rest} : exitStep (s.older l) v c n rest = (exitStep s v c n rest).older l := by
  simp only [exitStep, old_caps, old_status]
  split
  · next x xs _ => exact destroyVar_old (s := { s with caps := upd s.caps n xs })
  · by_cases h : s.status n = .terminated
    · rw [if_pos h]
      refine (if_pos h).trans ?_
      exact deliver_old (s := ({ s with status := upd s.status n .freed, frames := upd (upd s.frames n []) c rest } : State).addLog (.dealloc n))
    · rw [if_neg h]; exact if_neg h

end

/-- what was recorded before does not influence an operation -/
theorem step_old {s : State} {l : List Event} (v : Tid) (op : Op) : step (s.older l) v op = (step s v op).older l := by
  simp only [step, old_cur, old_frames]
  split
  · rfl
  · split
    · exact userStep_old op
    · split
      · rw [setFrames_old]; exact destroyVar_old
      all_goals rfl
    · split
      · rw [setFrames_old]; exact destroyFctx_old
      · rfl
    · split
      · exact propagate_old
      · rfl
      · split <;> rfl
      · split
        · simp only [old_val]; split <;> rfl
        · rfl
      · rfl
    · split
      · exact leave_old
      all_goals rfl
    · split
      · rw [setFrames_old]; exact destroyVar_old
      · rfl
    · split
      · rw [setFrames_old]; exact destroyVar_old
      · rfl
    · split
      · exact exitStep_old
      all_goals rfl
    · rfl

theorem run_old {s : State} {l : List Event} (h : List (Tid × Op)) : run (s.older l) h = (run s h).older l := by
  induction h generalizing s with
  | nil => rfl
  | cons a h ih =>
    obtain ⟨v, op⟩ := a
    simp only [run, step_old]
    cases hs : step s v op with
    | ok s' => exact ih
    | _ => rfl

end Verif.Cont
