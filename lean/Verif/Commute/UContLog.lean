import Verif.Names.UCont

/-! # C99: what was recorded before does not influence operations, `continuation` on ucontext -/

namespace Verif.UCont
open Verif.Fiber (CtxId Var Tid Kind Exc Mode UKind Status Event CreateOutcome upd upd_apply  )

/-- the state with events `l` recorded before all others -/
def State.older (s : State) (l : List Event) : State := { s with log := s.log ++ l }

def Res.older (l : List Event) : Res → Res
  | .ok s => .ok (s.older l)
  | .rejected => .rejected
  | .terminate => .terminate
  | .assertion => .assertion
  | .ub => .ub

section
variable {s : State} {l : List Event} {v : Tid}

@[simp] theorem old_cur : (s.older l).cur = s.cur := rfl
@[simp] theorem old_status : (s.older l).status = s.status := rfl
@[simp] theorem old_root : (s.older l).root = s.root := rfl
@[simp] theorem old_frm : (s.older l).frm = s.frm := rfl
@[simp] theorem old_ontop : (s.older l).ontop = s.ontop := rfl
@[simp] theorem old_term : (s.older l).term = s.term := rfl
@[simp] theorem old_unw : (s.older l).unw = s.unw := rfl
@[simp] theorem old_early : (s.older l).early = s.early := rfl
@[simp] theorem old_hidden : (s.older l).hidden = s.hidden := rfl
@[simp] theorem old_frames : (s.older l).frames = s.frames := rfl
@[simp] theorem old_caps : (s.older l).caps = s.caps := rfl
@[simp] theorem old_kind : (s.older l).kind = s.kind := rfl
@[simp] theorem old_val : (s.older l).val = s.val := rfl
@[simp] theorem old_nextVar : (s.older l).nextVar = s.nextVar := rfl
@[simp] theorem old_nextCtx : (s.older l).nextCtx = s.nextCtx := rfl
@[simp] theorem old_nextTid : (s.older l).nextTid = s.nextTid := rfl
@[simp] theorem old_nextId : (s.older l).nextId = s.nextId := rfl
@[simp] theorem old_lost : (s.older l).lost = s.lost := rfl
@[simp] theorem old_acc (x : Var) : (s.older l).accessible x = s.accessible x := rfl
@[simp] theorem old_acc' : (s.older l).accessible = s.accessible := rfl

theorem setFrames_old (c : CtxId) (fs : List Frame) : (s.older l).setFrames c fs = (s.setFrames c fs).older l := rfl
theorem setVal_old (x : Var) (f : Option CtxId) : (s.older l).setVal x f = (s.setVal x f).older l := rfl
theorem kill_old (x : Var) : (s.older l).kill x = (s.kill x).older l := rfl
theorem newVar_old (k : Kind) (f : Option CtxId) : (s.older l).newVar k f = (s.newVar k f).older l := rfl
theorem addLog_old (e : Event) : (s.older l).addLog e = (s.addLog e).older l := rfl

theorem ite_old {p : Prop} {i j : Decidable p} {a b a' b' : Res} (h1 : p → a' = a.older l) (h2 : ¬ p → b' = b.older l) : (@ite _ p i a' b') = (@ite _ p j a b).older l := by
  by_cases h : p
  · rw [if_pos h, if_pos h]; exact h1 h
  · rw [if_neg h, if_neg h]; exact h2 h

theorem switchTo_old {w : CtxId} {lv : Status} : (s.older l).switchTo v w lv = (s.switchTo v w lv).map fun p => p.older l := by
  simp only [State.switchTo, old_cur, old_status]
  cases s.cur v with
  | none => rfl
  | some c =>
    simp only
    by_cases h : s.status w = .suspended
    · rw [if_pos h]; exact if_pos h
    · rw [if_neg h]; exact if_neg h

theorem arrive_old {w : CtxId} : (s.older l).arrive w = (s.arrive w).older l := by
  simp only [State.arrive, old_frames, old_frm, old_unw, old_ontop, old_status, old_term]
  split
  · rfl
  · refine ite_old (fun _ => rfl) (fun _ => ?_)
    cases s.ontop w <;> rfl
  · refine ite_old (fun _ => rfl) (fun _ => ?_)
    cases s.ontop w <;> rfl
  · refine ite_old (fun _ => rfl) (fun _ => ite_old (fun _ => rfl) (fun _ => rfl))
  · rfl

/-- `switchTo` and `arrive`, as all callers do them -/
theorem go_old {w : CtxId} {lv : Status} :
    (match (s.older l).switchTo v w lv with | none => Res.ub | some s => s.arrive w) = (match s.switchTo v w lv with | none => Res.ub | some s => s.arrive w : Res).older l := by
  rw [switchTo_old]
  cases s.switchTo v w lv with
  | none => rfl
  | some p => exact arrive_old

theorem destroyPtr_old {c w : CtxId} : (s.older l).destroyPtr v c w = (s.destroyPtr v c w).older l := by
  simp only [State.destroyPtr, old_status, old_root, old_term]
  refine ite_old (fun _ => rfl) (fun _ => ite_old (fun _ => rfl) (fun _ => ite_old (fun _ => rfl) (fun _ => ?_)))
  exact go_old (lv := .suspended) (s := { s with
    unw := upd s.unw w true
    early := s.early || decide (s.frames w = [Frame.entryJump]) }.setFrames c (.dtor w :: s.frames c)) 

theorem destroyVar_old {c : CtxId} {x : Var} : (s.older l).destroyVar v c x = (s.destroyVar v c x).older l := by
  simp only [State.destroyVar, old_val]
  cases s.val x with
  | none => rfl
  | some w => simp only [kill_old]; exact destroyPtr_old

theorem finish_old {c : CtxId} {p : Option CtxId} : (s.older l).finish v c p = (s.finish v c p).older l := by
  simp only [State.finish]
  cases p with
  | none => rfl
  | some w =>
    simp only [old_status]
    refine ite_old (fun _ => rfl) (fun _ => ?_)
    exact go_old (lv := .terminated) (s := { s with
      frm := upd s.frm c none
      ontop := upd s.ontop c none
      term := upd s.term c true
      unw := upd s.unw c false }.setFrames c [.exitJump]) 

theorem doResume_old {c : CtxId} {x : Var} : (s.older l).doResume v c x = (s.doResume v c x).older l := by
  simp only [State.doResume, old_val]
  cases s.val x with
  | none => rfl
  | some w =>
    simp only [old_status]
    refine ite_old (fun _ => rfl) (fun _ => ?_)
    exact go_old (lv := .suspended) (s := (s.setVal x none).setFrames c (.resume :: s.frames c)) 

theorem doResumeWith_old {c : CtxId} {x : Var} : (s.older l).doResumeWith v c x = (s.doResumeWith v c x).older l := by
  simp only [State.doResumeWith, old_val]
  cases s.val x with
  | none => rfl
  | some w =>
    simp only [old_status]
    refine ite_old (fun _ => rfl) (fun _ => ?_)
    exact go_old (lv := .suspended) (s := ({ s with
      ontop := upd s.ontop w (some s.nextId)
      nextId := s.nextId + 1 }.setVal x none).setFrames c (.resume :: s.frames c)) 

theorem capture_older {n : CtxId} {xs : List Var} : (s.older l).capture n xs = (s.capture n xs).older l := by
  induction xs generalizing s with
  | nil => rfl
  | cons x xs ih =>
    simp only [State.capture]
    exact ih (s := { (s.setVal x none).newVar (.cap n) (s.val x) with
      caps := upd ((s.setVal x none).newVar (.cap n) (s.val x)).caps n (s.nextVar :: ((s.setVal x none).newVar (.cap n) (s.val x)).caps n) })

theorem doCallcc_old {c : CtxId} {k ls rest xs} : (s.older l).doCallcc v c k ls rest xs = (s.doCallcc v c k ls rest xs).older l := by
  simp only [State.doCallcc]
  have h1 : ({ s.older l with nextCtx := (s.older l).nextCtx + 1 }.addLog (.alloc (s.older l).nextCtx)).capture (s.older l).nextCtx xs =
      (({ s with nextCtx := s.nextCtx + 1 }.addLog (.alloc s.nextCtx)).capture s.nextCtx xs).older l := by
    change ((({ s with nextCtx := s.nextCtx + 1 } : State).addLog (.alloc s.nextCtx)).older l).capture s.nextCtx xs = _
    exact capture_older
  rw [h1]
  obtain ⟨s1, hs1⟩ : ∃ s1, s1 = ({ s with nextCtx := s.nextCtx + 1 }.addLog (.alloc s.nextCtx)).capture s.nextCtx xs := ⟨_, rfl⟩
  rw [← hs1]
  exact doResume_old (s := State.setFrames
    { ({ s1 with
        status := upd s1.status s.nextCtx .suspended
        frames := upd s1.frames s.nextCtx [.entryJump]
        root := upd s1.root s.nextCtx false
        frm := upd s1.frm s.nextCtx none
        ontop := upd s1.ontop s.nextCtx none
        term := upd s1.term s.nextCtx false
        unw := upd s1.unw s.nextCtx false } : State).newVar (.loc c) (some s.nextCtx) with
      hidden := upd s1.hidden s1.nextVar true } c (.callcc s1.nextVar .waiting k ls :: rest))

theorem userStep_old {c : CtxId} {k ls rest} (op : Op) :
    userStep (s.older l) v c k ls rest op = (userStep s v c k ls rest op).older l := by
  cases op <;> simp only [userStep, old_acc, old_acc', old_val, old_kind]
  case moveHeap => exact ite_old (fun _ => rfl) (fun _ => rfl)
  case moveLocal => exact ite_old (fun _ => rfl) (fun _ => rfl)
  case moveAssign y x =>
    refine ite_old (fun _ => ite_old (fun _ => rfl) (fun _ => ?_)) (fun _ => rfl)
    cases s.val y with
    | none => rfl
    | some f => simp only [setVal_old]; exact destroyPtr_old
  case swap => exact ite_old (fun _ => rfl) (fun _ => rfl)
  case drop => exact ite_old (fun _ => by rw [setFrames_old]; exact destroyVar_old) (fun _ => ite_old (fun _ => destroyVar_old) (fun _ => rfl))
  case callcc xs o =>
    refine ite_old (fun _ => ?_) (fun _ => rfl)
    cases o with
    | success => exact doCallcc_old
    | _ => rfl
  case resume => exact ite_old (fun _ => doResume_old) (fun _ => rfl)
  case resumeWith => exact ite_old (fun _ => doResumeWith_old) (fun _ => rfl)
  case ret => cases k <;> rfl
  case retHandle => refine ite_old (fun _ => ?_) (fun _ => rfl); cases k <;> rfl
  all_goals rfl

theorem propagate_old {c : CtxId} {k e rest} : propagate (s.older l) v c k e rest = (propagate s v c k e rest).older l := by
  simp only [propagate, old_val]
  split <;> (try rfl)
  split
  · rfl
  · rw [kill_old]; exact finish_old

theorem leave_old {c : CtxId} {k x rest} : leave (s.older l) v c k x rest = (leave s v c k x rest).older l := by
  simp only [leave, old_val]
  split <;> (try rfl)
  · rw [kill_old]; exact finish_old
  · split <;> rfl

theorem exitStep_old {c n : CtxId} {rest} : exitStep (s.older l) v c n rest = (exitStep s v c n rest).older l := by
  simp only [exitStep, old_caps, old_status]
  split
  · next x xs _ => exact destroyVar_old (s := { s with caps := upd s.caps n xs })
  · refine ite_old (fun _ => ?_) (fun _ => rfl)
    split <;> rfl

end

/-- what was recorded before does not influence an operation -/
theorem step_old {s : State} {l : List Event} (v : Tid) (op : Op) : step (s.older l) v op = (step s v op).older l := by
  simp only [step, old_cur, old_frames]
  split
  · rfl
  · split
    · exact userStep_old op
    · split
      · rw [setFrames_old]; exact destroyVar_old
      all_goals rfl
    · split
      · exact propagate_old
      · rfl
      · split <;> rfl
      · split
        · simp only [old_val]; split <;> rfl
        · rfl
      · rfl
    · split
      · exact leave_old
      all_goals rfl
    · split
      · rw [setFrames_old]; exact destroyVar_old
      · rfl
    · split
      · rw [setFrames_old]; exact destroyVar_old
      · rfl
    · split
      · exact exitStep_old
      all_goals rfl
    · rfl

theorem run_old {s : State} {l : List Event} (h : List (Tid × Op)) : run (s.older l) h = (run s h).older l := by
  induction h generalizing s with
  | nil => rfl
  | cons a h ih =>
    obtain ⟨v, op⟩ := a
    simp only [run, step_old]
    cases hs : step s v op with
    | ok s' => exact ih
    | _ => rfl

end Verif.UCont
