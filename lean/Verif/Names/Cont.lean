import Verif.Names.Fiber
import Verif.Cont.Loop

/-! # C98: what matters is the context an object holds, `continuation` on fcontext -/

namespace Verif.Cont
open Verif.Names (name exc mode name_inj mem_names erase_names upd_name upd_map old_of)
open Verif.Fiber (CtxId Var Tid Fctx Kind Exc Mode UKind Status Event CreateOutcome upd upd_apply map_id_of)

def CcMode.rename (x y : Var) : CcMode → CcMode
  | .waiting => .waiting
  | .returning z => .returning (name x y z)
  | .unwinding e => .unwinding (exc x y e)

def Frame.rename (x y : Var) : Frame → Frame
  | .user k lib ls m => .user k lib (ls.map (name x y)) (mode x y m)
  | .callcc z cm k lib ls => .callcc (name x y z) (cm.rename x y) k lib (ls.map (name x y))
  | f => f

/-- Objects `x` and `y` have exchanged their parts: values, places and storage; nothing else differs. -/
def State.rename (s : State) (x y : Var) : State :=
  { s with
    frames := fun c => (s.frames c).map (Frame.rename x y)
    caps := fun c => (s.caps c).map (name x y)
    kind := fun v => s.kind (name x y v)
    val := fun v => s.val (name x y v)
    hidden := fun v => s.hidden (name x y v) }

def Res.rename (x y : Var) : Res → Res
  | .ok s => .ok (s.rename x y)
  | .rejected => .rejected
  | .terminate => .terminate
  | .assertion => .assertion
  | .ub => .ub

/-- the same operation with the two names exchanged -/
def Op.rename (x y : Var) : Op → Op
  | .moveHeap a => .moveHeap (name x y a)
  | .moveLocal a => .moveLocal (name x y a)
  | .moveAssign a b => .moveAssign (name x y a) (name x y b)
  | .swap a b => .swap (name x y a) (name x y b)
  | .drop a => .drop (name x y a)
  | .callcc as o => .callcc (as.map (name x y)) o
  | .resume a => .resume (name x y a)
  | .resumeWith a lv => .resumeWith (name x y a) lv
  | .withThrows a n b => .withThrows (name x y a) n b
  | .retHandle a => .retHandle (name x y a)
  | op => op

/-- the same history with the two names exchanged -/
def renamed (x y : Var) (h : List (Tid × Op)) : List (Tid × Op) := h.map fun a => (a.1, a.2.rename x y)

section
variable {s : State} {t : Tid} {x y : Var}

@[simp] theorem ren_cur : (s.rename x y).cur = s.cur := rfl
@[simp] theorem ren_status : (s.rename x y).status = s.status := rfl
@[simp] theorem ren_seq : (s.rename x y).seq = s.seq := rfl
@[simp] theorem ren_nextVar : (s.rename x y).nextVar = s.nextVar := rfl
@[simp] theorem ren_nextCtx : (s.rename x y).nextCtx = s.nextCtx := rfl
@[simp] theorem ren_nextTid : (s.rename x y).nextTid = s.nextTid := rfl
@[simp] theorem ren_nextId : (s.rename x y).nextId = s.nextId := rfl
@[simp] theorem ren_lost : (s.rename x y).lost = s.lost := rfl
@[simp] theorem ren_frames (c : CtxId) : (s.rename x y).frames c = (s.frames c).map (Frame.rename x y) := rfl
@[simp] theorem ren_caps (c : CtxId) : (s.rename x y).caps c = (s.caps c).map (name x y) := rfl
@[simp] theorem ren_val (a : Var) : (s.rename x y).val (name x y a) = s.val a := by simp [State.rename, name, Migrate.other_other]
@[simp] theorem ren_kind (a : Var) : (s.rename x y).kind (name x y a) = s.kind a := by simp [State.rename, name, Migrate.other_other]
@[simp] theorem ren_acc (a : Var) : (s.rename x y).accessible (name x y a) = s.accessible a := by simp [State.accessible, State.rename, name, Migrate.other_other]

theorem ren_setFrames (c : CtxId) (fs : List Frame) : (s.setFrames c fs).rename x y = (s.rename x y).setFrames c (fs.map (Frame.rename x y)) := by
  simp only [State.rename, State.setFrames, upd_map]
theorem ren_setVal (a : Var) (f : Option Fctx) : (s.setVal a f).rename x y = (s.rename x y).setVal (name x y a) f := by
  simp only [State.rename, State.setVal, upd_name]
theorem ren_kill (a : Var) : (s.kill a).rename x y = (s.rename x y).kill (name x y a) := by
  simp only [State.rename, State.kill, upd_name]
theorem ren_newVar (h : Names.Old x y s.nextVar) (k : Kind) (f : Option Fctx) : (s.newVar k f).rename x y = (s.rename x y).newVar k f := by
  simp only [State.rename, State.newVar, upd_name, h.eq]
theorem ren_addLog (e : Event) : (s.addLog e).rename x y = (s.rename x y).addLog e := rfl

@[simp] theorem ren_hidden (a : Var) : (s.rename x y).hidden (name x y a) = s.hidden a := by simp [State.rename, name, Migrate.other_other]

theorem ite_ren {p q : Prop} [Decidable p] [Decidable q] {a b a' b' : Res} (hpq : p ↔ q) (h1 : q → a' = a.rename x y) (h2 : ¬ q → b' = b.rename x y) :
    (if p then a' else b') = (if q then a else b).rename x y := by
  by_cases h : q
  · rw [if_pos h, if_pos (hpq.2 h)]; exact h1 h
  · rw [if_neg h, if_neg (fun e => h (hpq.1 e))]; exact h2 h

theorem ren_switch {f : Fctx} {l : Status} {b : Bool} :
    (s.rename x y).switch t f l b = (s.switch t f l b).map fun p => (p.1.rename x y, p.2) := by
  simp only [State.switch, ren_cur, ren_status, ren_seq]
  cases s.cur t with
  | none => rfl
  | some c =>
    simp only
    by_cases h : (s.status f.ctx = .suspended ∨ (b = true ∧ s.status f.ctx = .raw)) ∧ s.seq f.ctx = f.seq
    · rw [if_pos h]; exact if_pos h
    · rw [if_neg h]; exact if_neg h

theorem ren_finish {c : CtxId} {f : Fctx} : (s.rename x y).finish t c f = (s.finish t c f).rename x y := by
  have e : (s.rename x y).setFrames c [.exitJump] = (s.setFrames c [.exitJump]).rename x y := (ren_setFrames c [.exitJump]).symm
  simp only [State.finish, State.ontopSwitch, e, ren_switch]
  cases (s.setFrames c [.exitJump]).switch t f .terminated false with
  | none => rfl
  | some p => simp [Res.rename, ren_setFrames, Frame.rename]

theorem ren_deliver (h : Names.Old x y s.nextVar) {c : CtxId} {v : Option Fctx} : (s.rename x y).deliver c v = (s.deliver c v).rename x y := by
  simp only [State.deliver, ren_frames]
  rcases hf : s.frames c with _ | ⟨f, r⟩
  · rfl
  · cases f with
    | resume =>
      rcases r with _ | ⟨g, r⟩
      · rfl
      · cases g with
        | callcc z cm => cases cm <;> first | rfl | simp [Res.rename, Frame.rename, CcMode.rename, ren_setFrames, ren_newVar h, h.eq]
        | _ => first | rfl | simp [Res.rename, Frame.rename, ren_setFrames, ren_newVar h, h.eq]
    | _ => first | rfl | simp [Res.rename, Frame.rename, ren_setFrames, ren_newVar h, ren_addLog, h.eq, mode]

theorem ren_raiseUser {c : CtxId} {n : Nat} : (s.rename x y).raiseUser c n = (s.raiseUser c n).rename x y := by
  simp only [State.raiseUser, ren_frames]
  rcases hf : s.frames c with _ | ⟨f, r⟩
  · rfl
  · cases f with
    | resume =>
      rcases r with _ | ⟨g, r⟩
      · rfl
      · cases g with
        | callcc z cm => cases cm <;> first | rfl | simp [Res.rename, Frame.rename, CcMode.rename, ren_setFrames, exc]
        | _ => first | rfl | simp [Res.rename, Frame.rename, ren_setFrames, mode, exc]
    | _ => rfl

theorem ren_raiseForced (h : Names.Old x y s.nextVar) {c : CtxId} {f : Fctx} : (s.rename x y).raiseForced t c f = (s.raiseForced t c f).rename x y := by
  simp only [State.raiseForced, ren_frames]
  rcases hf : s.frames c with _ | ⟨g, r⟩
  · rfl
  · cases g with
    | entryJump => exact ren_finish
    | resume =>
      rcases r with _ | ⟨g, r⟩
      · rfl
      · cases g with
        | callcc z cm => cases cm <;> first | rfl | simp [Res.rename, Frame.rename, CcMode.rename, ren_setFrames, ren_newVar h, exc, h.eq]
        | _ => first | rfl | simp [Res.rename, Frame.rename, ren_setFrames, ren_newVar h, mode, exc, h.eq]
    | _ => rfl

theorem ren_destroyFctx (h : Names.Old x y s.nextVar) {c : CtxId} {f : Fctx} : (s.rename x y).destroyFctx t c f = (s.destroyFctx t c f).rename x y := by
  have e : (s.rename x y).setFrames c (.dtor f.ctx :: (s.rename x y).frames c) = (s.setFrames c (.dtor f.ctx :: s.frames c)).rename x y := by
    rw [ren_setFrames]; rfl
  simp only [State.destroyFctx, State.ontopSwitch, e, ren_switch]
  cases hs : (s.setFrames c (.dtor f.ctx :: s.frames c)).switch t f .suspended false with
  | none => rfl
  | some p => exact ren_raiseForced (by rw [switch_nextVar hs]; exact h)

theorem ren_destroyVar (h : Names.Old x y s.nextVar) {c : CtxId} {a : Var} : (s.rename x y).destroyVar t c (name x y a) = (s.destroyVar t c a).rename x y := by
  simp only [State.destroyVar, ren_val]
  split
  · simp only [Res.rename, ren_kill]
  · rw [← ren_kill]; exact ren_destroyFctx (s := s.kill a) h

theorem ren_suspend {c : CtxId} {a : Var} : ((s.rename x y).setVal (name x y a) none).setFrames c (.resume :: (s.rename x y).frames c) =
    ((s.setVal a none).setFrames c (.resume :: s.frames c)).rename x y := by
  rw [ren_setFrames, ren_setVal]; rfl

theorem ren_doResume (h : Names.Old x y s.nextVar) {c : CtxId} {a : Var} : (s.rename x y).doResume t c (name x y a) = (s.doResume t c a).rename x y := by
  simp only [State.doResume, State.jump, ren_val]
  split
  · rfl
  · next f _ =>
    simp only [ren_suspend, ren_switch]
    cases hs : ((s.setVal a none).setFrames c (.resume :: s.frames c)).switch t f .suspended true with
    | none => rfl
    | some p => exact ren_deliver (by rw [switch_nextVar hs]; exact h)

theorem ren_doResumeWith (h : Names.Old x y s.nextVar) {c : CtxId} {a : Var} {lv : Bool} : (s.rename x y).doResumeWith t c (name x y a) lv = (s.doResumeWith t c a lv).rename x y := by
  simp only [State.doResumeWith, State.ontopSwitch, ren_val]
  split
  · rfl
  · next f _ =>
    simp only [ren_suspend, ren_switch]
    cases hs : ((s.setVal a none).setFrames c (.resume :: s.frames c)).switch t f .suspended false with
    | none => rfl
    | some p =>
      have hp : Names.Old x y p.1.nextVar := by rw [switch_nextVar hs]; exact h
      have hp' : Names.Old x y ({ p.1 with nextId := p.1.nextId + 1 } : State).nextVar := hp
      simp only [Option.map_some]
      refine ite_ren Iff.rfl (fun _ => rfl) (fun _ => ?_)
      simp only [Res.rename, ren_addLog, ren_setFrames, ren_newVar hp', List.map_cons, Frame.rename, ren_nextVar, hp.eq, List.map_nil, mode]
      rfl

theorem ren_doWithThrows {c : CtxId} {k lib ls rest a n b} :
    (s.rename x y).doWithThrows t c k lib (ls.map (name x y)) (rest.map (Frame.rename x y)) (name x y a) n b = (s.doWithThrows t c k lib ls rest a n b).rename x y := by
  simp only [State.doWithThrows, State.ontopSwitch, ren_val]
  split
  · rfl
  · next f _ =>
    split
    · simp only [ren_suspend, ren_switch]
      cases ((s.setVal a none).setFrames c (.resume :: s.frames c)).switch t f .suspended false with
      | none => rfl
      | some p => exact ren_raiseUser (s := { p.1 with lost := upd p.1.lost p.2.ctx true })
    · simp [Res.rename, ren_setFrames, Frame.rename, mode, exc]

theorem ren_capture (h : Names.Old x y s.nextVar) {n : CtxId} {as : List Var} : (s.rename x y).capture n (as.map (name x y)) = (s.capture n as).rename x y := by
  induction as generalizing s with
  | nil => rfl
  | cons a as ih =>
    simp only [List.map_cons, State.capture, ren_val]
    rw [← ih (s := { (s.setVal a none).newVar (.cap n) (s.val a) with
      caps := upd ((s.setVal a none).newVar (.cap n) (s.val a)).caps n (s.nextVar :: ((s.setVal a none).newVar (.cap n) (s.val a)).caps n) }) (h.mono (Nat.le_succ _))]
    congr 1
    simp only [State.rename, State.setVal, State.newVar, upd_name, upd_map, h.eq, List.map_cons]

theorem ren_doCallcc (h : Names.Old x y s.nextVar) {c : CtxId} {k lib ls rest as} :
    (s.rename x y).doCallcc t c k lib (ls.map (name x y)) (rest.map (Frame.rename x y)) (as.map (name x y)) = (s.doCallcc t c k lib ls rest as).rename x y := by
  simp only [State.doCallcc, State.jump]
  have h1 : ({ s.rename x y with nextCtx := (s.rename x y).nextCtx + 1 }.addLog (.alloc (s.rename x y).nextCtx)).capture (s.rename x y).nextCtx (as.map (name x y)) =
      (({ s with nextCtx := s.nextCtx + 1 }.addLog (.alloc s.nextCtx)).capture s.nextCtx as).rename x y := by
    have h0 := ren_capture (s := State.addLog { s with nextCtx := s.nextCtx + 1 } (.alloc s.nextCtx)) (x := x) (y := y) h (n := s.nextCtx) (as := as)
    exact h0
  rw [h1]
  have hn : s.nextVar ≤ (({ s with nextCtx := s.nextCtx + 1 }.addLog (.alloc s.nextCtx)).capture s.nextCtx as).nextVar :=
    by rw [capture_nextVar]; exact Nat.le_add_right _ _
  obtain ⟨s1, hs1⟩ : ∃ s1, s1 = ({ s with nextCtx := s.nextCtx + 1 }.addLog (.alloc s.nextCtx)).capture s.nextCtx as := ⟨_, rfl⟩
  rw [← hs1] at hn ⊢
  have h2 : ({ s1.rename x y with status := upd (s1.rename x y).status (s.rename x y).nextCtx .raw, seq := upd (s1.rename x y).seq (s.rename x y).nextCtx 0 } : State) =
      { s1 with status := upd s1.status s.nextCtx .raw, seq := upd s1.seq s.nextCtx 0 }.rename x y := rfl
  rw [h2]
  obtain ⟨s2, hs2⟩ : ∃ s2 : State, s2 = { s1 with status := upd s1.status s.nextCtx .raw, seq := upd s1.seq s.nextCtx 0 } := ⟨_, rfl⟩
  rw [← hs2, ren_switch, ren_nextCtx]
  have hn2 : s.nextVar ≤ s2.nextVar := by rw [hs2]; exact hn
  cases hp : s2.switch t ⟨s.nextCtx, 0⟩ .suspended true with
  | none => rfl
  | some p =>
    have e : (p.1.rename x y).setFrames s.nextCtx [.entryJump] = (p.1.setFrames s.nextCtx [.entryJump]).rename x y := (ren_setFrames _ [.entryJump]).symm
    simp only [Option.map_some, e, ren_switch]
    cases hq : (p.1.setFrames s.nextCtx [.entryJump]).switch t p.2 .suspended true with
    | none => rfl
    | some q =>
      have hq' : Names.Old x y q.1.nextVar := by
        rw [switch_nextVar hq]; show Names.Old x y p.1.nextVar; rw [switch_nextVar hp]; exact h.mono hn2
      simp only [Option.map_some]
      have e2 : ({ q.1.rename x y with
          kind := upd (q.1.rename x y).kind q.1.nextVar (.loc c), val := upd (q.1.rename x y).val q.1.nextVar (some q.2), nextVar := q.1.nextVar + 1,
          hidden := upd (q.1.rename x y).hidden q.1.nextVar true } : State).setFrames c (.callcc q.1.nextVar .waiting k lib (ls.map (name x y)) :: rest.map (Frame.rename x y)) =
          (({ q.1.newVar (.loc c) (some q.2) with hidden := upd q.1.hidden q.1.nextVar true } : State).setFrames c (.callcc q.1.nextVar .waiting k lib ls :: rest)).rename x y := by
        rw [ren_setFrames]
        simp only [State.rename, State.newVar, upd_name, hq'.eq, List.map_cons, Frame.rename, CcMode.rename]
      have g := ren_doResume (t := t) (s := ({ q.1.newVar (.loc c) (some q.2) with hidden := upd q.1.hidden q.1.nextVar true } : State).setFrames c (.callcc q.1.nextVar .waiting k lib ls :: rest))
        (x := x) (y := y) (hq'.mono (Nat.le_succ _)) (c := c) (a := q.1.nextVar)
      rw [← e2, hq'.eq] at g
      exact g

theorem ren_userStep (h : Names.Old x y s.nextVar) {c : CtxId} {k lib ls rest} (op : Op) :
    userStep (s.rename x y) t c k lib (ls.map (name x y)) (rest.map (Frame.rename x y)) (op.rename x y) = (userStep s t c k lib ls rest op).rename x y := by
  have h' : ∀ a f, Names.Old x y (s.setVal a f).nextVar := fun _ _ => h
  cases op <;> simp only [userStep, Op.rename, ren_acc, ren_val, ren_kind]
  case newHeap => simp only [Res.rename, ren_newVar h]
  case newLocal => simp only [Res.rename, ren_newVar h, ren_setFrames, List.map_cons, Frame.rename, mode, h.eq, ren_nextVar]
  case moveHeap a => exact ite_ren Iff.rfl (fun _ => by simp only [Res.rename, ren_newVar (h' _ _), ren_setVal]) (fun _ => rfl)
  case moveLocal => exact ite_ren Iff.rfl (fun _ => by simp only [Res.rename, ren_newVar (h' _ _), ren_setVal, ren_setFrames, List.map_cons, Frame.rename, mode, h.eq, ren_nextVar]) (fun _ => rfl)
  case moveAssign a b =>
    refine ite_ren Iff.rfl (fun _ => ite_ren name_inj (fun _ => rfl) (fun _ => ?_)) (fun _ => rfl)
    cases s.val a with
    | none => simp only [Res.rename, ren_setVal]
    | some f => simp only [← ren_setVal]; exact ren_destroyFctx (s := (s.setVal a (s.val b)).setVal b none) h
  case swap => exact ite_ren Iff.rfl (fun _ => by simp only [Res.rename, ren_setVal]) (fun _ => rfl)
  case drop a =>
    refine ite_ren mem_names (fun _ => ?_) (fun _ => ite_ren Iff.rfl (fun _ => ren_destroyVar h) (fun _ => rfl))
    have e : (s.rename x y).setFrames c (.user k lib ((ls.map (name x y)).erase (name x y a)) .normal :: rest.map (Frame.rename x y)) =
        (s.setFrames c (.user k lib (ls.erase a) .normal :: rest)).rename x y := by
      simp only [ren_setFrames, List.map_cons, Frame.rename, mode, erase_names]
    rw [e]
    exact ren_destroyVar (s := s.setFrames c (.user k lib (ls.erase a) .normal :: rest)) h
  case callcc as o =>
    refine ite_ren (by simp) (fun _ => ?_) (fun _ => rfl)
    cases o with
    | success => exact ren_doCallcc h
    | allocThrows n => simp [Res.rename, ren_setFrames, Frame.rename, mode, exc]
    | fnThrows => rfl
  case resume => exact ite_ren Iff.rfl (fun _ => ren_doResume h) (fun _ => rfl)
  case resumeWith => exact ite_ren Iff.rfl (fun _ => ren_doResumeWith h) (fun _ => rfl)
  case withThrows => exact ite_ren Iff.rfl (fun _ => ren_doWithThrows) (fun _ => rfl)
  case ret => cases k <;> first | rfl | simp [Res.rename, ren_setFrames, Frame.rename, mode]
  case retHandle a =>
    refine ite_ren Iff.rfl (fun _ => ?_) (fun _ => rfl)
    cases k <;> first | rfl | simp [Res.rename, ren_setFrames, Frame.rename, mode, ren_newVar (h' _ _), ren_setVal, h.eq]
  case spawn =>
    simp only [Res.rename, Res.ok.injEq, ren_nextTid, ren_nextCtx, ren_seq, ren_cur, ren_status]
    simp only [State.rename, State.mk.injEq, true_and, and_true, upd_map]
    rfl
  all_goals first | rfl | simp [Res.rename, ren_setFrames, Frame.rename, mode, exc]

theorem ren_propagate (h : Names.Old x y s.nextVar) {c : CtxId} {k e rest} :
    propagate (s.rename x y) t c k (exc x y e) (rest.map (Frame.rename x y)) = (propagate s t c k e rest).rename x y := by
  have h' : ∀ fs a, Names.Old x y ((s.setFrames c fs).kill a).nextVar := fun _ _ => h
  cases k with
  | main => rfl
  | cleanup => rfl
  | call =>
    rcases rest with _ | ⟨g, r⟩
    · rfl
    · cases g <;> first | rfl | simp [propagate, Res.rename, ren_setFrames, Frame.rename, mode]
  | fn =>
    cases e with
    | user n => rfl
    | forced z =>
      simp only [propagate, exc, ren_val]
      cases s.val z with
      | none => rfl
      | some f => simp only [← ren_kill]; exact ren_finish
  | ontop i =>
    cases e with
    | user n => simp only [propagate, exc, ← ren_setFrames]; exact ren_raiseUser
    | forced z =>
      simp only [propagate, exc, ren_val]
      cases s.val z with
      | none => rfl
      | some f => simp only [← ren_kill, ← ren_setFrames]; exact ren_raiseForced (h' _ _)

theorem ren_leave (h : Names.Old x y s.nextVar) {c : CtxId} {k a rest} :
    leave (s.rename x y) t c k (a.map (name x y)) (rest.map (Frame.rename x y)) = (leave s t c k a rest).rename x y := by
  have h' : ∀ fs a, Names.Old x y ((s.setFrames c fs).kill a).nextVar := fun _ _ => h
  cases k <;> cases a <;> try rfl
  · simp only [leave, Option.map_none, Res.rename, Res.ok.injEq, ren_cur, ren_status]
    simp only [State.rename, State.mk.injEq, true_and, and_true, upd_map]; rfl
  · next z =>
    simp only [leave, Option.map_some, ren_val]
    cases s.val z with
    | none => rfl
    | some f => simp only [← ren_kill]; exact ren_finish
  · simp only [leave, Option.map_none, Res.rename, ren_setFrames]
  · simp only [leave, Option.map_none, Res.rename, ren_setFrames]
  · simp only [leave, Option.map_some, ren_val, ← ren_kill, ← ren_setFrames]; exact ren_deliver (h' _ _)

theorem ren_exitStep (h : Names.Old x y s.nextVar) {c n : CtxId} {rest} : exitStep (s.rename x y) t c n (rest.map (Frame.rename x y)) = (exitStep s t c n rest).rename x y := by
  simp only [exitStep, ren_caps, ren_status]
  rcases s.caps n with _ | ⟨a, as⟩
  · simp only [List.map_nil]
    refine ite_ren Iff.rfl (fun _ => ?_) (fun _ => rfl)
    have e : (({ s.rename x y with status := upd s.status n .freed, frames := upd (upd (s.rename x y).frames n []) c (rest.map (Frame.rename x y)) } : State).addLog (.dealloc n)) =
        (({ s with status := upd s.status n .freed, frames := upd (upd s.frames n []) c rest } : State).addLog (.dealloc n)).rename x y := by
      simp only [State.addLog, State.rename, State.mk.injEq, true_and, and_true, upd_map]; rfl
    rw [e]
    exact ren_deliver (s := ({ s with status := upd s.status n .freed, frames := upd (upd s.frames n []) c rest } : State).addLog (.dealloc n)) h
  · simp only [List.map_cons]
    have e : ({ s.rename x y with caps := upd (s.rename x y).caps n (as.map (name x y)) } : State) = { s with caps := upd s.caps n as }.rename x y := by
      simp only [State.rename, upd_map]
    refine (congrArg (fun z : State => z.destroyVar t c (name x y a)) e).trans ?_
    exact ren_destroyVar (s := { s with caps := upd s.caps n as }) h

theorem step_nextVar {s' : State} {op : Op} (h : Reachable s) (hs : step s t op = .ok s') : s.nextVar ≤ s'.nextVar := by
  have href := C21_step_refines (t := t) h (lvalue_not_ok hs) (by rw [hs]; simp)
  rw [hs] at href
  have key : ∀ (l : List (Tid × Fiber.Op)) (a b : Fiber.State), Fiber.Reachable a → Fiber.run a l = .ok b → a.nextVar ≤ b.nextVar := by
    intro l
    induction l with
    | nil => intro a b _ h; simp only [Fiber.run, Fiber.Res.ok.injEq] at h; subst h; exact Nat.le_refl _
    | cons x l ih =>
      intro a b hr h
      simp only [Fiber.run] at h
      split at h
      · next a' ha => exact Nat.le_trans (Fiber.step_nextVar (Fiber.reachable_inv hr) ha) (ih _ _ (.step hr ha) h)
      · next hx => exact absurd h (hx _)
  exact key _ _ _ (reachable_spec h).2 href

end

/-- **C98, one step.** If two objects exchange their parts (what they hold, where they are), then every operation, with the two names exchanged, has the same outcome, with the two names exchanged. -/
theorem C98_continuation_step {s : State} {x y : Var} (hx : x < s.nextVar) (hy : y < s.nextVar) (t : Tid) (op : Op) :
    step (s.rename x y) t (op.rename x y) = (step s t op).rename x y := by
  have h := old_of hx hy
  simp only [step, ren_cur, ren_frames]
  cases s.cur t with
  | none => rfl
  | some c =>
    simp only
    rcases hf : s.frames c with _ | ⟨f, rest⟩
    · rfl
    · cases f with
      | user k lib ls m =>
        cases m with
        | normal => exact ren_userStep h op
        | unwinding e =>
          rcases ls with _ | ⟨a, ls⟩
          · rcases lib with _ | f
            · cases op <;> try rfl
              case cleanup => simp [Frame.rename, mode, Res.rename, ren_setFrames, Op.rename]
              case tick => exact ren_propagate h
              case catchUser =>
                cases k <;> cases e <;> first | rfl | simp [Op.rename, Frame.rename, mode, exc, Res.rename, ren_setFrames]
              case swallow =>
                cases k <;> cases e <;> try rfl
                next z =>
                  simp only [Op.rename, List.map_cons, Frame.rename, List.map_nil, mode, exc, ren_val]
                  cases s.val z with
                  | none => simp only [Res.rename, ren_kill, ren_setFrames]
                  | some f =>
                    simp only [Res.rename, Res.ok.injEq]
                    have : ∀ a : State, { a with lost := upd s.lost f.ctx true }.rename x y = { a.rename x y with lost := upd s.lost f.ctx true } := fun _ => rfl
                    rw [this, ren_kill, ren_setFrames]; rfl
            · cases op <;> try rfl
              case tick =>
                simp only [Op.rename, List.map_cons, Frame.rename, mode, List.map_nil]
                have e1 : (s.rename x y).setFrames c (.user k none [] (.unwinding (exc x y e)) :: rest.map (Frame.rename x y)) =
                    (s.setFrames c (.user k none [] (.unwinding e) :: rest)).rename x y := by rw [ren_setFrames]; rfl
                rw [e1]
                exact ren_destroyFctx (s := s.setFrames c (.user k none [] (.unwinding e) :: rest)) h
          · cases op <;> try rfl
            case cleanup => simp [Frame.rename, mode, Res.rename, ren_setFrames, Op.rename]
            case tick =>
              simp only [Op.rename, List.map_cons, Frame.rename, mode]
              have e1 : (s.rename x y).setFrames c (.user k lib (ls.map (name x y)) (.unwinding (exc x y e)) :: rest.map (Frame.rename x y)) =
                  (s.setFrames c (.user k lib ls (.unwinding e) :: rest)).rename x y := by rw [ren_setFrames]; rfl
              rw [e1]
              exact ren_destroyVar (s := s.setFrames c (.user k lib ls (.unwinding e) :: rest)) h
        | returning z =>
          rcases ls with _ | ⟨a, ls⟩
          · rcases lib with _ | f
            · cases op <;> try rfl
              case cleanup => simp [Frame.rename, mode, Res.rename, ren_setFrames, Op.rename]
              case tick => exact ren_leave h
            · cases op <;> try rfl
              case tick =>
                simp only [Op.rename, List.map_cons, Frame.rename, mode, List.map_nil]
                have e1 : (s.rename x y).setFrames c (.user k none [] (.returning (z.map (name x y))) :: rest.map (Frame.rename x y)) =
                    (s.setFrames c (.user k none [] (.returning z) :: rest)).rename x y := by rw [ren_setFrames]; rfl
                rw [e1]
                exact ren_destroyFctx (s := s.setFrames c (.user k none [] (.returning z) :: rest)) h
          · cases op <;> try rfl
            case cleanup => simp [Frame.rename, mode, Res.rename, ren_setFrames, Op.rename]
            case tick =>
              simp only [Op.rename, List.map_cons, Frame.rename, mode]
              have e1 : (s.rename x y).setFrames c (.user k lib (ls.map (name x y)) (.returning (z.map (name x y))) :: rest.map (Frame.rename x y)) =
                  (s.setFrames c (.user k lib ls (.returning z) :: rest)).rename x y := by rw [ren_setFrames]; rfl
              rw [e1]
              exact ren_destroyVar (s := s.setFrames c (.user k lib ls (.returning z) :: rest)) h
      | callcc z cm k lib ls =>
        cases cm with
        | waiting => rfl
        | returning a =>
          cases op <;> try rfl
          case tick =>
              simp only [Op.rename, List.map_cons, Frame.rename, CcMode.rename]
              have e1 : (s.rename x y).setFrames c (.user k lib (name x y a :: ls.map (name x y)) .normal :: rest.map (Frame.rename x y)) =
                  (s.setFrames c (.user k lib (a :: ls) .normal :: rest)).rename x y := by rw [ren_setFrames]; rfl
              rw [e1]
              exact ren_destroyVar (s := s.setFrames c (.user k lib (a :: ls) .normal :: rest)) h
        | unwinding e =>
          cases op <;> try rfl
          case tick =>
              simp only [Op.rename, List.map_cons, Frame.rename, CcMode.rename]
              have e1 : (s.rename x y).setFrames c (.user k lib (ls.map (name x y)) (.unwinding (exc x y e)) :: rest.map (Frame.rename x y)) =
                  (s.setFrames c (.user k lib ls (.unwinding e) :: rest)).rename x y := by rw [ren_setFrames]; rfl
              rw [e1]
              exact ren_destroyVar (s := s.setFrames c (.user k lib ls (.unwinding e) :: rest)) h
      | exiting n =>
        cases op <;> try rfl
        case cleanup => simp [Frame.rename, mode, Res.rename, ren_setFrames, Op.rename]
        case tick => exact ren_exitStep h
      | _ => rfl

/-- **C98, whole histories.** -/
theorem C98_continuation_history {s : State} (h : Reachable s) {x y : Var} (hx : x < s.nextVar) (hy : y < s.nextVar) (l : List (Tid × Op)) :
    run (s.rename x y) (renamed x y l) = (run s l).rename x y := by
  induction l generalizing s with
  | nil => rfl
  | cons a l ih =>
    obtain ⟨t, op⟩ := a
    show run _ ((t, op.rename x y) :: renamed x y l) = _
    simp only [run, C98_continuation_step hx hy]
    cases hs : step s t op with
    | ok s' =>
      have hn := step_nextVar h hs
      exact ih (.step h hs) (Nat.lt_of_lt_of_le hx hn) (Nat.lt_of_lt_of_le hy hn)
    | _ => rfl

/-- a call stack in which neither name occurs -/
theorem frames_unnamed {x y : Var} : ∀ fs : List Frame, (∀ z ∈ Fiber.lvars (absL fs), name x y z = z) → (∀ z ∈ Fiber.evars (absL fs), name x y z = z) → (∀ z ∈ Fiber.rvars (absL fs), name x y z = z) → fs.map (Frame.rename x y) = fs := by
  intro fs
  induction fs with
  | nil => intros; rfl
  | cons f fs ih =>
    intro h1 h2 h3
    have h1' : ∀ z ∈ Fiber.lvars (absL fs), name x y z = z := fun z hz => h1 z (by simp [Fiber.lvars] at hz ⊢; simp [hz])
    have h2' : ∀ z ∈ Fiber.evars (absL fs), name x y z = z := fun z hz => h2 z (by simp [Fiber.evars] at hz ⊢; simp [hz])
    have h3' : ∀ z ∈ Fiber.rvars (absL fs), name x y z = z := fun z hz => h3 z (by simp [Fiber.rvars] at hz ⊢; simp [hz])
    rw [List.map_cons, ih h1' h2' h3']
    congr 1
    cases f with
    | user k lib ls m =>
      simp only [Frame.rename]
      rw [map_id_of (fun a ha => h1 a (by simp [Fiber.lvars, Frame.abs, Fiber.Frame.lvars, ha]))]
      congr 1
      cases m with
      | normal => rfl
      | unwinding e =>
        cases e with
        | user n => rfl
        | forced z => simp only [mode, exc]; rw [h2 z (by simp [Fiber.evars, Frame.abs, Fiber.Frame.evars])]
      | returning z =>
        cases z with
        | none => rfl
        | some z => simp only [mode, Option.map_some]; rw [h3 z (by simp [Fiber.rvars, Frame.abs, Fiber.Frame.rvars])]
    | callcc z cm k lib ls =>
      simp only [Frame.rename]
      have hz : name x y z = z := h1 z (by cases cm <;> simp [Fiber.lvars, Frame.abs, Fiber.Frame.lvars])
      have hl : ls.map (name x y) = ls := map_id_of (fun a ha => h1 a (by cases cm <;> simp [Fiber.lvars, Frame.abs, Fiber.Frame.lvars, ha]))
      rw [hz, hl]
      congr 1
      cases cm with
      | waiting => rfl
      | returning z => simp only [CcMode.rename]; rw [h1 z (by simp [Fiber.lvars, Frame.abs, Fiber.Frame.lvars])]
      | unwinding e =>
        cases e with
        | user n => rfl
        | forced z => simp only [CcMode.rename, exc]; rw [h2 z (by simp [Fiber.evars, Frame.abs, Fiber.Frame.evars])]
    | _ => rfl

/-- objects on the heap do not occur in call stacks and function objects -/
theorem rename_heap {s : State} (hi : Fiber.Inv s.abs) {x y : Var} (hx : s.kind x = .heap) (hy : s.kind y = .heap) (hhx : s.hidden x = false) (hhy : s.hidden y = false) :
    s.rename x y = { s with val := upd (upd s.val x (s.val y)) y (s.val x) } := by
  have hk : ∀ z, s.kind z ≠ .heap → name x y z = z := by
    intro z hz
    have h1 : z ≠ x := fun e => hz (e ▸ hx)
    have h2 : z ≠ y := fun e => hz (e ▸ hy)
    simp [name, Migrate.other, h1, h2]
  have hloc : ∀ c z, z ∈ Fiber.lvars (absL (s.frames c)) → name x y z = z := fun c z hz => hk z (by rw [show s.kind z = _ from (hi.oi.locs c z).1 hz]; simp)
  have hexc : ∀ c z, z ∈ Fiber.evars (absL (s.frames c)) → name x y z = z := fun c z hz => hk z (by rw [show s.kind z = _ from (hi.oi.excs c z).1 hz]; simp)
  have hret : ∀ c z, z ∈ Fiber.rvars (absL (s.frames c)) → name x y z = z := fun c z hz => hk z (by rw [show s.kind z = _ from (hi.oi.rets c z).1 hz]; simp)
  have hcap : ∀ c z, z ∈ s.caps c → name x y z = z := fun c z hz => hk z (by rw [show s.kind z = _ from (hi.oi.capv c z).1 hz]; simp)
  have hfr := fun fs => frames_unnamed (x := x) (y := y) fs
  have hval : ∀ {β : Type} (f : Var → β) v, f (name x y v) = upd (upd f x (f y)) y (f x) v := by
    intro β f v
    simp only [name, Migrate.other, upd]
    by_cases h1 : v = y
    · subst h1; by_cases h2 : v = x
      · subst h2; simp
      · simp [h2]
    · by_cases h2 : v = x
      · subst h2; simp [h1]
      · simp [h1, h2]
  simp only [State.rename]
  congr 1
  · funext c; exact hfr _ (hloc c) (hexc c) (hret c)
  · funext c; exact map_id_of (hcap c)
  · funext v; rw [hval s.kind v, hx, hy]; simp only [upd_apply]; split
    · next e => rw [e, hy]
    · split
      · next e => rw [e, hx]
      · rfl
  · funext v; exact hval s.val v
  · funext v; rw [hval s.hidden v, hhx, hhy]; simp only [upd_apply]; split
    · next e => rw [e, hhy]
    · split
      · next e => rw [e, hhx]
      · rfl

/-- **C98.** After `swap(x, y)` of two objects on the heap, every program that uses `y` where it would have used `x` and `x` where it would have used `y` has the same outcome, with the two
names exchanged. -/
theorem C98_continuation_swap {s : State} (h : Reachable s) {t : Tid} {c : CtxId} {k : UKind} {ls : List Var} {rest : List Frame} (hu : UserCode s t c k ls rest)
    {x y : Var} (hx : s.kind x = .heap) (hy : s.kind y = .heap) (hhx : s.hidden x = false) (hhy : s.hidden y = false) (l : List (Tid × Op)) :
    run s ((t, .swap x y) :: renamed x y l) = (run s l).rename x y := by
  have hi := Fiber.reachable_inv (reachable_spec h).2
  have lt : ∀ z, s.kind z = .heap → z < s.nextVar := fun z hz => Nat.lt_of_not_le (fun e => by rw [show s.kind z = _ from hi.oi.fresh z e] at hz; cases hz)
  have e : step s t (.swap x y) = .ok (s.rename x y) := by
    rw [rename_heap hi hx hy hhx hhy]
    simp [step, hu.1, hu.2, userStep, State.accessible, hx, hy, hhx, hhy, State.setVal]
  simp only [run, e]
  exact C98_continuation_history h (lt x hx) (lt y hy) l

/-- **C98.** After `y = std::move(x)`, for objects on the heap of which `y` is empty, every program that uses `y` where it would have used `x` and conversely has the same outcome, with the two
names exchanged: it does not matter in which object a context is kept. -/
theorem C98_continuation_move {s : State} (h : Reachable s) {t : Tid} {c : CtxId} {k : UKind} {ls : List Var} {rest : List Frame} (hu : UserCode s t c k ls rest)
    {x y : Var} (hx : s.kind x = .heap) (hy : s.kind y = .heap) (hhx : s.hidden x = false) (hhy : s.hidden y = false) (hn : s.val y = none) (l : List (Tid × Op)) :
    run s ((t, .moveAssign y x) :: renamed x y l) = (run s l).rename x y := by
  have hi := Fiber.reachable_inv (reachable_spec h).2
  have lt : ∀ z, s.kind z = .heap → z < s.nextVar := fun z hz => Nat.lt_of_not_le (fun e => by rw [show s.kind z = _ from hi.oi.fresh z e] at hz; cases hz)
  have e : step s t (.moveAssign y x) = .ok (s.rename x y) := by
    rw [rename_heap hi hx hy hhx hhy, hn]
    by_cases hxy : y = x
    · subst hxy
      simp [step, hu.1, hu.2, userStep, State.accessible, hy, hn, hhy]
      have : upd (upd s.val y none) y none = s.val := by funext v; simp only [upd_apply]; split <;> simp_all
      rw [this]
    · simp [step, hu.1, hu.2, userStep, State.accessible, hx, hy, hhx, hhy, State.setVal, hxy, hn]
      funext v; simp only [upd_apply]
      by_cases h1 : v = y
      · subst h1; simp [hxy]
      · simp [h1]
  simp only [run, e]
  exact C98_continuation_history h (lt x hx) (lt y hy) l

/-- what the exchange of names changes; exchanging twice changes nothing -/
theorem C98_continuation_rename {s : State} (h : Reachable s) {x y : Var} (hx : s.kind x = .heap) (hy : s.kind y = .heap) (hhx : s.hidden x = false) (hhy : s.hidden y = false) :
    (s.rename x y).val x = s.val y ∧ (s.rename x y).val y = s.val x ∧ (∀ z, z ≠ x → z ≠ y → (s.rename x y).val z = s.val z) ∧ (s.rename x y).kind = s.kind ∧
    (s.rename x y).frames = s.frames ∧ (s.rename x y).caps = s.caps ∧ (s.rename x y).status = s.status ∧ (s.rename x y).cur = s.cur ∧ (s.rename x y).log = s.log := by
  rw [rename_heap (Fiber.reachable_inv (reachable_spec h).2) hx hy hhx hhy]
  refine ⟨?_, ?_, ?_, rfl, rfl, rfl, rfl, rfl, rfl⟩
  · simp only [upd_apply]; split
    · next e => rw [← e]
    · simp
  · simp
  · intro z h1 h2; simp [upd_apply, h1, h2]

/-- object 2 is a local that holds context 1, which has been started by `callcc()` in `main` and has resumed it; objects 3 and 4 are on the heap; the context is moved to 3 -/
def hNames : List (Tid × Op) := [(0, .callcc [] .success), (0, .resume 1), (0, .tick), (0, .newHeap), (0, .newHeap), (0, .moveAssign 3 2)]

example : Reachable (exec hNames) := reachable_exec (by decide +kernel)
example : UserCode (exec hNames) 0 0 .main [2] [] ∧ (exec hNames).kind 3 = .heap ∧ (exec hNames).kind 4 = .heap ∧ (exec hNames).hidden 3 = false ∧ (exec hNames).hidden 4 = false ∧
    (exec hNames).val 3 ≠ none ∧ (exec hNames).val 4 = none :=
  ⟨⟨by decide +kernel, by decide +kernel⟩, by decide +kernel, by decide +kernel, by decide +kernel, by decide +kernel, by decide +kernel, by decide +kernel⟩
/-- the context is resumed from the other object -/
example : (match run (exec hNames) ((0, .moveAssign 4 3) :: renamed 3 4 [(0, .resume 3)]) with | .ok s => s.cur 0 | _ => none) = some 1 := by decide +kernel

end Verif.Cont
