import Verif.Cont.Model
import Verif.Fiber.Props1

/-! # Every history of the `continuation` machine is a history of the `fiber` machine -/

namespace Verif.Cont
open Verif.Fiber (CtxId Var Tid Fctx Kind Exc Mode UKind Status Event CreateOutcome upd upd_apply)

/-- An activation of `callcc` called by user code is, for the fiber machine, user code that owns one more local, the temporary. -/
def Frame.abs : Frame → Fiber.Frame
  | .user k _ ls m => .user k ls m
  | .callcc x .waiting k _ ls => .user k (x :: ls) .normal
  | .callcc x (.returning y) k _ ls => .user k (y :: x :: ls) .normal
  | .callcc x (.unwinding e) k _ ls => .user k (x :: ls) (.unwinding e)
  | .entryJump => .entryJump
  | .entryRun => .entryRun
  | .resume => .resume
  | .dtor v => .dtor v
  | .exiting c => .exiting c
  | .exitJump => .exitJump

def absL (fs : List Frame) : List Fiber.Frame := fs.map Frame.abs

def State.abs (s : State) : Fiber.State where
  cur := s.cur
  status := s.status
  seq := s.seq
  frames := fun c => absL (s.frames c)
  caps := s.caps
  kind := s.kind
  val := s.val
  nextCtx := s.nextCtx
  nextVar := s.nextVar
  nextTid := s.nextTid
  nextId := s.nextId
  lost := s.lost
  log := s.log

/-- results, `rejected` and `ok` excepted, correspond -/
def Res.abs : Res → Fiber.Res
  | .ok s => .ok s.abs
  | .rejected => .rejected
  | .terminate => .terminate
  | .assertion => .assertion
  | .ub => .ub

/-- Which frame may lie directly below which: an activation of `callcc` waits only below `resume`; `try` blocks and nested
calls are called by user code; the library object `c` of `record::run` and `context_ontop` is empty while the function runs. -/
def OkUnder : Frame → Frame → Prop
  | .resume, .user _ lib _ _ => lib = none
  | .resume, .callcc _ .waiting _ lib _ => lib = none
  | .resume, _ => False
  | .user .call _ _ _, .user _ lib _ _ => lib = none
  | .user .call _ _ _, _ => False
  | .callcc _ _ .call _ _, .user _ lib _ _ => lib = none
  | .callcc _ _ .call _ _, _ => False
  | _, .callcc _ .waiting _ _ _ => False
  | _, .callcc _ _ _ lib _ => lib = none
  | _, .user _ lib _ _ => lib = none
  | _, _ => True

/-- `CWF g fs`: the stack `fs` is in order below frame `g`. -/
def CWF : Frame → List Frame → Prop
  | _, [] => True
  | g, f :: r => OkUnder g f ∧ CWF f r

def CWFS (s : State) : Prop := ∀ c, CWF .exitJump (s.frames c)

@[simp] theorem absL_nil : absL [] = [] := rfl
@[simp] theorem absL_cons (f : Frame) (fs : List Frame) : absL (f :: fs) = f.abs :: absL fs := rfl

theorem upd_comp {α β γ : Type} [DecidableEq α] (g : β → γ) (f : α → β) (a : α) (b : β) :
    (fun x => g (upd f a b x)) = upd (fun x => g (f x)) a (g b) := by
  funext x; simp only [upd]; split <;> rfl

@[simp] theorem abs_setFrames (s : State) (c : CtxId) (fs : List Frame) :
    (s.setFrames c fs).abs = s.abs.setFrames c (absL fs) := by
  simp only [State.abs, State.setFrames, Fiber.State.setFrames, upd_comp]
@[simp] theorem abs_setVal (s : State) (x : Var) (v : Option Fctx) : (s.setVal x v).abs = s.abs.setVal x v := rfl
@[simp] theorem abs_kill (s : State) (x : Var) : (s.kill x).abs = s.abs.kill x := rfl
@[simp] theorem abs_newVar (s : State) (k : Kind) (v : Option Fctx) : (s.newVar k v).abs = s.abs.newVar k v := rfl
@[simp] theorem abs_addLog (s : State) (e : Event) : (s.addLog e).abs = s.abs.addLog e := rfl
@[simp] theorem abs_val (s : State) : s.abs.val = s.val := rfl
@[simp] theorem abs_kind (s : State) : s.abs.kind = s.kind := rfl
@[simp] theorem abs_cur (s : State) : s.abs.cur = s.cur := rfl
@[simp] theorem abs_status (s : State) : s.abs.status = s.status := rfl
@[simp] theorem abs_seq (s : State) : s.abs.seq = s.seq := rfl
@[simp] theorem abs_caps (s : State) : s.abs.caps = s.caps := rfl
@[simp] theorem abs_nextVar (s : State) : s.abs.nextVar = s.nextVar := rfl
@[simp] theorem abs_nextCtx (s : State) : s.abs.nextCtx = s.nextCtx := rfl
@[simp] theorem abs_nextTid (s : State) : s.abs.nextTid = s.nextTid := rfl
@[simp] theorem abs_nextId (s : State) : s.abs.nextId = s.nextId := rfl
@[simp] theorem abs_lost (s : State) : s.abs.lost = s.lost := rfl
@[simp] theorem abs_log (s : State) : s.abs.log = s.log := rfl
@[simp] theorem abs_frames (s : State) (c : CtxId) : s.abs.frames c = absL (s.frames c) := rfl

theorem accessible_abs {s : State} {x : Var} (h : s.accessible x = true) : s.abs.accessible x = true := by
  simp only [State.accessible, Fiber.State.accessible, abs_kind] at *
  split at h <;> simp_all

theorem all_accessible_abs {s : State} {xs : List Var} (h : xs.all s.accessible = true) : xs.all s.abs.accessible = true := by
  simp only [List.all_eq_true] at *
  exact fun x hx => accessible_abs (h x hx)

theorem abs_switch (s : State) (t : Tid) (f : Fctx) (l : Status) (a : Bool) :
    s.abs.switch t f l a = (s.switch t f l a).map (fun p => (p.1.abs, p.2)) := by
  cases hc : s.cur t with
  | none =>
    have hc' : s.abs.cur t = none := hc
    simp only [Fiber.State.switch, State.switch, hc, hc']; rfl
  | some c =>
    have hc' : s.abs.cur t = some c := hc
    simp only [Fiber.State.switch, State.switch, hc, hc']
    by_cases hh : (s.status f.ctx = .suspended ∨ (a = true ∧ s.status f.ctx = .raw)) ∧ s.seq f.ctx = f.seq
    · rw [if_pos hh]; exact (if_pos hh).trans rfl
    · rw [if_neg hh]; exact (if_neg hh).trans rfl

theorem switch_frames {s s' : State} {t : Tid} {f b : Fctx} {l : Status} {a : Bool} (h : s.switch t f l a = some (s', b)) :
    s'.frames = s.frames := by
  simp only [State.switch] at h
  split at h
  · simp at h
  · split at h
    · simp only [Option.some.injEq, Prod.mk.injEq] at h; rw [← h.1]
    · simp at h

theorem abs_finish (s : State) (t : Tid) (c : CtxId) (f : Fctx) : s.abs.finish t c f = (s.finish t c f).abs := by
  simp only [Fiber.State.finish, State.finish, Fiber.State.ontopSwitch, State.ontopSwitch]
  have := abs_switch (s.setFrames c [.exitJump]) t f .terminated false
  simp only [abs_setFrames, absL_cons, absL_nil, Frame.abs] at this
  rw [this]
  cases (s.setFrames c [.exitJump]).switch t f .terminated false with
  | none => rfl
  | some p => simp [Res.abs, Frame.abs]

theorem abs_deliver {s : State} {c : CtxId} {v : Option Fctx} (h : CWFS s) : s.abs.deliver c v = (s.deliver c v).abs := by
  have hc := h c
  simp only [Fiber.State.deliver, State.deliver, abs_frames]
  generalize s.frames c = fs at hc
  rcases fs with _ | ⟨f, r⟩
  · rfl
  · cases f with
    | callcc x cm k lib ls => cases cm <;> rfl
    | resume =>
      rcases r with _ | ⟨g, r⟩
      · rfl
      · have := hc.2.1
        cases g with
        | user => simp [Frame.abs, Res.abs]
        | callcc x cm k lib ls => cases cm <;> simp_all [OkUnder, Frame.abs, Res.abs]
        | _ => simp_all [OkUnder]
    | _ => simp [Frame.abs, Res.abs, abs_finish]

theorem abs_raiseUser {s : State} {c : CtxId} {n : Nat} (h : CWFS s) : s.abs.raiseUser c n = (s.raiseUser c n).abs := by
  have hc := h c
  simp only [Fiber.State.raiseUser, State.raiseUser, abs_frames]
  generalize s.frames c = fs at hc
  rcases fs with _ | ⟨f, r⟩
  · rfl
  · cases f with
    | callcc x cm k lib ls => cases cm <;> rfl
    | resume =>
      rcases r with _ | ⟨g, r⟩
      · rfl
      · have := hc.2.1
        cases g with
        | user => simp [Frame.abs, Res.abs]
        | callcc x cm k lib ls => cases cm <;> simp_all [OkUnder, Frame.abs, Res.abs]
        | _ => simp_all [OkUnder]
    | _ => simp [Frame.abs, Res.abs, abs_finish]

theorem abs_raiseForced {s : State} {t : Tid} {c : CtxId} {f : Fctx} (h : CWFS s) : s.abs.raiseForced t c f = (s.raiseForced t c f).abs := by
  have hc := h c
  simp only [Fiber.State.raiseForced, State.raiseForced, abs_frames]
  generalize s.frames c = fs at hc
  rcases fs with _ | ⟨f, r⟩
  · rfl
  · cases f with
    | callcc x cm k lib ls => cases cm <;> rfl
    | resume =>
      rcases r with _ | ⟨g, r⟩
      · rfl
      · have := hc.2.1
        cases g with
        | user => simp [Frame.abs, Res.abs]
        | callcc x cm k lib ls => cases cm <;> simp_all [OkUnder, Frame.abs, Res.abs]
        | _ => simp_all [OkUnder]
    | _ => simp [Frame.abs, Res.abs, abs_finish]


theorem cwfs_of_frames {s s' : State} (h : CWFS s) (he : s'.frames = s.frames) : CWFS s' := by
  intro c; rw [he]; exact h c

theorem cwfs_setFrames {s : State} {c : CtxId} {fs : List Frame} (h : CWFS s) (hf : CWF .exitJump fs) : CWFS (s.setFrames c fs) := by
  intro d
  simp only [State.setFrames, upd_apply]
  split
  · exact hf
  · exact h d

/-- frames that may be pushed onto any stack in order -/
def Frame.plain : Frame → Prop
  | .resume => False
  | .callcc .. => False
  | .user .call _ _ _ => False
  | .user _ lib _ _ => lib = none
  | _ => True

theorem okUnder_plain {g f : Frame} (hg : g.plain) (h : OkUnder .exitJump f) : OkUnder g f := by
  cases g <;> simp only [Frame.plain] at hg
  case user k lib ls m => cases k <;> simp_all [Frame.plain] <;> (cases f <;> simp_all [OkUnder]) <;> (rename_i cm _ _ _ ; cases cm <;> simp_all [OkUnder])
  all_goals (cases f <;> simp_all [OkUnder]) <;> (rename_i cm _ _ _ ; cases cm <;> simp_all [OkUnder])

theorem cwf_push {g : Frame} {fs : List Frame} (hg : g.plain) (h : CWF .exitJump fs) : CWF .exitJump (g :: fs) := by
  refine ⟨?_, ?_⟩
  · cases g <;> simp_all [Frame.plain, OkUnder]
    rename_i k _ _ _; cases k <;> simp_all [OkUnder]
  · cases fs with
    | nil => trivial
    | cons f r => exact ⟨okUnder_plain hg h.1, h.2⟩

theorem okUnder_exitJump {g f : Frame} (h : OkUnder g f) (hg : g ≠ .resume) : OkUnder .exitJump f := by
  cases g <;> simp only [ne_eq, reduceCtorEq, not_true_eq_false, not_false_eq_true] at hg
  case user k lib ls m => cases k <;> (cases f <;> simp_all [OkUnder]) <;> (rename_i cm _ _ _ ; cases cm <;> simp_all [OkUnder])
  case callcc x cm k lib ls => cases k <;> (cases f <;> simp_all [OkUnder]) <;> (rename_i cm _ _ _ ; cases cm <;> simp_all [OkUnder])
  all_goals (cases f <;> simp_all [OkUnder]) <;> (rename_i cm _ _ _ ; cases cm <;> simp_all [OkUnder])

theorem cwf_pop {g h : Frame} {fs : List Frame} (hh : CWF h (g :: fs)) (hg : g ≠ .resume) : CWF .exitJump fs := by
  cases fs with
  | nil => trivial
  | cons f r => exact ⟨okUnder_exitJump hh.2.1 hg, hh.2.2⟩

/-- a user frame calls `callcc`, or `callcc` returns to it -/
theorem cwf_callcc {g : Frame} {k : UKind} {lib : Option Fctx} {ls : List Var} {m : Mode} {r : List Frame}
    (h : CWF g (.user k lib ls m :: r)) (x : Var) (cm : CcMode) (lib' : Option Fctx) (ls' : List Var) : CWF (.callcc x cm k lib' ls') r := by
  cases r with
  | nil => trivial
  | cons f r =>
    refine ⟨?_, h.2.2⟩
    have := h.2.1
    cases k <;> (cases f <;> simp_all [OkUnder]) <;> (rename_i cm _ _ _ ; cases cm <;> simp_all [OkUnder])

theorem cwf_callcc' {k : UKind} {lib : Option Fctx} {ls : List Var} {r : List Frame} {x : Var} {cm : CcMode}
    (h : CWF (.callcc x cm k lib ls) r) (x' : Var) (cm' : CcMode) (lib' : Option Fctx) (ls' : List Var) : CWF (.callcc x' cm' k lib' ls') r := by
  cases r with
  | nil => trivial
  | cons f r =>
    refine ⟨?_, h.2⟩
    have := h.1
    cases k <;> (cases f <;> simp_all [OkUnder]) <;> (rename_i cm _ _ _ ; cases cm <;> simp_all [OkUnder])

theorem cwf_return {k : UKind} {lib lib' : Option Fctx} {ls ls' : List Var} {m : Mode} {r : List Frame} {x : Var} {cm : CcMode}
    (h : CWF (.callcc x cm k lib ls) r) (hl : lib' = none) : CWF .exitJump (.user k lib' ls' m :: r) := by
  refine ⟨hl, ?_⟩
  cases r with
  | nil => trivial
  | cons f r =>
    refine ⟨?_, h.2⟩
    have := h.1
    cases k <;> (cases f <;> simp_all [OkUnder]) <;> (rename_i cm _ _ _ ; cases cm <;> simp_all [OkUnder])

theorem cwf_user {g : Frame} {k : UKind} {lib lib' : Option Fctx} {ls ls' : List Var} {m m' : Mode} {r : List Frame}
    (h : CWF g (.user k lib ls m :: r)) (hl : lib' = none) : CWF .exitJump (.user k lib' ls' m' :: r) := by
  refine ⟨hl, ?_⟩
  cases r with
  | nil => trivial
  | cons f r =>
    refine ⟨?_, h.2.2⟩
    have := h.2.1
    cases k <;> (cases f <;> simp_all [OkUnder]) <;> (rename_i cm _ _ _ ; cases cm <;> simp_all [OkUnder])

/-- `r` keeps the stacks in order -/
def Pres (r : Res) : Prop := ∀ s', r = .ok s' → CWFS s'

theorem pres_ok {s : State} (h : CWFS s) : Pres (.ok s) := by rintro s' ⟨⟩; exact h
theorem pres_rej : Pres .rejected := by rintro s' ⟨⟩
theorem pres_term : Pres .terminate := by rintro s' ⟨⟩
theorem pres_ass : Pres .assertion := by rintro s' ⟨⟩
theorem pres_ub : Pres .ub := by rintro s' ⟨⟩

theorem pres_finish {s : State} {t : Tid} {c : CtxId} {f : Fctx} (h : CWFS s) : Pres (s.finish t c f) := by
  simp only [State.finish, State.ontopSwitch]
  split
  · exact pres_ub
  · rename_i s1 b h1
    have h2 : CWFS s1 := cwfs_of_frames (cwfs_setFrames h (by simp [CWF, OkUnder])) (switch_frames h1)
    exact pres_ok (cwfs_setFrames h2 (cwf_push (by trivial) (h2 _)))

theorem pres_deliver {s : State} {c : CtxId} {v : Option Fctx} (h : CWFS s) : Pres (s.deliver c v) := by
  have hc := h c
  simp only [State.deliver]
  split <;> rename_i h' <;> (try rw [h'] at hc)
  · exact pres_ok (cwfs_setFrames (s := s.newVar _ _) h (cwf_push (by simp [Frame.plain]) (cwf_push (by trivial) (cwf_pop hc (by simp)))))
  · exact pres_ok (cwfs_setFrames (s := s.newVar _ _) h (cwf_user hc.2 hc.2.1))
  · exact pres_ok (cwfs_setFrames (s := s.newVar _ _) h ⟨hc.2.1, cwf_callcc' hc.2.2 _ _ _ _⟩)
  · exact pres_ok (cwfs_setFrames h (cwf_pop hc (by simp)))
  · exact pres_ub

theorem pres_raiseUser {s : State} {c : CtxId} {n : Nat} (h : CWFS s) : Pres (s.raiseUser c n) := by
  have hc := h c
  simp only [State.raiseUser]
  split <;> rename_i h' <;> (try rw [h'] at hc)
  · exact pres_term
  · exact pres_ok (cwfs_setFrames h (cwf_user hc.2 hc.2.1))
  · exact pres_ok (cwfs_setFrames h ⟨hc.2.1, cwf_callcc' hc.2.2 _ _ _ _⟩)
  · exact pres_term
  · exact pres_ub

theorem pres_raiseForced {s : State} {t : Tid} {c : CtxId} {f : Fctx} (h : CWFS s) : Pres (s.raiseForced t c f) := by
  have hc := h c
  simp only [State.raiseForced]
  split <;> rename_i h' <;> (try rw [h'] at hc)
  · exact pres_finish h
  · exact pres_ok (cwfs_setFrames (s := s.newVar _ _) h (cwf_user hc.2 hc.2.1))
  · exact pres_ok (cwfs_setFrames (s := s.newVar _ _) h ⟨hc.2.1, cwf_callcc' hc.2.2 _ _ _ _⟩)
  · exact pres_term
  · exact pres_ub

theorem destroyFctx_spec {s : State} {t : Tid} {c : CtxId} {f : Fctx} (h : CWFS s) :
    s.abs.destroyFctx t c f = (s.destroyFctx t c f).abs ∧ Pres (s.destroyFctx t c f) := by
  simp only [Fiber.State.destroyFctx, State.destroyFctx, Fiber.State.ontopSwitch, State.ontopSwitch]
  have := abs_switch (s.setFrames c (.dtor f.ctx :: s.frames c)) t f .suspended false
  simp only [abs_setFrames, absL_cons, Frame.abs, ← abs_frames] at this
  rw [this]
  have hd : CWFS (s.setFrames c (.dtor f.ctx :: s.frames c)) := cwfs_setFrames h (cwf_push (by trivial) (h c))
  cases h1 : (s.setFrames c (.dtor f.ctx :: s.frames c)).switch t f .suspended false with
  | none => exact ⟨rfl, pres_ub⟩
  | some p =>
    have h2 : CWFS p.1 := cwfs_of_frames hd (switch_frames (b := p.2) h1)
    exact ⟨abs_raiseForced h2, pres_raiseForced h2⟩

theorem destroyVar_spec {s : State} {t : Tid} {c : CtxId} {x : Var} (h : CWFS s) :
    s.abs.destroyVar t c x = (s.destroyVar t c x).abs ∧ Pres (s.destroyVar t c x) := by
  simp only [Fiber.State.destroyVar, State.destroyVar, abs_val]
  cases s.val x with
  | none => exact ⟨rfl, pres_ok h⟩
  | some f => exact destroyFctx_spec (s := s.kill x) h

theorem doResume_spec {s : State} {t : Tid} {c : CtxId} {x : Var} (h : ∀ d, d ≠ c → CWF .exitJump (s.frames d)) (hc : CWF .resume (s.frames c)) :
    s.abs.doResume t c x = (s.doResume t c x).abs ∧ Pres (s.doResume t c x) := by
  simp only [Fiber.State.doResume, State.doResume, Fiber.State.jump, State.jump, abs_val]
  cases s.val x with
  | none => exact ⟨rfl, pres_ass⟩
  | some f =>
    simp only []
    have := abs_switch ((s.setVal x none).setFrames c (.resume :: s.frames c)) t f .suspended true
    simp only [abs_setFrames, absL_cons, Frame.abs, ← abs_frames, abs_setVal] at this
    rw [this]
    have hd : CWFS ((s.setVal x none).setFrames c (.resume :: s.frames c)) := by
      intro d
      simp only [State.setFrames, upd_apply]
      split
      · exact ⟨trivial, hc⟩
      · exact h d ‹_›
    cases h1 : ((s.setVal x none).setFrames c (.resume :: s.frames c)).switch t f .suspended true with
    | none => exact ⟨rfl, pres_ub⟩
    | some p =>
      have h2 : CWFS p.1 := cwfs_of_frames hd (switch_frames (b := p.2) h1)
      exact ⟨abs_deliver h2, pres_deliver h2⟩

theorem doResumeWith_spec {s : State} {t : Tid} {c : CtxId} {x : Var} (h : CWFS s) (hc : CWF .resume (s.frames c)) :
    s.abs.doResumeWith t c x = (s.doResumeWith t c x false).abs ∧ Pres (s.doResumeWith t c x false) := by
  simp only [Fiber.State.doResumeWith, State.doResumeWith, Fiber.State.ontopSwitch, State.ontopSwitch, abs_val]
  cases s.val x with
  | none => exact ⟨rfl, pres_ass⟩
  | some f =>
    simp only []
    have := abs_switch ((s.setVal x none).setFrames c (.resume :: s.frames c)) t f .suspended false
    simp only [abs_setFrames, absL_cons, Frame.abs, ← abs_frames, abs_setVal] at this
    rw [this]
    have hd : CWFS ((s.setVal x none).setFrames c (.resume :: s.frames c)) := cwfs_setFrames (s := s.setVal x none) h ⟨trivial, hc⟩
    cases h1 : ((s.setVal x none).setFrames c (.resume :: s.frames c)).switch t f .suspended false with
    | none => exact ⟨rfl, pres_ub⟩
    | some p =>
      have h2 : CWFS p.1 := cwfs_of_frames hd (switch_frames (b := p.2) h1)
      refine ⟨?_, ?_⟩
      · simp [Res.abs, Frame.abs]
        rfl
      · refine pres_ok (cwfs_of_frames (s := State.setFrames p.1 f.ctx (.user (.ontop p.1.nextId) none [p.1.nextVar] .normal :: p.1.frames f.ctx)) ?_ rfl)
        exact cwfs_setFrames h2 (cwf_push (by simp [Frame.plain]) (h2 _))

theorem doWithThrows_spec {s : State} {t : Tid} {c : CtxId} {k : UKind} {lib : Option Fctx} {ls : List Var} {rest : List Frame} {x : Var} {n : Nat} {b : Bool}
    (h : CWFS s) (hc : CWF .resume (s.frames c)) (hu : CWF .exitJump (.user k lib ls (.unwinding (.user n)) :: rest)) :
    s.abs.doWithThrows t c k ls (absL rest) x n b = (s.doWithThrows t c k lib ls rest x n b).abs ∧ Pres (s.doWithThrows t c k lib ls rest x n b) := by
  simp only [Fiber.State.doWithThrows, State.doWithThrows, Fiber.State.ontopSwitch, State.ontopSwitch, abs_val]
  cases s.val x with
  | none => exact ⟨rfl, pres_ass⟩
  | some f =>
    cases b with
    | false =>
      simp only [Bool.false_eq_true, if_false]
      exact ⟨by simp [Res.abs, Frame.abs], pres_ok (cwfs_setFrames h hu)⟩
    | true =>
    simp only [if_true]
    have := abs_switch ((s.setVal x none).setFrames c (.resume :: s.frames c)) t f .suspended false
    simp only [abs_setFrames, absL_cons, Frame.abs, ← abs_frames, abs_setVal] at this
    rw [this]
    have hd : CWFS ((s.setVal x none).setFrames c (.resume :: s.frames c)) := cwfs_setFrames (s := s.setVal x none) h ⟨trivial, hc⟩
    cases h1 : ((s.setVal x none).setFrames c (.resume :: s.frames c)).switch t f .suspended false with
    | none => exact ⟨rfl, pres_ub⟩
    | some p =>
      have h2 : CWFS p.1 := cwfs_of_frames hd (switch_frames (b := p.2) h1)
      have h3 : CWFS { p.1 with lost := upd p.1.lost p.2.ctx true } := cwfs_of_frames h2 rfl
      exact ⟨(abs_raiseUser h3 :), pres_raiseUser h3⟩

theorem abs_capture (s : State) (n : CtxId) (xs : List Var) : (s.capture n xs).abs = s.abs.capture n xs := by
  induction xs generalizing s with
  | nil => rfl
  | cons x xs ih => simp only [State.capture, Fiber.State.capture]; rw [ih]; rfl

theorem capture_frames (s : State) (n : CtxId) (xs : List Var) : (s.capture n xs).frames = s.frames := by
  induction xs generalizing s with
  | nil => rfl
  | cons x xs ih => simp only [State.capture]; rw [ih]; rfl

theorem capture_nextVar (s : State) (n : CtxId) (xs : List Var) : (s.capture n xs).nextVar = s.nextVar + xs.length := by
  induction xs generalizing s with
  | nil => rfl
  | cons x xs ih => simp only [State.capture]; rw [ih]; simp [State.newVar, State.setVal]; omega

theorem switch_nextVar {s s' : State} {t : Tid} {f b : Fctx} {l : Status} {a : Bool} (h : s.switch t f l a = some (s', b)) :
    s'.nextVar = s.nextVar := by
  simp only [State.switch] at h
  split at h
  · simp at h
  · split at h
    · simp only [Option.some.injEq, Prod.mk.injEq] at h; rw [← h.1]
    · simp at h

theorem switch_cur {s s' : State} {t : Tid} {f b : Fctx} {l : Status} {a : Bool} (h : s.switch t f l a = some (s', b)) :
    s'.cur t = some f.ctx ∧ s.cur t = some b.ctx := by
  simp only [State.switch] at h
  split at h
  · simp at h
  · split at h
    · simp only [Option.some.injEq, Prod.mk.injEq] at h; rw [← h.1, ← h.2]; simp [*]
    · simp at h

open Fiber in
/-- `callcc` of `continuation` is, for the fiber machine, `create` followed by `resume` of the created object. -/
theorem doCallcc_spec {s : State} {t : Tid} {c : CtxId} {k : UKind} {lib : Option Fctx} {ls : List Var} {rest : List Frame} {xs : List Var}
    (h : CWFS s) (hcur : s.cur t = some c) (hf : s.frames c = .user k lib ls .normal :: rest) (ha : xs.all s.accessible = true) :
    Fiber.run s.abs [(t, .create xs .success), (t, .resume (s.nextVar + xs.length))] = (s.doCallcc t c k lib ls rest xs).abs ∧
      Pres (s.doCallcc t c k lib ls rest xs) := by
  have hlib : lib = none := by have := (h c); rw [hf] at this; exact this.1
  have hstep : Fiber.step s.abs t (.create xs .success) = s.abs.doCreate t c k ls (absL rest) xs := by
    simp only [Fiber.step, abs_cur, hcur, abs_frames, hf, absL_cons, Frame.abs, Fiber.userStep, all_accessible_abs ha, if_true]
  simp only [Fiber.run, hstep]
  simp only [Fiber.State.doCreate, State.doCallcc, abs_nextCtx, Fiber.State.jump, State.jump]
  obtain ⟨s1, hs1⟩ : ∃ s1, s1 = ({ s with nextCtx := s.nextCtx + 1 }.addLog (.alloc s.nextCtx)).capture s.nextCtx xs := ⟨_, rfl⟩
  have e1 : ({ s.abs with nextCtx := s.nextCtx + 1 }.addLog (.alloc s.nextCtx)).capture s.nextCtx xs = s1.abs := by
    rw [hs1, abs_capture]; rfl
  have f1 : s1.frames = s.frames := by rw [hs1, capture_frames]; rfl
  have n1 : s1.nextVar = s.nextVar + xs.length := by rw [hs1, capture_nextVar]; rfl
  rw [e1, ← hs1]
  obtain ⟨s2, hs2⟩ : ∃ s2, s2 = { s1 with status := upd s1.status s.nextCtx .raw, seq := upd s1.seq s.nextCtx 0 } := ⟨_, rfl⟩
  have e2 : ({ s1.abs with status := upd s1.abs.status s.nextCtx .raw, seq := upd s1.abs.seq s.nextCtx 0 } : Fiber.State) = s2.abs := by
    rw [hs2]; rfl
  have f2 : s2.frames = s.frames := by rw [hs2]; exact f1
  have n2 : s2.nextVar = s.nextVar + xs.length := by rw [hs2]; exact n1
  rw [e2, ← hs2, abs_switch]
  cases h3 : s2.switch t ⟨s.nextCtx, 0⟩ .suspended true with
  | none => exact ⟨rfl, pres_ub⟩
  | some p =>
    obtain ⟨s3, back⟩ := p
    simp only [Option.map_some]
    have e3 : s3.abs.setFrames s.nextCtx [.entryJump] = (s3.setFrames s.nextCtx [.entryJump]).abs := by simp [Frame.abs]
    rw [e3, abs_switch]
    have f3 : s3.frames = s.frames := by rw [switch_frames h3, f2]
    have n3 : s3.nextVar = s.nextVar + xs.length := by rw [switch_nextVar h3, n2]
    have c2 : s2.cur t = some c := by
      rw [hs2, hs1]
      have : ∀ (s : State) n xs, (s.capture n xs).cur = s.cur := by
        intro s n xs
        induction xs generalizing s with
        | nil => rfl
        | cons x xs ih => simp only [State.capture]; rw [ih]; rfl
      show (State.capture _ _ _).cur t = _
      rw [this]; exact hcur
    have c3 := switch_cur h3
    cases h4 : (s3.setFrames s.nextCtx [.entryJump]).switch t back .suspended true with
    | none => exact ⟨rfl, pres_ub⟩
    | some p =>
      obtain ⟨s4, f⟩ := p
      simp only [Option.map_some]
      have f4 := switch_frames h4
      have n4 : s4.nextVar = s.nextVar + xs.length := by rw [switch_nextVar h4]; exact n3
      have c4 := (switch_cur h4).1
      have hbc : back.ctx = c := by have := c3.2; rw [c2] at this; simpa using this.symm
      rw [hbc] at c4
      obtain ⟨s5, hs5⟩ : ∃ s5, s5 = ({ s4.newVar (.loc c) (some f) with hidden := upd s4.hidden s4.nextVar true }.setFrames c
          (.callcc s4.nextVar .waiting k lib ls :: rest)) := ⟨_, rfl⟩
      have e5 : (s4.abs.newVar (.loc c) (some f)).setFrames c (.user k (s4.abs.nextVar :: ls) .normal :: absL rest) = s5.abs := by
        rw [hs5]; simp only [abs_setFrames, absL_cons, Frame.abs]; rfl
      rw [e5, ← hs5]
      have c5 : s5.cur t = some c := by rw [hs5]; exact c4
      have f5 : s5.frames c = .callcc s4.nextVar .waiting k lib ls :: rest := by rw [hs5]; simp [State.setFrames]
      have k5 : s5.abs.accessible s4.nextVar = true := by rw [hs5]; simp [Fiber.State.accessible, State.newVar, State.abs, State.setFrames]
      have hst : Fiber.step s5.abs t (.resume (s.nextVar + xs.length)) = s5.abs.doResume t c s4.nextVar := by
        simp only [Fiber.step, abs_cur, c5, abs_frames, f5, absL_cons, Frame.abs, Fiber.userStep, ← n4, k5, if_true]
      simp only [hst]
      have hds := doResume_spec (s := s5) (t := t) (c := c) (x := s4.nextVar) (by
          intro d hd
          rw [hs5]
          simp only [State.setFrames, upd_apply, hd, if_false]
          show CWF _ (s4.frames d)
          rw [f4]
          simp only [State.setFrames, upd_apply]
          split
          · exact ⟨trivial, trivial⟩
          · rw [f3]; exact h d) (by
          rw [f5]
          refine ⟨hlib, ?_⟩
          have := h c
          rw [hf] at this
          exact cwf_callcc this _ _ _ _)
      rw [hds.1]
      refine ⟨?_, hds.2⟩
      cases s5.doResume t c s4.nextVar <;> rfl

theorem exitStep_spec {s : State} {t : Tid} {c n : CtxId} {rest : List Frame} (h : CWFS s) (hf : s.frames c = .exiting n :: rest) :
    Fiber.exitStep s.abs t c n (absL rest) = (exitStep s t c n rest).abs ∧ Pres (exitStep s t c n rest) := by
  have hc := h c
  rw [hf] at hc
  simp only [Fiber.exitStep, exitStep, abs_caps, abs_status]
  cases s.caps n with
  | cons x xs => exact destroyVar_spec (s := { s with caps := upd s.caps n xs }) h
  | nil =>
    simp only []
    by_cases hst : s.status n = .terminated
    · rw [if_pos hst]
      have h2 : CWFS (({ s with status := upd s.status n .freed, frames := upd (upd s.frames n []) c rest }).addLog (.dealloc n)) := by
        intro d
        simp only [State.addLog, upd_apply]
        split
        · exact cwf_pop hc (by simp)
        · split
          · trivial
          · exact h d
      refine ⟨?_, pres_deliver h2⟩
      rw [← abs_deliver h2]
      refine (if_pos hst).trans ?_
      congr 1
      simp only [State.abs, State.addLog, Fiber.State.addLog, upd_comp]
      rfl
    · rw [if_neg hst]; exact ⟨(if_neg hst).trans rfl, pres_ub⟩

theorem propagate_spec {s : State} {t : Tid} {c : CtxId} {k : UKind} {lib : Option Fctx} {ls : List Var} {m : Mode} {e : Exc} {rest : List Frame} (h : CWFS s)
    (hf : s.frames c = .user k lib ls m :: rest) :
    Fiber.propagate s.abs t c k e (absL rest) = (propagate s t c k e rest).abs ∧ Pres (propagate s t c k e rest) := by
  have hc := h c
  rw [hf] at hc
  cases k with
  | main => exact ⟨rfl, pres_term⟩
  | cleanup => exact ⟨rfl, pres_term⟩
  | call =>
    rcases rest with _ | ⟨g, r⟩
    · exact ⟨rfl, pres_ub⟩
    · have h1 := hc.2.1
      cases g <;> simp only [OkUnder] at h1
      refine ⟨?_, ?_⟩
      · simp [Fiber.propagate, propagate, Frame.abs, Res.abs]
      · exact pres_ok (cwfs_setFrames h (cwf_user hc.2 h1))
  | fn =>
    simp only [Fiber.propagate, propagate, abs_val]
    cases e with
    | user => exact ⟨rfl, pres_term⟩
    | forced x =>
      simp only []
      cases s.val x with
      | none => exact ⟨rfl, pres_ass⟩
      | some f => exact ⟨abs_finish (s.kill x) t c f, pres_finish (s := s.kill x) h⟩
  | ontop i =>
    simp only [Fiber.propagate, propagate, abs_val]
    have h1 : CWFS (s.setFrames c rest) := cwfs_setFrames h (cwf_pop hc (by simp))
    cases e with
    | user =>
      refine ⟨?_, pres_raiseUser h1⟩
      simp only []
      rw [← abs_raiseUser h1, abs_setFrames]
    | forced x =>
      simp only []
      cases s.val x with
      | none => exact ⟨rfl, pres_ub⟩
      | some f =>
        have h2 : CWFS ((s.setFrames c rest).kill x) := h1
        refine ⟨?_, pres_raiseForced h2⟩
        simp only []
        rw [← abs_raiseForced h2, abs_kill, abs_setFrames]

theorem leave_spec {s : State} {t : Tid} {c : CtxId} {k : UKind} {lib : Option Fctx} {ls : List Var} {m : Mode} {x : Option Var} {rest : List Frame}
    (h : CWFS s) (hf : s.frames c = .user k lib ls m :: rest) :
    Fiber.leave s.abs t c k x (absL rest) = (leave s t c k x rest).abs ∧ Pres (leave s t c k x rest) := by
  have hc := h c
  rw [hf] at hc
  have h1 : CWFS (s.setFrames c rest) := cwfs_setFrames h (cwf_pop hc (by simp))
  cases k <;> cases x <;> simp only [Fiber.leave, leave, abs_val]
  case main.none =>
    refine ⟨?_, pres_ok ?_⟩
    · simp only [Res.abs, State.abs, upd_comp]; rfl
    · exact cwfs_setFrames (s := { s with cur := upd s.cur t none, status := upd s.status c .ended }) h trivial
  case call.none => exact ⟨by simp [Res.abs], pres_ok h1⟩
  case cleanup.none => exact ⟨by simp [Res.abs], pres_ok h1⟩
  case fn.some x =>
    cases s.val x with
    | none => exact ⟨rfl, pres_ass⟩
    | some f => exact ⟨abs_finish (s.kill x) t c f, pres_finish (s := s.kill x) h⟩
  case ontop.some i x =>
    have h2 : CWFS ((s.setFrames c rest).kill x) := h1
    refine ⟨?_, pres_deliver h2⟩
    rw [← abs_deliver h2, abs_kill, abs_setFrames]
  all_goals exact ⟨rfl, pres_ub⟩

end Verif.Cont
