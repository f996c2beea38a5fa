import Verif.UCont.Model
import Verif.UFiber.Props3

/-! # Every history of the `continuation` machine on ucontext is a history of the `fiber` machine on ucontext -/

namespace Verif.UCont
open Verif.Fiber (CtxId Var Tid Kind Exc Mode UKind Status Event CreateOutcome upd upd_apply)

/-- An activation of `callcc` called by user code is, for the fiber machine, user code that owns one more local, the temporary. -/
def Frame.abs : Frame → Fiber.Frame
  | .user k ls m => .user k ls m
  | .callcc x .waiting k ls => .user k (x :: ls) .normal
  | .callcc x (.returning y) k ls => .user k (y :: x :: ls) .normal
  | .callcc x (.unwinding e) k ls => .user k (x :: ls) (.unwinding e)
  | .entryJump => .entryJump
  | .entryRun => .entryRun
  | .resume => .resume
  | .dtor v => .dtor v
  | .exiting c => .exiting c
  | .exitJump => .exitJump

def absL (fs : List Frame) : List Fiber.Frame := fs.map Frame.abs

def State.abs (s : State) : UFiber.State where
  cur := s.cur
  status := s.status
  frames := fun c => absL (s.frames c)
  caps := s.caps
  kind := s.kind
  val := s.val
  root := s.root
  frm := s.frm
  ontop := s.ontop
  term := s.term
  unw := s.unw
  nextCtx := s.nextCtx
  nextVar := s.nextVar
  nextTid := s.nextTid
  nextId := s.nextId
  lost := s.lost
  early := s.early
  log := s.log

/-- Results correspond; where the fiber machine asserts that an object is not empty, the continuation machine has undefined behaviour. -/
def Sim : Res → UFiber.Res → Prop
  | .ok s, r => r = .ok s.abs
  | .rejected, _ => True
  | .terminate, r => r = .terminate
  | .assertion, r => r = .assertion
  | .ub, r => r = .ub ∨ r = .assertion

/-- Which frame may lie directly below which: an activation of `callcc` waits only below `resume`; nested calls are called by user code. -/
def OkUnder : Frame → Frame → Prop
  | .resume, .user _ _ _ => True
  | .resume, .callcc _ .waiting _ _ => True
  | .resume, _ => False
  | .user .call _ _, .user _ _ _ => True
  | .user .call _ _, _ => False
  | .callcc _ _ .call _, .user _ _ _ => True
  | .callcc _ _ .call _, _ => False
  | _, .callcc _ .waiting _ _ => False
  | _, _ => True

/-- `CWF g fs`: the stack `fs` is in order below frame `g`. -/
def CWF : Frame → List Frame → Prop
  | _, [] => True
  | g, f :: r => OkUnder g f ∧ CWF f r

def CWFS (s : State) : Prop := ∀ c, CWF .exitJump (s.frames c)

@[simp] theorem absL_nil : absL [] = [] := rfl
@[simp] theorem absL_cons (f : Frame) (fs : List Frame) : absL (f :: fs) = f.abs :: absL fs := rfl

theorem upd_comp {α β γ : Type} [DecidableEq α] (g : β → γ) (f : α → β) (a : α) (b : β) :
    (fun x => g (upd f a b x)) = upd (fun x => g (f x)) a (g b) := by
  funext x; simp only [upd]; split <;> rfl

@[simp] theorem abs_setFrames (s : State) (c : CtxId) (fs : List Frame) :
    (s.setFrames c fs).abs = s.abs.setFrames c (absL fs) := by
  simp only [State.abs, State.setFrames, UFiber.State.setFrames, upd_comp]
@[simp] theorem abs_setVal (s : State) (x : Var) (v : Option CtxId) : (s.setVal x v).abs = s.abs.setVal x v := rfl
@[simp] theorem abs_kill (s : State) (x : Var) : (s.kill x).abs = s.abs.kill x := rfl
@[simp] theorem abs_newVar (s : State) (k : Kind) (v : Option CtxId) : (s.newVar k v).abs = s.abs.newVar k v := rfl
@[simp] theorem abs_addLog (s : State) (e : Event) : (s.addLog e).abs = s.abs.addLog e := rfl
@[simp] theorem abs_val (s : State) : s.abs.val = s.val := rfl
@[simp] theorem abs_kind (s : State) : s.abs.kind = s.kind := rfl
@[simp] theorem abs_cur (s : State) : s.abs.cur = s.cur := rfl
@[simp] theorem abs_status (s : State) : s.abs.status = s.status := rfl
@[simp] theorem abs_caps (s : State) : s.abs.caps = s.caps := rfl
@[simp] theorem abs_root (s : State) : s.abs.root = s.root := rfl
@[simp] theorem abs_frm (s : State) : s.abs.frm = s.frm := rfl
@[simp] theorem abs_ontop (s : State) : s.abs.ontop = s.ontop := rfl
@[simp] theorem abs_term (s : State) : s.abs.term = s.term := rfl
@[simp] theorem abs_unw (s : State) : s.abs.unw = s.unw := rfl
@[simp] theorem abs_nextVar (s : State) : s.abs.nextVar = s.nextVar := rfl
@[simp] theorem abs_nextCtx (s : State) : s.abs.nextCtx = s.nextCtx := rfl
@[simp] theorem abs_nextTid (s : State) : s.abs.nextTid = s.nextTid := rfl
@[simp] theorem abs_nextId (s : State) : s.abs.nextId = s.nextId := rfl
@[simp] theorem abs_lost (s : State) : s.abs.lost = s.lost := rfl
@[simp] theorem abs_early (s : State) : s.abs.early = s.early := rfl
@[simp] theorem abs_log (s : State) : s.abs.log = s.log := rfl
@[simp] theorem abs_frames (s : State) (c : CtxId) : s.abs.frames c = absL (s.frames c) := rfl

theorem accessible_abs {s : State} {x : Var} (h : s.accessible x = true) : s.abs.accessible x = true := by
  simp only [State.accessible, UFiber.State.accessible, abs_kind] at *
  split at h <;> simp_all

theorem all_accessible_abs {s : State} {xs : List Var} (h : xs.all s.accessible = true) : xs.all s.abs.accessible = true := by
  simp only [List.all_eq_true] at *
  exact fun x hx => accessible_abs (h x hx)

theorem abs_switchTo (s : State) (t : Tid) (w : CtxId) (l : Status) :
    s.abs.switchTo t w l = (s.switchTo t w l).map State.abs := by
  cases hc : s.cur t with
  | none =>
    have hc' : s.abs.cur t = none := hc
    simp only [UFiber.State.switchTo, State.switchTo, hc, hc']; rfl
  | some c =>
    have hc' : s.abs.cur t = some c := hc
    simp only [UFiber.State.switchTo, State.switchTo, hc, hc']
    by_cases hh : s.status w = .suspended
    · rw [if_pos hh]; exact (if_pos hh).trans rfl
    · rw [if_neg hh]; exact (if_neg hh).trans rfl

theorem switchTo_frames {s s' : State} {t : Tid} {w : CtxId} {l : Status} (h : s.switchTo t w l = some s') : s'.frames = s.frames := by
  simp only [State.switchTo] at h
  split at h
  · simp at h
  · split at h
    · simp only [Option.some.injEq] at h; rw [← h]
    · simp at h

theorem switchTo_hidden {s s' : State} {t : Tid} {w : CtxId} {l : Status} (h : s.switchTo t w l = some s') : s'.hidden = s.hidden := by
  simp only [State.switchTo] at h
  split at h
  · simp at h
  · split at h
    · simp only [Option.some.injEq] at h; rw [← h]
    · simp at h

theorem switchTo_early {s s' : State} {t : Tid} {w : CtxId} {l : Status} (h : s.switchTo t w l = some s') : s'.early = s.early := by
  simp only [State.switchTo] at h
  split at h
  · simp at h
  · split at h
    · simp only [Option.some.injEq] at h; rw [← h]
    · simp at h

/-- `r`, if a state, has stacks in order -/
def Pres (r : Res) : Prop := ∀ s', r = .ok s' → CWFS s'

theorem pres_ok {s : State} (h : CWFS s) : Pres (.ok s) := by rintro s' ⟨⟩; exact h
theorem pres_rej : Pres .rejected := by rintro s' ⟨⟩
theorem pres_term : Pres .terminate := by rintro s' ⟨⟩
theorem pres_ass : Pres .assertion := by rintro s' ⟨⟩
theorem pres_ub : Pres .ub := by rintro s' ⟨⟩

/-- results correspond, and stacks stay in order -/
def SP (r : Res) (r' : UFiber.Res) : Prop := Sim r r' ∧ Pres r

theorem sp_ok {s : State} {r : UFiber.Res} (h : CWFS s) (hr : r = .ok s.abs) : SP (.ok s) r := ⟨hr, pres_ok h⟩
theorem sp_rej {r : UFiber.Res} : SP .rejected r := ⟨trivial, pres_rej⟩
theorem sp_term : SP .terminate .terminate := ⟨rfl, pres_term⟩
theorem sp_ass : SP .assertion .assertion := ⟨rfl, pres_ass⟩
theorem sp_ub : SP .ub .ub := ⟨.inl rfl, pres_ub⟩
theorem sp_null : SP .ub .assertion := ⟨.inr rfl, pres_ub⟩
theorem sp_ite {p : Prop} {i j : Decidable p} {a b : Res} {a' b' : UFiber.Res} (h1 : p → SP a a') (h2 : ¬ p → SP b b') :
    SP (@ite _ p i a b) (@ite _ p j a' b') := by
  by_cases h : p
  · rw [if_pos h, if_pos h]; exact h1 h
  · rw [if_neg h, if_neg h]; exact h2 h

theorem cwfs_of_frames {s s' : State} (h : CWFS s) (he : s'.frames = s.frames) : CWFS s' := by
  intro c; rw [he]; exact h c

theorem cwfs_setFrames {s : State} {c : CtxId} {fs : List Frame} (h : CWFS s) (hf : CWF .exitJump fs) : CWFS (s.setFrames c fs) := by
  intro d
  simp only [State.setFrames, upd_apply]
  split
  · exact hf
  · exact h d

/-- frames that may be put on any stack in order -/
def Frame.plain : Frame → Prop
  | .user k _ _ => k ≠ .call
  | .callcc _ _ _ _ => False
  | .resume => False
  | _ => True

theorem okUnder_plain {g f : Frame} (hg : g.plain) (h : OkUnder .exitJump f) : OkUnder g f := by
  cases g <;> simp only [Frame.plain] at hg <;> cases f <;> simp_all [OkUnder]
  all_goals (first | (rename_i k _ _ _; cases k <;> simp_all [OkUnder]; done) | (rename_i k _ _ _ cm _ _; cases k <;> cases cm <;> simp_all [OkUnder]; done) | (rename_i cm _ _; cases cm <;> simp_all [OkUnder]; done) | (rename_i k _ _; cases k <;> simp_all [OkUnder]; done) | skip)

theorem cwf_push {g : Frame} {fs : List Frame} (hg : g.plain) (h : CWF .exitJump fs) : CWF .exitJump (g :: fs) := by
  refine ⟨by cases g <;> simp_all [Frame.plain, OkUnder], ?_⟩
  rcases fs with _ | ⟨f, r⟩
  · trivial
  · exact ⟨okUnder_plain hg h.1, h.2⟩

theorem okUnder_exitJump {g f : Frame} (h : OkUnder g f) (hg : g ≠ .resume) : OkUnder .exitJump f := by
  cases f with
  | callcc x2 cm2 k2 l2 =>
    cases cm2 with
    | waiting =>
      cases g with
      | user k _ _ => cases k <;> simp_all [OkUnder]
      | callcc x cm k _ => cases k <;> simp_all [OkUnder]
      | _ => simp_all [OkUnder]
    | _ => trivial
  | _ => trivial

theorem cwf_pop {g h : Frame} {fs : List Frame} (hh : CWF h (g :: fs)) (hg : g ≠ .resume) : CWF .exitJump fs := by
  rcases fs with _ | ⟨f, r⟩
  · trivial
  · exact ⟨okUnder_exitJump hh.2.1 hg, hh.2.2⟩

/-- what lies below depends only on the kind of the activation -/
theorem okUnder_congr {k : UKind} {ls ls' : List Var} {m m' : Mode} {f : Frame} (h : OkUnder (.user k ls m) f) : OkUnder (.user k ls' m') f := by
  cases f with
  | callcc x2 cm2 k2 l2 => cases cm2 <;> cases k <;> simp_all [OkUnder]
  | _ => cases k <;> simp_all [OkUnder]

theorem okUnder_cc {k : UKind} {ls ls' : List Var} {m : Mode} {x : Var} {cm : CcMode} {f : Frame} (h : OkUnder (.user k ls m) f) :
    OkUnder (.callcc x cm k ls') f := by
  cases f with
  | callcc x2 cm2 k2 l2 => cases cm2 <;> cases k <;> simp_all [OkUnder]
  | _ => cases k <;> simp_all [OkUnder]

theorem okUnder_cc' {k : UKind} {ls ls' : List Var} {x x' : Var} {cm cm' : CcMode} {f : Frame} (h : OkUnder (.callcc x cm k ls) f) :
    OkUnder (.callcc x' cm' k ls') f := by
  cases f with
  | callcc x2 cm2 k2 l2 => cases cm2 <;> cases k <;> simp_all [OkUnder]
  | _ => cases k <;> simp_all [OkUnder]

theorem okUnder_ret {k : UKind} {ls ls' : List Var} {x : Var} {m : Mode} {cm : CcMode} {f : Frame} (h : OkUnder (.callcc x cm k ls) f) :
    OkUnder (.user k ls' m) f := by
  cases f with
  | callcc x2 cm2 k2 l2 => cases cm2 <;> cases k <;> simp_all [OkUnder]
  | _ => cases k <;> simp_all [OkUnder]

theorem cwf_user {g : Frame} {k : UKind} {ls ls' : List Var} {m m' : Mode} {r : List Frame} (h : CWF g (.user k ls m :: r)) :
    CWF .exitJump (.user k ls' m' :: r) := by
  refine ⟨trivial, ?_⟩
  rcases r with _ | ⟨f, r⟩
  · trivial
  · exact ⟨okUnder_congr h.2.1, h.2.2⟩

/-- as `cwf_user`, for the part below -/
theorem cwf_below {k : UKind} {ls ls' : List Var} {m m' : Mode} {r : List Frame} (h : CWF (.user k ls m) r) : CWF (.user k ls' m') r := by
  rcases r with _ | ⟨f, r⟩
  · trivial
  · exact ⟨okUnder_congr h.1, h.2⟩

theorem cwf_belowcc {k : UKind} {ls ls' : List Var} {m : Mode} {x : Var} {cm : CcMode} {r : List Frame} (h : CWF (.user k ls m) r) :
    CWF (.callcc x cm k ls') r := by
  rcases r with _ | ⟨f, r⟩
  · trivial
  · exact ⟨okUnder_cc h.1, h.2⟩

theorem cwf_callcc' {k : UKind} {ls : List Var} {r : List Frame} {x : Var} {cm cm' : CcMode} (h : CWF (.callcc x cm k ls) r)
    (hc : cm' ≠ .waiting) : CWF .exitJump (.callcc x cm' k ls :: r) := by
  refine ⟨by cases cm' <;> simp_all [OkUnder], ?_⟩
  rcases r with _ | ⟨f, r⟩
  · trivial
  · exact ⟨okUnder_cc' h.1, h.2⟩

theorem cwf_return {k : UKind} {ls ls' : List Var} {m : Mode} {r : List Frame} {x : Var} {cm : CcMode} (h : CWF (.callcc x cm k ls) r) :
    CWF .exitJump (.user k ls' m :: r) := by
  refine ⟨trivial, ?_⟩
  rcases r with _ | ⟨f, r⟩
  · trivial
  · exact ⟨okUnder_ret h.1, h.2⟩

/-- shapes of stacks below `resume` -/
theorem below_resume {g : Frame} {fs : List Frame} (h : CWF g (.resume :: fs)) :
    fs = [] ∨ (∃ k ls m r, fs = .user k ls m :: r ∧ CWF (.user k ls m) r) ∨ ∃ x k ls r, fs = .callcc x .waiting k ls :: r ∧ CWF (.callcc x .waiting k ls) r := by
  rcases fs with _ | ⟨f, r⟩
  · exact .inl rfl
  · have h1 := h.2.1
    cases f <;> simp only [OkUnder] at h1
    · exact .inr (.inl ⟨_, _, _, _, rfl, h.2.2⟩)
    · rename_i x cm k ls
      cases cm <;> simp only [OkUnder] at h1
      exact .inr (.inr ⟨_, _, _, _, rfl, h.2.2⟩)

theorem sp_arrive {s : State} {w : CtxId} (h : CWFS s) : SP (s.arrive w) (s.abs.arrive w) := by
  have hw := h w
  rcases hf : s.frames w with _ | ⟨f, fs⟩
  · simp only [State.arrive, UFiber.State.arrive, abs_frames, hf]; exact sp_ub
  rw [hf] at hw
  cases f with
  | entryJump =>
    simp only [State.arrive, UFiber.State.arrive, abs_frames, hf, absL_cons, Frame.abs]
    refine sp_ok (cwfs_setFrames (s := s.newVar _ _) h ?_) (by simp [Frame.abs])
    refine cwf_push (by simp [Frame.plain]) (cwf_push (by simp [Frame.plain]) (cwf_pop hw (by simp)))
  | resume =>
    rcases below_resume hw with rfl | ⟨k, ls, m, r, rfl, hr⟩ | ⟨x, k, ls, r, rfl, hr⟩
    · simp only [State.arrive, UFiber.State.arrive, abs_frames, hf, absL_cons, Frame.abs, absL_nil]; exact sp_ub
    · simp only [State.arrive, UFiber.State.arrive, abs_frames, hf, absL_cons, Frame.abs, abs_unw, abs_ontop, abs_frm]
      refine sp_ite (fun _ => ?_) (fun _ => ?_)
      · exact sp_ok (cwfs_setFrames (s := ({ s with frm := _ } : State).newVar _ _) h (cwf_user hw.2)) (by simp [Frame.abs]; rfl)
      · cases s.ontop w
        rotate_left
        · refine sp_ok (cwfs_of_frames (s := s.setFrames w (.user (.ontop _) [s.nextVar] .normal :: .resume :: .user k ls m :: r))
            (cwfs_setFrames h (cwf_push (by simp [Frame.plain]) hw)) rfl) ?_
          simp [Frame.abs]; rfl
        · exact sp_ok (cwfs_setFrames (s := ({ s with frm := _ } : State).newVar _ _) h (cwf_user hw.2)) (by simp [Frame.abs]; rfl)
    · simp only [State.arrive, UFiber.State.arrive, abs_frames, hf, absL_cons, Frame.abs, abs_unw, abs_ontop, abs_frm]
      refine sp_ite (fun _ => ?_) (fun _ => ?_)
      · exact sp_ok (cwfs_setFrames (s := ({ s with frm := _ } : State).newVar _ _) h (cwf_callcc' hr (by simp))) (by simp [Frame.abs]; rfl)
      · cases s.ontop w
        rotate_left
        · refine sp_ok (cwfs_of_frames (s := s.setFrames w (.user (.ontop _) [s.nextVar] .normal :: .resume :: .callcc x .waiting k ls :: r))
            (cwfs_setFrames h (cwf_push (by simp [Frame.plain]) hw)) rfl) ?_
          simp [Frame.abs]; rfl
        · exact sp_ok (cwfs_setFrames (s := ({ s with frm := _ } : State).newVar _ _) h (cwf_callcc' hr (by simp))) (by simp [Frame.abs]; rfl)
  | dtor v =>
    simp only [State.arrive, UFiber.State.arrive, abs_frames, hf, absL_cons, Frame.abs, abs_status, abs_term, abs_frm, abs_lost]
    refine sp_ite (fun _ => ?_) (fun _ => ?_)
    · exact sp_ub
    · refine sp_ite (fun _ => ?_) (fun _ => ?_)
      · refine sp_ok (cwfs_of_frames (s := s.setFrames w (.exiting v :: .dtor v :: fs)) (cwfs_setFrames h (cwf_push (by simp [Frame.plain]) hw)) rfl) ?_
        simp [Frame.abs]; rfl
      · exact sp_ass
  | callcc x cm k ls =>
    cases cm <;> simp only [State.arrive, UFiber.State.arrive, abs_frames, hf, absL_cons, Frame.abs] <;> exact sp_ub
  | user => simp only [State.arrive, UFiber.State.arrive, abs_frames, hf, absL_cons, Frame.abs]; exact sp_ub
  | entryRun => simp only [State.arrive, UFiber.State.arrive, abs_frames, hf, absL_cons, Frame.abs]; exact sp_ub
  | exiting => simp only [State.arrive, UFiber.State.arrive, abs_frames, hf, absL_cons, Frame.abs]; exact sp_ub
  | exitJump => simp only [State.arrive, UFiber.State.arrive, abs_frames, hf, absL_cons, Frame.abs]; exact sp_ub

/-- switching to `w` and arriving there -/
theorem sp_switch {s : State} {t : Tid} {w : CtxId} {l : Status} (h : CWFS s) :
    SP (match s.switchTo t w l with | none => .ub | some s => s.arrive w)
      (match s.abs.switchTo t w l with | none => .ub | some s => s.arrive w) := by
  rw [abs_switchTo]
  cases h1 : s.switchTo t w l with
  | none => exact sp_ub
  | some s1 => exact sp_arrive (cwfs_of_frames h (switchTo_frames h1))

theorem absL_entry {fs : List Frame} : absL fs = [Fiber.Frame.entryJump] ↔ fs = [.entryJump] := by
  constructor
  · intro h
    rcases fs with _ | ⟨f, _ | ⟨g, r⟩⟩
    · simp at h
    · simp only [absL_cons, absL_nil, List.cons.injEq, and_true] at h
      cases f <;> simp only [Frame.abs, reduceCtorEq] at h
      · rename_i cm _ _; cases cm <;> simp [Frame.abs] at h
      · rfl
    · simp at h
  · rintro rfl; rfl

theorem sp_destroyPtr {s : State} {t : Tid} {c v : CtxId} (h : CWFS s) : SP (s.destroyPtr t c v) (s.abs.destroyPtr t c v) := by
  simp only [State.destroyPtr, UFiber.State.destroyPtr, abs_status, abs_root, abs_term]
  refine sp_ite (fun _ => ?_) (fun _ => ?_)
  · exact sp_ub
  · refine sp_ite (fun _ => ?_) (fun _ => ?_)
    · exact sp_ok (cwfs_of_frames h rfl) rfl
    · refine sp_ite (fun _ => ?_) (fun _ => ?_)
      · refine sp_ok (cwfs_setFrames h (cwf_push (by simp [Frame.plain]) (h c))) (by simp [Frame.abs])
      · have := sp_switch (s := ({ s with unw := upd s.unw v true, early := s.early || decide (s.frames v = [Frame.entryJump]) } : State).setFrames c (.dtor v :: s.frames c))
          (t := t) (w := v) (l := .suspended) (cwfs_setFrames (s := { s with unw := _, early := _ }) h (cwf_push (by simp [Frame.plain]) (h c)))
        simp only [abs_setFrames, absL_cons, Frame.abs] at this
        have e : decide (s.abs.frames v = [Fiber.Frame.entryJump]) = decide (s.frames v = [Frame.entryJump]) := by
          rw [abs_frames]; exact decide_eq_decide.2 absL_entry
        rw [e]
        exact this

theorem sp_destroyVar {s : State} {t : Tid} {c : CtxId} {x : Var} (h : CWFS s) : SP (s.destroyVar t c x) (s.abs.destroyVar t c x) := by
  simp only [State.destroyVar, UFiber.State.destroyVar, abs_val]
  cases s.val x with
  | none => exact sp_ok h rfl
  | some v => exact sp_destroyPtr (s := s.kill x) h

theorem sp_finish {s : State} {t : Tid} {c : CtxId} {p : Option CtxId} (h : CWFS s) : SP (s.finish t c p) (s.abs.finish t c p) := by
  simp only [State.finish, UFiber.State.finish, abs_status]
  cases p with
  | none => exact sp_null
  | some w =>
    simp only []
    refine sp_ite (fun _ => ?_) (fun _ => ?_)
    · exact sp_ass
    · have := sp_switch (s := ({ s with frm := upd s.frm c none, ontop := upd s.ontop c none, term := upd s.term c true, unw := upd s.unw c false } : State).setFrames c [.exitJump])
        (t := t) (w := w) (l := .terminated) (cwfs_setFrames (s := { s with frm := _, ontop := _, term := _, unw := _ }) h ⟨trivial, trivial⟩)
      simp only [abs_setFrames, absL_cons, Frame.abs] at this
      exact this

theorem sp_doResume {s : State} {t : Tid} {c : CtxId} {x : Var} (h : ∀ d, d ≠ c → CWF .exitJump (s.frames d)) (hc : CWF .resume (s.frames c)) :
    SP (s.doResume t c x) (s.abs.doResume t c x) := by
  simp only [State.doResume, UFiber.State.doResume, abs_val, abs_status]
  cases s.val x with
  | none => exact sp_null
  | some w =>
    simp only []
    refine sp_ite (fun _ => ?_) (fun _ => ?_)
    · exact sp_ass
    · have := sp_switch (s := (s.setVal x none).setFrames c (.resume :: s.frames c)) (t := t) (w := w) (l := .suspended) (by
        intro d
        simp only [State.setFrames, upd_apply]
        split
        · exact ⟨trivial, hc⟩
        · exact h d ‹_›)
      simp only [abs_setFrames, absL_cons, Frame.abs] at this
      exact this

theorem sp_doResumeWith {s : State} {t : Tid} {c : CtxId} {x : Var} (h : CWFS s) (hc : CWF .resume (s.frames c)) :
    SP (s.doResumeWith t c x) (s.abs.doResumeWith t c x) := by
  simp only [State.doResumeWith, UFiber.State.doResumeWith, abs_val, abs_status]
  cases s.val x with
  | none => exact sp_null
  | some w =>
    simp only []
    refine sp_ite (fun _ => ?_) (fun _ => ?_)
    · exact sp_ass
    · have := sp_switch (s := (({ s with ontop := upd s.ontop w (some s.nextId), nextId := s.nextId + 1 } : State).setVal x none).setFrames c (.resume :: s.frames c))
        (t := t) (w := w) (l := .suspended) (cwfs_setFrames (s := ({ s with ontop := _, nextId := _ } : State).setVal x none) h ⟨trivial, hc⟩)
      simp only [abs_setFrames, absL_cons, Frame.abs] at this
      exact this

theorem abs_capture (s : State) (n : CtxId) (xs : List Var) : (s.capture n xs).abs = s.abs.capture n xs := by
  induction xs generalizing s with
  | nil => rfl
  | cons x xs ih => simp only [State.capture, UFiber.State.capture]; rw [ih]; rfl

theorem capture_frames (s : State) (n : CtxId) (xs : List Var) : (s.capture n xs).frames = s.frames := by
  induction xs generalizing s with
  | nil => rfl
  | cons x xs ih => simp only [State.capture]; rw [ih]; rfl

theorem capture_cur (s : State) (n : CtxId) (xs : List Var) : (s.capture n xs).cur = s.cur := by
  induction xs generalizing s with
  | nil => rfl
  | cons x xs ih => simp only [State.capture]; rw [ih]; rfl

theorem capture_hidden (s : State) (n : CtxId) (xs : List Var) : (s.capture n xs).hidden = s.hidden := by
  induction xs generalizing s with
  | nil => rfl
  | cons x xs ih => simp only [State.capture]; rw [ih]; rfl

theorem capture_early (s : State) (n : CtxId) (xs : List Var) : (s.capture n xs).early = s.early := by
  induction xs generalizing s with
  | nil => rfl
  | cons x xs ih => simp only [State.capture]; rw [ih]; rfl

theorem capture_nextVar (s : State) (n : CtxId) (xs : List Var) : (s.capture n xs).nextVar = s.nextVar + xs.length := by
  induction xs generalizing s with
  | nil => rfl
  | cons x xs ih => simp only [State.capture]; rw [ih]; simp [State.newVar, State.setVal]; omega

/-- `callcc` of `continuation` is, for the fiber machine, `create` followed by `resume` of the created object. -/
theorem sp_doCallcc {s : State} {t : Tid} {c : CtxId} {k : UKind} {ls : List Var} {rest : List Frame} {xs : List Var}
    (h : CWFS s) (hcur : s.cur t = some c) (hf : s.frames c = .user k ls .normal :: rest) (ha : xs.all s.accessible = true) :
    SP (s.doCallcc t c k ls rest xs) (UFiber.run s.abs [(t, .create xs .success), (t, .resume (s.nextVar + xs.length))]) := by
  have hstep : UFiber.step s.abs t (.create xs .success) = s.abs.doCreate c k ls (absL rest) xs := by
    simp only [UFiber.step, abs_cur, hcur, abs_frames, hf, absL_cons, Frame.abs, UFiber.userStep, all_accessible_abs ha, if_true]
  obtain ⟨s1, hs1⟩ : ∃ s1, s1 = ({ s with nextCtx := s.nextCtx + 1 }.addLog (.alloc s.nextCtx)).capture s.nextCtx xs := ⟨_, rfl⟩
  have e1 : ({ s.abs with nextCtx := s.nextCtx + 1 }.addLog (.alloc s.nextCtx)).capture s.nextCtx xs = s1.abs := by
    rw [hs1, abs_capture]; rfl
  have f1 : s1.frames = s.frames := by rw [hs1, capture_frames]; rfl
  have n1 : s1.nextVar = s.nextVar + xs.length := by rw [hs1, capture_nextVar]; rfl
  have c1 : s1.cur = s.cur := by rw [hs1, capture_cur]; rfl
  obtain ⟨s2, hs2⟩ : ∃ s2 : State, s2 = ({ s1 with status := upd s1.status s.nextCtx .suspended, frames := upd s1.frames s.nextCtx [.entryJump], root := upd s1.root s.nextCtx false, frm := upd s1.frm s.nextCtx none, ontop := upd s1.ontop s.nextCtx none, term := upd s1.term s.nextCtx false, unw := upd s1.unw s.nextCtx false } : State) := ⟨_, rfl⟩
  have e2 : ({ s1.abs with status := upd s1.abs.status s.nextCtx .suspended, frames := upd s1.abs.frames s.nextCtx [.entryJump], root := upd s1.abs.root s.nextCtx false, frm := upd s1.abs.frm s.nextCtx none, ontop := upd s1.abs.ontop s.nextCtx none, term := upd s1.abs.term s.nextCtx false, unw := upd s1.abs.unw s.nextCtx false } : UFiber.State) = s2.abs := by
    rw [hs2]; simp only [State.abs, upd_comp]; rfl
  obtain ⟨s3, hs3⟩ : ∃ s3, s3 = State.setFrames { s2.newVar (.loc c) (some s.nextCtx) with hidden := upd s2.hidden s2.nextVar true } c
      (.callcc s2.nextVar .waiting k ls :: rest) := ⟨_, rfl⟩
  have e3 : (s2.abs.newVar (.loc c) (some s.nextCtx)).setFrames c (.user k (s2.abs.nextVar :: ls) .normal :: absL rest) = s3.abs := by
    rw [hs3]; simp only [abs_setFrames, absL_cons, Frame.abs]; rfl
  have n2 : s2.nextVar = s.nextVar + xs.length := by rw [hs2]; exact n1
  have hcc : s.doCallcc t c k ls rest xs = s3.doResume t c s2.nextVar := by
    rw [hs3, hs2, hs1]; rfl
  have hcr : s.abs.doCreate c k ls (absL rest) xs = .ok s3.abs := by
    have : s.abs.doCreate c k ls (absL rest) xs = .ok ((s2.abs.newVar (.loc c) (some s.nextCtx)).setFrames c (.user k (s2.abs.nextVar :: ls) .normal :: absL rest)) := by
      rw [← e2, ← e1]; rfl
    rw [this, e3]
  have c3 : s3.cur t = some c := by rw [hs3]; show s2.cur t = _; rw [hs2]; show s1.cur t = _; rw [c1, hcur]
  have f3 : s3.frames c = .callcc s2.nextVar .waiting k ls :: rest := by rw [hs3]; simp [State.setFrames]
  have k3 : s3.abs.accessible s2.nextVar = true := by rw [hs3]; simp [UFiber.State.accessible, State.newVar, State.abs, State.setFrames]
  have hst : UFiber.step s3.abs t (.resume (s.nextVar + xs.length)) = s3.abs.doResume t c s2.nextVar := by
    simp only [UFiber.step, abs_cur, c3, abs_frames, f3, absL_cons, Frame.abs, UFiber.userStep, ← n2, k3, if_true]
  have hd := sp_doResume (s := s3) (t := t) (c := c) (x := s2.nextVar) (by
      intro d hd
      rw [hs3]
      simp only [State.setFrames, upd_apply, hd, if_false]
      show CWF _ (s2.frames d)
      rw [hs2]
      simp only [upd_apply]
      split
      · exact ⟨trivial, trivial⟩
      · rw [f1]; exact h d) (by
      rw [f3]
      refine ⟨trivial, ?_⟩
      have := h c
      rw [hf] at this
      exact cwf_belowcc this.2)
  rw [hcc]
  have : UFiber.run s.abs [(t, .create xs .success), (t, .resume (s.nextVar + xs.length))] = s3.abs.doResume t c s2.nextVar := by
    simp only [UFiber.run, hstep, hcr, hst]
    cases s3.abs.doResume t c s2.nextVar <;> rfl
  rw [this]
  exact hd

theorem sp_exitStep {s : State} {t : Tid} {c n : CtxId} {rest : List Frame} (h : CWFS s) (hf : s.frames c = .exiting n :: rest) :
    SP (exitStep s t c n rest) (UFiber.exitStep s.abs t c n (absL rest)) := by
  have hc := h c
  rw [hf] at hc
  simp only [UFiber.exitStep, exitStep, abs_caps, abs_status]
  cases s.caps n with
  | cons x xs => exact sp_destroyVar (s := { s with caps := upd s.caps n xs }) h
  | nil =>
    simp only []
    refine sp_ite (fun _ => ?_) (fun _ => ?_)
    · have h1 : CWFS (({ s with status := upd s.status n .freed, frames := upd s.frames n [] } : State).addLog (.dealloc n)) := by
        intro d; simp only [State.addLog, upd_apply]; split
        · trivial
        · exact h d
      have e1 : (({ s.abs with status := upd s.status n .freed, frames := upd s.abs.frames n [] } : UFiber.State).addLog (.dealloc n)) =

          (({ s with status := upd s.status n .freed, frames := upd s.frames n [] } : State).addLog (.dealloc n)).abs := by
        simp only [State.abs, State.addLog, UFiber.State.addLog, upd_comp]; rfl
      simp only [abs_cur, abs_caps, abs_kind, abs_val, abs_root, abs_frm, abs_ontop, abs_term, abs_unw, abs_nextCtx, abs_nextVar, abs_nextTid, abs_nextId,
        abs_lost, abs_early, abs_log] at e1 ⊢
      rw [e1]
      rcases rest with _ | ⟨f, r⟩
      · exact sp_ok (cwfs_setFrames h1 trivial) (by simp)
      · cases f with
        | dtor v => exact sp_ok (cwfs_of_frames (s := State.setFrames _ c r) (cwfs_setFrames h1 (cwf_pop hc.2 (by simp))) rfl) (by simp [Frame.abs])
        | callcc x cm k ls =>
          have := cwf_pop hc (by simp)
          cases cm <;> exact sp_ok (cwfs_setFrames h1 this) (by simp [Frame.abs])
        | _ => exact sp_ok (cwfs_setFrames h1 (cwf_pop hc (by simp))) (by simp [Frame.abs])
    · exact sp_ub

theorem sp_propagate {s : State} {t : Tid} {c : CtxId} {k : UKind} {ls : List Var} {m : Mode} {e : Exc} {rest : List Frame} (h : CWFS s)
    (hf : s.frames c = .user k ls m :: rest) :
    SP (propagate s t c k e rest) (UFiber.propagate s.abs t c k e (absL rest)) := by
  have hc := h c
  rw [hf] at hc
  cases k with
  | main => exact sp_term
  | cleanup => exact sp_term
  | call =>
    rcases rest with _ | ⟨g, r⟩
    · exact sp_ub
    · have h1 := hc.2.1
      cases g <;> simp only [OkUnder] at h1
      exact sp_ok (cwfs_setFrames h (cwf_user hc.2)) (by simp [UFiber.propagate, Frame.abs])
  | fn =>
    simp only [UFiber.propagate, propagate, abs_val]
    cases e with
    | user => exact sp_term
    | forced x => exact sp_finish (s := s.kill x) h
  | ontop i =>
    rcases rest with _ | ⟨g, r⟩
    · exact sp_ub
    · cases g with
      | resume =>
        rcases below_resume hc.2 with rfl | ⟨k, ls, m, r, rfl, hr⟩ | ⟨x, k, ls, r, rfl, hr⟩
        · exact sp_ub
        · exact sp_ok (cwfs_setFrames h (cwf_user hc.2.2)) (by simp [UFiber.propagate, Frame.abs])
        · exact sp_ok (cwfs_setFrames h (cwf_callcc' hr (by simp))) (by simp [UFiber.propagate, Frame.abs])
      | callcc x cm k ls => cases cm <;> exact sp_ub
      | _ => exact sp_ub

theorem sp_leave {s : State} {t : Tid} {c : CtxId} {k : UKind} {ls : List Var} {m : Mode} {x : Option Var} {rest : List Frame}
    (h : CWFS s) (hf : s.frames c = .user k ls m :: rest) :
    SP (leave s t c k x rest) (UFiber.leave s.abs t c k x (absL rest)) := by
  have hc := h c
  rw [hf] at hc
  have h1 : CWFS (s.setFrames c rest) := cwfs_setFrames h (cwf_pop hc (by simp))
  cases k <;> cases x <;> simp only [UFiber.leave, leave, abs_val]
  case main.none =>
    refine sp_ok ?_ ?_
    · exact cwfs_setFrames (s := { s with cur := upd s.cur t none, status := upd s.status c .ended }) h trivial
    · simp only [State.abs, upd_comp]; rfl
  case call.none => exact sp_ok h1 (by simp)
  case cleanup.none => exact sp_ok h1 (by simp)
  case fn.some x => exact sp_finish (s := s.kill x) h
  case ontop.some i x =>
    rcases rest with _ | ⟨g, r⟩
    · exact sp_ub
    · cases g with
      | resume =>
        rcases below_resume hc.2 with rfl | ⟨k, ls, m, r, rfl, hr⟩ | ⟨x, k, ls, r, rfl, hr⟩
        · exact sp_ub
        · exact sp_ok (cwfs_setFrames (s := (({ s with ontop := _ } : State).kill _).newVar _ _) h (cwf_user hc.2.2)) (by simp [Frame.abs]; rfl)
        · exact sp_ok (cwfs_setFrames (s := (({ s with ontop := _ } : State).kill _).newVar _ _) h (cwf_callcc' hr (by simp))) (by simp [Frame.abs]; rfl)
      | callcc x cm k ls => cases cm <;> exact sp_ub
      | _ => exact sp_ub
  all_goals exact sp_ub

end Verif.UCont
