import Verif.Backends.ContSpec
import Verif.Backends.Main
import Verif.Cont.Vars
import Verif.UCont.Vars

/-! # C88: related states of the two `continuation` machines, and which operations they reject -/

set_option linter.unusedSimpArgs false

namespace Verif.Backends.Cc
open Verif.Fiber (CtxId Var Tid Kind Exc Mode UKind Status Event CreateOutcome Fctx upd)

/-! ## A call stack is determined by its image in the fiber machine and by the set of temporaries -/

theorem decode {h0 : Var → Bool} {f : Cont.Frame} {g : UCont.Frame} (hf : Cont.Vars.FrameOk h0 f) (hg : UCont.Vars.FrameOk h0 g)
    (h : f.abs = g.abs) : g = strip f := by
  rcases f with ⟨_, _, _, _⟩ | ⟨_, (_ | _ | _), _, _, _⟩ | _ | _ | _ | ⟨_⟩ | ⟨_⟩ | _ <;>
    rcases g with ⟨_, _, _⟩ | ⟨_, (_ | _ | _), _, _⟩ | _ | _ | _ | ⟨_⟩ | ⟨_⟩ | _ <;>
    simp only [Cont.Frame.abs, UCont.Frame.abs, Fiber.Frame.user.injEq, Fiber.Frame.dtor.injEq, Fiber.Frame.exiting.injEq, reduceCtorEq] at h <;>
    simp only [strip, stripM] <;>
    (try simp only [Cont.Vars.frameOk_user, Cont.Vars.frameOk_callcc, UCont.Vars.frameOk_user, UCont.Vars.frameOk_callcc, Cont.Vars.ccOk_returning,
      UCont.Vars.ccOk_returning] at hf hg) <;>
    grind

theorem decodeL {h0 : Var → Bool} : ∀ {fs : List Cont.Frame} {gs : List UCont.Frame}, Cont.Vars.FOk h0 fs → UCont.Vars.FOk h0 gs →
    Cont.absL fs = UCont.absL gs → gs = fs.map strip
  | [], [], _, _, _ => rfl
  | [], _ :: _, _, _, h => by simp at h
  | _ :: _, [], _, _, h => by simp at h
  | f :: fs, g :: gs, hf, hg, h => by
    simp only [Cont.absL_cons, UCont.absL_cons, List.cons.injEq] at h
    rw [Cont.Vars.fok_cons] at hf
    rw [UCont.Vars.fok_cons] at hg
    rw [decode hf.1 hg.1 h.1, decodeL hf.2 hg.2 h.2]
    rfl

/-- related states -/
structure RC (a : Cont.State) (b : UCont.State) : Prop where
  r : R a.abs b.abs
  hid : b.hidden = a.hidden
  ra : Cont.Reachable a
  rb : UCont.Reachable b

variable {a : Cont.State} {b : UCont.State}

theorem RC.frames (h : RC a b) {c : CtxId} (hc : b.status c ≠ .terminated) : b.frames c = (a.frames c).map strip := by
  have ga := Cont.Vars.reachable_vars h.ra
  have gb := UCont.Vars.reachable_vars h.rb
  rw [h.hid] at gb
  exact decodeL (ga.fr c) (gb.fr c) (h.r.frames_eq hc)

theorem RC.cur (h : RC a b) (t : Tid) : b.cur t = a.cur t := congrFun h.r.cur t

theorem RC.running (h : RC a b) {t : Tid} {c : CtxId} (hc : a.cur t = some c) : b.status c = .running t :=
  ((UCont.reachable_facts h.rb).inv.ci.curRun t c).1 (by rw [← hc]; exact h.cur t)

theorem RC.top (h : RC a b) {t : Tid} {c : CtxId} (hc : a.cur t = some c) : b.frames c = (a.frames c).map strip :=
  h.frames (by rw [h.running hc]; simp)

theorem RC.acc (h : RC a b) (x : Var) : b.accessible x = a.accessible x := by
  have hk : b.kind x = a.kind x := congrFun h.r.kind x
  simp only [Cont.State.accessible, UCont.State.accessible, hk, h.hid]
  cases a.kind x <;> rfl

/-! ## Operations of the library are never rejected once called -/

theorem nf_finish (s : Cont.State) (t c f) : s.finish t c f ≠ .rejected := by
  simp only [Cont.State.finish]; split <;> simp
theorem nf_deliver (s : Cont.State) (c v) : s.deliver c v ≠ .rejected := by
  simp only [Cont.State.deliver]; split <;> simp
theorem nf_raiseUser (s : Cont.State) (c n) : s.raiseUser c n ≠ .rejected := by
  simp only [Cont.State.raiseUser]; split <;> simp
theorem nf_raiseForced (s : Cont.State) (t c f) : s.raiseForced t c f ≠ .rejected := by
  simp only [Cont.State.raiseForced]; split <;> first | simp; done | exact nf_finish _ _ _ _
theorem nf_destroyFctx (s : Cont.State) (t c f) : s.destroyFctx t c f ≠ .rejected := by
  simp only [Cont.State.destroyFctx]; split <;> first | simp; done | exact nf_raiseForced _ _ _ _
theorem nf_destroyVar (s : Cont.State) (t c x) : s.destroyVar t c x ≠ .rejected := by
  simp only [Cont.State.destroyVar]; split <;> first | simp; done | exact nf_destroyFctx _ _ _ _
theorem nf_doResume (s : Cont.State) (t c x) : s.doResume t c x ≠ .rejected := by
  simp only [Cont.State.doResume]; split <;> (try split) <;> first | simp; done | exact nf_deliver _ _ _
theorem nf_doResumeWith (s : Cont.State) (t c x lv) : s.doResumeWith t c x lv ≠ .rejected := by
  simp only [Cont.State.doResumeWith]; split <;> (try split) <;> (try split) <;> simp
theorem nf_doCallcc (s : Cont.State) (t c k lib ls rest xs) : s.doCallcc t c k lib ls rest xs ≠ .rejected := by
  simp only [Cont.State.doCallcc]; split <;> (try split) <;> first | simp; done | exact nf_doResume _ _ _ _
theorem nf_propagate (s : Cont.State) (t c k e rest) : Cont.propagate s t c k e rest ≠ .rejected := by
  unfold Cont.propagate
  split <;> (try split) <;> (try split) <;> first | simp; done | exact nf_finish _ _ _ _ | exact nf_raiseUser _ _ _ | exact nf_raiseForced _ _ _ _
theorem nf_leave (s : Cont.State) (t c k x rest) : Cont.leave s t c k x rest ≠ .rejected := by
  unfold Cont.leave
  split <;> (try split) <;> first | simp; done | exact nf_finish _ _ _ _ | exact nf_deliver _ _ _
theorem nf_exitStep (s : Cont.State) (t c n rest) : Cont.exitStep s t c n rest ≠ .rejected := by
  unfold Cont.exitStep
  split <;> (try split) <;> first | simp; done | exact nf_destroyVar _ _ _ _ | exact nf_deliver _ _ _

theorem nu_arrive (s : UCont.State) (w) : s.arrive w ≠ .rejected := by
  simp only [UCont.State.arrive]; split <;> (try split) <;> (try split) <;> simp
theorem nu_destroyPtr (s : UCont.State) (t c v) : s.destroyPtr t c v ≠ .rejected := by
  simp only [UCont.State.destroyPtr]; split <;> (try split) <;> (try split) <;> (try split) <;> first | simp; done | exact nu_arrive _ _
theorem nu_destroyVar (s : UCont.State) (t c x) : s.destroyVar t c x ≠ .rejected := by
  simp only [UCont.State.destroyVar]; split <;> first | simp; done | exact nu_destroyPtr _ _ _ _
theorem nu_finish (s : UCont.State) (t c p) : s.finish t c p ≠ .rejected := by
  simp only [UCont.State.finish]; split <;> (try split) <;> (try split) <;> first | simp; done | exact nu_arrive _ _
theorem nu_doResume (s : UCont.State) (t c x) : s.doResume t c x ≠ .rejected := by
  simp only [UCont.State.doResume]; split <;> (try split) <;> (try split) <;> first | simp; done | exact nu_arrive _ _
theorem nu_doResumeWith (s : UCont.State) (t c x) : s.doResumeWith t c x ≠ .rejected := by
  simp only [UCont.State.doResumeWith]; split <;> (try split) <;> (try split) <;> first | simp; done | exact nu_arrive _ _
theorem nu_doCallcc (s : UCont.State) (t c k ls rest xs) : s.doCallcc t c k ls rest xs ≠ .rejected := by
  simp only [UCont.State.doCallcc]; exact nu_doResume _ _ _ _
theorem nu_propagate (s : UCont.State) (t c k e rest) : UCont.propagate s t c k e rest ≠ .rejected := by
  unfold UCont.propagate
  split <;> (try split) <;> first | simp; done | exact nu_finish _ _ _ _
theorem nu_leave (s : UCont.State) (t c k x rest) : UCont.leave s t c k x rest ≠ .rejected := by
  unfold UCont.leave
  split <;> (try split) <;> first | simp; done | exact nu_finish _ _ _ _
theorem nu_exitStep (s : UCont.State) (t c n rest) : UCont.exitStep s t c n rest ≠ .rejected := by
  unfold UCont.exitStep
  split <;> (try split) <;> (try (simp only []; split)) <;> first | simp; done | exact nu_destroyVar _ _ _ _

/-! ## Both machines reject the same operations -/

theorem reject_iff (h : RC a b) (t : Tid) (op : UCont.Op) : Cont.step a t (toC op) = .rejected ↔ UCont.step b t op = .rejected := by
  cases hc : a.cur t with
  | none =>
    have hb : b.cur t = none := by rw [h.cur]; exact hc
    simp [Cont.step, UCont.step, hc, hb]
  | some c =>
    have hb : b.cur t = some c := by rw [h.cur]; exact hc
    have hfr := h.top hc
    have hk : b.kind = a.kind := h.r.kind
    have hac := h.acc
    have hac' : b.accessible = a.accessible := funext hac
    have hw := (Cont.reachable_spec h.ra).1 c
    have NF := @nf_destroyVar
    have NU := @nu_destroyVar
    cases hf : a.frames c with
    | nil => rw [hf] at hfr; simp at hfr; simp [Cont.step, UCont.step, hc, hb, hf, hfr]
    | cons f rest =>
      rw [hf] at hfr hw
      simp only [List.map_cons] at hfr
      cases f with
      | user k lib ls m =>
        have hl : lib = none := hw.1
        subst hl
        simp only [strip] at hfr
        cases m with
        | normal =>
          simp only [Cont.step, UCont.step, hc, hb, hf, hfr]
          cases op <;> simp only [toC, Cont.userStep, UCont.userStep, hac, hac', hk] <;> (try (simp; done))
          case moveAssign y x =>
            split
            · split
              · simp
              · cases a.val y <;> cases b.val y <;> simp [nf_destroyFctx, nu_destroyPtr]
            · simp
          case drop => split <;> (try split) <;> simp [nf_destroyVar, nu_destroyVar]
          case callcc xs o => split <;> cases o <;> simp [nf_doCallcc, nu_doCallcc]
          case resume => split <;> simp [nf_doResume, nu_doResume]
          case resumeWith => split <;> simp [nf_doResumeWith, nu_doResumeWith]
          case ret => cases k <;> simp
          case retHandle => split <;> cases k <;> simp
        | unwinding e =>
          cases ls with
          | cons x ls =>
            simp only [Cont.step, UCont.step, hc, hb, hf, hfr]
            cases op <;> simp [toC, nf_destroyVar, nu_destroyVar]
          | nil =>
            simp only [Cont.step, UCont.step, hc, hb, hf, hfr]
            cases op <;> simp [toC, nf_propagate, nu_propagate]
            case catchUser => cases k <;> cases e <;> simp
            case swallow =>
              cases k <;> cases e <;> simp
              rename_i x
              cases a.val x <;> cases b.val x <;> simp
        | returning r =>
          cases ls with
          | cons x ls =>
            simp only [Cont.step, UCont.step, hc, hb, hf, hfr]
            cases op <;> simp [toC, nf_destroyVar, nu_destroyVar]
          | nil =>
            simp only [Cont.step, UCont.step, hc, hb, hf, hfr]
            cases op <;> simp [toC, nf_leave, nu_leave]
      | callcc x cm k lib ls =>
        simp only [strip] at hfr
        cases cm <;> simp only [stripM] at hfr <;> simp only [Cont.step, UCont.step, hc, hb, hf, hfr]
        · simp
        all_goals cases op <;> simp [toC, nf_destroyVar, nu_destroyVar]
      | exiting n =>
        simp only [strip] at hfr
        simp only [Cont.step, UCont.step, hc, hb, hf, hfr]
        cases op <;> simp [toC, nf_exitStep, nu_exitStep]
      | _ => simp only [strip] at hfr; simp [Cont.step, UCont.step, hc, hb, hf, hfr]

end Verif.Backends.Cc
