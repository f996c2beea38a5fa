import Verif.Fiber.PrimO

/-! # Every step preserves the invariant and never runs into undefined behaviour -/

namespace Verif.Fiber
open State

/-- What the invariant promises about the result of a step. -/
def Safe : Res → Prop
  | .ok s => Inv s
  | .ub => False
  | _ => True

theorem Inv.addLog {s : State} {e} (h : Inv s) : Inv (s.addLog e) :=
  ⟨h.ci.congr rfl rfl rfl rfl rfl, h.oi.congr rfl rfl rfl rfl (Nat.le_refl _) (fun _ h => Or.inl h),
   h.vi.congr rfl rfl rfl rfl rfl rfl⟩

theorem dtorTop_iff {v fs} : DtorTop v fs ↔ ∃ rest, fs = .dtor v :: rest := by
  cases fs with
  | nil => simp [DtorTop]
  | cons f fs => cases f <;> simp [DtorTop]

theorem suspTop_iff {fs} : SuspTop fs ↔ ∃ rest, fs = .entryJump :: rest ∨ fs = .resume :: rest ∨ ∃ v, fs = .dtor v :: rest := by
  cases fs with
  | nil => simp [SuspTop]
  | cons f fs => cases f <;> simp [SuspTop]

theorem runTop_iff {fs} : RunTop fs ↔ ∃ rest, (∃ k ls m, fs = .user k ls m :: rest) ∨ ∃ n, fs = .exiting n :: rest := by
  cases fs with
  | nil => simp [RunTop]
  | cons f fs => cases f <;> simp [RunTop]

theorem adj_exiting {n fs} (h : SuspTop fs) (hd : ∀ v, DtorTop v fs → v = n) : Adj (.exiting n) fs := by
  cases fs with
  | nil => simp [SuspTop] at h
  | cons f fs => cases f <;> simp_all [SuspTop, Adj, DtorTop]

theorem adj_dtor {n fs} (h : RunTop fs) : Adj (.dtor n) fs := by
  cases fs with
  | nil => simp [RunTop] at h
  | cons f fs => cases f <;> simp_all [RunTop, Adj]

theorem adj_resume_inv {fs} (h : Adj .resume fs) : ∃ k ls rest, fs = .user k ls .normal :: rest := by
  cases fs with
  | nil => simp [Adj] at h
  | cons f fs =>
    cases f with
    | user k ls m => cases m <;> simp_all [Adj]
    | _ => simp [Adj] at h

theorem adj_dtor_inv {v fs} (h : Adj (.dtor v) fs) : RunTop fs := by
  cases fs with
  | nil => simp [Adj] at h
  | cons f fs => cases f <;> simp_all [RunTop, Adj]

theorem adj_entryJump_inv {fs} (h : Adj .entryJump fs) : fs = [] := by
  cases fs with
  | nil => rfl
  | cons f fs => simp [Adj] at h

theorem Adj.modeOK {k ls m rest} (h : Adj (.user k ls m) rest) : ModeOK k m := by
  cases k <;> cases rest with
  | nil => simp [Adj] at h <;> try exact h
  | cons g gs => cases g <;> simp_all [Adj] <;> (rename_i m' ; cases m' <;> simp_all [Adj])

/-- `Adj` of a user frame does not depend on its locals, and on the mode only through `ModeOK`. -/
theorem Adj.change {k ls m rest ls' m'} (h : Adj (.user k ls m) rest) (hm : ModeOK k m') : Adj (.user k ls' m') rest := by
  cases k <;> cases rest with
  | nil => simp_all [Adj]
  | cons g gs => cases g <;> simp_all [Adj] <;> (rename_i m' ; cases m' <;> simp_all [Adj])

theorem modeOK_unwinding {k e} : ModeOK k (.unwinding e) := by cases k <;> simp [ModeOK]
theorem modeOK_normal {k} : ModeOK k .normal := by cases k <;> simp [ModeOK]

theorem finish_safe {s : State} {t c f m} (hm : m = none ∨ m = some c) (hc : CInv s m) (ho : OInv s) (hv : VInv s [f])
    (hcur : s.cur t = some c) (hx : ∀ n, exits n (s.frames c) = 0)
    (hl : lvars (s.frames c) = []) (he : evars (s.frames c) = []) (hr : rvars (s.frames c) = [])
    (hd : ∀ v, DtorTop v (s.frames f.ctx) → v = c) : Safe (s.finish t c f) := by
  have hf := hv.validR f (by simp)
  have hrun := (hc.curRun t c).1 hcur
  have hfc : f.ctx ≠ c := by rintro h; rw [h] at hf; simp [hrun] at hf
  simp only [State.finish, ontopSwitch, switch, setFrames_cur, hcur, setFrames_status, setFrames_seq, hf]
  simp only [Safe, Bool.false_eq_true, false_and, or_false, and_self, if_true, setFrames_frames, upd_apply, hfc, if_false]
  refine ⟨?_, ?_, ?_⟩
  · exact hc.finish hm hcur hf.1 hx (adj_exiting (hc.susp _ hf.1) hd)
  · refine (ho.frames2 (c := c) (d := f.ctx) (fs := [.exitJump]) (gs := .exiting c :: s.frames f.ctx) ?_ ?_ ?_ ?_ ?_ ?_).congr
      rfl rfl rfl rfl (Nat.le_refl _) ?_
    · simp [hl]
    · simp [he]
    · simp [hr]
    · simp
    · simp
    · simp
    · intro d; simp; grind
  · exact hv.finish hrun

theorem deliver_safe {s : State} {t c v} (hc : CInv s (some c)) (ho : OInv s) (hv : VInv s v.toList)
    (hcur : s.cur t = some c) (hd : ∀ w, DtorTop w (s.frames c) → v = none)
    (hn : ∀ f, v = some f → ∀ w, ¬ DtorTop w (s.frames f.ctx)) : Safe (s.deliver c v) := by
  have hrun := (hc.curRun t c).1 hcur
  have hw := hc.wf c (by simp [hrun])
  have hfr := ho.fresh _ (Nat.le_refl _)
  have hvn : VInv (s.newVar (.loc c) v) [] := by
    cases v with
    | none => exact hv.newVar hfr (by simp)
    | some f => exact VInv.newVarSome (by simpa using hv) hfr (by simp) (by simp) (fun _ => hn f rfl)
  obtain ⟨rest, h | h | ⟨w, h⟩⟩ := suspTop_iff.1 (hc.midTop c rfl).1
  · rw [h] at hw
    have := adj_entryJump_inv hw.1
    subst this
    simp only [State.deliver, h, Safe]
    apply Inv.addLog
    refine ⟨CInv.congr (CInv.setFrames hc hrun (Or.inr rfl) ?_ ?_ ?_) rfl rfl rfl rfl rfl, ho.newLoc ?_ ?_ ?_, hvn.setFrames hrun⟩
    · simp [WF, Adj, ModeOK]
    · simp [RunTop]
    · simp [h]
    · simp [h]
    · simp [h]
    · simp [h]
  · rw [h] at hw
    obtain ⟨k, ls, rest', rfl⟩ := adj_resume_inv hw.1
    simp only [State.deliver, h, Safe]
    refine ⟨CInv.congr (CInv.setFrames hc hrun (Or.inr rfl) ?_ ?_ ?_) rfl rfl rfl rfl rfl, ho.newLoc ?_ ?_ ?_, hvn.setFrames hrun⟩
    · exact ⟨hw.2.1.change modeOK_normal, hw.2.2⟩
    · simp [RunTop]
    · simp [h]
    · simp [h]
    · simp [h]
    · simp [h]
  · have hvv := hd w (by simp [h, DtorTop])
    subst hvv
    rw [h] at hw
    simp only [State.deliver, h, Safe]
    apply Inv.addLog
    refine ⟨hc.setFrames hrun (Or.inr rfl) hw.2 (adj_dtor_inv hw.1) ?_, ho.setFrames ?_ ?_ ?_, VInv.setFrames (by simpa using hv) hrun⟩
    · simp [h]
    · simp [h]
    · simp [h]
    · simp [h]

theorem raiseUser_safe {s : State} {t c n} (hc : CInv s (some c)) (ho : OInv s) (hv : VInv s [])
    (hcur : s.cur t = some c) : Safe (s.raiseUser c n) := by
  have hrun := (hc.curRun t c).1 hcur
  have hw := hc.wf c (by simp [hrun])
  obtain ⟨rest, h | h | ⟨w, h⟩⟩ := suspTop_iff.1 (hc.midTop c rfl).1
  · simp [State.raiseUser, h, Safe]
  · rw [h] at hw
    obtain ⟨k, ls, rest', rfl⟩ := adj_resume_inv hw.1
    simp only [State.raiseUser, h, Safe]
    refine ⟨hc.setFrames hrun (Or.inr rfl) ⟨hw.2.1.change modeOK_unwinding, hw.2.2⟩ ?_ ?_, ho.setFrames ?_ ?_ ?_, hv.setFrames hrun⟩
    · simp [RunTop]
    · simp [h]
    · simp [h]
    · simp [h]
    · simp [h]
  · simp [State.raiseUser, h, Safe]

theorem raiseForced_safe {s : State} {t c f} (hc : CInv s (some c)) (ho : OInv s) (hv : VInv s [f])
    (hcur : s.cur t = some c) (hd : DtorTop c (s.frames f.ctx)) : Safe (s.raiseForced t c f) := by
  have hrun := (hc.curRun t c).1 hcur
  have hw := hc.wf c (by simp [hrun])
  have hfr := ho.fresh _ (Nat.le_refl _)
  obtain ⟨rest, h | h | ⟨w, h⟩⟩ := suspTop_iff.1 (hc.midTop c rfl).1
  · rw [h] at hw
    have := adj_entryJump_inv hw.1
    subst this
    simp only [State.raiseForced, h]
    refine finish_safe (Or.inr rfl) hc ho hv hcur ?_ ?_ ?_ ?_ ?_
    · simp [h]
    · simp [h]
    · simp [h]
    · simp [h]
    · intro v hv; obtain ⟨_, h1⟩ := dtorTop_iff.1 hv; obtain ⟨_, h2⟩ := dtorTop_iff.1 hd; simp_all
  · rw [h] at hw
    obtain ⟨k, ls, rest', rfl⟩ := adj_resume_inv hw.1
    simp only [State.raiseForced, h, Safe]
    refine ⟨CInv.congr (CInv.setFrames (fs := .user k ls (.unwinding (.forced s.nextVar)) :: rest') hc hrun (Or.inr rfl)
        ⟨hw.2.1.change modeOK_unwinding, hw.2.2⟩ ?_ ?_) rfl rfl rfl rfl rfl,
      ho.newExc ?_ ?_ ?_, (VInv.newVarSome hv hfr (by simp) ?_ (by simp)).setFrames hrun⟩
    · simp [RunTop]
    · simp [h]
    · simp [h]
    · simp [h]
    · simp [h]
    · simpa using hd
  · simp [State.raiseForced, h, Safe]

/-- pushing a suspension frame and switching, all three parts -/
theorem pushSwitch_inv {s : State} {t c f fr allowRaw} (hc : CInv s none) (ho : OInv s) (hv : VInv s [f])
    (hcur : s.cur t = some c) (hfr : SuspTop [fr]) (hw : Adj fr (s.frames c)) :
    ∃ s', (s.setFrames c (fr :: s.frames c)).switch t f .suspended allowRaw = some (s', ⟨c, s.seq c + 1⟩) ∧
      CInv s' (some f.ctx) ∧ OInv s' ∧ VInv s' [⟨c, s.seq c + 1⟩] ∧ s'.cur t = some f.ctx ∧
      s'.frames = upd s.frames c (fr :: s.frames c) ∧ f.ctx ≠ c ∧ s'.nextVar = s.nextVar ∧
      s' = { s with cur := upd s.cur t (some f.ctx), status := upd (upd s.status c .suspended) f.ctx (.running t),
                    frames := upd s.frames c (fr :: s.frames c), seq := upd s.seq c (s.seq c + 1) } := by
  have hf := hv.validR f (by simp)
  have hrun := (hc.curRun t c).1 hcur
  have hfc : f.ctx ≠ c := by rintro h; rw [h] at hf; simp [hrun] at hf
  refine ⟨_, ?_, hc.pushSwitch hcur hf.1 hfr hw, ?_, hv.pushSwitch hrun, ?_, ?_, hfc, ?_, rfl⟩
  · simp only [switch, setFrames_cur, hcur, setFrames_status, setFrames_seq, hf]
    simp only [true_or, and_self, if_true]
    rfl
  · have h1 : fr.lvars = [] ∧ fr.evars = [] ∧ fr.rvars = [] := by cases fr <;> simp_all [SuspTop]
    refine (ho.setFrames (c := c) (fs := fr :: s.frames c) ?_ ?_ ?_).congr rfl rfl rfl rfl (Nat.le_refl _) ?_
    · rw [lvars_cons, h1.1]; rfl
    · rw [evars_cons, h1.2.1]; rfl
    · rw [rvars_cons, h1.2.2]; rfl
    · intro d; simp; grind
  · simp
  · rfl
  · rfl

theorem destroyFctx_safe {s : State} {t c f} (hc : CInv s none) (ho : OInv s) (hv : VInv s [f])
    (hcur : s.cur t = some c) : Safe (s.destroyFctx t c f) := by
  have hrun := (hc.curRun t c).1 hcur
  obtain ⟨s', hsw, hc', ho', hv', hcur', hfr, hfc, _, _⟩ := pushSwitch_inv (fr := .dtor f.ctx) (allowRaw := false) hc ho hv hcur
    (by simp [SuspTop]) (adj_dtor (hc.runTop c t hrun (by simp)))
  simp only [State.destroyFctx, ontopSwitch, hsw]
  exact raiseForced_safe hc' ho' hv' hcur' (by simp [hfr, DtorTop])

theorem doResume_safe {s : State} {t c x k ls rest} (hi : Inv s) (hcur : s.cur t = some c)
    (hfr : s.frames c = .user k ls .normal :: rest) (ha : s.accessible x = true) : Safe (s.doResume t c x) := by
  have hk : ∀ d, s.kind x ≠ .exc d := by intro d h; simp [accessible, h] at ha
  simp only [State.doResume]
  cases hx : s.val x with
  | none => simp [Safe]
  | some f =>
    have hv1 := hi.vi.take hx hk
    have hnd := hi.vi.nonExc x f hk hx
    have hci : CInv (s.setVal x none) none := hi.ci.congr rfl rfl rfl rfl rfl
    obtain ⟨s', hsw, hc', ho', hv', hcur', hfr', hfc, _, _⟩ := pushSwitch_inv (s := s.setVal x none) (t := t) (c := c) (fr := .resume)
      (allowRaw := true) hci hi.oi.setVal hv1 hcur (by simp [SuspTop]) (by simp [hfr, Adj])
    simp only [jump]
    rw [show (s.setVal x none).setFrames c (.resume :: s.frames c) = (s.setVal x none).setFrames c (.resume :: (s.setVal x none).frames c) from rfl, hsw]
    refine deliver_safe hc' ho' hv' hcur' ?_ ?_
    · intro w hw; rw [hfr'] at hw; simp [hfc] at hw; exact absurd hw (hnd w)
    · intro g hg w hw; rw [hfr'] at hw; cases hg; simp [DtorTop] at hw

theorem doResumeWith_safe {s : State} {t c x k ls rest} (hi : Inv s) (hcur : s.cur t = some c)
    (hfr : s.frames c = .user k ls .normal :: rest) (ha : s.accessible x = true) : Safe (s.doResumeWith t c x) := by
  have hk : ∀ d, s.kind x ≠ .exc d := by intro d h; simp [accessible, h] at ha
  simp only [State.doResumeWith]
  cases hx : s.val x with
  | none => simp [Safe]
  | some f =>
    have hv1 := hi.vi.take hx hk
    have hnd := hi.vi.nonExc x f hk hx
    have hci : CInv (s.setVal x none) none := hi.ci.congr rfl rfl rfl rfl rfl
    obtain ⟨s', hsw, hc', ho', hv', hcur', hfr', hfc, _, _⟩ := pushSwitch_inv (s := s.setVal x none) (t := t) (c := c) (fr := .resume)
      (allowRaw := false) hci hi.oi.setVal hv1 hcur (by simp [SuspTop]) (by simp [hfr, Adj])
    simp only [ontopSwitch]
    rw [show (s.setVal x none).setFrames c (.resume :: s.frames c) = (s.setVal x none).setFrames c (.resume :: (s.setVal x none).frames c) from rfl, hsw]
    simp only [Safe]
    have hrun' := (hc'.curRun _ _).1 hcur'
    have hff : s'.frames f.ctx = s.frames f.ctx := by rw [hfr']; simp [hfc]
    have hst : SuspTop (s'.frames f.ctx) := (hc'.midTop _ rfl).1
    have hw := hc'.wf f.ctx (by simp [hrun'])
    apply Inv.addLog
    have hadj : Adj (.user (.ontop (s'.nextId + 1 - 1)) [s'.nextVar] .normal) (s'.frames f.ctx) := by
      obtain ⟨rest, h | h | ⟨w, h⟩⟩ := suspTop_iff.1 hst
      · simp [h, Adj, ModeOK]
      · simp [h, Adj, ModeOK]
      · exact absurd (by rw [← hff, h]; simp [DtorTop]) (hnd w)
    refine ⟨?_, ?_, ?_⟩
    · refine CInv.congr (CInv.setFrames (fs := .user (.ontop (s'.nextId + 1 - 1)) [s'.nextVar] .normal :: s'.frames f.ctx)
        hc' hrun' (Or.inr rfl) ⟨hadj, hw⟩ (by simp [RunTop]) (by simp)) rfl rfl rfl rfl rfl
    · refine OInv.congr (OInv.newLoc (s := s') (c := f.ctx) (v := some ⟨c, s.seq c + 1⟩)
        (fs := .user (.ontop (s'.nextId + 1 - 1)) [s'.nextVar] .normal :: s'.frames f.ctx) ho' ?_ ?_ ?_) rfl rfl rfl rfl (Nat.le_refl _) (fun _ h => Or.inl h)
      · simp
      · simp
      · simp
    · refine VInv.congr (VInv.setFrames (VInv.newVarSome (k := .loc f.ctx) hv' (ho'.fresh _ (Nat.le_refl _)) (by simp) (by simp) ?_) hrun'
        (fs := .user (.ontop (s'.nextId + 1 - 1)) [s'.nextVar] .normal :: s'.frames f.ctx)) rfl rfl rfl rfl rfl rfl
      intro _ w hw; rw [hfr'] at hw; simp [DtorTop] at hw

end Verif.Fiber
