import Verif.UFiber.PrimO

/-! # Every step preserves the invariant and never runs into undefined behaviour, unless a never started fiber is destroyed -/

namespace Verif.UFiber
open Verif.Fiber (CtxId Var Tid Kind Exc Mode UKind Frame Status Event Op CreateOutcome upd upd_apply lvars evars rvars exits
  ModeOK SuspTop RunTop DtorTop lvars_nil evars_nil rvars_nil lvars_cons evars_cons rvars_cons exits_nil exits_cons
  dtorTop_iff suspTop_iff runTop_iff modeOK_unwinding modeOK_normal)
open State

/-- What the invariant promises about the result of a step. -/
def Safe : Res → Prop
  | .ok s => s.early = false → Inv s
  | .ub => False
  | _ => True

theorem Inv.safe {s : State} (h : Inv s) : Safe (.ok s) := fun _ => h

theorem Inv.addLog {s : State} {e} (h : Inv s) : Inv (s.addLog e) :=
  ⟨h.ci.congr rfl rfl rfl rfl rfl rfl, h.oi.congr rfl rfl rfl rfl (Nat.le_refl _) (fun _ h => Or.inl h),
   h.vi.congr rfl rfl rfl rfl rfl⟩

theorem adj_dtor {n fs} (h : RunTop fs) : Adj (.dtor n) fs := by
  cases fs with
  | nil => simp [RunTop] at h
  | cons f fs => cases f <;> simp_all [RunTop, Adj]

theorem adj_exiting {n fs} (h : RunTop fs) : Adj (.exiting n) fs := by
  cases fs with
  | nil => simp [RunTop] at h
  | cons f fs => cases f <;> simp_all [RunTop, Adj]

theorem adj_exiting_inv {n fs} (h : Adj (.exiting n) fs) : RunTop fs ∨ ∃ rest, fs = .dtor n :: rest := by
  cases fs with
  | nil => simp [Adj] at h
  | cons f fs => cases f <;> simp_all [RunTop, Adj]

theorem adj_resume_inv {fs} (h : Adj .resume fs) : ∃ k ls rest, fs = .user k ls .normal :: rest := by
  cases fs with
  | nil => simp [Adj] at h
  | cons f fs =>
    cases f with
    | user k ls m => cases m <;> simp_all [Adj]
    | _ => simp [Adj] at h

theorem adj_dtor_inv {v fs} (h : Adj (.dtor v) fs) : RunTop fs := by
  cases fs with
  | nil => simp [Adj] at h
  | cons f fs => cases f <;> simp_all [RunTop, Adj]

theorem adj_entryJump_inv {fs} (h : Adj .entryJump fs) : fs = [] := by
  cases fs with
  | nil => rfl
  | cons f fs => simp [Adj] at h

theorem Adj.modeOK {k ls m rest} (h : Adj (.user k ls m) rest) : ModeOK k m := by
  cases k <;> cases rest with
  | nil => simp [Adj] at h <;> try exact h
  | cons g gs => cases g <;> simp_all [Adj] <;> (rename_i m' ; cases m' <;> simp_all [Adj])

/-- `Adj` of a user frame does not depend on its locals, and on the mode only through `ModeOK`. -/
theorem Adj.change {k ls m rest ls' m'} (h : Adj (.user k ls m) rest) (hm : ModeOK k m') : Adj (.user k ls' m') rest := by
  cases k <;> cases rest with
  | nil => simp_all [Adj]
  | cons g gs => cases g <;> simp_all [Adj] <;> (rename_i m' ; cases m' <;> simp_all [Adj])

theorem adj_fn {ls m rest} (h : Adj (.user .fn ls m) rest) : rest = [.entryRun] := by
  cases rest with
  | nil => simp [Adj] at h
  | cons g gs => cases g <;> simp_all [Adj]

theorem adj_ontop {i ls m rest} (h : Adj (.user (.ontop i) ls m) rest) : ∃ rest', rest = .resume :: rest' := by
  cases rest with
  | nil => simp [Adj] at h
  | cons g gs => cases g <;> simp_all [Adj]

theorem adj_call {ls m rest} (h : Adj (.user .call ls m) rest) : ∃ k ls' rest', rest = .user k ls' .normal :: rest' := by
  cases rest with
  | nil => simp [Adj] at h
  | cons g gs =>
    cases g with
    | user k ls m => cases m <;> simp_all [Adj]
    | _ => simp [Adj] at h

theorem adj_cleanup {ls m rest} (h : Adj (.user .cleanup ls m) rest) : RunTop rest := by
  cases rest with
  | nil => simp [Adj] at h
  | cons g gs => cases g <;> simp_all [Adj, RunTop]

/-- What a context does that has just been switched to by `p`. -/
theorem arrive_safe {s : State} {t w p} (hc : CInv s (some w)) (ho : OInv s) (hv : VInv s [p])
    (hcur : s.cur t = some w) (hf : s.frm w = some p)
    (hd : ∀ v, DtorTop v (s.frames w) → v = p ∧ s.status p = .terminated)
    (hp : ∀ v, DtorTop v (s.frames p) → v = w ∧ s.unw w = true ∧ s.frames w ≠ [.entryJump]) : Safe (s.arrive w) := by
  have hrun := (hc.curRun t w).1 hcur
  have hw := hc.wf w (by simp [hrun])
  have hfr := ho.fresh _ (Nat.le_refl _)
  obtain ⟨rest, h | h | ⟨v, h⟩⟩ := suspTop_iff.1 (hc.midTop w rfl).1
  · rw [h] at hw
    have := adj_entryJump_inv hw.1
    subst this
    have hvn : VInv (s.newVar (.loc w) (some p)) [] :=
      hv.newVarSome hfr (by simp) (by simp) (fun _ v hv => absurd h (hp v hv).2.2)
    simp only [State.arrive, h, hf]
    refine Inv.safe (Inv.addLog ⟨CInv.congr (CInv.setFrames hc hrun (Or.inr rfl) ?_ ?_ ?_) rfl rfl rfl rfl rfl rfl,
      ho.newLoc ?_ ?_ ?_, hvn.setFrames (t := t) hrun ?_⟩)
    · simp [WF, Adj, ModeOK]
    · simp [RunTop]
    · simp [h]
    · simp [h]
    · simp [h]
    · simp [h]
    · simp [h]
  · rw [h] at hw
    obtain ⟨k, ls, rest', rfl⟩ := adj_resume_inv hw.1
    simp only [State.arrive, h, hf]
    have hc1 : CInv { s with frm := upd s.frm w none } (some w) := hc.congr rfl rfl rfl rfl rfl rfl
    have ho1 : OInv { s with frm := upd s.frm w none } := ho.congr rfl rfl rfl rfl (Nat.le_refl _) (fun _ h => Or.inl h)
    have hv1 : VInv { s with frm := upd s.frm w none } [p] := hv.congr rfl rfl rfl rfl rfl
    split
    · rename_i hu
      refine Inv.safe ⟨CInv.congr (CInv.setFrames (fs := .user k ls (.unwinding (.forced s.nextVar)) :: rest') hc1 hrun (Or.inr rfl)
          ⟨hw.2.1.change modeOK_unwinding, hw.2.2⟩ ?_ ?_) rfl rfl rfl rfl rfl rfl,
        ho1.newExc ?_ ?_ ?_, (VInv.newVarSome hv1 hfr (by simp) ?_ (by simp)).setFrames (t := t) hrun ?_⟩
      · simp [RunTop]
      · simp [h]
      · simp [h]
      · simp [h]
      · simp [h]
      · intro c v hk hv; cases hk; exact (hp v hv).1
      · simp [h]
    · rename_i hu
      have hvn : VInv (State.newVar { s with frm := upd s.frm w none } (.loc w) (some p)) [] :=
        hv1.newVarSome hfr (by simp) (by simp) (fun _ v hv => absurd (hp v hv).2.1 hu)
      split
      · rename_i i hi
        refine Inv.safe (Inv.addLog ⟨CInv.congr (CInv.setFrames (fs := .user (.ontop i) [s.nextVar] .normal :: .resume :: .user k ls .normal :: rest') hc1 hrun (Or.inr rfl)
          ⟨by simp [Adj, ModeOK], hw⟩ ?_ ?_) rfl rfl rfl rfl rfl rfl, ho1.newLoc ?_ ?_ ?_, hvn.setFrames (t := t) hrun ?_⟩)
        · simp [RunTop]
        · simp [h]
        · simp [h]
        · simp [h]
        · simp [h]
        · simp [h]
      · refine Inv.safe ⟨CInv.congr (CInv.setFrames (fs := .user k (s.nextVar :: ls) .normal :: rest') hc1 hrun (Or.inr rfl)
          ⟨hw.2.1.change modeOK_normal, hw.2.2⟩ ?_ ?_) rfl rfl rfl rfl rfl rfl, ho1.newLoc ?_ ?_ ?_, hvn.setFrames (t := t) hrun ?_⟩
        · simp [RunTop]
        · simp [h]
        · simp [h]
        · simp [h]
        · simp [h]
        · simp [h]
  · obtain ⟨rfl, ht⟩ := hd v (by simp [h, DtorTop])
    have hx := (hv.validR v (by simp)).2
    rw [h] at hw
    have htm : s.term v = true := (hc.termI v).2 (Or.inl ht)
    simp only [State.arrive, h, hf, ht, htm]
    have hlost : (fun z => s.lost z || (decide (some v = some z) && decide (z ≠ v))) = s.lost := by
      funext z
      cases s.lost z <;> simp
      intro h; exact h.symm
    simp only [hlost]
    have hc1 : CInv (s.setFrames w (.exiting v :: s.frames w)) none := hc.pushExit hrun (Or.inr rfl) ht hx (by simp [h, Adj])
    have ho1 : OInv (s.setFrames w (.exiting v :: s.frames w)) := ho.setFrames (by simp) (by simp) (by simp)
    have hv1 : VInv (s.setFrames w (.exiting v :: s.frames w)) [] := hv.pushExit hrun
    rw [h] at hc1 ho1 hv1
    exact Inv.safe ⟨hc1.congr rfl rfl rfl rfl rfl rfl, ho1.congr rfl rfl rfl rfl (Nat.le_refl _) (fun _ h => Or.inl h),
      hv1.congr rfl rfl rfl rfl rfl⟩

theorem run_exits {s : State} {c t} (hc : CInv s none) (hrun : s.status c = .running t) : ∀ d, exits c (s.frames d) = 0 := by
  intro d
  cases h : exits c (s.frames d) with
  | zero => rfl
  | succ n => have := hc.exitT c d (by omega); simp [hrun] at this

/-- pushing a suspension frame and switching, all three parts -/
theorem pushSwitch_inv {s : State} {t c w fr} (hc : CInv s none) (ho : OInv s) (hv : VInv s [w]) (hws : s.status w = .suspended)
    (hcur : s.cur t = some c) (hfr : SuspTop [fr]) (hw : Adj fr (s.frames c)) :
    ∃ s', (s.setFrames c (fr :: s.frames c)).switchTo t w .suspended = some s' ∧
      CInv s' (some w) ∧ OInv s' ∧ VInv s' [c] ∧ s'.cur t = some w ∧ s'.frm w = some c ∧ s'.status c = .suspended ∧
      s'.frames = upd s.frames c (fr :: s.frames c) ∧ w ≠ c ∧ s'.unw = s.unw ∧ s'.early = s.early ∧
      s' = { s with cur := upd s.cur t (some w), status := upd (upd s.status c .suspended) w (.running t),
                    frames := upd s.frames c (fr :: s.frames c), frm := upd s.frm w (some c) } := by
  have hrun := (hc.curRun t c).1 hcur
  have hfc : w ≠ c := by rintro h; rw [h] at hws; simp [hrun] at hws
  have hx : ∀ n, fr ≠ .exiting n := by rintro n rfl; simp [SuspTop] at hfr
  refine ⟨_, ?_, hc.pushSwitch hcur hws hfr hw, ?_, hv.pushSwitch hrun hws hx (run_exits hc hrun), ?_, ?_, ?_, ?_, hfc, ?_, ?_, rfl⟩
  · simp only [switchTo, setFrames_cur, hcur, setFrames_status, hws]
    rfl
  · have h1 : fr.lvars = [] ∧ fr.evars = [] ∧ fr.rvars = [] := by cases fr <;> simp_all [SuspTop]
    refine (ho.setFrames (c := c) (fs := fr :: s.frames c) ?_ ?_ ?_).congr rfl rfl rfl rfl (Nat.le_refl _) ?_
    · rw [lvars_cons, h1.1]; rfl
    · rw [evars_cons, h1.2.1]; rfl
    · rw [rvars_cons, h1.2.2]; rfl
    · intro d; simp; grind
  · simp
  · simp
  · simp [Ne.symm hfc]
  · rfl
  · rfl
  · rfl

theorem arrive_early {s s' : State} {w} (h : s.arrive w = .ok s') : s'.early = s.early := by
  unfold State.arrive at h
  grind [addLog_early, setFrames_early, newVar_early]

theorem destroyPtr_safe {s : State} {t c v} (hc : CInv s none) (ho : OInv s) (hv : VInv s [v])
    (hcur : s.cur t = some c) (hdt : ∀ u, ¬ DtorTop u (s.frames v)) : Safe (s.destroyPtr t c v) := by
  have hrun := (hc.curRun t c).1 hcur
  have hrt := hc.runTop c t hrun (by simp)
  have hp := hv.validR v (by simp)
  unfold State.destroyPtr
  have h0 : ¬ (s.status v = .freed ∨ s.status v = .ended ∨ s.status v = .absent) := by
    rcases hp.1 with h | h <;> simp [h]
  rw [if_neg h0]
  split
  · exact Inv.safe ⟨hc.congr rfl rfl rfl rfl rfl rfl, ho.congr rfl rfl rfl rfl (Nat.le_refl _) (fun _ h => Or.inl h), hv.lose⟩
  · split
    · rename_i htm
      have ht : s.status v = .terminated := by
        rcases (hc.termI v).1 htm with h | h
        · exact h
        · rcases hp.1 with h' | h' <;> simp [h] at h'
      refine Inv.safe ⟨hc.pushExit hrun (Or.inl rfl) ht hp.2 (adj_exiting hrt), ho.setFrames (by simp) (by simp) (by simp), hv.pushExit hrun⟩
    · rename_i htm
      have hs : s.status v = .suspended := by
        rcases hp.1 with h | h
        · exact h
        · exact absurd ((hc.termI v).2 (Or.inl h)) htm
      simp only
      have hc1 : CInv { s with unw := upd s.unw v true, early := s.early || decide (s.frames v = [Frame.entryJump]) } none :=
        hc.congr rfl rfl rfl rfl rfl rfl
      have ho1 : OInv { s with unw := upd s.unw v true, early := s.early || decide (s.frames v = [Frame.entryJump]) } :=
        ho.congr rfl rfl rfl rfl (Nat.le_refl _) (fun _ h => Or.inl h)
      have hv1 : VInv { s with unw := upd s.unw v true, early := s.early || decide (s.frames v = [Frame.entryJump]) } [v] :=
        hv.congr rfl rfl rfl rfl rfl
      obtain ⟨s', hsw, hc', ho', hv', hcur', hf', hst', hfr', hwc, hun', hea', hs'⟩ := pushSwitch_inv (fr := .dtor v) hc1 ho1 hv1 hs hcur
        (by simp [SuspTop]) (adj_dtor hrt)
      rw [show (State.setFrames { s with unw := upd s.unw v true, early := s.early || decide (s.frames v = [Frame.entryJump]) } c (Frame.dtor v :: s.frames c)).switchTo t v .suspended = some s' from hsw]
      simp only
      have hfv : s'.frames v = s.frames v := by rw [hfr']; simp [hwc]
      by_cases hst : s.frames v = [.entryJump]
      · have hea : s'.early = true := by rw [hea']; simp [hst]
        cases hr : s'.arrive v with
        | ok s2 => intro he; rw [arrive_early hr, hea] at he; simp at he
        | ub => rw [State.arrive, hfv, hst] at hr; simp at hr
        | _ => trivial
      · refine arrive_safe hc' ho' hv' hcur' hf' ?_ ?_
        · intro u hu; rw [hfv] at hu; exact absurd hu (hdt u)
        · intro u hu
          rw [hfr'] at hu
          simp [DtorTop] at hu
          refine ⟨hu.symm, ?_, ?_⟩
          · rw [hun']; simp
          · rw [hfv]; exact hst

theorem accessible_ne_exc {s : State} {x} (h : s.accessible x = true) : ∀ c, s.kind x ≠ .exc c := by
  intro c hc; simp [accessible, hc] at h

theorem accessible_ne_dead {s : State} {x} (h : s.accessible x = true) : s.kind x ≠ .dead := by
  intro hc; simp [accessible, hc] at h

theorem accessible_newVar {s : State} {x k v} (ho : OInv s) (h : s.accessible x = true) :
    (s.newVar k v).accessible x = true := by
  have : x ≠ s.nextVar := by
    rintro rfl
    exact accessible_ne_dead h (ho.fresh _ (Nat.le_refl _))
  simpa [accessible, this] using h

/-- switching from user code with the pointer of an accessible object -/
theorem resume_core {s : State} {t c w x k ls rest} (hi : Inv s) (hcur : s.cur t = some c)
    (hfr : s.frames c = .user k ls .normal :: rest) (hk : ∀ c, s.kind x ≠ .exc c) (hx : s.val x = some w)
    (hnt : s.status w ≠ .terminated) (o : CtxId → Option Nat) (n : Nat) :
    Safe (match (State.setFrames (State.setVal { s with ontop := o, nextId := n } x none) c (.resume :: s.frames c)).switchTo t w .suspended with
      | none => .ub
      | some s => s.arrive w) := by
  have hv1 := hi.vi.take hx hk
  have hnd := hi.vi.nonExc x w hk hx
  have hws : s.status w = .suspended := by
    rcases (hi.vi.valid x w hx).1 with h | h
    · exact h
    · exact absurd h hnt
  obtain ⟨s', hsw, hc', ho', hv', hcur', hf', hst', hfr', hwc, hun', hea', hs'⟩ :=
    pushSwitch_inv (s := State.setVal { s with ontop := o, nextId := n } x none) (t := t) (c := c) (w := w) (fr := .resume)
      (hi.ci.congr rfl rfl rfl rfl rfl rfl) (hi.oi.congr rfl rfl rfl rfl (Nat.le_refl _) (fun _ h => Or.inl h))
      (hv1.congr rfl rfl rfl rfl rfl) hws hcur (by simp [SuspTop]) (by simp [hfr, Adj])
  rw [show (State.setFrames (State.setVal { s with ontop := o, nextId := n } x none) c (.resume :: s.frames c)).switchTo t w .suspended = some s' from hsw]
  refine arrive_safe hc' ho' hv' hcur' hf' ?_ ?_
  · intro u hu; rw [hfr'] at hu; simp [hwc] at hu; exact absurd hu (hnd u)
  · intro u hu; rw [hfr'] at hu; simp [DtorTop] at hu

theorem doResume_safe {s : State} {t c x k ls rest} (hi : Inv s) (hcur : s.cur t = some c)
    (hfr : s.frames c = .user k ls .normal :: rest) (ha : s.accessible x = true) : Safe (s.doResume t c x) := by
  simp only [State.doResume]
  cases hx : s.val x with
  | none => simp [Safe]
  | some w =>
    simp only
    split
    · simp [Safe]
    · rename_i hnt
      exact resume_core hi hcur hfr (accessible_ne_exc ha) hx hnt s.ontop s.nextId

theorem doResumeWith_safe {s : State} {t c x k ls rest} (hi : Inv s) (hcur : s.cur t = some c)
    (hfr : s.frames c = .user k ls .normal :: rest) (ha : s.accessible x = true) : Safe (s.doResumeWith t c x) := by
  simp only [State.doResumeWith]
  cases hx : s.val x with
  | none => simp [Safe]
  | some w =>
    simp only
    split
    · simp [Safe]
    · rename_i hnt
      exact resume_core hi hcur hfr (accessible_ne_exc ha) hx hnt (upd s.ontop w (some s.nextId)) (s.nextId + 1)

/-- end of a context function -/
theorem finish_safe {s : State} {t c p} (hc : CInv s none) (ho : OInv s) (hv : VInv s p.toList)
    (hcur : s.cur t = some c) (hx : ∀ n, exits n (s.frames c) = 0)
    (hl : lvars (s.frames c) = []) (he : evars (s.frames c) = []) (hr : rvars (s.frames c) = [])
    (hd : ∀ w v, p = some w → DtorTop v (s.frames w) → v = c) : Safe (s.finish t c p) := by
  cases p with
  | none => simp [State.finish, Safe]
  | some w =>
    have hrun := (hc.curRun t c).1 hcur
    have hp := hv.validR w (by simp)
    simp only [State.finish]
    split
    · simp [Safe]
    · rename_i hnt
      have hws : s.status w = .suspended := by
        rcases hp.1 with h | h
        · exact h
        · exact absurd h hnt
      have hfc : w ≠ c := by rintro h; rw [h] at hws; simp [hrun] at hws
      simp only [switchTo, setFrames_cur, hcur, setFrames_status, hws, if_true]
      have hc' := hc.finish (w := w) hcur hws hx (q := upd (upd s.frm c none) w (some c)) (o := upd s.ontop c none) (u := upd s.unw c false)
      have hv' := VInv.finish (cu := upd s.cur t (some w)) (q := upd (upd s.frm c none) w (some c)) (o := upd s.ontop c none) (u := upd s.unw c false) (m := upd s.term c true) hv hrun hws hx (run_exits hc hrun)
      have ho' : OInv { s with cur := upd s.cur t (some w), status := upd (upd s.status c .terminated) w (.running t), frames := upd s.frames c [.exitJump], frm := upd (upd s.frm c none) w (some c), ontop := upd s.ontop c none, unw := upd s.unw c false, term := upd s.term c true } := by
        refine OInv.congr (ho.setFrames (c := c) (fs := [.exitJump]) ?_ ?_ ?_) rfl rfl rfl rfl (Nat.le_refl _) ?_
        · simp [hl]
        · simp [he]
        · simp [hr]
        · intro d; simp; grind
      refine arrive_safe (t := t) (p := c) hc' ho' hv' ?_ ?_ ?_ ?_
      · simp
      · simp
      · intro v hv
        simp [hfc] at hv
        have := hd w v rfl hv
        simp [this, Ne.symm hfc]
      · intro v hv; simp [DtorTop] at hv

/-- destroying an object that has been detached from its owner -/
theorem destroyVar_safe {s0 : State} {t c x} (hc : CInv s0 none) (hv : VInv s0 []) (ho : OInv (s0.kill x))
    (hcur : s0.cur t = some c) (hk : ∀ c, s0.kind x ≠ .exc c) : Safe (s0.destroyVar t c x) := by
  simp only [State.destroyVar]
  cases hx : s0.val x with
  | none => exact Inv.safe ⟨hc.congr rfl rfl rfl rfl rfl rfl, ho, hv.killNone hx⟩
  | some v =>
    exact destroyPtr_safe (hc.congr rfl rfl rfl rfl rfl rfl) ho (hv.killSome hx) hcur (hv.nonExc x v hk hx)

/-- changing only the innermost user frame of the running context, variables unchanged -/
theorem Inv.setTop {s : State} {t c fs} (hi : Inv s) (hcur : s.cur t = some c) (hw : WF fs) (ht : RunTop fs) (hx : ∀ n, exits n fs = exits n (s.frames c))
    (hl : lvars fs = lvars (s.frames c)) (he : evars fs = evars (s.frames c)) (hr : rvars fs = rvars (s.frames c)) :
    Inv (s.setFrames c fs) := by
  have hrun := (hi.ci.curRun t c).1 hcur
  exact ⟨hi.ci.setFrames hrun (Or.inl rfl) hw ht hx, hi.oi.setFrames hl he hr, hi.vi.setFrames hrun hx⟩

end Verif.UFiber
