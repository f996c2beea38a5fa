import Verif.Backends.Prim2

/-! # Resumption, on both sides -/

namespace Verif.Backends
open Verif.Fiber (CtxId Var Tid Kind Exc Mode UKind Frame Status Event Op CreateOutcome Fctx upd upd_apply RunTop runTop_iff DtorTop)

/-- the fcontext machine after `c` has suspended itself in `resume()` through object `x` and `w` continues -/
def resA (a : Fiber.State) (t : Tid) (c w : CtxId) (x : Var) : Fiber.State :=
  { (a.setVal x none).setFrames c (.resume :: a.frames c) with
    cur := upd a.cur t (some w), status := upd (upd a.status c .suspended) w (.running t), seq := upd a.seq c (a.seq c + 1) }

def resB (b : UFiber.State) (t : Tid) (c w : CtxId) (x : Var) (fm : CtxId → Option CtxId) : UFiber.State :=
  { (b.setVal x none).setFrames c (.resume :: b.frames c) with
    frm := fm, cur := upd b.cur t (some w), status := upd (upd b.status c .suspended) w (.running t) }

theorem resR {a : Fiber.State} {b : UFiber.State} {t c w x} (h : R a b) (hc : b.status c = .running t) (hs : b.status w = .suspended)
    (hun : ¬ BeingUnwound (a.frames c)) (hon : ¬ InOntop (a.frames c)) (fm) : R (resA a t c w x) (resB b t c w x fm) := by
  have hct : b.status c ≠ .terminated := by simp [hc]
  have hfc : a.frames c = b.frames c := h.frames_eq hct
  rw [hfc] at hun hon
  have r1 := h.setVal (x := x) (v := none) (w := none) rfl
  have r2 := r1.setFrames (c := c) (fs := .resume :: b.frames c) hct
    (by intro n; have := h.noExit c n; simp [this])
    (by intro i hi; exact absurd (h.ont c i hi) hon) (by intro hi; exact absurd (h.unw c hi) hun) (by intro rest _; simp [hon, hun])
  have r3 := r2.switch (t := t) (c := c) (w := w) (sq := upd a.seq c (a.seq c + 1)) (fm := fm) hct hs
  unfold resA resB
  rw [hfc]
  exact r3

theorem live_running {st : CtxId → Status} {c : CtxId} (h : st c = .suspended) {n} :
    (some (⟨c, n⟩ : Fctx)).map Fctx.ctx = live st (some c) := by simp [live, h]

theorem resume_match {a : Fiber.State} {b : UFiber.State} {t c x} (h : R a b) (hcur : a.cur t = some c) (hc : b.status c = .running t)
    (hun : ¬ BeingUnwound (a.frames c)) (hon : ¬ InOntop (a.frames c))
    (hA : ∀ f, a.val x = some f → a.status f.ctx = .suspended ∧ a.seq f.ctx = f.seq ∧
      (a.frames f.ctx = [.entryJump] ∨ ∃ k ls rest, a.frames f.ctx = .resume :: .user k ls .normal :: rest))
    (hB : ∀ w, b.val x = some w → b.status w = .suspended ∨ b.status w = .terminated) :
    Match (fSettle t (a.doResume t c x)) (uSettle t (b.doResume t c x)) := by
  have hbc : b.cur t = some c := by rw [h.cur]; exact hcur
  have hv := h.val x
  cases hb : b.val x with
  | none =>
    have ha : a.val x = none := by simpa [hb] using hv
    simp only [Fiber.State.doResume, ha, UFiber.State.doResume, hb]
    exact Match.assertion.settle
  | some w =>
    rcases hB w hb with hs | hs
    · have hva : (a.val x).map Fctx.ctx = some w := by rw [hv, hb]; simp [live, hs]
      have hwc : w ≠ c := by rintro rfl; simp [hc] at hs
      have hwc' : c ≠ w := fun h => hwc h.symm
      cases ha : a.val x with
      | none => simp [ha] at hva
      | some f =>
        obtain ⟨fc, fs⟩ := f
        have hfw : fc = w := by simpa [ha] using hva
        subst hfw
        obtain ⟨g1, g2, g3⟩ := hA _ ha
        simp only at g1 g2 g3
        have hF : a.doResume t c x = (resA a t c fc x).deliver fc (some ⟨c, a.seq c + 1⟩) := by
          simp only [Fiber.State.doResume, ha, Fiber.State.jump, Fiber.State.switch]
          simp only [Fiber.State.setVal, Fiber.State.setFrames, hcur, g1, g2]
          rfl
        have hU : b.doResume t c x = (resB b t c fc x (upd b.frm fc (some c))).arrive fc := by
          have hne : b.status fc ≠ .terminated := by simp [hs]
          simp only [UFiber.State.doResume, hb, if_neg hne, UFiber.State.switchTo]
          simp only [UFiber.State.setVal, UFiber.State.setFrames, hbc, hs, if_true]
          rfl
        rw [hF, hU]
        have hfr : a.frames fc = b.frames fc := h.frames_eq (by simp [hs])
        rw [hfr] at g3
        have fA : (resA a t c fc x).frames fc = b.frames fc := by simp [resA, Fiber.State.setFrames, Fiber.State.setVal, hwc, hfr]
        have fB : ∀ fm, (resB b t c fc x fm).frames fc = b.frames fc := by
          intro fm; simp [resB, UFiber.State.setFrames, UFiber.State.setVal, hwc]
        have hsc : ∀ fm, (resB b t c fc x fm).status c = .suspended := by intro fm; simp [resB, hwc']
        have hsw : ∀ fm, (resB b t c fc x fm).status fc ≠ .terminated := by intro fm; simp [resB]
        have rr := fun fm => resR (x := x) h hc hs hun hon fm
        have hn := (rr (upd b.frm fc (some c))).nV
        have hfm : (resB b t c fc x (upd b.frm fc (some c))).frm fc = some c := by simp [resB]
        rcases g3 with g3 | ⟨k, ls, rest, g3⟩
        · simp only [Fiber.State.deliver, UFiber.State.arrive, fA, fB, g3, hfm]
          have r2 := (rr (upd b.frm fc (some c))).newVar (k := .loc fc) (live_running (n := a.seq c + 1) (hsc _))
          have r3 := r2.setFrames (c := fc) (fs := [.user .fn [(resB b t c fc x (upd b.frm fc (some c))).nextVar] .normal, .entryRun])
            (hsw b.frm) (by simp) (by intro i hi; have := h.ont fc i hi; simp [g3] at this)
            (by intro hi; have := h.unw fc hi; simp [g3] at this) (by simp)
          have r4 := r3.addLog (.enter fc)
          rw [← hn]
          exact (Match.ok r4).settle
        · obtain ⟨j1, j2⟩ := h.res fc _ g3
          have ho : b.ontop fc = none := by
            cases ho : b.ontop fc with
            | none => rfl
            | some i => exact absurd (h.ont fc i ho) j1
          have hu : b.unw fc = false := by
            cases hu : b.unw fc with
            | false => rfl
            | true => exact absurd (h.unw fc hu) j2
          have ho' : ∀ fm, (resB b t c fc x fm).ontop fc = none := fun _ => ho
          have hu' : ∀ fm, (resB b t c fc x fm).unw fc = false := fun _ => hu
          simp only [Fiber.State.deliver, UFiber.State.arrive, fA, fB, g3, hfm, ho', hu']
          have r2 := (rr (upd (upd b.frm fc (some c)) fc none)).newVar (k := .loc fc) (live_running (n := a.seq c + 1) (hsc _))
          have r3 := r2.setFrames (c := fc) (fs := .user k ((resB b t c fc x (upd b.frm fc (some c))).nextVar :: ls) .normal :: rest)
            (hsw b.frm) (by have := h.noExit fc; simp [g3] at this; simpa using this)
            (by intro i hi; exact absurd (ho.symm.trans hi) (by simp))
            (by intro hi; exact absurd (hu.symm.trans hi) (by simp)) (by simp)
          rw [← hn]
          exact (Match.ok r3).settle
    · have ha : a.val x = none := by
        have : (a.val x).map Fctx.ctx = none := by rw [hv, hb]; simp [live, hs]
        simpa using this
      simp only [Fiber.State.doResume, ha, UFiber.State.doResume, hb, hs, if_true]
      exact Match.assertion.settle

theorem resumeWith_match {a : Fiber.State} {b : UFiber.State} {t c x} (h : R a b) (hcur : a.cur t = some c) (hc : b.status c = .running t)
    (hun : ¬ BeingUnwound (a.frames c)) (hon : ¬ InOntop (a.frames c))
    (hA : ∀ f, a.val x = some f → a.status f.ctx = .suspended ∧ a.seq f.ctx = f.seq ∧
      ∃ k ls rest, a.frames f.ctx = .resume :: .user k ls .normal :: rest)
    (hB : ∀ w, b.val x = some w → b.status w = .suspended ∨ b.status w = .terminated) :
    Match (fSettle t (a.doResumeWith t c x)) (uSettle t (b.doResumeWith t c x)) := by
  have hbc : b.cur t = some c := by rw [h.cur]; exact hcur
  have hv := h.val x
  cases hb : b.val x with
  | none =>
    have ha : a.val x = none := by simpa [hb] using hv
    simp only [Fiber.State.doResumeWith, ha, UFiber.State.doResumeWith, hb]
    exact Match.assertion.settle
  | some w =>
    rcases hB w hb with hs | hs
    · have hva : (a.val x).map Fctx.ctx = some w := by rw [hv, hb]; simp [live, hs]
      have hwc : w ≠ c := by rintro rfl; simp [hc] at hs
      have hwc' : c ≠ w := fun h => hwc h.symm
      cases ha : a.val x with
      | none => simp [ha] at hva
      | some f =>
        obtain ⟨fc, fs⟩ := f
        have hfw : fc = w := by simpa [ha] using hva
        subst hfw
        obtain ⟨g1, g2, k, ls, rest, g3⟩ := hA _ ha
        simp only at g1 g2 g3
        have hfr : a.frames fc = b.frames fc := h.frames_eq (by simp [hs])
        rw [hfr] at g3
        have fA : (resA a t c fc x).frames fc = .resume :: .user k ls .normal :: rest := by
          simp [resA, Fiber.State.setFrames, Fiber.State.setVal, hwc, hfr, g3]
        have fB : ∀ fm, (resB b t c fc x fm).frames fc = .resume :: .user k ls .normal :: rest := by
          intro fm; simp [resB, UFiber.State.setFrames, UFiber.State.setVal, hwc, g3]
        obtain ⟨j1, j2⟩ := h.res fc _ g3
        have hu : b.unw fc = false := by
          cases hu : b.unw fc with
          | false => rfl
          | true => exact absurd (h.unw fc hu) j2
        have hF : a.doResumeWith t c x = .ok (((({ resA a t c fc x with nextId := a.nextId + 1 } : Fiber.State).newVar (.loc fc)
              (some ⟨c, a.seq c + 1⟩)).setFrames fc
              (.user (.ontop a.nextId) [a.nextVar] .normal :: .resume :: .user k ls .normal :: rest)).addLog (.ontop a.nextId fc)) := by
          rw [← fA]
          simp only [Fiber.State.doResumeWith, ha, Fiber.State.ontopSwitch, Fiber.State.switch]
          simp only [Fiber.State.setVal, Fiber.State.setFrames, hcur, g1, g2]
          rfl
        have hU : b.doResumeWith t c x = .ok (((({ resB b t c fc x (upd (upd b.frm fc (some c)) fc none) with nextId := b.nextId + 1, ontop := upd b.ontop fc (some b.nextId) } : UFiber.State).newVar (.loc fc)
              (some c)).setFrames fc
              (.user (.ontop b.nextId) [b.nextVar] .normal :: .resume :: .user k ls .normal :: rest)).addLog (.ontop b.nextId fc)) := by
          have hne : b.status fc ≠ .terminated := by simp [hs]
          have h1 : b.doResumeWith t c x =
              ({ resB b t c fc x (upd b.frm fc (some c)) with nextId := b.nextId + 1, ontop := upd b.ontop fc (some b.nextId) } : UFiber.State).arrive fc := by
            simp only [UFiber.State.doResumeWith, hb, if_neg hne, UFiber.State.switchTo]
            simp only [UFiber.State.setVal, UFiber.State.setFrames, hbc, hs, if_true]
            rfl
          have hu' : ∀ fm, (resB b t c fc x fm).unw fc = false := fun _ => hu
          have hfm : (resB b t c fc x (upd b.frm fc (some c))).frm fc = some c := by simp [resB]
          rw [h1]
          simp only [UFiber.State.arrive, fB, hu', hfm, upd_apply, if_true]
          rfl
        rw [hF, hU]
        have hsc : ∀ fm, (resB b t c fc x fm).status c = .suspended := by intro fm; simp [resB, hwc']
        have hsw : ∀ fm, (resB b t c fc x fm).status fc ≠ .terminated := by intro fm; simp [resB]
        have rr := fun fm => resR (x := x) h hc hs hun hon fm
        have r1 := (rr (upd (upd b.frm fc (some c)) fc none)).nextId (n := b.nextId + 1) (m := a.nextId + 1) (by rw [h.nI])
        have r2 := r1.newVar (k := .loc fc) (v := some ⟨c, a.seq c + 1⟩) (w := some c) (live_running (hsc b.frm))
        have r3 := r2.setFrames (c := fc) (fs := .user (.ontop b.nextId) [b.nextVar] .normal :: .resume :: .user k ls .normal :: rest)
            (hsw b.frm) (by have := h.noExit fc; simp [g3] at this; simpa using this)
            (by intro i _; simp) (by intro hi; exact absurd (hu.symm.trans hi) (by simp)) (by simp)
        have r4 := (r3.setOntop (w := fc) (v := some b.nextId) (by intro i _; simp [UFiber.State.setFrames])).addLog (.ontop b.nextId fc)
        rw [← h.nI, ← h.nV]
        rw [← h.nI] at r4
        exact (Match.ok r4).settle
    · have ha : a.val x = none := by
        have : (a.val x).map Fctx.ctx = none := by rw [hv, hb]; simp [live, hs]
        simpa using this
      simp only [Fiber.State.doResumeWith, ha, UFiber.State.doResumeWith, hb, hs, if_true]
      exact Match.assertion.settle

end Verif.Backends
