import Verif.Backends.Prim

/-! # The end of a fiber, and resumption, on both sides -/

namespace Verif.Backends
open Verif.Fiber (CtxId Var Tid Kind Exc Mode UKind Frame Status Event Op CreateOutcome Fctx upd upd_apply RunTop runTop_iff DtorTop)

theorem R.fSettle_ok {a : Fiber.State} {b : UFiber.State} {t} (h : R a b) : fSettle t (.ok a) = .ok a := by
  cases hr : fReleasing a t with
  | false => simp [fSettle, hr]
  | true =>
    unfold fReleasing at hr
    split at hr
    · obtain ⟨n, hn⟩ := releasing_mem hr; exact absurd hn (h.noExitA _ n)
    · simp at hr

theorem R.uSettle_ok {a : Fiber.State} {b : UFiber.State} {t} (h : R a b) : uSettle t (.ok b) = .ok b := by
  cases hr : uReleasing b t with
  | false => simp [uSettle, hr]
  | true =>
    unfold uReleasing at hr
    split at hr
    · obtain ⟨n, hn⟩ := releasing_mem hr; exact absurd hn (h.noExit _ n)
    · simp at hr

theorem R.settleU {a : Fiber.State} {b : UFiber.State} {t} (h : R a b) : Match (.ok a) (uSettle t (.ok b)) := by
  rw [h.uSettle_ok]; exact .ok h

/-- state of the fcontext machine after fiber `c` has finished, its stack has been released and `w` continues -/
def finA (a : Fiber.State) (t : Tid) (c w : CtxId) : Fiber.State :=
  { a with cur := upd a.cur t (some w), status := upd (upd a.status c .freed) w (.running t), seq := upd a.seq c (a.seq c + 1),
           frames := upd a.frames c [], log := .dealloc c :: a.log }

/-- state of the ucontext machine after fiber `c` has finished and `w` has been switched to -/
def finB (b : UFiber.State) (t : Tid) (c w : CtxId) (fm : CtxId → Option CtxId) : UFiber.State :=
  { b with frm := fm, ontop := upd b.ontop c none, term := upd b.term c true, unw := upd b.unw c false,
           frames := upd b.frames c [.exitJump], cur := upd b.cur t (some w), status := upd (upd b.status c .terminated) w (.running t) }

theorem fFinish {a : Fiber.State} {t c f} (hcur : a.cur t = some c) (hs : a.status f.ctx = .suspended) (hq : a.seq f.ctx = f.seq)
    (hcap : a.caps c = []) (hcw : f.ctx ≠ c) : fSettle t (a.finish t c f) = (finA a t c f.ctx).deliver f.ctx none := by
  obtain ⟨w, n⟩ := f
  simp only at hs hq hcw
  have h1 : a.finish t c ⟨w, n⟩ = .ok { a with
      cur := upd a.cur t (some w), status := upd (upd a.status c .terminated) w (.running t), seq := upd a.seq c (a.seq c + 1),
      frames := upd (upd a.frames c [.exitJump]) w (.exiting c :: a.frames w) } := by
    simp [Fiber.State.finish, Fiber.State.ontopSwitch, Fiber.State.switch, Fiber.State.setFrames, hcur, hs, hq, upd_apply, hcw]
  rw [h1]
  have h2 : fReleasing { a with
      cur := upd a.cur t (some w), status := upd (upd a.status c .terminated) w (.running t), seq := upd a.seq c (a.seq c + 1),
      frames := upd (upd a.frames c [.exitJump]) w (.exiting c :: a.frames w) } t = true := by
    simp [fReleasing, releasing]
  simp only [fSettle, h2, if_true]
  have h3 : upd (upd a.status c Status.terminated) w (.running t) c = .terminated := by simp [upd_apply, hcw.symm]
  simp only [Fiber.step, Fiber.exitStep, upd_apply, if_true, hcap, if_neg hcw.symm]
  have h4 : ({ a with
      cur := fun x => if x = t then some w else a.cur x,
      status := fun x => if x = c then Status.freed else if x = w then .running t else if x = c then .terminated else a.status x,
      seq := upd a.seq c (a.seq c + 1),
      frames := fun x => if x = w then a.frames w else if x = c then [] else if x = w then .exiting c :: a.frames w else if x = c then [.exitJump] else a.frames x,
      log := .dealloc c :: a.log } : Fiber.State) = finA a t c w := by
    unfold finA
    congr 1
    · funext x; simp only [upd_apply]; grind
    · funext x; simp only [upd_apply]; grind
  exact congrArg (fun s : Fiber.State => s.deliver w none) h4

theorem uFinish {b : UFiber.State} {t c w} (hcur : b.cur t = some c) (hs : b.status w = .suspended) :
    b.finish t c (some w) = (finB b t c w (upd (upd b.frm c none) w (some c))).arrive w := by
  have hne : b.status w ≠ .terminated := by simp [hs]
  simp only [UFiber.State.finish, if_neg hne]
  simp [UFiber.State.switchTo, UFiber.State.setFrames, hcur, hs]
  rfl

theorem finish_match {a : Fiber.State} {b : UFiber.State} {t c va vb} (h : R a b) (hcur : a.cur t = some c) (hc : b.status c = .running t)
    (hv : va.map Fctx.ctx = live b.status vb) (hvc : ∀ x, b.val x ≠ some c)
    (hA : ∀ f, va = some f → a.status f.ctx = .suspended ∧ a.seq f.ctx = f.seq ∧
      (a.frames f.ctx = [.entryJump] ∨ (∃ k ls rest, a.frames f.ctx = .resume :: .user k ls .normal :: rest) ∨
        ∃ k ls m rest, a.frames f.ctx = .dtor c :: .user k ls m :: rest))
    (hB : ∀ w, vb = some w → b.status w = .suspended ∨ b.status w = .terminated) :
    Match (fSettle t (match (generalizing := false) va with | none => .assertion | some f => a.finish t c f)) (uSettle t (b.finish t c vb)) := by
  have hbc : b.cur t = some c := by rw [h.cur]; exact hcur
  have hct : b.status c ≠ .terminated := by simp [hc]
  cases vb with
  | none =>
    have : va = none := by simpa using hv
    subst this
    exact Match.assertion
  | some w =>
    rcases hB w rfl with hs | hs
    · have hva : va.map Fctx.ctx = some w := by rw [hv]; simp [live, hs]
      have hwc : w ≠ c := by rintro rfl; simp [hc] at hs
      have hwc' : c ≠ w := fun h => hwc h.symm
      cases va with
      | none => simp at hva
      | some f =>
        have hfw : f.ctx = w := by simpa using hva
        obtain ⟨g1, g2, g3⟩ := hA f rfl
        simp only
        rw [fFinish hcur g1 g2 (h.capA c) (by rw [hfw]; exact hwc), uFinish hbc hs, hfw]
        rw [hfw] at g3
        have hfwb : a.frames w = b.frames w := h.frames_eq (by simp [hs])
        have r1 : ∀ fm, R (finA a t c w) (finB b t c w fm) := fun fm => h.finish hc hs hvc rfl
        have fA : (finA a t c w).frames w = b.frames w := by simp [finA, upd_apply, hwc, hfwb]
        have fB : ∀ fm, (finB b t c w fm).frames w = b.frames w := by simp [finB, upd_apply, hwc]
        have hlive : ∀ fm, (none : Option Fctx).map Fctx.ctx = live (finB b t c w fm).status (some c) := by
          intro fm; simp [live, finB, upd_apply, hwc']
        have hsB : ∀ fm, (finB b t c w fm).status w ≠ .terminated := by intro fm; simp [finB]
        have hoB : ∀ fm, (finB b t c w fm).ontop w = b.ontop w := by intro fm; simp [finB, upd_apply, hwc]
        have huB : ∀ fm, (finB b t c w fm).unw w = b.unw w := by intro fm; simp [finB, upd_apply, hwc]
        have hfm : (finB b t c w (upd (upd b.frm c none) w (some c))).frm w = some c := by simp [finB, upd_apply]
        rw [hfwb] at g3
        rcases g3 with g3 | ⟨k, ls, rest, g3⟩ | ⟨k, ls, m, rest, g3⟩
        · -- never started
          simp only [Fiber.State.deliver, UFiber.State.arrive, fA, fB, g3, hfm]
          have r2 := (r1 (upd (upd b.frm c none) w (some c))).newVar (k := .loc w) (hlive _)
          have r3 := r2.setFrames (c := w) (fs := [.user .fn [(finB b t c w (upd (upd b.frm c none) w (some c))).nextVar] .normal, .entryRun])
            (hsB b.frm) (by simp) (by intro i hi; have := h.ont w i ((hoB b.frm).symm.trans hi); simp [g3] at this)
            (by intro hi; have := h.unw w ((huB b.frm).symm.trans hi); simp [g3] at this) (by simp)
          have r4 := r3.addLog (.enter w)
          have hn := (r1 (upd (upd b.frm c none) w (some c))).nV
          rw [← hn]
          exact r4.settleU
        · -- suspended in resume
          obtain ⟨j1, j2⟩ := h.res w _ g3
          have ho : b.ontop w = none := by
            cases ho : b.ontop w with
            | none => rfl
            | some i => exact absurd (h.ont w i ho) j1
          have hu : b.unw w = false := by
            cases hu : b.unw w with
            | false => rfl
            | true => exact absurd (h.unw w hu) j2
          simp only [Fiber.State.deliver, UFiber.State.arrive, fA, fB, g3, hfm]
          have hu' := huB (upd (upd b.frm c none) w (some c))
          have ho' := hoB (upd (upd b.frm c none) w (some c))
          rw [hu] at hu'; rw [ho] at ho'
          simp only [hu', ho']
          have r2 := (r1 (upd (finB b t c w (upd (upd b.frm c none) w (some c))).frm w none)).newVar (k := .loc w) (hlive _)
          have r3 := r2.setFrames (c := w) (fs := .user k ((finB b t c w (upd (upd b.frm c none) w (some c))).nextVar :: ls) .normal :: rest)
            (hsB b.frm) (by have := h.noExit w; simp [g3] at this; simpa using this)
            (by intro i hi; have := h.ont w i ((hoB b.frm).symm.trans hi); simp [ho] at hi; exact absurd this j1)
            (by intro hi; have := h.unw w ((huB b.frm).symm.trans hi); exact absurd this j2) (by simp)
          have hn := (r1 (upd (upd b.frm c none) w (some c))).nV
          rw [← hn]
          exact r3.settleU
        · -- waiting in a destructor
          simp only [Fiber.State.deliver, fA, g3]
          have hdead : (finB b t c w (upd (upd b.frm c none) w (some c))).status c = .terminated := by simp [finB, upd_apply, hwc']
          obtain ⟨B1, hB1⟩ : ∃ B1, B1 = UFiber.State.setFrames { finB b t c w (upd (upd b.frm c none) w (some c)) with
              frm := upd (finB b t c w (upd (upd b.frm c none) w (some c))).frm w none,
              lost := fun z => (finB b t c w (upd (upd b.frm c none) w (some c))).lost z ||
                (decide ((finB b t c w (upd (upd b.frm c none) w (some c))).frm w = some z) && decide (z ≠ c)) }
              w (.exiting c :: .dtor c :: .user k ls m :: rest) := ⟨_, rfl⟩
          have hU : (finB b t c w (upd (upd b.frm c none) w (some c))).arrive w = .ok B1 := by
            have h1 : (finB b t c w (upd (upd b.frm c none) w (some c))).status c ≠ .freed := by rw [hdead]; simp
            have h2 : (finB b t c w (upd (upd b.frm c none) w (some c))).term c = true := by simp [finB, upd_apply]
            simp only [UFiber.State.arrive, fB, g3, if_neg h1, h2, if_true, hB1]
          have hcurB : B1.cur t = some w := by simp [hB1, UFiber.State.setFrames, finB]
          have hfrB : B1.frames w = .exiting c :: .dtor c :: .user k ls m :: rest := by simp [hB1, UFiber.State.setFrames]
          have hcapB : B1.caps c = [] := by rw [hB1]; exact h.capB c
          have hstB : B1.status c = .terminated := by rw [hB1]; exact hdead
          have hrel : uReleasing B1 t = true := by simp [uReleasing, hcurB, hfrB, releasing]
          have hstep : UFiber.step B1 t .tick = .ok (((({ B1 with status := upd B1.status c .freed, frames := upd B1.frames c [] } : UFiber.State).addLog
              (.dealloc c)).setFrames w (.user k ls m :: rest)).addLog (.destroyed c w)) := by
            simp only [UFiber.step, hcurB, hfrB, UFiber.exitStep, hcapB, hstB, if_true]
          rw [hU]
          simp only [uSettle, hrel, if_true, hstep]
          refine .ok ?_
          have r2 := (r1 (upd (finB b t c w (upd (upd b.frm c none) w (some c))).frm w none)).release (c := c) (e := .dealloc c) hdead hvc
            (by simp [finB]) (by simp [finB]) rfl
          have r3 := r2.setFrames (c := w) (fs := .user k ls m :: rest)
            (by simp [finB, upd_apply, hwc]) (by have := h.noExit w; simp [g3] at this; simpa using this)
            (by intro i hi; have := h.ont w i ((hoB (upd (finB b t c w (upd (upd b.frm c none) w (some c))).frm w none)).symm.trans hi); simpa [g3] using this)
            (by intro hi; have := h.unw w ((huB (upd (finB b t c w (upd (upd b.frm c none) w (some c))).frm w none)).symm.trans hi); simpa [g3] using this) (by simp)
          have r4 := r3.addLog (.destroyed c w)
          subst hB1
          refine r4.congrB rfl rfl rfl rfl rfl rfl rfl ?_ rfl rfl rfl rfl rfl rfl
          funext d
          simp only [UFiber.State.setFrames, UFiber.State.addLog, finB, upd_apply]
          by_cases h1 : d = w
          · subst h1; simp
          · by_cases h2 : d = c <;> simp [h1, h2]
    · have hva : va = none := by
        have : va.map Fctx.ctx = none := by rw [hv]; simp [live, hs]
        simpa using this
      subst hva
      have : b.finish t c (some w) = .assertion := by simp [UFiber.State.finish, hs]
      rw [this]
      exact Match.assertion

end Verif.Backends
