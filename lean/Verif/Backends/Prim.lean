import Verif.Backends.Rel

/-! # Destruction, resumption and the end of a fiber, on both sides -/

namespace Verif.Backends
open Verif.Fiber (CtxId Var Tid Kind Exc Mode UKind Frame Status Event Op CreateOutcome Fctx upd upd_apply RunTop runTop_iff DtorTop)

theorem R.setUnw {a : Fiber.State} {b : UFiber.State} {w} (h : R a b) (hb : BeingUnwound (b.frames w)) : R a { b with unw := upd b.unw w true } := by
  obtain ⟨a1,a2,a3,a4,a5,a6,a7,a8,a9,a10,a11,a12,a13,a14,a15,a16,a17⟩ := h
  constructor <;> (try simp only [upd_apply]) <;> first | assumption | grind

theorem R.setOntop {a : Fiber.State} {b : UFiber.State} {w v} (h : R a b) (hb : ∀ i, v = some i → InOntop (b.frames w)) :
    R a { b with ontop := upd b.ontop w v } := by
  obtain ⟨a1,a2,a3,a4,a5,a6,a7,a8,a9,a10,a11,a12,a13,a14,a15,a16,a17⟩ := h
  constructor <;> (try simp only [upd_apply]) <;> first | assumption | grind

theorem R.nextId {a : Fiber.State} {b : UFiber.State} (h : R a b) {n m} (hn : n = m) : R { a with nextId := m } { b with nextId := n } := by
  obtain ⟨a1,a2,a3,a4,a5,a6,a7,a8,a9,a10,a11,a12,a13,a14,a15,a16,a17⟩ := h
  constructor <;> first | assumption

theorem R.frames_eq {a : Fiber.State} {b : UFiber.State} (h : R a b) {c} (hc : b.status c ≠ .terminated) : a.frames c = b.frames c := by
  rw [h.fr c, if_neg hc]

theorem R.status_eq {a : Fiber.State} {b : UFiber.State} (h : R a b) {c} (hc : b.status c ≠ .terminated) : a.status c = b.status c := by
  rw [h.st c, fin, if_neg hc]

theorem live_some {st : CtxId → Status} {v w} (h : live st v = some w) : v = some w ∧ st w ≠ .terminated := by
  cases v with
  | none => simp at h
  | some u => simp only [live] at h; split at h <;> simp_all

theorem any_tail {p : Frame → Bool} {f fs} (h : p f = false) : (f :: fs).any p = fs.any p := by simp [h]

@[simp] theorem beingUnwound_cons {f fs} : BeingUnwound (f :: fs) ↔ isForced f = true ∨ BeingUnwound fs := by
  simp [BeingUnwound]
@[simp] theorem inOntop_cons {f fs} : InOntop (f :: fs) ↔ isOntopFrame f = true ∨ InOntop fs := by
  simp [InOntop]
@[simp] theorem inOntop_nil : ¬ InOntop [] := by simp [InOntop]
@[simp] theorem beingUnwound_nil : ¬ BeingUnwound [] := by simp [BeingUnwound]

@[simp] theorem isForced_iff {k ls m} : isForced (.user k ls m) = true ↔ ∃ x, m = .unwinding (.forced x) := by
  cases m with
  | unwinding e => cases e <;> simp [isForced]
  | _ => simp [isForced]
@[simp] theorem isOntop_iff {k ls m} : isOntopFrame (.user k ls m) = true ↔ ∃ i, k = .ontop i := by
  cases k <;> simp [isOntopFrame]

@[simp] theorem isForced_resume : isForced .resume = false := rfl
@[simp] theorem isForced_dtor {v} : isForced (.dtor v) = false := rfl
@[simp] theorem isForced_entryJump : isForced .entryJump = false := rfl
@[simp] theorem isForced_entryRun : isForced .entryRun = false := rfl
@[simp] theorem isForced_exitJump : isForced .exitJump = false := rfl
@[simp] theorem isOntop_resume : isOntopFrame .resume = false := rfl
@[simp] theorem isOntop_dtor {v} : isOntopFrame (.dtor v) = false := rfl
@[simp] theorem isOntop_entryJump : isOntopFrame .entryJump = false := rfl
@[simp] theorem isOntop_entryRun : isOntopFrame .entryRun = false := rfl
@[simp] theorem isOntop_exitJump : isOntopFrame .exitJump = false := rfl

theorem destroy_match {a : Fiber.State} {b : UFiber.State} {t c va vb} (h : R a b) (hcur : a.cur t = some c) (hc : b.status c = .running t)
    (hT : ∀ w, b.status w = .terminated → b.frames w = [.exitJump])
    (htop : ∀ v rest, b.frames c ≠ .dtor v :: rest) (hv : va.map Fctx.ctx = live b.status vb)
    (hA : ∀ f, va = some f → a.status f.ctx = .suspended ∧ a.seq f.ctx = f.seq ∧ ∃ k ls rest, a.frames f.ctx = .resume :: .user k ls .normal :: rest)
    (hB : ∀ w, vb = some w → (b.status w = .suspended ∨ b.status w = .terminated) ∧ b.root w = false ∧
      (b.term w = true ↔ b.status w = .terminated) ∧ ∀ x, b.val x ≠ some w) :
    Match (fSettle t (match (generalizing := false) va with | none => .ok a | some f => a.destroyFctx t c f))
      (uSettle t (match (generalizing := false) vb with | none => .ok b | some w => b.destroyPtr t c w)) := by
  have hbc : b.cur t = some c := by rw [h.cur]; exact hcur
  have hct : b.status c ≠ .terminated := by simp [hc]
  cases vb with
  | none =>
    have : va = none := by simpa using hv
    subst this
    exact (Match.ok h).settle
  | some w =>
    obtain ⟨h1, h2, h3, h4⟩ := hB w rfl
    have hwc : w ≠ c := by rintro rfl; simp [hc] at h1
    rcases h1 with hs | hs
    · -- suspended
      have hterm : b.term w = false := by
        cases ht : b.term w with
        | false => rfl
        | true => rw [h3.1 ht] at hs; simp at hs
      have hva : va.map Fctx.ctx = some w := by rw [hv]; simp [live, hs]
      cases va with
      | none => simp at hva
      | some f =>
        have hfw : f.ctx = w := by simpa using hva
        obtain ⟨g1, g2, k, ls, rest, g3⟩ := hA f rfl
        obtain ⟨fc, fs⟩ := f
        simp only at hfw g1 g2 g3
        subst hfw
        have g4 : b.frames fc = .resume :: .user k ls .normal :: rest := by rw [← h.frames_eq (by simp [hs])]; exact g3
        have hcf : a.frames c = b.frames c := h.frames_eq hct
        have hF : a.destroyFctx t c ⟨fc, fs⟩ = .ok (Fiber.State.setFrames (Fiber.State.newVar
              { a.setFrames c (.dtor fc :: a.frames c) with
                cur := upd a.cur t (some fc), status := upd (upd a.status c .suspended) fc (.running t), seq := upd a.seq c (a.seq c + 1) }
              (.exc fc) (some ⟨c, a.seq c + 1⟩)) fc (.user k ls (.unwinding (.forced a.nextVar)) :: rest)) := by
          have hfr : (a.setFrames c (.dtor fc :: a.frames c)).frames fc = .resume :: .user k ls .normal :: rest := by
            simp [Fiber.State.setFrames, upd_apply, hwc, g3]
          have hsw : (a.setFrames c (.dtor fc :: a.frames c)).ontopSwitch t ⟨fc, fs⟩ .suspended = some ({ a.setFrames c (.dtor fc :: a.frames c) with
                cur := upd a.cur t (some fc), status := upd (upd a.status c .suspended) fc (.running t),
                seq := upd a.seq c (a.seq c + 1) }, ⟨c, a.seq c + 1⟩) := by
            simp [Fiber.State.ontopSwitch, Fiber.State.switch, Fiber.State.setFrames, hcur, g1, g2]
          simp only [Fiber.State.destroyFctx, hsw, Fiber.State.raiseForced, hfr]
          rfl
        have hU : b.destroyPtr t c fc = .ok (UFiber.State.setFrames (UFiber.State.newVar
              { b.setFrames c (.dtor fc :: b.frames c) with
                frm := upd (upd b.frm fc (some c)) fc none, unw := upd b.unw fc true,
                cur := upd b.cur t (some fc), status := upd (upd b.status c .suspended) fc (.running t) }
              (.exc fc) (some c)) fc (.user k ls (.unwinding (.forced b.nextVar)) :: rest)) := by
          have hst : ¬ (b.status fc = .freed ∨ b.status fc = .ended ∨ b.status fc = .absent) := by simp [hs]
          have hne : decide (b.frames fc = [Frame.entryJump]) = false := by simp [g4]
          simp only [UFiber.State.destroyPtr, if_neg hst, h2, hterm, hne]
          simp [UFiber.State.switchTo, UFiber.State.setFrames, UFiber.State.newVar, hbc, hs, UFiber.State.arrive, upd_apply, hwc, g4, h.early]
        simp only [hF, hU]
        refine (Match.ok ?_).settle
        have r1 := h.setFrames (c := c) (fs := .dtor fc :: b.frames c) hct
          (by intro n; have := h.noExit c n; simp [this]) (fun i hi => by simpa using h.ont c i hi)
          (fun hu => by simpa using h.unw c hu) (by simp)
        have r2 := r1.switch (t := t) (c := c) (w := fc) (sq := upd a.seq c (a.seq c + 1)) (fm := upd (upd b.frm fc (some c)) fc none) hct hs
        have r3 := r2.newVar (k := .exc fc) (v := some ⟨c, a.seq c + 1⟩) (w := some c)
          (by simp [live, upd_apply, UFiber.State.setFrames, hwc.symm])
        have r4 := r3.setFrames (c := fc) (fs := .user k ls (.unwinding (.forced b.nextVar)) :: rest)
          (by simp [UFiber.State.newVar, UFiber.State.setFrames])
          (by have := h.noExit fc; simp [g4] at this; simpa using this)
          (by intro i hi; have := h.ont fc i hi; simp [g4] at this; simpa using this)
          (by simp) (by simp)
        have r5 := r4.setUnw (w := fc) (by simp [UFiber.State.setFrames])
        rw [← hcf] at r5
        rw [← h.nV]
        rw [hcf] at r5 ⊢
        exact r5
    · -- finished
      have hva : va = none := by
        have : va.map Fctx.ctx = none := by rw [hv]; simp [live, hs]
        simpa using this
      subst hva
      have hterm : b.term w = true := h3.2 hs
      have hU : b.destroyPtr t c w = .ok (b.setFrames c (.exiting w :: b.frames c)) := by
        have hst : ¬ (b.status w = .freed ∨ b.status w = .ended ∨ b.status w = .absent) := by simp [hs]
        simp only [UFiber.State.destroyPtr, if_neg hst, h2, hterm]; rfl
      have hrel : uReleasing (b.setFrames c (.exiting w :: b.frames c)) t = true := by
        simp [uReleasing, UFiber.State.setFrames, hbc, releasing]
      have hstep : UFiber.step (b.setFrames c (.exiting w :: b.frames c)) t .tick =
          .ok ((({ b.setFrames c (.exiting w :: b.frames c) with
                    status := upd b.status w .freed, frames := upd (upd b.frames c (.exiting w :: b.frames c)) w [] } : UFiber.State).addLog
                    (.dealloc w)).setFrames c (b.frames c)) := by
        have hfr : (b.setFrames c (.exiting w :: b.frames c)).frames c = .exiting w :: b.frames c := by simp [UFiber.State.setFrames]
        have hcc : (b.setFrames c (.exiting w :: b.frames c)).cur t = some c := hbc
        have hcp : (b.setFrames c (.exiting w :: b.frames c)).caps w = [] := h.capB w
        have hss : (b.setFrames c (.exiting w :: b.frames c)).status w = .terminated := hs
        simp only [UFiber.step, hcc, hfr, UFiber.exitStep, hcp, hss, if_true]
        generalize b.frames c = fs at htop
        cases fs with
        | nil => rfl
        | cons g gs =>
          cases g
          case dtor v => exact absurd rfl (htop v gs)
          all_goals rfl
      have e1 : fSettle t (.ok a) = .ok a := by
        have := (Match.ok h).settle (t := t)
        cases hr : fReleasing a t with
        | false => simp [fSettle, hr]
        | true =>
          unfold fReleasing at hr
          split at hr
          · obtain ⟨n, hn⟩ := releasing_mem hr; exact absurd hn (h.noExitA _ n)
          · simp at hr
      simp only [hU, uSettle, hrel, if_true, hstep]
      show Match (fSettle t (.ok a)) _
      rw [e1]
      refine .ok ?_
      have ho : b.ontop w = none := by
        cases ho : b.ontop w with
        | none => rfl
        | some i => have := h.ont w i ho; rw [hT w hs] at this; simp at this
      have hu : b.unw w = false := by
        cases hu : b.unw w with
        | false => rfl
        | true => have := h.unw w hu; rw [hT w hs] at this; simp at this
      refine (h.release hs h4 ho hu (e := .dealloc w) rfl).congrB rfl rfl rfl rfl rfl rfl rfl ?_ rfl rfl rfl rfl rfl rfl
      funext d
      simp only [UFiber.State.setFrames, UFiber.State.addLog, upd_apply]
      grind

end Verif.Backends
