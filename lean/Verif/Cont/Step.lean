import Verif.Cont.Sim

/-! # One step of the `continuation` machine as steps of the `fiber` machine -/

namespace Verif.Cont
open Verif.Fiber (CtxId Var Tid Fctx Kind Exc Mode UKind Status Event CreateOutcome upd upd_apply)

/-- The operations of the fiber API that correspond to a step of the continuation machine: `callcc` is construction followed by `resume()` of the
object constructed; the end of `callcc` is the end of the lifetime of that object; everything else corresponds one to one. -/
def fiberOps (s : State) (t : Tid) : Op → List (Tid × Fiber.Op)
  | .newHeap => [(t, .newHeap)]
  | .newLocal => [(t, .newLocal)]
  | .moveHeap x => [(t, .moveHeap x)]
  | .moveLocal x => [(t, .moveLocal x)]
  | .moveAssign y x => [(t, .moveAssign y x)]
  | .swap x y => [(t, .swap x y)]
  | .drop x => [(t, .drop x)]
  | .callcc xs .success => [(t, .create xs .success), (t, .resume (s.nextVar + xs.length))]
  | .callcc xs o => [(t, .create xs o)]
  | .resume x => [(t, .resume x)]
  | .resumeWith x _ => [(t, .resumeWith x)]
  | .withThrows x n b => [(t, .withThrows x n b)]
  | .call => [(t, .call)]
  | .cleanup => [(t, .cleanup)]
  | .ret => [(t, .ret)]
  | .retHandle x => [(t, .retHandle x)]
  | .throw n => [(t, .throw n)]
  | .catchUser => [(t, .catchUser)]
  | .swallow => [(t, .swallow)]
  | .spawn => [(t, .spawn)]
  | .tick =>
    match (s.cur t).map s.frames with
    | some (.callcc x (.returning _) _ _ _ :: _) => [(t, .drop x)]
    | _ => [(t, .tick)]

theorem run_single (s : Fiber.State) (t : Tid) (op : Fiber.Op) : Fiber.run s [(t, op)] = Fiber.step s t op := by
  simp only [Fiber.run]; cases Fiber.step s t op <;> rfl

/-- what has to be shown for one operation -/
def Spec (s : State) (t : Tid) (op : Op) (r : Res) : Prop :=
  (r ≠ .rejected → Fiber.run s.abs (fiberOps s t op) = r.abs) ∧ Pres r

theorem spec_rej {s : State} {t : Tid} {op : Op} : Spec s t op .rejected := ⟨fun h => absurd rfl h, pres_rej⟩

theorem userStep_spec {s : State} {t : Tid} {c : CtxId} {k : UKind} {lib : Option Fctx} {ls : List Var} {rest : List Frame} (h : CWFS s)
    (hcur : s.cur t = some c) (hf : s.frames c = .user k lib ls .normal :: rest) (op : Op) (hl : op.lvalueFn = false) :
    Spec s t op (userStep s t c k lib ls rest op) := by
  have hc := h c
  rw [hf] at hc
  have hlib : lib = none := hc.1
  have hstep : ∀ op', Fiber.step s.abs t op' = Fiber.userStep s.abs t c k ls (absL rest) op' := by
    intro op'
    simp only [Fiber.step, abs_cur, hcur, abs_frames, hf, absL_cons, Frame.abs]
  have hres : CWF .resume (s.frames c) := by rw [hf]; exact ⟨hlib, hc.2⟩
  have hu : ∀ ls' m', CWF .exitJump (.user k lib ls' m' :: rest) := fun ls' m' => cwf_user hc hlib
  cases op with
  | newHeap => exact ⟨fun _ => by rw [fiberOps, run_single, hstep]; rfl, pres_ok h⟩
  | newLocal =>
    refine ⟨fun _ => ?_, pres_ok (cwfs_setFrames (s := s.newVar _ _) h (hu _ _))⟩
    rw [fiberOps, run_single, hstep]; simp [Fiber.userStep, userStep, Res.abs, Frame.abs]
  | moveHeap x =>
    simp only [userStep]
    split
    · refine ⟨fun _ => ?_, pres_ok h⟩
      rw [fiberOps, run_single, hstep]; simp [Fiber.userStep, Res.abs, accessible_abs ‹_›]
    · exact spec_rej
  | moveLocal x =>
    simp only [userStep]
    split
    · refine ⟨fun _ => ?_, pres_ok (cwfs_setFrames (s := (s.setVal x none).newVar _ _) h (hu _ _))⟩
      rw [fiberOps, run_single, hstep]; simp [Fiber.userStep, Res.abs, Frame.abs, accessible_abs ‹_›]
    · exact spec_rej
  | moveAssign y x =>
    simp only [userStep]
    split
    · rename_i ha
      have ha' := And.intro (accessible_abs ha.1) (accessible_abs ha.2)
      split
      · rename_i hyx
        refine ⟨fun _ => ?_, pres_ok h⟩
        rw [fiberOps, run_single, hstep]; simp only [Fiber.userStep]
        rw [if_pos ha', if_pos hyx]; rfl
      · rename_i hyx
        have hd := fun f => destroyFctx_spec (s := (s.setVal y (s.val x)).setVal x none) (t := t) (c := c) (f := f) h
        rw [show Spec s t (.moveAssign y x) _ ↔ (_ → Fiber.run s.abs [(t, .moveAssign y x)] = _) ∧ _ from Iff.rfl, run_single, hstep]
        simp only [Fiber.userStep]
        rw [if_pos ha', if_neg hyx]
        simp only [abs_val]
        cases s.val y with
        | none => exact ⟨fun _ => rfl, pres_ok h⟩
        | some f => exact ⟨fun _ => (hd f).1, (hd f).2⟩
    · exact spec_rej
  | swap x y =>
    simp only [userStep]
    split
    · rename_i ha
      have ha' := And.intro (accessible_abs ha.1) (accessible_abs ha.2)
      refine ⟨fun _ => ?_, pres_ok h⟩
      rw [fiberOps, run_single, hstep]; simp only [Fiber.userStep]; rw [if_pos ha']; rfl
    · exact spec_rej
  | drop x =>
    simp only [userStep]
    rw [show Spec s t (.drop x) _ ↔ (_ → Fiber.run s.abs [(t, .drop x)] = _) ∧ _ from Iff.rfl, run_single, hstep]
    simp only [Fiber.userStep, abs_kind]
    split
    · have h1 := destroyVar_spec (s := s.setFrames c (.user k lib (ls.erase x) .normal :: rest)) (t := t) (c := c) (x := x)
        (cwfs_setFrames h (hu _ _))
      simp only [abs_setFrames, absL_cons, Frame.abs] at h1
      exact ⟨fun _ => h1.1, h1.2⟩
    · split
      · rename_i hk; exact ⟨fun _ => (if_pos hk).trans (destroyVar_spec h).1, (destroyVar_spec h).2⟩
      · exact ⟨fun h => absurd rfl h, pres_rej⟩
  | callcc xs o =>
    simp only [userStep]
    split
    · rename_i ha
      cases o with
      | success => exact ⟨fun _ => (doCallcc_spec h hcur hf ha).1, (doCallcc_spec h hcur hf ha).2⟩
      | allocThrows n =>
        refine ⟨fun _ => ?_, pres_ok (cwfs_setFrames h (hu _ _))⟩
        rw [fiberOps, run_single, hstep]; simp [Fiber.userStep, Res.abs, Frame.abs, all_accessible_abs ha]
        simp
      | fnThrows =>
        refine ⟨fun _ => ?_, pres_term⟩
        rw [fiberOps, run_single, hstep]; simp only [Fiber.userStep, all_accessible_abs ha, if_true]; rfl
        simp
    · exact spec_rej
  | resume x =>
    simp only [userStep]
    split
    · rename_i ha
      have := doResume_spec (t := t) (x := x) (fun d _ => h d) hres
      refine ⟨fun _ => ?_, this.2⟩
      rw [fiberOps, run_single, hstep]; simp only [Fiber.userStep, accessible_abs ha, if_true]; exact this.1
    · exact spec_rej
  | resumeWith x lv =>
    simp only [Op.lvalueFn] at hl
    subst hl
    simp only [userStep]
    split
    · rename_i ha
      have := doResumeWith_spec (t := t) (x := x) h hres
      refine ⟨fun _ => ?_, this.2⟩
      rw [fiberOps, run_single, hstep]; simp only [Fiber.userStep, accessible_abs ha, if_true]; exact this.1
    · exact spec_rej
  | withThrows x n b =>
    simp only [userStep]
    split
    · rename_i ha
      have := doWithThrows_spec (t := t) (x := x) (n := n) (b := b) h hres (hu ls (.unwinding (.user n)))
      refine ⟨fun _ => ?_, this.2⟩
      rw [fiberOps, run_single, hstep]; simp only [Fiber.userStep, accessible_abs ha, if_true]; exact this.1
    · exact spec_rej
  | call =>
    refine ⟨fun _ => ?_, pres_ok (cwfs_setFrames h ?_)⟩
    · rw [fiberOps, run_single, hstep]; simp [Fiber.userStep, userStep, Res.abs, Frame.abs]
    · exact ⟨rfl, hlib, (hu ls .normal).2⟩
  | cleanup =>
    refine ⟨fun _ => ?_, pres_ok (cwfs_setFrames h ?_)⟩
    · rw [fiberOps, run_single, hstep]; simp [Fiber.userStep, userStep, Res.abs, Frame.abs]
    · exact ⟨rfl, hlib, (hu ls .normal).2⟩
  | ret =>
    rw [show Spec s t .ret _ ↔ (_ → Fiber.run s.abs [(t, .ret)] = _) ∧ _ from Iff.rfl, run_single, hstep]
    cases k <;> simp only [Fiber.userStep, userStep] <;> first
      | exact ⟨fun h => absurd rfl h, pres_rej⟩
      | exact ⟨fun _ => by simp [Res.abs, Frame.abs], pres_ok (cwfs_setFrames h (hu _ _))⟩
  | retHandle x =>
    rw [show Spec s t (.retHandle x) _ ↔ (_ → Fiber.run s.abs [(t, .retHandle x)] = _) ∧ _ from Iff.rfl, run_single, hstep]
    simp only [userStep]
    split
    · rename_i ha
      cases k <;> simp only [Fiber.userStep, accessible_abs ha, if_true] <;> first
        | exact ⟨fun h => absurd rfl h, pres_rej⟩
        | exact ⟨fun _ => by simp [Res.abs, Frame.abs], pres_ok (cwfs_setFrames (s := (s.setVal x none).newVar _ _) h (hu _ _))⟩
    · exact ⟨fun h => absurd rfl h, pres_rej⟩
  | throw n =>
    refine ⟨fun _ => ?_, pres_ok (cwfs_setFrames h (hu _ _))⟩
    rw [fiberOps, run_single, hstep]; simp [Fiber.userStep, userStep, Res.abs, Frame.abs]
  | spawn =>
    refine ⟨fun _ => ?_, pres_ok ?_⟩
    · rw [fiberOps, run_single, hstep]
      simp only [Fiber.userStep, userStep, Res.abs, State.abs, upd_comp]; rfl
    · exact cwfs_setFrames (s := { s with cur := _, status := _, seq := _, nextCtx := _, nextTid := _ }) h ⟨rfl, trivial⟩
  | catchUser => exact spec_rej
  | swallow => exact spec_rej
  | tick => exact spec_rej

theorem step_spec {s : State} {t : Tid} {op : Op} (h : CWFS s) (hi : Fiber.Inv s.abs) (hl : op.lvalueFn = false) : Spec s t op (step s t op) := by
  simp only [step]
  cases hcur : s.cur t with
  | none => exact spec_rej
  | some c =>
    have hcur' : s.abs.cur t = some c := hcur
    have hc := h c
    have hN := hi.oi.locsN c
    have hrt := hi.ci.runTop c t ((hi.ci.curRun t c).1 hcur) (by simp)
    rw [abs_frames] at hN hrt
    have hstep0 : ∀ op', Fiber.step s.abs t op' = (match absL (s.frames c) with
      | .user k ls .normal :: rest => Fiber.userStep s.abs t c k ls rest op'
      | _ => Fiber.step s.abs t op') := by
      intro op'
      split
      · rename_i k ls rest hh; simp only [Fiber.step, hcur', abs_frames, hh]
      · rfl
    have hstick : ∀ x cm k lib ls rest, s.frames c = .callcc x cm k lib ls :: rest → fiberOps s t .tick =
        match cm with | .returning _ => [(t, .drop x)] | _ => [(t, .tick)] := by
      intro x cm k lib ls rest hf
      simp only [fiberOps, hcur, Option.map_some, hf]; cases cm <;> rfl
    have hntick : ∀ f rest, s.frames c = f :: rest → (∀ x cm k lib ls, f ≠ .callcc x cm k lib ls) → fiberOps s t .tick = [(t, .tick)] := by
      intro f rest hf hne
      simp only [fiberOps, hcur, Option.map_some, hf]
      cases f <;> first | rfl | exact absurd rfl (hne _ _ _ _ _)
    rcases hf : s.frames c with _ | ⟨f, rest⟩
    · rw [hf] at hrt; exact absurd hrt (by simp [Fiber.RunTop])
    rw [hf] at hc hN hrt
    simp only [hf]
    have hfF : s.abs.frames c = f.abs :: absL rest := by rw [abs_frames, hf]; rfl
    cases f with
    | entryJump => exact absurd hrt (by simp [Fiber.RunTop, Frame.abs])
    | entryRun => exact absurd hrt (by simp [Fiber.RunTop, Frame.abs])
    | resume => exact absurd hrt (by simp [Fiber.RunTop, Frame.abs])
    | dtor => exact absurd hrt (by simp [Fiber.RunTop, Frame.abs])
    | exitJump => exact absurd hrt (by simp [Fiber.RunTop, Frame.abs])
    | exiting n =>
      simp only []
      have ht := hntick _ _ hf (by simp)
      have hspec := exitStep_spec (t := t) h hf
      cases op <;> simp only [] <;> first
        | exact spec_rej
        | (refine ⟨fun _ => ?_, pres_ok (cwfs_setFrames h (cwf_push (by simp [Frame.plain]) hc))⟩
           rw [fiberOps, run_single]; simp [Fiber.step, hcur', hf, Frame.abs, Res.abs])
        | (refine ⟨fun _ => ?_, hspec.2⟩
           rw [ht, run_single, ← hspec.1]; simp only [Fiber.step, hcur', hfF, Frame.abs])
    | callcc x cm k lib ls =>
      have hlib : cm ≠ .waiting ∧ lib = none := by
        have := hc.1
        cases cm <;> simp_all [OkUnder]
      have ht := hstick _ _ _ _ _ _ hf
      cases cm with
      | waiting => simp at hlib
      | returning y =>
        simp only []
        have hxy : y ≠ x := by
          simp only [absL_cons, Frame.abs, Fiber.lvars, List.flatMap_cons, Fiber.Frame.lvars, List.nodup_append, List.nodup_cons, List.cons_append] at hN
          intro hh; subst hh; simp at hN
        have hds := destroyVar_spec (s := s.setFrames c (.user k lib (y :: ls) .normal :: rest)) (t := t) (c := c) (x := x)
          (cwfs_setFrames h (cwf_return hc.2 hlib.2))
        cases op <;> simp only [] <;> first
          | exact spec_rej
          | (refine ⟨fun _ => ?_, hds.2⟩
             rw [ht, run_single, ← hds.1]
             simp only [Fiber.step, hcur', hfF, Frame.abs, Fiber.userStep, List.mem_cons, true_or, or_true, if_true, abs_setFrames, absL_cons]
             have : (y :: x :: ls).erase x = y :: ls := by
               rw [List.erase_cons, if_neg (by simpa using hxy), List.erase_cons_head]
             rw [this])
      | unwinding e =>
        simp only []
        have hds := destroyVar_spec (s := s.setFrames c (.user k lib ls (.unwinding e) :: rest)) (t := t) (c := c) (x := x)
          (cwfs_setFrames h (cwf_return hc.2 hlib.2))
        cases op <;> simp only [] <;> first
          | exact spec_rej
          | (refine ⟨fun _ => ?_, hds.2⟩
             rw [ht, run_single, ← hds.1]
             simp only [Fiber.step, hcur', hfF, Frame.abs, abs_setFrames, absL_cons])
    | user k lib ls m =>
      have hlib : lib = none := hc.1
      subst hlib
      have ht := hntick _ _ hf (by simp)
      by_cases hm : m = .normal
      · subst hm
        exact userStep_spec h hcur hf op hl
      · rcases ls with _ | ⟨x, ls⟩
        · cases m with
          | normal => exact absurd rfl hm
          | unwinding e =>
            simp only []
            have hp := propagate_spec (t := t) (e := e) h hf
            have hpop : CWFS (s.setFrames c rest) := cwfs_setFrames h (cwf_pop hc (by simp))
            cases op <;> simp only [] <;> first
              | exact spec_rej
              | (refine ⟨fun _ => ?_, pres_ok (cwfs_setFrames h (cwf_push (by simp [Frame.plain]) hc))⟩
                 rw [fiberOps, run_single]; simp [Fiber.step, hcur', hf, Frame.abs, Res.abs]; done)
              | (refine ⟨fun _ => ?_, hp.2⟩
                 rw [ht, run_single, ← hp.1]; simp only [Fiber.step, hcur', hfF, Frame.abs]; done)
              | skip
            · split
              · refine ⟨fun _ => ?_, pres_ok hpop⟩
                rw [fiberOps, run_single]; simp [Fiber.step, hcur', hf, Frame.abs, Res.abs]
              · exact spec_rej
            · split
              · rename_i x
                refine ⟨fun _ => ?_, ?_⟩
                · rw [fiberOps, run_single]; simp only [Fiber.step, hcur', hfF, Frame.abs, abs_val]
                  cases s.val x with
                  | none => simp [Res.abs]
                  | some f => simp only [Res.abs]; rw [← abs_setFrames, ← abs_kill]; rfl
                · cases s.val x with
                  | none => exact pres_ok hpop
                  | some f => exact pres_ok hpop
              · exact spec_rej
          | returning x =>
            simp only []
            have hp := leave_spec (t := t) (x := x) h hf
            cases op <;> simp only [] <;> first
              | exact spec_rej
              | (refine ⟨fun _ => ?_, pres_ok (cwfs_setFrames h (cwf_push (by simp [Frame.plain]) hc))⟩
                 rw [fiberOps, run_single]; simp [Fiber.step, hcur', hf, Frame.abs, Res.abs]; done)
              | (refine ⟨fun _ => ?_, hp.2⟩
                 rw [ht, run_single, ← hp.1]; simp only [Fiber.step, hcur', hfF, Frame.abs]; done)
        · have hds := destroyVar_spec (s := s.setFrames c (.user k none ls m :: rest)) (t := t) (c := c) (x := x)
            (cwfs_setFrames h (cwf_user hc rfl))
          cases m with
          | normal => exact absurd rfl hm
          | unwinding e =>
            cases op <;> simp only [] <;> first
              | exact spec_rej
              | (refine ⟨fun _ => ?_, pres_ok (cwfs_setFrames h (cwf_push (by simp [Frame.plain]) hc))⟩
                 rw [fiberOps, run_single]; simp [Fiber.step, hcur', hf, Frame.abs, Res.abs]; done)
              | (refine ⟨fun _ => ?_, hds.2⟩
                 rw [ht, run_single, ← hds.1]; simp only [Fiber.step, hcur', hfF, Frame.abs, abs_setFrames, absL_cons]; done)
          | returning y =>
            cases op <;> simp only [] <;> first
              | exact spec_rej
              | (refine ⟨fun _ => ?_, pres_ok (cwfs_setFrames h (cwf_push (by simp [Frame.plain]) hc))⟩
                 rw [fiberOps, run_single]; simp [Fiber.step, hcur', hf, Frame.abs, Res.abs]; done)
              | (refine ⟨fun _ => ?_, hds.2⟩
                 rw [ht, run_single, ← hds.1]; simp only [Fiber.step, hcur', hfF, Frame.abs, abs_setFrames, absL_cons]; done)

end Verif.Cont
