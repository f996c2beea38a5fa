import Verif.UCont.Hidden

/-! # One step of the `continuation` machine on ucontext as steps of the `fiber` machine on ucontext -/

namespace Verif.UCont
open Verif.Fiber (CtxId Var Tid Kind Exc Mode UKind Status Event CreateOutcome upd upd_apply)

/-- The operations of the fiber API that correspond to a step of the continuation machine: `callcc` is construction followed by `resume()` of the
object constructed; the end of `callcc` is the end of the lifetime of that object; everything else corresponds one to one. -/
def fiberOps (s : State) (t : Tid) : Op → List (Tid × Fiber.Op)
  | .newHeap => [(t, .newHeap)]
  | .newLocal => [(t, .newLocal)]
  | .moveHeap x => [(t, .moveHeap x)]
  | .moveLocal x => [(t, .moveLocal x)]
  | .moveAssign y x => [(t, .moveAssign y x)]
  | .swap x y => [(t, .swap x y)]
  | .drop x => [(t, .drop x)]
  | .callcc xs .success => [(t, .create xs .success), (t, .resume (s.nextVar + xs.length))]
  | .callcc xs o => [(t, .create xs o)]
  | .resume x => [(t, .resume x)]
  | .resumeWith x => [(t, .resumeWith x)]
  | .call => [(t, .call)]
  | .cleanup => [(t, .cleanup)]
  | .ret => [(t, .ret)]
  | .retHandle x => [(t, .retHandle x)]
  | .throw n => [(t, .throw n)]
  | .catchUser => [(t, .catchUser)]
  | .swallow => [(t, .swallow)]
  | .spawn => [(t, .spawn)]
  | .tick =>
    match (s.cur t).map s.frames with
    | some (.callcc x (.returning _) _ _ :: _) => [(t, .drop x)]
    | _ => [(t, .tick)]

theorem run_single (s : UFiber.State) (t : Tid) (op : Fiber.Op) : UFiber.run s [(t, op)] = UFiber.step s t op := by
  simp only [UFiber.run]; cases UFiber.step s t op <;> rfl

/-- what has to be shown for one operation -/
def Spec (s : State) (t : Tid) (op : Op) (r : Res) : Prop := SP r (UFiber.run s.abs (fiberOps s t op))

theorem spec_rej {s : State} {t : Tid} {op : Op} : Spec s t op .rejected := sp_rej

/-- for an operation that corresponds to one operation of the fiber machine -/
theorem spec_of {s : State} {t : Tid} {op : Op} {op' : Fiber.Op} {r : Res} {r' : UFiber.Res} (ho : fiberOps s t op = [(t, op')])
    (hr : UFiber.step s.abs t op' = r') (h : SP r r') : Spec s t op r := by
  unfold Spec; rw [ho, run_single, hr]; exact h

theorem userStep_spec {s : State} {t : Tid} {c : CtxId} {k : UKind} {ls : List Var} {rest : List Frame} (h : CWFS s)
    (hcur : s.cur t = some c) (hf : s.frames c = .user k ls .normal :: rest) (op : Op) :
    Spec s t op (userStep s t c k ls rest op) := by
  have hc := h c
  rw [hf] at hc
  have hstep : ∀ op', UFiber.step s.abs t op' = UFiber.userStep s.abs t c k ls (absL rest) op' := by
    intro op'
    simp only [UFiber.step, abs_cur, hcur, abs_frames, hf, absL_cons, Frame.abs]
  have hres : CWF .resume (s.frames c) := by rw [hf]; exact ⟨trivial, hc.2⟩
  have hu : ∀ ls' m', CWF .exitJump (.user k ls' m' :: rest) := fun ls' m' => cwf_user hc
  cases op with
  | newHeap => exact spec_of rfl (hstep _) (sp_ok (cwfs_of_frames h rfl) rfl)
  | newLocal =>
    refine spec_of rfl (hstep _) (sp_ok (cwfs_setFrames (s := s.newVar _ _) h (hu _ _)) ?_)
    simp [UFiber.userStep, Frame.abs]
  | moveHeap x =>
    simp only [userStep]
    split
    · refine spec_of rfl (hstep _) (sp_ok h ?_)
      simp [UFiber.userStep, accessible_abs ‹_›]
    · exact spec_rej
  | moveLocal x =>
    simp only [userStep]
    split
    · refine spec_of rfl (hstep _) (sp_ok (cwfs_setFrames (s := (s.setVal x none).newVar _ _) h (hu _ _)) ?_)
      simp [UFiber.userStep, Frame.abs, accessible_abs ‹_›]
    · exact spec_rej
  | moveAssign y x =>
    simp only [userStep]
    split
    · rename_i ha
      have ha' := And.intro (accessible_abs ha.1) (accessible_abs ha.2)
      have e0 : UFiber.userStep s.abs t c k ls (absL rest) (.moveAssign y x) =
          if y = x then .ok s.abs else
          match s.val y with
          | none => .ok ((s.setVal y (s.val x)).setVal x none).abs
          | some v => ((s.setVal y (s.val x)).setVal x none).abs.destroyPtr t c v := by
        simp only [UFiber.userStep]; rw [if_pos ha']; rfl
      refine spec_of rfl ((hstep _).trans e0) ?_
      refine sp_ite (fun _ => sp_ok h rfl) (fun _ => ?_)
      cases s.val y with
      | none => exact sp_ok h rfl
      | some v => exact sp_destroyPtr (s := (s.setVal y (s.val x)).setVal x none) h
    · exact spec_rej
  | swap x y =>
    simp only [userStep]
    split
    · rename_i ha
      have ha' := And.intro (accessible_abs ha.1) (accessible_abs ha.2)
      refine spec_of rfl (hstep _) (sp_ok h ?_)
      simp only [UFiber.userStep]; rw [if_pos ha']; rfl
    · exact spec_rej
  | drop x =>
    refine spec_of rfl (hstep _) ?_
    simp only [userStep, UFiber.userStep, abs_kind]
    refine sp_ite (fun _ => ?_) (fun _ => sp_ite (fun _ => sp_destroyVar h) (fun _ => sp_rej))
    have h1 := sp_destroyVar (s := s.setFrames c (.user k (ls.erase x) .normal :: rest)) (t := t) (c := c) (x := x)
      (cwfs_setFrames h (hu _ _))
    simp only [abs_setFrames, absL_cons, Frame.abs] at h1
    exact h1
  | callcc xs o =>
    simp only [userStep]
    split
    · rename_i ha
      cases o with
      | success => exact sp_doCallcc h hcur hf ha
      | allocThrows n =>
        refine spec_of (op' := .create xs (.allocThrows n)) rfl (hstep _) (sp_ok (cwfs_setFrames h (hu _ _)) ?_)
        simp [UFiber.userStep, Frame.abs, all_accessible_abs ha]
      | fnThrows =>
        refine spec_of (op' := .create xs .fnThrows) (r' := .terminate) rfl ?_ sp_term
        rw [hstep]; simp only [UFiber.userStep, all_accessible_abs ha, if_true]
    · exact spec_rej
  | resume x =>
    simp only [userStep]
    split
    · rename_i ha
      refine spec_of rfl (hstep _) ?_
      simp only [UFiber.userStep, accessible_abs ha, if_true]
      exact sp_doResume (fun d _ => h d) hres
    · exact spec_rej
  | resumeWith x =>
    simp only [userStep]
    split
    · rename_i ha
      refine spec_of rfl (hstep _) ?_
      simp only [UFiber.userStep, accessible_abs ha, if_true]
      exact sp_doResumeWith h hres
    · exact spec_rej
  | call =>
    refine spec_of rfl (hstep _) (sp_ok (cwfs_setFrames h ⟨trivial, trivial, (hu ls .normal).2⟩) ?_)
    simp [UFiber.userStep, Frame.abs]
  | cleanup =>
    refine spec_of rfl (hstep _) (sp_ok (cwfs_setFrames h ⟨trivial, trivial, (hu ls .normal).2⟩) ?_)
    simp [UFiber.userStep, Frame.abs]
  | ret =>
    refine spec_of rfl (hstep _) ?_
    cases k <;> simp only [UFiber.userStep, userStep] <;> first
      | exact sp_rej
      | exact sp_ok (cwfs_setFrames h (hu _ _)) (by simp [Frame.abs])
  | retHandle x =>
    simp only [userStep]
    split
    · rename_i ha
      refine spec_of rfl (hstep _) ?_
      cases k <;> simp only [UFiber.userStep, accessible_abs ha, if_true] <;> first
        | exact sp_rej
        | exact sp_ok (cwfs_setFrames (s := (s.setVal x none).newVar _ _) h (hu _ _)) (by simp [Frame.abs])
    · exact spec_rej
  | throw n =>
    refine spec_of rfl (hstep _) (sp_ok (cwfs_setFrames h (hu _ _)) ?_)
    simp [UFiber.userStep, Frame.abs]
  | spawn =>
    refine spec_of rfl (hstep _) (sp_ok ?_ ?_)
    · intro d
      simp only [upd_apply]
      split
      · exact ⟨trivial, trivial⟩
      · exact h d
    · simp only [UFiber.userStep, State.abs, upd_comp]; rfl
  | catchUser => exact spec_rej
  | swallow => exact spec_rej
  | tick => exact spec_rej

theorem step_spec {s : State} {t : Tid} {op : Op} (h : CWFS s) (hi : UFiber.Inv s.abs) : Spec s t op (step s t op) := by
  simp only [step]
  cases hcur : s.cur t with
  | none => exact spec_rej
  | some c =>
    have hcur' : s.abs.cur t = some c := hcur
    have hc := h c
    have hN := hi.oi.locsN c
    have hrt := hi.ci.runTop c t ((hi.ci.curRun t c).1 hcur) (by simp)
    rw [abs_frames] at hN hrt
    have hstick : ∀ x cm k ls rest, s.frames c = .callcc x cm k ls :: rest → fiberOps s t .tick =
        match cm with | .returning _ => [(t, .drop x)] | _ => [(t, .tick)] := by
      intro x cm k ls rest hf
      simp only [fiberOps, hcur, Option.map_some, hf]; cases cm <;> rfl
    have hntick : ∀ f rest, s.frames c = f :: rest → (∀ x cm k ls, f ≠ .callcc x cm k ls) → fiberOps s t .tick = [(t, .tick)] := by
      intro f rest hf hne
      simp only [fiberOps, hcur, Option.map_some, hf]
      cases f <;> first | rfl | exact absurd rfl (hne _ _ _ _)
    rcases hf : s.frames c with _ | ⟨f, rest⟩
    · rw [hf] at hrt; exact absurd hrt (by simp [Fiber.RunTop])
    rw [hf] at hc hN hrt
    simp only [hf]
    have hfF : s.abs.frames c = f.abs :: absL rest := by rw [abs_frames, hf]; rfl
    cases f with
    | entryJump => exact absurd hrt (by simp [Fiber.RunTop, Frame.abs])
    | entryRun => exact absurd hrt (by simp [Fiber.RunTop, Frame.abs])
    | resume => exact absurd hrt (by simp [Fiber.RunTop, Frame.abs])
    | dtor => exact absurd hrt (by simp [Fiber.RunTop, Frame.abs])
    | exitJump => exact absurd hrt (by simp [Fiber.RunTop, Frame.abs])
    | exiting n =>
      simp only []
      have ht := hntick _ _ hf (by simp)
      have hspec := sp_exitStep (t := t) h hf
      cases op <;> simp only [] <;> first
        | exact spec_rej
        | (refine spec_of (op' := .cleanup) rfl rfl (sp_ok (cwfs_setFrames h (cwf_push (by simp [Frame.plain]) hc)) ?_)
           simp [UFiber.step, hcur', hf, Frame.abs]; done)
        | (refine spec_of ht ?_ hspec
           simp only [UFiber.step, hcur', hfF, Frame.abs])
    | callcc x cm k ls =>
      have hcm : cm ≠ .waiting := by
        have := hc.1
        cases cm <;> simp_all [OkUnder]
      have ht := hstick _ _ _ _ _ hf
      cases cm with
      | waiting => simp at hcm
      | returning y =>
        simp only []
        have hxy : y ≠ x := by
          simp only [absL_cons, Frame.abs, Fiber.lvars, List.flatMap_cons, Fiber.Frame.lvars, List.nodup_append, List.nodup_cons, List.cons_append] at hN
          intro hh; subst hh; simp at hN
        have hds := sp_destroyVar (s := s.setFrames c (.user k (y :: ls) .normal :: rest)) (t := t) (c := c) (x := x)
          (cwfs_setFrames h (cwf_return hc.2))
        cases op <;> simp only [] <;> first
          | exact spec_rej
          | (refine spec_of ht ?_ hds
             simp only [UFiber.step, hcur', hfF, Frame.abs, UFiber.userStep, List.mem_cons, true_or, or_true, if_true, abs_setFrames, absL_cons]
             have : (y :: x :: ls).erase x = y :: ls := by
               rw [List.erase_cons, if_neg (by simpa using hxy), List.erase_cons_head]
             rw [this])
      | unwinding e =>
        simp only []
        have hds := sp_destroyVar (s := s.setFrames c (.user k ls (.unwinding e) :: rest)) (t := t) (c := c) (x := x)
          (cwfs_setFrames h (cwf_return hc.2))
        cases op <;> simp only [] <;> first
          | exact spec_rej
          | (refine spec_of ht ?_ hds
             simp only [UFiber.step, hcur', hfF, Frame.abs, abs_setFrames, absL_cons])
    | user k ls m =>
      have ht := hntick _ _ hf (by simp)
      have hclean : Spec s t .cleanup (.ok (s.setFrames c (.user .cleanup [] .normal :: .user k ls m :: rest))) := by
        refine spec_of (op' := .cleanup) rfl rfl (sp_ok (cwfs_setFrames h (cwf_push (by simp [Frame.plain]) hc)) ?_)
        rcases ls with _ | ⟨x, ls⟩ <;> cases m <;> simp [UFiber.step, UFiber.userStep, hcur', hf, Frame.abs]
      by_cases hm : m = .normal
      · subst hm
        exact userStep_spec h hcur hf op
      · rcases ls with _ | ⟨x, ls⟩
        · cases m with
          | normal => exact absurd rfl hm
          | unwinding e =>
            simp only []
            have hp := sp_propagate (t := t) (e := e) h hf
            have hpop : CWFS (s.setFrames c rest) := cwfs_setFrames h (cwf_pop hc (by simp))
            cases op <;> simp only [] <;> first
              | exact spec_rej
              | exact hclean
              | (refine spec_of ht ?_ hp
                 simp only [UFiber.step, hcur', hfF, Frame.abs]; done)
              | skip
            · split
              · refine spec_of (op' := .catchUser) rfl rfl (sp_ok hpop ?_)
                simp [UFiber.step, hcur', hf, Frame.abs]
              · exact spec_rej
            · split
              · rename_i x
                refine spec_of (op' := .swallow) rfl (r' := (match s.val x with | some v => .ok { (s.abs.setFrames c (absL rest)).kill x with lost := upd s.lost v true } | none => .ok ((s.abs.setFrames c (absL rest)).kill x))) ?_ ?_
                · simp only [UFiber.step, hcur', hfF, Frame.abs, abs_val]; rfl
                · cases s.val x with
                  | none => exact sp_ok hpop (by simp)
                  | some v => exact sp_ok hpop (by rw [← abs_setFrames, ← abs_kill]; rfl)
              · exact spec_rej
          | returning x =>
            simp only []
            have hp := sp_leave (t := t) (x := x) h hf
            cases op <;> simp only [] <;> first
              | exact spec_rej
              | exact hclean
              | (refine spec_of ht ?_ hp
                 simp only [UFiber.step, hcur', hfF, Frame.abs]; done)
        · have hds := sp_destroyVar (s := s.setFrames c (.user k ls m :: rest)) (t := t) (c := c) (x := x)
            (cwfs_setFrames h (cwf_user hc))
          cases m with
          | normal => exact absurd rfl hm
          | unwinding e =>
            cases op <;> simp only [] <;> first
              | exact spec_rej
              | exact hclean
              | (refine spec_of ht ?_ hds
                 simp only [UFiber.step, hcur', hfF, Frame.abs, abs_setFrames, absL_cons]; done)
          | returning y =>
            cases op <;> simp only [] <;> first
              | exact spec_rej
              | exact hclean
              | (refine spec_of ht ?_ hds
                 simp only [UFiber.step, hcur', hfF, Frame.abs, abs_setFrames, absL_cons]; done)

/-- What holds in every reachable state: it is a reachable state of the fiber machine, the call stacks are in order, and no never-started context is
observable. -/
structure Facts (s : State) : Prop where
  cwf : CWFS s
  reach : UFiber.Reachable s.abs
  good : Good s.hidden s

theorem reach_run {s : UFiber.State} (h : UFiber.Reachable s) : ∀ {l : List (Tid × Fiber.Op)} {s' : UFiber.State},
    UFiber.run s l = .ok s' → UFiber.Reachable s' := by
  intro l s' hr
  exact (UFiber.steps_run hr).reachable h

theorem Facts.inv {s : State} (f : Facts s) : UFiber.Inv s.abs := (UFiber.reachable_inv f.reach f.good.early)

theorem Facts.fresh {s : State} (f : Facts s) {t : Tid} {c : CtxId} (hc : s.cur t = some c) : c ≠ s.nextCtx := by
  have h1 := (f.inv.ci.curRun t c).1 hc
  intro hh
  have h2 := (f.inv.ci.absent c).2 (by rw [hh]; exact Nat.le_refl _)
  rw [h1] at h2; cases h2

theorem Facts.step {s s' : State} {t : Tid} {op : Op} (f : Facts s) (hs : step s t op = .ok s') : Facts s' := by
  have hsp := step_spec (t := t) (op := op) f.cwf f.inv
  rw [hs] at hsp
  refine ⟨hsp.2 s' rfl, reach_run f.reach hsp.1, ?_⟩
  rcases step_hidden f.good (fun c hc => f.fresh hc) hs with h | ⟨xs, _, h⟩
  · rw [h.1.hid]; exact h.1
  · rw [h.hid]; exact h

theorem facts_init : Facts init := by
  refine ⟨fun c => ?_, ?_, ⟨rfl, rfl, fun c => ?_⟩⟩
  · simp only [init]; split
    · exact ⟨trivial, trivial⟩
    · exact trivial
  · have : init.abs = UFiber.init := by
      simp only [init, State.abs, UFiber.init]
      congr
      funext c
      split <;> rfl
    rw [this]; exact .init
  · simp only [init]; split <;> simp

theorem reachable_facts {s : State} (h : Reachable s) : Facts s := by
  induction h with
  | init => exact facts_init
  | step _ hs ih => exact ih.step hs

end Verif.UCont
