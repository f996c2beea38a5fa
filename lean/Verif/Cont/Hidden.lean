import Verif.Cont.Step
import Verif.Fiber.Two

/-! # Histories of the `continuation` machine: refinement for whole histories, and the temporary of `callcc` -/

namespace Verif.Cont
open Verif.Fiber (CtxId Var Tid Fctx Kind Exc Mode UKind Status Event CreateOutcome upd upd_apply)

theorem lvalue_not_ok {s s' : State} {t : Tid} {op : Op} (h : step s t op = .ok s') : op.lvalueFn = false := by
  cases op <;> simp only [Op.lvalueFn]
  rename_i x lv
  cases lv with
  | false => rfl
  | true =>
    simp only [step] at h
    split at h
    · simp at h
    · split at h <;> try (simp at h; done)
      simp only [userStep] at h
      split at h
      · simp only [State.doResumeWith] at h
        split at h
        · simp at h
        · split at h
          · simp at h
          · simp at h
      · simp at h

theorem reachable_spec {s : State} (h : Reachable s) : CWFS s ∧ Fiber.Reachable s.abs := by
  induction h with
  | init =>
    refine ⟨fun c => ?_, ?_⟩
    · simp only [init]; split <;> simp [CWF, OkUnder]
    · have : init.abs = Fiber.init := by
        simp only [State.abs, init, Fiber.init, Fiber.State.mk.injEq, true_and]
        refine ⟨?_, trivial⟩
        funext c; split <;> simp [Frame.abs]
      rw [this]; exact .init
  | @step s s' t op hr hs ih =>
    have hsp := step_spec (t := t) ih.1 (Fiber.reachable_inv ih.2) (lvalue_not_ok hs)
    rw [hs] at hsp
    exact ⟨hsp.2 _ rfl, (Fiber.steps_run (hsp.1 (by simp))).reachable ih.2⟩

/-- temporaries of the activations of `callcc` in a stack -/
def Frame.cc : Frame → Option Var
  | .callcc x _ _ _ _ => some x
  | _ => none

def ccx (fs : List Frame) : List Var := fs.filterMap Frame.cc

@[simp] theorem ccx_nil : ccx [] = [] := rfl
@[simp] theorem ccx_user (k : UKind) (lib : Option Fctx) (ls : List Var) (m : Mode) (fs : List Frame) : ccx (.user k lib ls m :: fs) = ccx fs := rfl
@[simp] theorem ccx_callcc (x : Var) (cm : CcMode) (k : UKind) (lib : Option Fctx) (ls : List Var) (fs : List Frame) :
    ccx (.callcc x cm k lib ls :: fs) = x :: ccx fs := rfl
@[simp] theorem ccx_entryJump (fs : List Frame) : ccx (.entryJump :: fs) = ccx fs := rfl
@[simp] theorem ccx_entryRun (fs : List Frame) : ccx (.entryRun :: fs) = ccx fs := rfl
@[simp] theorem ccx_resume (fs : List Frame) : ccx (.resume :: fs) = ccx fs := rfl
@[simp] theorem ccx_dtor (v : CtxId) (fs : List Frame) : ccx (.dtor v :: fs) = ccx fs := rfl
@[simp] theorem ccx_exiting (v : CtxId) (fs : List Frame) : ccx (.exiting v :: fs) = ccx fs := rfl
@[simp] theorem ccx_exitJump (fs : List Frame) : ccx (.exitJump :: fs) = ccx fs := rfl

/-- the hidden objects are `h0`, and the temporaries of all activations of `callcc` are among them -/
def Good (h0 : Var → Bool) (s : State) : Prop := s.hidden = h0 ∧ ∀ c x, x ∈ ccx (s.frames c) → h0 x = true

/-- `r`, if a state, is good -/
def Hid (h0 : Var → Bool) (r : Res) : Prop := ∀ s', r = .ok s' → Good h0 s'

variable {h0 : Var → Bool}

theorem hid_ok {s : State} (h : Good h0 s) : Hid h0 (.ok s) := by rintro s' ⟨⟩; exact h
theorem hid_bad {r : Res} (h : ∀ s, r ≠ .ok s) : Hid h0 r := fun s' hs => absurd hs (h s')

theorem good_setFrames {s : State} {c : CtxId} {fs : List Frame} (h : Good h0 s) (hf : ∀ x ∈ ccx fs, h0 x = true) : Good h0 (s.setFrames c fs) := by
  refine ⟨h.1, ?_⟩
  intro d x
  simp only [State.setFrames, upd_apply]
  split
  · exact hf x
  · exact h.2 d x

theorem good_of {s s' : State} (h : Good h0 s) (hf : s'.frames = s.frames) (hh : s'.hidden = s.hidden) : Good h0 s' := by
  refine ⟨hh.trans h.1, ?_⟩; rw [hf]; exact h.2

theorem good_switch {s s' : State} {t : Tid} {f b : Fctx} {l : Status} {a : Bool} (hg : Good h0 s) (h : s.switch t f l a = some (s', b)) :
    Good h0 s' := by
  have hf := switch_frames h
  refine ⟨?_, by rw [hf]; exact hg.2⟩
  rw [← hg.1]
  simp only [State.switch] at h
  split at h
  · simp at h
  · split at h
    · simp only [Option.some.injEq, Prod.mk.injEq] at h; rw [← h.1]
    · simp at h

theorem hid_finish {s : State} (hg : Good h0 s) (t : Tid) (c : CtxId) (f : Fctx) : Hid h0 (s.finish t c f) := by
  simp only [State.finish, State.ontopSwitch]
  split
  · exact hid_bad (by simp)
  · rename_i s1 b h1
    have := good_switch (good_setFrames hg (by simp)) h1
    exact hid_ok (good_setFrames this (by simpa using this.2 f.ctx))

theorem hid_deliver {s : State} (hg : Good h0 s) (c : CtxId) (v : Option Fctx) : Hid h0 (s.deliver c v) := by
  have hc := hg.2 c
  simp only [State.deliver]
  split <;> rename_i hf <;> (try rw [hf] at hc) <;> first
    | exact hid_ok (good_setFrames (s := s.newVar _ _) hg (by simpa using hc))
    | exact hid_ok (good_setFrames hg (by simpa using hc))
    | exact hid_bad (by simp)

theorem hid_raiseUser {s : State} (hg : Good h0 s) (c : CtxId) (n : Nat) : Hid h0 (s.raiseUser c n) := by
  have hc := hg.2 c
  simp only [State.raiseUser]
  split <;> rename_i hf <;> (try rw [hf] at hc) <;> first
    | exact hid_ok (good_setFrames hg (by simpa using hc))
    | exact hid_bad (by simp)

theorem hid_raiseForced {s : State} (hg : Good h0 s) (t : Tid) (c : CtxId) (f : Fctx) : Hid h0 (s.raiseForced t c f) := by
  have hc := hg.2 c
  simp only [State.raiseForced]
  split <;> rename_i hf <;> (try rw [hf] at hc) <;> first
    | exact hid_finish hg t c f
    | exact hid_ok (good_setFrames (s := s.newVar _ _) hg (by simpa using hc))
    | exact hid_bad (by simp)

theorem hid_destroyFctx {s : State} (hg : Good h0 s) (t : Tid) (c : CtxId) (f : Fctx) : Hid h0 (s.destroyFctx t c f) := by
  simp only [State.destroyFctx, State.ontopSwitch]
  split
  · exact hid_bad (by simp)
  · rename_i s1 b h1
    exact hid_raiseForced (good_switch (good_setFrames hg (by simpa using hg.2 c)) h1) t _ b

theorem hid_destroyVar {s : State} (hg : Good h0 s) (t : Tid) (c : CtxId) (x : Var) : Hid h0 (s.destroyVar t c x) := by
  simp only [State.destroyVar]
  split
  · exact hid_ok (s := s.kill x) hg
  · exact hid_destroyFctx (s := s.kill x) hg t c _

theorem hid_doResume {s : State} (hg : Good h0 s) (t : Tid) (c : CtxId) (x : Var) : Hid h0 (s.doResume t c x) := by
  simp only [State.doResume, State.jump]
  split
  · exact hid_bad (by simp)
  · split
    · exact hid_bad (by simp)
    · rename_i s1 b h1
      exact hid_deliver (good_switch (good_setFrames (s := s.setVal x none) hg (by simpa using hg.2 c)) h1) _ _

theorem hid_doResumeWith {s : State} (hg : Good h0 s) (t : Tid) (c : CtxId) (x : Var) (lv : Bool) : Hid h0 (s.doResumeWith t c x lv) := by
  simp only [State.doResumeWith, State.ontopSwitch]
  split
  · exact hid_bad (by simp)
  · split
    · exact hid_bad (by simp)
    · rename_i s1 b h1
      have h2 := good_switch (good_setFrames (s := s.setVal x none) hg (by simpa using hg.2 c)) h1
      split
      · exact hid_bad (by simp)
      · refine hid_ok (good_setFrames (good_of h2 rfl rfl) ?_)
        intro y hy; exact h2.2 _ y (by simpa using hy)

theorem hid_doWithThrows {s : State} (hg : Good h0 s) (t : Tid) (c : CtxId) (k : UKind) (lib : Option Fctx) (ls : List Var) (rest : List Frame) (x : Var)
    (n : Nat) (b : Bool) (hf : s.frames c = .user k lib ls .normal :: rest) : Hid h0 (s.doWithThrows t c k lib ls rest x n b) := by
  simp only [State.doWithThrows, State.ontopSwitch]
  split
  · exact hid_bad (by simp)
  · split
    · split
      · exact hid_bad (by simp)
      · rename_i s1 b h1
        have h2 := good_switch (good_setFrames (s := s.setVal x none) hg (by simpa using hg.2 c)) h1
        exact hid_raiseUser (s := { s1 with lost := upd s1.lost b.ctx true }) (good_of h2 rfl rfl) _ _
    · refine hid_ok (good_setFrames hg ?_)
      intro y hy; exact hg.2 c y (by rw [hf]; simpa using hy)

theorem capture_hidden (s : State) (n : CtxId) (xs : List Var) : (s.capture n xs).hidden = s.hidden := by
  induction xs generalizing s with
  | nil => rfl
  | cons x xs ih => simp only [State.capture]; rw [ih]; rfl

theorem hid_doCallcc {s : State} (hg : Good h0 s) (t : Tid) (c : CtxId) (k : UKind) (lib : Option Fctx) (ls : List Var) (rest : List Frame) (xs : List Var)
    (hf : s.frames c = .user k lib ls .normal :: rest) :
    Hid (upd h0 (s.nextVar + xs.length) true) (s.doCallcc t c k lib ls rest xs) := by
  simp only [State.doCallcc, State.jump]
  split
  · exact hid_bad (by simp)
  · rename_i s1 b h1
    split
    · exact hid_bad (by simp)
    · rename_i s2 f h2
      have g0 : Good h0 (({ s with nextCtx := s.nextCtx + 1 }.addLog (.alloc s.nextCtx)).capture s.nextCtx xs) := by
        refine ⟨by rw [capture_hidden]; exact hg.1, ?_⟩
        rw [capture_frames]; exact hg.2
      have g1 : Good h0 s1 := by
        refine good_switch ?_ h1
        exact good_of g0 rfl rfl
      have g2 : Good h0 s2 := good_switch (good_setFrames g1 (by simp)) h2
      have n1 := switch_nextVar h1
      have n2 := switch_nextVar h2
      have hn : s2.nextVar = s.nextVar + xs.length := by
        rw [n2]; show s1.nextVar = _
        rw [n1]; exact capture_nextVar _ _ _
      rw [← hn]
      refine hid_doResume (good_setFrames ?_ ?_) t c s2.nextVar
      · refine ⟨by show upd s2.hidden _ _ = _; rw [g2.1], ?_⟩
        intro d x hx
        simp only [upd_apply]
        split
        · rfl
        · exact g2.2 d x hx
      · intro x hx
        simp only [ccx_callcc, List.mem_cons] at hx
        simp only [upd_apply]
        split
        · rfl
        · rename_i hne
          rcases hx with hx | hx
          · exact absurd hx hne
          · exact hg.2 c x (by rw [hf]; simpa using hx)

theorem hid_propagate {s : State} (hg : Good h0 s) (t : Tid) (c : CtxId) (k : UKind) (e : Exc) (rest : List Frame) (hr : ∀ x ∈ ccx rest, h0 x = true) :
    Hid h0 (propagate s t c k e rest) := by
  simp only [propagate]
  split
  · exact hid_bad (by simp)
  · exact hid_bad (by simp)
  · exact hid_ok (good_setFrames hg (by simpa using hr))
  · split
    · exact hid_bad (by simp)
    · split
      · exact hid_bad (by simp)
      · exact hid_finish (s := s.kill _) hg t c _
  · split
    · exact hid_raiseUser (good_setFrames hg hr) c _
    · split
      · exact hid_bad (by simp)
      · exact hid_raiseForced (s := (s.setFrames c _).kill _) (good_setFrames hg hr) t c _
  · exact hid_bad (by simp)

theorem hid_leave {s : State} (hg : Good h0 s) (t : Tid) (c : CtxId) (k : UKind) (x : Option Var) (rest : List Frame) (hr : ∀ x ∈ ccx rest, h0 x = true) :
    Hid h0 (leave s t c k x rest) := by
  simp only [leave]
  split
  · exact hid_ok (good_setFrames (s := { s with cur := upd s.cur t none, status := upd s.status c .ended }) hg (by simp))
  · exact hid_ok (good_setFrames hg hr)
  · exact hid_ok (good_setFrames hg hr)
  · split
    · exact hid_bad (by simp)
    · exact hid_finish (s := s.kill _) hg t c _
  · exact hid_deliver (s := (s.setFrames c _).kill _) (good_setFrames hg hr) c _
  · exact hid_bad (by simp)

theorem hid_exitStep {s : State} (hg : Good h0 s) (t : Tid) (c n : CtxId) (rest : List Frame) (hr : ∀ x ∈ ccx rest, h0 x = true) :
    Hid h0 (exitStep s t c n rest) := by
  simp only [exitStep]
  split
  · refine hid_destroyVar ?_ t c _; exact good_of hg rfl rfl
  · split
    · refine hid_deliver ?_ c _
      refine ⟨hg.1, ?_⟩
      intro d x hx
      simp only [State.addLog, upd_apply] at hx
      split at hx
      · exact hr x hx
      · split at hx
        · simp at hx
        · exact hg.2 d x hx
    · exact hid_bad (by simp)

theorem step_hidden {s s' : State} {t : Tid} {op : Op} (hg : Good s.hidden s) (h : step s t op = .ok s') :
    (Good s.hidden s' ∧ ∀ xs, op ≠ .callcc xs .success) ∨
    ∃ xs, op = .callcc xs .success ∧ Good (upd s.hidden (s.nextVar + xs.length) true) s' := by
  by_cases hop : ∃ xs, op = .callcc xs .success
  · obtain ⟨xs, rfl⟩ := hop
    refine .inr ⟨xs, rfl, ?_⟩
    simp only [step] at h
    split at h
    · simp at h
    · split at h <;> try (simp at h; done)
      simp only [userStep] at h
      split at h
      · exact hid_doCallcc hg _ _ _ _ _ _ _ ‹_› s' h
      · simp at h
  · refine .inl ⟨?_, fun xs hx => hop ⟨xs, hx⟩⟩
    simp only [step] at h
    split at h
    · simp at h
    · rename_i c hcur
      have hcc := hg.2 c
      split at h <;> rename_i hf <;> (try rw [hf] at hcc)
      · simp only [ccx_user] at hcc
        cases op <;> simp only [userStep] at h
        case newHeap => cases h; exact hg
        case newLocal => cases h; exact good_setFrames (s := s.newVar _ _) hg (by simpa using hcc)
        case moveHeap => split at h <;> cases h; exact hg
        case moveLocal => split at h <;> cases h; exact good_setFrames (s := (s.setVal _ _).newVar _ _) hg (by simpa using hcc)
        case moveAssign =>
          split at h
          · split at h
            · cases h; exact hg
            · split at h
              · cases h; exact hg
              · exact hid_destroyFctx (s := (s.setVal _ _).setVal _ _) hg t c _ s' h
          · cases h
        case swap => split at h <;> cases h; exact hg
        case drop =>
          split at h
          · exact hid_destroyVar (good_setFrames hg (by simpa using hcc)) t c _ s' h
          · split at h
            · exact hid_destroyVar hg t c _ s' h
            · cases h
        case callcc xs o =>
          split at h
          · cases o with
            | success => exact absurd ⟨xs, rfl⟩ hop
            | allocThrows n => cases h; exact good_setFrames hg (by simpa using hcc)
            | fnThrows => cases h
          · cases h
        case resume => split at h <;> first | exact hid_doResume hg t c _ s' h | cases h
        case resumeWith => split at h <;> first | exact hid_doResumeWith hg t c _ _ s' h | cases h
        case withThrows => split at h <;> first | exact hid_doWithThrows hg t c _ _ _ _ _ _ _ hf s' h | cases h
        case call => cases h; exact good_setFrames hg (by simpa using hcc)
        case cleanup => cases h; exact good_setFrames hg (by simpa using hcc)
        case ret => split at h <;> cases h <;> exact good_setFrames hg (by simpa using hcc)
        case retHandle =>
          split at h
          · split at h <;> cases h <;> exact good_setFrames (s := (s.setVal _ _).newVar _ _) hg (by simpa using hcc)
          · cases h
        case throw => cases h; exact good_setFrames hg (by simpa using hcc)
        case spawn => cases h; exact good_setFrames (s := { s with cur := upd s.cur s.nextTid (some s.nextCtx), status := upd s.status s.nextCtx (.running s.nextTid), seq := upd s.seq s.nextCtx 0, nextCtx := s.nextCtx + 1, nextTid := s.nextTid + 1 }) hg (by simp)
        all_goals cases h
      · cases op <;> simp only [] at h <;> first
          | (cases h; done) | exact hid_destroyVar (good_setFrames hg (by simpa using hcc)) t c _ s' h
          | (cases h; exact good_setFrames hg (by simpa using hcc))
      · cases op <;> simp only [] at h <;> first
          | (cases h; done) | exact hid_destroyFctx (good_setFrames hg (by simpa using hcc)) t c _ s' h
      · cases op <;> simp only [] at h <;> first
          | (cases h; done) | exact hid_propagate hg t c _ _ _ (by simpa using hcc) s' h
          | (cases h; exact good_setFrames hg (by simpa using hcc)) | skip
        · split at h <;> cases h; exact good_setFrames hg (by simpa using hcc)
        · split at h
          · split at h <;> cases h <;> exact good_setFrames hg (by simpa using hcc)
          · cases h
      · cases op <;> simp only [] at h <;> first
          | (cases h; done) | exact hid_leave hg t c _ _ _ (by simpa using hcc) s' h
          | (cases h; exact good_setFrames hg (by simpa using hcc))
      · cases op <;> simp only [] at h <;> first
          | (cases h; done) | exact hid_destroyVar (good_setFrames hg (by simp at hcc; simpa using hcc.2)) t c _ s' h
      · cases op <;> simp only [] at h <;> first
          | (cases h; done) | exact hid_destroyVar (good_setFrames hg (by simp at hcc; simpa using hcc.2)) t c _ s' h
      · cases op <;> simp only [] at h <;> first
          | (cases h; done) | exact hid_exitStep hg t c _ _ (by simpa using hcc) s' h
          | (cases h; exact good_setFrames hg (by simpa using hcc))
      · cases h

theorem reachable_good {s : State} (h : Reachable s) : Good s.hidden s := by
  induction h with
  | init => exact ⟨rfl, by intro c x hx; simp only [init] at hx; split at hx <;> simp at hx⟩
  | step _ hs ih =>
    rcases step_hidden ih hs with ⟨h1, _⟩ | ⟨xs, _, h1⟩
    · exact ⟨rfl, by rw [h1.1]; exact h1.2⟩
    · exact ⟨rfl, by rw [h1.1]; exact h1.2⟩

theorem steps_val {s s' : Fiber.State} {h : List (Tid × Fiber.Op)} (hr : Fiber.Reachable s) (hs : Fiber.run s h = .ok s') :
    s.nextVar ≤ s'.nextVar ∧ ∀ x, x < s.nextVar → (∀ a ∈ h, ¬ Fiber.Assigns a.2 x) → s.val x = none → s'.val x = none := by
  induction h generalizing s with
  | nil => simp only [Fiber.run, Fiber.Res.ok.injEq] at hs; subst hs; exact ⟨Nat.le_refl _, fun x _ _ hx => hx⟩
  | cons a h ih =>
    obtain ⟨t, op⟩ := a
    simp only [Fiber.run] at hs
    cases h1 : Fiber.step s t op with
    | ok s1 =>
      rw [h1] at hs
      have hv := Fiber.step_val (Fiber.reachable_inv hr) h1
      have := ih (.step hr h1) hs
      refine ⟨by omega, fun x hx ha hn => this.2 x (by omega) (fun a ha' => ha a (by simp [ha'])) ?_⟩
      rcases hv.2 x hx (ha (t, op) (by simp)) with h2 | h2
      · rw [h2, hn]
      · exact h2
    | _ => rw [h1] at hs; cases hs

/-- The temporary of a `callcc` is empty whenever user code or another step of the runtime is next. -/
theorem hidden_empty {s : State} (h : Reachable s) : ∀ x, s.hidden x = true → x < s.nextVar ∧ s.val x = none := by
  induction h with
  | init => intro x hx; simp [init] at hx
  | @step s s' t op hr hs ih =>
    have hsp := step_spec (op := op) (t := t) (reachable_spec hr).1 (Fiber.reachable_inv (reachable_spec hr).2) (lvalue_not_ok hs)
    rw [hs] at hsp
    have hrun := hsp.1 (by simp)
    have hFR := (reachable_spec hr).2
    have hsv := steps_val hFR hrun
    have hnoassign : ∀ x, s.hidden x = true → ∀ a ∈ fiberOps s t op, ¬ Fiber.Assigns a.2 x := by
      intro x hx a ha
      have hacc : s.accessible x = false := by
        simp only [State.accessible]; split <;> simp [hx]
      have hcur : ∃ c, s.cur t = some c := by
        simp only [step] at hs; split at hs
        · cases hs
        · exact ⟨_, ‹_›⟩
      obtain ⟨c, hcur⟩ := hcur
      simp only [step, hcur] at hs
      cases op <;> simp only [fiberOps] at ha <;> (try (simp only [List.mem_singleton] at ha; subst ha)) <;> simp only [Fiber.Assigns, not_false_eq_true, not_or]
      case moveAssign y z =>
        intro hh; subst hh
        split at hs <;> try (cases hs; done)
        simp [userStep, hacc] at hs
      case swap y z =>
        split at hs <;> try (cases hs; done)
        simp only [userStep] at hs
        split at hs
        · rename_i hq
          constructor
          · intro hh; subst hh; rw [hacc] at hq; simp at hq
          · intro hh; subst hh; rw [hacc] at hq; simp at hq
        · cases hs
      case callcc xs o =>
        cases o <;> simp only [List.mem_cons, List.not_mem_nil, or_false] at ha
        · rcases ha with rfl | rfl <;> simp [Fiber.Assigns]
        · subst ha; simp [Fiber.Assigns]
        · subst ha; simp [Fiber.Assigns]
      case tick =>
        split at ha <;> (simp only [List.mem_singleton] at ha; subst ha) <;> simp [Fiber.Assigns]
    have hold : ∀ x, s.hidden x = true → x < s'.nextVar ∧ s'.val x = none := by
      intro x hx
      obtain ⟨h1, h2⟩ := ih x hx
      exact ⟨Nat.lt_of_lt_of_le h1 hsv.1, hsv.2 x h1 (hnoassign x hx) h2⟩
    rcases step_hidden (reachable_good hr) hs with ⟨h1, _⟩ | ⟨xs, rfl, h1⟩
    · rw [h1.1]; exact hold
    · rw [h1.1]
      intro x hx
      simp only [upd_apply] at hx
      split at hx
      · subst x
        simp only [fiberOps, Fiber.run] at hrun
        cases h2 : Fiber.step s.abs t (.create xs .success) with
        | ok s1 =>
          rw [h2] at hrun
          simp only [] at hrun
          cases h3 : Fiber.step s1 t (.resume (s.nextVar + xs.length)) with
          | ok s2 =>
            rw [h3] at hrun
            simp only [Fiber.Res.ok.injEq, Res.abs] at hrun
            subst hrun
            have hv := Fiber.C04_consumed (x := s.nextVar + xs.length) (.step hFR h2) (by trivial) h3
            refine ⟨?_, hv⟩
            have hv1 := (Fiber.step_val (Fiber.reachable_inv (.step hFR h2)) h3).1
            have : s.nextVar + xs.length < s1.nextVar := by
              apply Nat.lt_of_not_le
              intro hle
              have hd := (Fiber.reachable_inv (.step hFR h2)).oi.fresh _ hle
              simp only [Fiber.step] at h3
              split at h3
              · cases h3
              · split at h3 <;> try (cases h3; done)
                simp [Fiber.userStep, Fiber.State.accessible, hd] at h3
            exact Nat.lt_of_lt_of_le this hv1
          | _ => rw [h3] at hrun; cases hrun
        | _ => rw [h2] at hrun; cases hrun
      · exact hold x hx

end Verif.Cont
