import Verif.Cont.Props

/-! # The locals of user code and the temporaries of `callcc` are different objects (fcontext) -/

set_option linter.unusedSimpArgs false

namespace Verif.Cont.Vars
open Verif.Fiber (CtxId Fctx Var Tid Kind Exc Mode UKind Status Event CreateOutcome upd upd_apply)
open Verif.Cont

def CcOk (h0 : Var → Bool) : CcMode → Prop
  | .returning y => h0 y = false
  | _ => True

/-- the temporary of an activation of `callcc` is hidden, locals are not -/
def FrameOk (h0 : Var → Bool) : Frame → Prop
  | .user _ _ ls _ => ∀ x ∈ ls, h0 x = false
  | .callcc x cm _ _ ls => h0 x = true ∧ (∀ y ∈ ls, h0 y = false) ∧ CcOk h0 cm
  | _ => True

def FOk (h0 : Var → Bool) (fs : List Frame) : Prop := ∀ f ∈ fs, FrameOk h0 f

@[simp] theorem fok_nil (h0 : Var → Bool) : FOk h0 [] := by intro f hf; simp at hf
@[simp] theorem fok_cons (h0 : Var → Bool) (f : Frame) (fs : List Frame) : FOk h0 (f :: fs) ↔ FrameOk h0 f ∧ FOk h0 fs := by
  simp [FOk]
@[simp] theorem frameOk_user (h0 : Var → Bool) (k : UKind) (lib : Option Fctx) (ls : List Var) (m : Mode) : FrameOk h0 (.user k lib ls m) ↔ ∀ x ∈ ls, h0 x = false := Iff.rfl
@[simp] theorem frameOk_resume (h0 : Var → Bool) : FrameOk h0 .resume := trivial
@[simp] theorem frameOk_entryRun (h0 : Var → Bool) : FrameOk h0 .entryRun := trivial
@[simp] theorem frameOk_dtor (h0 : Var → Bool) (v : CtxId) : FrameOk h0 (.dtor v) := trivial
@[simp] theorem frameOk_exiting (h0 : Var → Bool) (v : CtxId) : FrameOk h0 (.exiting v) := trivial
@[simp] theorem frameOk_exitJump (h0 : Var → Bool) : FrameOk h0 .exitJump := trivial
@[simp] theorem frameOk_entryJump (h0 : Var → Bool) : FrameOk h0 .entryJump := trivial
@[simp] theorem frameOk_callcc (h0 : Var → Bool) (x : Var) (cm : CcMode) (k : UKind) (lib : Option Fctx) (ls : List Var) : FrameOk h0 (.callcc x cm k lib ls) ↔
    h0 x = true ∧ (∀ y ∈ ls, h0 y = false) ∧ CcOk h0 cm := Iff.rfl
@[simp] theorem ccOk_waiting (h0 : Var → Bool) : CcOk h0 .waiting := trivial
@[simp] theorem ccOk_unwinding (h0 : Var → Bool) (e : Exc) : CcOk h0 (.unwinding e) := trivial
@[simp] theorem ccOk_returning (h0 : Var → Bool) (y : Var) : CcOk h0 (.returning y) ↔ h0 y = false := Iff.rfl

structure Good (h0 : Var → Bool) (s : State) : Prop where
  hid : s.hidden = h0
  lt : ∀ x, h0 x = true → x < s.nextVar
  fr : ∀ c, FOk h0 (s.frames c)

def Hid (h0 : Var → Bool) (r : Res) : Prop := ∀ s', r = .ok s' → Good h0 s'

variable {h0 : Var → Bool}

theorem hid_ok {s : State} (h : Good h0 s) : Hid h0 (.ok s) := by rintro s' ⟨⟩; exact h
theorem hid_bad {r : Res} (h : ∀ s, r ≠ .ok s) : Hid h0 r := fun s' hs => absurd hs (h s')

theorem Good.fresh {s : State} (h : Good h0 s) : h0 s.nextVar = false := by
  cases hx : h0 s.nextVar with
  | false => rfl
  | true => exact absurd (h.lt _ hx) (Nat.lt_irrefl _)

theorem good_setFrames {s : State} {c : CtxId} {fs : List Frame} (h : Good h0 s) (hf : FOk h0 fs) : Good h0 (s.setFrames c fs) := by
  refine ⟨h.1, h.2, ?_⟩
  intro d
  simp only [State.setFrames, upd_apply]
  split
  · exact hf
  · exact h.3 d

theorem good_of {s s' : State} (h : Good h0 s) (hf : s'.frames = s.frames) (hh : s'.hidden = s.hidden) (hn : s.nextVar ≤ s'.nextVar) : Good h0 s' := by
  refine ⟨hh.trans h.1, fun x hx => Nat.lt_of_lt_of_le (h.2 x hx) hn, ?_⟩; rw [hf]; exact h.3

theorem good_addLog {s : State} (h : Good h0 s) (e : Event) : Good h0 (s.addLog e) := good_of h rfl rfl (Nat.le_refl _)
theorem good_newVar {s : State} (h : Good h0 s) (k : Kind) (v : Option Fctx) : Good h0 (s.newVar k v) := good_of h rfl rfl (Nat.le_succ _)
theorem good_switch {s s' : State} {t : Tid} {f b : Fctx} {l : Status} {a : Bool} (hg : Good h0 s) (h : s.switch t f l a = some (s', b)) :
    Good h0 s' := by
  have hf := switch_frames h
  refine ⟨?_, by rw [switch_nextVar h]; exact hg.2, by rw [hf]; exact hg.3⟩
  rw [← hg.1]
  simp only [State.switch] at h
  split at h
  · simp at h
  · split at h
    · simp only [Option.some.injEq, Prod.mk.injEq] at h; rw [← h.1]
    · simp at h

theorem hid_finish {s : State} (hg : Good h0 s) (t : Tid) (c : CtxId) (f : Fctx) : Hid h0 (s.finish t c f) := by
  simp only [State.finish, State.ontopSwitch]
  split
  · exact hid_bad (by simp)
  · rename_i s1 b h1
    have := good_switch (good_setFrames hg (by simp)) h1
    exact hid_ok (good_setFrames this (by simpa using this.3 f.ctx))

theorem hid_deliver {s : State} (hg : Good h0 s) (c : CtxId) (v : Option Fctx) : Hid h0 (s.deliver c v) := by
  have hc := hg.3 c
  simp only [State.deliver]
  split <;> rename_i hf <;> (try rw [hf] at hc) <;> first
    | exact hid_ok (good_addLog (good_setFrames (s := s.newVar _ _) (good_newVar hg _ _) (by simp [hg.fresh] at hc ⊢; exact hc)) _)
    | exact hid_ok (good_addLog (good_setFrames hg (by simp at hc; exact hc)) _)
    | exact hid_ok (good_setFrames (s := s.newVar _ _) (good_newVar hg _ _) (by simp [hg.fresh] at hc ⊢; exact hc))
    | exact hid_ok (good_setFrames hg (by simp [hg.fresh] at hc ⊢; exact hc))
    | exact hid_bad (by simp)

theorem hid_raiseUser {s : State} (hg : Good h0 s) (c : CtxId) (n : Nat) : Hid h0 (s.raiseUser c n) := by
  have hc := hg.3 c
  simp only [State.raiseUser]
  split <;> rename_i hf <;> (try rw [hf] at hc) <;> first
    | exact hid_ok (good_setFrames hg (by simp [hg.fresh] at hc ⊢; exact hc))
    | exact hid_bad (by simp)

theorem hid_raiseForced {s : State} (hg : Good h0 s) (t : Tid) (c : CtxId) (f : Fctx) : Hid h0 (s.raiseForced t c f) := by
  have hc := hg.3 c
  simp only [State.raiseForced]
  split <;> rename_i hf <;> (try rw [hf] at hc) <;> first
    | exact hid_finish hg t c f
    | exact hid_ok (good_setFrames (s := s.newVar _ _) (good_newVar hg _ _) (by simp [hg.fresh] at hc ⊢; exact hc))
    | exact hid_bad (by simp)

theorem hid_destroyFctx {s : State} (hg : Good h0 s) (t : Tid) (c : CtxId) (f : Fctx) : Hid h0 (s.destroyFctx t c f) := by
  simp only [State.destroyFctx, State.ontopSwitch]
  split
  · exact hid_bad (by simp)
  · rename_i s1 b h1
    exact hid_raiseForced (good_switch (good_setFrames hg (by simpa using hg.3 c)) h1) t _ b

theorem hid_destroyVar {s : State} (hg : Good h0 s) (t : Tid) (c : CtxId) (x : Var) : Hid h0 (s.destroyVar t c x) := by
  simp only [State.destroyVar]
  split
  · exact hid_ok (s := s.kill x) (good_of hg rfl rfl (by first | exact Nat.le_refl _ | exact Nat.le_succ _))
  · exact hid_destroyFctx (s := s.kill x) (good_of hg rfl rfl (by first | exact Nat.le_refl _ | exact Nat.le_succ _)) t c _

theorem hid_doResume {s : State} (hg : Good h0 s) (t : Tid) (c : CtxId) (x : Var) : Hid h0 (s.doResume t c x) := by
  simp only [State.doResume, State.jump]
  split
  · exact hid_bad (by simp)
  · split
    · exact hid_bad (by simp)
    · rename_i s1 b h1
      exact hid_deliver (good_switch (good_setFrames (s := s.setVal x none) (good_of hg rfl rfl (by first | exact Nat.le_refl _ | exact Nat.le_succ _)) (by simpa using hg.3 c)) h1) _ _

theorem hid_doResumeWith {s : State} (hg : Good h0 s) (t : Tid) (c : CtxId) (x : Var) (lv : Bool) : Hid h0 (s.doResumeWith t c x lv) := by
  simp only [State.doResumeWith, State.ontopSwitch]
  split
  · exact hid_bad (by simp)
  · split
    · exact hid_bad (by simp)
    · rename_i s1 b h1
      have h2 := good_switch (good_setFrames (s := s.setVal x none) (good_of hg rfl rfl (by first | exact Nat.le_refl _ | exact Nat.le_succ _)) (by simpa using hg.3 c)) h1
      split
      · exact hid_bad (by simp)
      · have h3 : Good h0 { s1 with nextId := s1.nextId + 1 } := good_of h2 rfl rfl (Nat.le_refl _)
        refine hid_ok (good_addLog (good_setFrames (good_newVar h3 _ _) ?_) _)
        simp only [fok_cons, frameOk_user, List.mem_cons, List.not_mem_nil, or_false, forall_eq, h2.fresh, true_and]; exact h2.3 _

theorem hid_doWithThrows {s : State} (hg : Good h0 s) (t : Tid) (c : CtxId) (k : UKind) (lib : Option Fctx) (ls : List Var) (rest : List Frame) (x : Var)
    (n : Nat) (b : Bool) (hf : s.frames c = .user k lib ls .normal :: rest) : Hid h0 (s.doWithThrows t c k lib ls rest x n b) := by
  simp only [State.doWithThrows, State.ontopSwitch]
  split
  · exact hid_bad (by simp)
  · split
    · split
      · exact hid_bad (by simp)
      · rename_i s1 b h1
        have h2 := good_switch (good_setFrames (s := s.setVal x none) (good_of hg rfl rfl (by first | exact Nat.le_refl _ | exact Nat.le_succ _)) (by simpa using hg.3 c)) h1
        exact hid_raiseUser (s := { s1 with lost := upd s1.lost b.ctx true }) (good_of h2 rfl rfl (by first | exact Nat.le_refl _ | exact Nat.le_succ _)) _ _
    · refine hid_ok (good_setFrames hg ?_)
      have := hg.3 c; rw [hf] at this; simpa using this

/-- the locals of all activations, temporaries included, exist -/
def Old (s : State) : Prop := ∀ d x, x ∈ Fiber.lvars (absL (s.frames d)) → x < s.nextVar

theorem frameOk_up {f : Frame} {n : Var} (h : FrameOk h0 f) (hb : ∀ x ∈ f.abs.lvars, x < n) : FrameOk (upd h0 n true) f := by
  have up : ∀ y, y < n → h0 y = false → upd h0 n true y = false := fun y hy h => by simp [upd_apply, Nat.ne_of_lt hy, h]
  cases f with
  | user k lib ls m => intro x hx; exact up x (hb x hx) (h x hx)
  | callcc x cm k lib ls =>
    obtain ⟨h1, h2, h3⟩ := h
    refine ⟨?_, fun y hy => up y (hb y ?_) (h2 y hy), ?_⟩
    · simp [upd_apply, h1]
    · cases cm <;> simp [Frame.abs, Fiber.Frame.lvars, hy]
    · cases cm
      case returning y => exact up y (hb y (by simp [Frame.abs, Fiber.Frame.lvars])) h3
      all_goals trivial
  | _ => trivial

theorem hid_doCallcc {s : State} (hg : Good h0 s) (ho : Old s) (t : Tid) (c : CtxId) (k : UKind) (lib : Option Fctx) (ls : List Var) (rest : List Frame)
    (xs : List Var) (hf : s.frames c = .user k lib ls .normal :: rest) :
    Hid (upd h0 (s.nextVar + xs.length) true) (s.doCallcc t c k lib ls rest xs) := by
  have up : ∀ d, FOk (upd h0 (s.nextVar + xs.length) true) (s.frames d) := by
    intro d f hf
    refine frameOk_up (hg.3 d f hf) (fun x hx => Nat.lt_of_lt_of_le (ho d x ?_) (Nat.le_add_right _ _))
    simp only [Fiber.lvars, absL, List.mem_flatMap, List.mem_map]
    exact ⟨_, ⟨f, hf, rfl⟩, hx⟩
  simp only [State.doCallcc, State.jump]
  split
  · exact hid_bad (by simp)
  · rename_i s1 b h1
    split
    · exact hid_bad (by simp)
    · rename_i s2 f h2
      have g0 : Good h0 (({ s with nextCtx := s.nextCtx + 1 }.addLog (.alloc s.nextCtx)).capture s.nextCtx xs) := by
        refine ⟨by rw [capture_hidden]; exact hg.1, ?_, ?_⟩
        · rw [capture_nextVar]; exact fun x hx => Nat.lt_of_lt_of_le (hg.2 x hx) (Nat.le_add_right _ _)
        · rw [capture_frames]; exact hg.3
      have g1 : Good h0 s1 := by
        refine good_switch ?_ h1
        exact good_of g0 rfl rfl (Nat.le_refl _)
      have g2 : Good h0 s2 := good_switch (good_setFrames g1 (by simp)) h2
      have n1 := switch_nextVar h1
      have n2 := switch_nextVar h2
      have f1 := switch_frames h1
      have f2 := switch_frames h2
      have hn : s2.nextVar = s.nextVar + xs.length := by
        rw [n2]; show s1.nextVar = _
        rw [n1]; exact capture_nextVar _ _ _
      rw [← hn] at up ⊢
      refine hid_doResume (good_setFrames ?_ ?_) t c s2.nextVar
      · refine ⟨by show upd s2.hidden _ _ = _; rw [g2.1], ?_, ?_⟩
        · intro x hx
          show x < s2.nextVar + 1
          simp only [upd_apply] at hx
          split at hx
          · rename_i h; rw [h]; exact Nat.lt_succ_self _
          · exact Nat.lt_succ_of_lt (g2.2 x hx)
        · intro d
          show FOk _ (s2.frames d)
          rw [f2]
          simp only [State.setFrames, upd_apply]
          split
          · simp
          · rw [f1]
            show FOk _ (State.frames (State.capture _ _ _) d)
            rw [capture_frames]; exact up d
      · have := up c; rw [hf] at this
        simp only [fok_cons, frameOk_user, frameOk_callcc, ccOk_waiting, and_true] at this ⊢
        exact ⟨⟨by simp, this.1⟩, this.2⟩

theorem hid_propagate {s : State} (hg : Good h0 s) (t : Tid) (c : CtxId) (k : UKind) (e : Exc) (rest : List Frame) (hr : FOk h0 rest) :
    Hid h0 (propagate s t c k e rest) := by
  simp only [propagate]
  split
  · exact hid_bad (by simp)
  · exact hid_bad (by simp)
  · exact hid_ok (good_setFrames hg (by simpa using hr))
  · split
    · exact hid_bad (by simp)
    · split
      · exact hid_bad (by simp)
      · exact hid_finish (s := s.kill _) (good_of hg rfl rfl (by first | exact Nat.le_refl _ | exact Nat.le_succ _)) t c _
  · split
    · exact hid_raiseUser (good_setFrames hg hr) c _
    · split
      · exact hid_bad (by simp)
      · exact hid_raiseForced (s := (s.setFrames c _).kill _) (good_of (good_setFrames hg hr) rfl rfl (by first | exact Nat.le_refl _ | exact Nat.le_succ _)) t c _
  · exact hid_bad (by simp)

theorem hid_leave {s : State} (hg : Good h0 s) (t : Tid) (c : CtxId) (k : UKind) (x : Option Var) (rest : List Frame) (hr : FOk h0 rest) :
    Hid h0 (leave s t c k x rest) := by
  simp only [leave]
  split
  · exact hid_ok (good_setFrames (s := { s with cur := upd s.cur t none, status := upd s.status c .ended }) (good_of hg rfl rfl (by first | exact Nat.le_refl _ | exact Nat.le_succ _)) (by simp))
  · exact hid_ok (good_setFrames hg hr)
  · exact hid_ok (good_setFrames hg hr)
  · split
    · exact hid_bad (by simp)
    · exact hid_finish (s := s.kill _) (good_of hg rfl rfl (by first | exact Nat.le_refl _ | exact Nat.le_succ _)) t c _
  · exact hid_deliver (s := (s.setFrames c _).kill _) (good_of (good_setFrames hg hr) rfl rfl (by first | exact Nat.le_refl _ | exact Nat.le_succ _)) c _
  · exact hid_bad (by simp)

theorem hid_exitStep {s : State} (hg : Good h0 s) (t : Tid) (c n : CtxId) (rest : List Frame) (hr : FOk h0 rest) :
    Hid h0 (exitStep s t c n rest) := by
  simp only [exitStep]
  split
  · refine hid_destroyVar ?_ t c _; exact good_of hg rfl rfl (by first | exact Nat.le_refl _ | exact Nat.le_succ _)
  · split
    · refine hid_deliver ?_ c _
      refine ⟨hg.1, hg.2, ?_⟩
      intro d
      simp only [State.addLog, upd_apply]
      split
      · exact hr
      · split
        · simp
        · exact hg.3 d
    · exact hid_bad (by simp)

theorem step_vars {s s' : State} {t : Tid} {op : Op} (hg : Good s.hidden s) (ho : Old s) (h : step s t op = .ok s') :
    (Good s.hidden s' ∧ ∀ xs, op ≠ .callcc xs .success) ∨
    ∃ xs, op = .callcc xs .success ∧ Good (upd s.hidden (s.nextVar + xs.length) true) s' := by
  by_cases hop : ∃ xs, op = .callcc xs .success
  · obtain ⟨xs, rfl⟩ := hop
    refine .inr ⟨xs, rfl, ?_⟩
    simp only [step] at h
    split at h
    · simp at h
    · split at h <;> try (simp at h; done)
      simp only [userStep] at h
      split at h
      · exact hid_doCallcc hg ho _ _ _ _ _ _ _ ‹_› s' h
      · simp at h
  · refine .inl ⟨?_, fun xs hx => hop ⟨xs, hx⟩⟩
    simp only [step] at h
    split at h
    · simp at h
    · rename_i c hcur
      have hcc := hg.3 c
      split at h <;> rename_i hf <;> (try rw [hf] at hcc)
      · skip
        cases op <;> simp only [userStep] at h
        case newHeap => cases h; exact good_newVar hg _ _
        case newLocal => cases h; exact good_setFrames (s := s.newVar _ _) (good_newVar hg _ _) (by simpa [hg.fresh] using hcc)
        case moveHeap => split at h <;> cases h; exact good_of hg rfl rfl (by first | exact Nat.le_refl _ | exact Nat.le_succ _)
        case moveLocal => split at h <;> cases h; exact good_setFrames (s := (s.setVal _ _).newVar _ _) (good_of hg rfl rfl (by first | exact Nat.le_refl _ | exact Nat.le_succ _)) (by simpa [hg.fresh] using hcc)
        case moveAssign =>
          split at h
          · split at h
            · cases h; exact hg
            · split at h
              · cases h; exact good_of hg rfl rfl (by first | exact Nat.le_refl _ | exact Nat.le_succ _)
              · exact hid_destroyFctx (s := (s.setVal _ _).setVal _ _) (good_of hg rfl rfl (by first | exact Nat.le_refl _ | exact Nat.le_succ _)) t c _ s' h
          · cases h
        case swap => split at h <;> cases h; exact good_of hg rfl rfl (by first | exact Nat.le_refl _ | exact Nat.le_succ _)
        case drop =>
          split at h
          · exact hid_destroyVar (good_setFrames hg (by simp at hcc ⊢; exact ⟨fun x hx => hcc.1 x (List.mem_of_mem_erase hx), hcc.2⟩)) t c _ s' h
          · split at h
            · exact hid_destroyVar hg t c _ s' h
            · cases h
        case callcc xs o =>
          split at h
          · cases o with
            | success => exact absurd ⟨xs, rfl⟩ hop
            | allocThrows n => cases h; exact good_setFrames hg (by simpa [hg.fresh] using hcc)
            | fnThrows => cases h
          · cases h
        case resume => split at h <;> first | exact hid_doResume hg t c _ s' h | cases h
        case resumeWith => split at h <;> first | exact hid_doResumeWith hg t c _ _ s' h | cases h
        case withThrows => split at h <;> first | exact hid_doWithThrows hg t c _ _ _ _ _ _ _ hf s' h | cases h
        case call => cases h; exact good_setFrames hg (by simpa [hg.fresh] using hcc)
        case cleanup => cases h; exact good_setFrames hg (by simpa [hg.fresh] using hcc)
        case ret => split at h <;> cases h <;> exact good_setFrames hg (by simpa [hg.fresh] using hcc)
        case retHandle =>
          split at h
          · split at h <;> cases h <;> exact good_setFrames (s := (s.setVal _ _).newVar _ _) (good_of hg rfl rfl (by first | exact Nat.le_refl _ | exact Nat.le_succ _)) (by simpa [hg.fresh] using hcc)
          · cases h
        case throw => cases h; exact good_setFrames hg (by simpa [hg.fresh] using hcc)
        case spawn => cases h; exact good_setFrames (s := { s with cur := upd s.cur s.nextTid (some s.nextCtx), status := upd s.status s.nextCtx (.running s.nextTid), seq := upd s.seq s.nextCtx 0, nextCtx := s.nextCtx + 1, nextTid := s.nextTid + 1 }) (good_of hg rfl rfl (by first | exact Nat.le_refl _ | exact Nat.le_succ _)) (by simp)
        all_goals cases h
      · cases op <;> simp only [] at h <;> first
          | (cases h; done) | exact hid_destroyVar (good_setFrames hg (by simp at hcc ⊢; exact ⟨hcc.1.2, hcc.2⟩)) t c _ s' h
          | (cases h; exact good_setFrames hg (by simpa [hg.fresh] using hcc))
      · cases op <;> simp only [] at h <;> first
          | (cases h; done) | exact hid_destroyFctx (good_setFrames hg (by simpa [hg.fresh] using hcc)) t c _ s' h
      · cases op <;> simp only [] at h <;> first
          | (cases h; done) | exact hid_propagate hg t c _ _ _ (by simpa [hg.fresh] using hcc) s' h
          | (cases h; exact good_setFrames hg (by simpa [hg.fresh] using hcc)) | skip
        · split at h <;> cases h; exact good_setFrames hg (by simpa [hg.fresh] using hcc)
        · split at h
          · split at h <;> cases h <;> exact good_of (good_setFrames (s := s) (c := c) hg (by simpa [hg.fresh] using hcc)) rfl rfl (Nat.le_refl _)
          · cases h
      · cases op <;> simp only [] at h <;> first
          | (cases h; done) | exact hid_leave hg t c _ _ _ (by simpa [hg.fresh] using hcc) s' h
          | (cases h; exact good_setFrames hg (by simpa [hg.fresh] using hcc))
      · cases op <;> simp only [] at h <;> first
          | (cases h; done) | exact hid_destroyVar (good_setFrames hg (by simp at hcc ⊢; simp only [hcc, true_and, and_true]; first | exact hcc.1.2.1 | exact hcc.1.2)) t c _ s' h
      · cases op <;> simp only [] at h <;> first
          | (cases h; done) | exact hid_destroyVar (good_setFrames hg (by simp at hcc ⊢; simp only [hcc, true_and, and_true]; first | exact hcc.1.2.1 | exact hcc.1.2)) t c _ s' h
      · cases op <;> simp only [] at h <;> first
          | (cases h; done) | exact hid_exitStep hg t c _ _ (by simpa [hg.fresh] using hcc) s' h
          | (cases h; exact good_setFrames hg (by simpa [hg.fresh] using hcc))
      · cases h

theorem reachable_vars {s : State} (h : Reachable s) : Good s.hidden s := by
  induction h with
  | init =>
    refine ⟨rfl, by simp [init], fun c => ?_⟩
    simp only [init]; split <;> simp
  | @step s s' t op h hs ih =>
    have f := reachable_spec h
    have hi := Fiber.reachable_inv f.2
    have ho : Old s := by
      intro d x hx
      have h1 : s.abs.kind x = .loc d := (hi.oi.locs d x).1 hx
      refine Nat.lt_of_not_le fun hle => ?_
      have := hi.oi.fresh x hle
      rw [h1] at this; cases this
    rcases step_vars ih ho hs with h | ⟨xs, _, h⟩
    · rw [h.1.hid]; exact h.1
    · rw [h.hid]; exact h

end Verif.Cont.Vars
