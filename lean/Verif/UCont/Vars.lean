import Verif.UCont.Props

/-! # The locals of user code and the temporaries of `callcc` are different objects (ucontext) -/

set_option linter.unusedSimpArgs false

namespace Verif.UCont.Vars
open Verif.Fiber (CtxId Var Tid Kind Exc Mode UKind Status Event CreateOutcome upd upd_apply)
open Verif.UCont

def CcOk (h0 : Var → Bool) : CcMode → Prop
  | .returning y => h0 y = false
  | _ => True

/-- the temporary of an activation of `callcc` is hidden, locals are not -/
def FrameOk (h0 : Var → Bool) : Frame → Prop
  | .user _ ls _ => ∀ x ∈ ls, h0 x = false
  | .callcc x cm _ ls => h0 x = true ∧ (∀ y ∈ ls, h0 y = false) ∧ CcOk h0 cm
  | _ => True

def FOk (h0 : Var → Bool) (fs : List Frame) : Prop := ∀ f ∈ fs, FrameOk h0 f

@[simp] theorem fok_nil (h0 : Var → Bool) : FOk h0 [] := by intro f hf; simp at hf
@[simp] theorem fok_cons (h0 : Var → Bool) (f : Frame) (fs : List Frame) : FOk h0 (f :: fs) ↔ FrameOk h0 f ∧ FOk h0 fs := by
  simp [FOk]
@[simp] theorem frameOk_user (h0 : Var → Bool) (k : UKind) (ls : List Var) (m : Mode) : FrameOk h0 (.user k ls m) ↔ ∀ x ∈ ls, h0 x = false := Iff.rfl
@[simp] theorem frameOk_resume (h0 : Var → Bool) : FrameOk h0 .resume := trivial
@[simp] theorem frameOk_entryRun (h0 : Var → Bool) : FrameOk h0 .entryRun := trivial
@[simp] theorem frameOk_dtor (h0 : Var → Bool) (v : CtxId) : FrameOk h0 (.dtor v) := trivial
@[simp] theorem frameOk_exiting (h0 : Var → Bool) (v : CtxId) : FrameOk h0 (.exiting v) := trivial
@[simp] theorem frameOk_exitJump (h0 : Var → Bool) : FrameOk h0 .exitJump := trivial
@[simp] theorem frameOk_entryJump (h0 : Var → Bool) : FrameOk h0 .entryJump := trivial
@[simp] theorem frameOk_callcc (h0 : Var → Bool) (x : Var) (cm : CcMode) (k : UKind) (ls : List Var) : FrameOk h0 (.callcc x cm k ls) ↔
    h0 x = true ∧ (∀ y ∈ ls, h0 y = false) ∧ CcOk h0 cm := Iff.rfl
@[simp] theorem ccOk_waiting (h0 : Var → Bool) : CcOk h0 .waiting := trivial
@[simp] theorem ccOk_unwinding (h0 : Var → Bool) (e : Exc) : CcOk h0 (.unwinding e) := trivial
@[simp] theorem ccOk_returning (h0 : Var → Bool) (y : Var) : CcOk h0 (.returning y) ↔ h0 y = false := Iff.rfl

structure Good (h0 : Var → Bool) (s : State) : Prop where
  hid : s.hidden = h0
  lt : ∀ x, h0 x = true → x < s.nextVar
  fr : ∀ c, FOk h0 (s.frames c)

def Hid (h0 : Var → Bool) (r : Res) : Prop := ∀ s', r = .ok s' → Good h0 s'

variable {h0 : Var → Bool}

theorem hid_ok {s : State} (h : Good h0 s) : Hid h0 (.ok s) := by rintro s' ⟨⟩; exact h
theorem hid_bad {r : Res} (h : ∀ s, r ≠ .ok s) : Hid h0 r := fun s' hs => absurd hs (h s')

theorem Good.fresh {s : State} (h : Good h0 s) : h0 s.nextVar = false := by
  cases hx : h0 s.nextVar with
  | false => rfl
  | true => exact absurd (h.lt _ hx) (Nat.lt_irrefl _)

theorem good_setFrames {s : State} {c : CtxId} {fs : List Frame} (h : Good h0 s) (hf : FOk h0 fs) : Good h0 (s.setFrames c fs) := by
  refine ⟨h.1, h.2, ?_⟩
  intro d
  simp only [State.setFrames, upd_apply]
  split
  · exact hf
  · exact h.3 d

theorem good_of {s s' : State} (h : Good h0 s) (hf : s'.frames = s.frames) (hh : s'.hidden = s.hidden) (hn : s.nextVar ≤ s'.nextVar) : Good h0 s' := by
  refine ⟨hh.trans h.1, fun x hx => Nat.lt_of_lt_of_le (h.2 x hx) hn, ?_⟩; rw [hf]; exact h.3

theorem good_addLog {s : State} (h : Good h0 s) (e : Event) : Good h0 (s.addLog e) := good_of h rfl rfl (Nat.le_refl _)
theorem good_newVar {s : State} (h : Good h0 s) (k : Kind) (v : Option CtxId) : Good h0 (s.newVar k v) := good_of h rfl rfl (Nat.le_succ _)
theorem good_switchTo {s s' : State} {t : Tid} {w : CtxId} {l : Status} (hg : Good h0 s) (h : s.switchTo t w l = some s') : Good h0 s' := by
  refine good_of hg (switchTo_frames h) (switchTo_hidden h) ?_
  simp only [State.switchTo] at h
  split at h
  · cases h
  · split at h <;> cases h
    exact Nat.le_refl _

theorem hid_arrive {s : State} (hg : Good h0 s) (w : CtxId) : Hid h0 (s.arrive w) := by
  have hc := hg.3 w
  simp only [State.arrive]
  split <;> rename_i hf <;> (try rw [hf] at hc)
  · exact hid_ok (good_addLog (good_setFrames (good_newVar hg _ _) (by simpa [hg.fresh] using hc)) _)
  · simp only [fok_cons, frameOk_resume, frameOk_user, true_and] at hc
    have hg1 : Good h0 ({ s with frm := upd s.frm w none }) := good_of hg rfl rfl (by first | exact Nat.le_refl _ | exact Nat.le_succ _)
    split
    · exact hid_ok (good_setFrames (good_newVar hg1 _ _) (by simp only [fok_cons, frameOk_user, frameOk_callcc, frameOk_resume, ccOk_waiting, ccOk_returning, ccOk_unwinding, List.mem_cons, forall_eq_or_imp, and_true, true_and, List.not_mem_nil, false_implies, implies_true, hg.fresh] at hc ⊢; exact hc))
    · split
      · exact hid_ok (good_addLog (good_setFrames (good_newVar hg1 _ _) (by simp only [fok_cons, frameOk_user, frameOk_callcc, frameOk_resume, ccOk_waiting, ccOk_returning, ccOk_unwinding, List.mem_cons, forall_eq_or_imp, and_true, true_and, List.not_mem_nil, false_implies, implies_true, hg.fresh] at hc ⊢; exact hc)) _)
      · exact hid_ok (good_setFrames (good_newVar hg1 _ _) (by simp only [fok_cons, frameOk_user, frameOk_callcc, frameOk_resume, ccOk_waiting, ccOk_returning, ccOk_unwinding, List.mem_cons, forall_eq_or_imp, and_true, true_and, List.not_mem_nil, false_implies, implies_true, hg.fresh] at hc ⊢; exact hc))
  · simp only [fok_cons, frameOk_resume, frameOk_callcc, true_and] at hc
    have hg1 : Good h0 ({ s with frm := upd s.frm w none }) := good_of hg rfl rfl (by first | exact Nat.le_refl _ | exact Nat.le_succ _)
    split
    · exact hid_ok (good_setFrames (good_newVar hg1 _ _) (by simp only [fok_cons, frameOk_user, frameOk_callcc, frameOk_resume, ccOk_waiting, ccOk_returning, ccOk_unwinding, List.mem_cons, forall_eq_or_imp, and_true, true_and, List.not_mem_nil, false_implies, implies_true, hg.fresh] at hc ⊢; exact hc))
    · split
      · exact hid_ok (good_addLog (good_setFrames (good_newVar hg1 _ _) (by simp only [fok_cons, frameOk_user, frameOk_callcc, frameOk_resume, ccOk_waiting, ccOk_returning, ccOk_unwinding, List.mem_cons, forall_eq_or_imp, and_true, true_and, List.not_mem_nil, false_implies, implies_true, hg.fresh] at hc ⊢; exact hc)) _)
      · exact hid_ok (good_setFrames (good_newVar hg1 _ _) (by simp only [fok_cons, frameOk_user, frameOk_callcc, frameOk_resume, ccOk_waiting, ccOk_returning, ccOk_unwinding, List.mem_cons, forall_eq_or_imp, and_true, true_and, List.not_mem_nil, false_implies, implies_true, hg.fresh] at hc ⊢; exact hc))
  · split
    · exact hid_bad (by simp)
    · split
      · refine hid_ok (good_setFrames (good_of hg rfl rfl (Nat.le_refl _)) (by simp only [frameOk_exiting, frameOk_dtor, fok_cons, frameOk_user, frameOk_callcc, frameOk_resume, ccOk_waiting, ccOk_returning, ccOk_unwinding, List.mem_cons, forall_eq_or_imp, and_true, true_and, List.not_mem_nil, false_implies, implies_true, hg.fresh] at hc ⊢; exact hc))
      · exact hid_bad (by simp)
  · exact hid_bad (by simp)

theorem hid_switch {s : State} (hg : Good h0 s) (t : Tid) (w : CtxId) (l : Status) :
    Hid h0 (match s.switchTo t w l with | none => .ub | some s => s.arrive w) := by
  cases h1 : s.switchTo t w l with
  | none => exact hid_bad (by simp)
  | some s1 => exact hid_arrive (good_switchTo hg h1) w

theorem hid_destroyPtr {s : State} (hg : Good h0 s) (t : Tid) (c v : CtxId) : Hid h0 (s.destroyPtr t c v) := by
  simp only [State.destroyPtr]
  split
  · exact hid_bad (by simp)
  · split
    · exact hid_ok (good_of hg rfl rfl (by first | exact Nat.le_refl _ | exact Nat.le_succ _))
    · split
      · exact hid_ok (good_setFrames hg (by simpa using hg.3 c))
      · refine hid_switch (good_setFrames ?_ ?_) t v _
        rotate_left
        · simpa using hg.3 c
        exact ⟨hg.1, hg.2, hg.3⟩

theorem hid_destroyVar {s : State} (hg : Good h0 s) (t : Tid) (c : CtxId) (x : Var) : Hid h0 (s.destroyVar t c x) := by
  simp only [State.destroyVar]
  split
  · exact hid_ok (good_of hg rfl rfl (by first | exact Nat.le_refl _ | exact Nat.le_succ _))
  · exact hid_destroyPtr (s := s.kill x) (good_of hg rfl rfl (by first | exact Nat.le_refl _ | exact Nat.le_succ _)) t c _

theorem hid_finish {s : State} (hg : Good h0 s) (t : Tid) (c : CtxId) (p : Option CtxId) : Hid h0 (s.finish t c p) := by
  simp only [State.finish]
  split
  · exact hid_bad (by simp)
  · split
    · exact hid_bad (by simp)
    · refine hid_switch (good_setFrames ?_ ?_) t _ _
      · exact good_of hg rfl rfl (by first | exact Nat.le_refl _ | exact Nat.le_succ _)
      · simp

theorem hid_doResume {s : State} (hg : Good h0 s) (t : Tid) (c : CtxId) (x : Var) : Hid h0 (s.doResume t c x) := by
  simp only [State.doResume]
  split
  · exact hid_bad (by simp)
  · split
    · exact hid_bad (by simp)
    · refine hid_switch (good_setFrames ?_ ?_) t _ _
      · exact good_of hg rfl rfl (by first | exact Nat.le_refl _ | exact Nat.le_succ _)
      · simpa using hg.3 c

theorem hid_doResumeWith {s : State} (hg : Good h0 s) (t : Tid) (c : CtxId) (x : Var) : Hid h0 (s.doResumeWith t c x) := by
  simp only [State.doResumeWith]
  split
  · exact hid_bad (by simp)
  · split
    · exact hid_bad (by simp)
    · refine hid_switch (good_setFrames ?_ ?_) t _ _
      · exact good_of hg rfl rfl (by first | exact Nat.le_refl _ | exact Nat.le_succ _)
      · simpa using hg.3 c

/-- the locals of all activations, temporaries included, exist -/
def Old (s : State) : Prop := ∀ d x, x ∈ Fiber.lvars (absL (s.frames d)) → x < s.nextVar

theorem frameOk_up {f : Frame} {n : Var} (h : FrameOk h0 f) (hb : ∀ x ∈ f.abs.lvars, x < n) : FrameOk (upd h0 n true) f := by
  have up : ∀ y, y < n → h0 y = false → upd h0 n true y = false := fun y hy h => by simp [upd_apply, Nat.ne_of_lt hy, h]
  cases f with
  | user k ls m => intro x hx; exact up x (hb x hx) (h x hx)
  | callcc x cm k ls =>
    obtain ⟨h1, h2, h3⟩ := h
    refine ⟨?_, fun y hy => up y (hb y ?_) (h2 y hy), ?_⟩
    · simp [upd_apply, h1]
    · cases cm <;> simp [Frame.abs, Fiber.Frame.lvars, hy]
    · cases cm
      case returning y => exact up y (hb y (by simp [Frame.abs, Fiber.Frame.lvars])) h3
      all_goals trivial
  | _ => trivial

theorem hid_doCallcc {s : State} (hg : Good h0 s) (ho : Old s) (t : Tid) (c : CtxId) (k : UKind) (ls : List Var) (rest : List Frame) (xs : List Var)
    (hc : s.cur t = some c) (hn : c ≠ s.nextCtx) (hf : s.frames c = .user k ls .normal :: rest)
    (hlt : ∀ s', s.doCallcc t c k ls rest xs = .ok s' → ∀ x, s'.hidden x = true → x < s'.nextVar) :
    Hid (upd h0 (s.nextVar + xs.length) true) (s.doCallcc t c k ls rest xs) := by
  obtain ⟨s', hs, h1, h2, h3, -⟩ := doCallcc_eq s t c k ls rest xs hc hn
  have hl := hlt s' hs
  rw [hs]
  have up : ∀ d, FOk (upd h0 (s.nextVar + xs.length) true) (s.frames d) := by
    intro d f hf
    refine frameOk_up (hg.3 d f hf) (fun x hx => Nat.lt_of_lt_of_le (ho d x ?_) (Nat.le_add_right _ _))
    simp only [Fiber.lvars, absL, List.mem_flatMap, List.mem_map]
    exact ⟨_, ⟨f, hf, rfl⟩, hx⟩
  refine hid_ok ⟨by rw [h1, hg.1], by rw [h1, hg.1] at hl; exact hl, fun d => ?_⟩
  rw [h3]; simp only [upd_apply]
  split
  · have : h0 (s.nextVar + xs.length + 1) = false := by
      cases hx : h0 (s.nextVar + xs.length + 1) with
      | false => rfl
      | true => exact absurd (hg.lt _ hx) (by show ¬ (_ + _ + 1 : Nat) < _; omega)
    simp [upd_apply, this]
  · split
    · have := up c; rw [hf] at this
      simp only [fok_cons, frameOk_user, frameOk_resume, frameOk_callcc, ccOk_waiting, true_and, and_true] at this ⊢
      exact ⟨⟨by simp, this.1⟩, this.2⟩
    · exact up d

theorem hid_propagate {s : State} (hg : Good h0 s) (t : Tid) (c : CtxId) (k : UKind) (e : Exc) (rest : List Frame) (hr : FOk h0 rest) :
    Hid h0 (propagate s t c k e rest) := by
  simp only [propagate]
  split
  · exact hid_bad (by simp)
  · exact hid_bad (by simp)
  · exact hid_ok (good_setFrames hg (by simpa using hr))
  · split
    · exact hid_bad (by simp)
    · exact hid_finish (s := s.kill _) (good_of hg rfl rfl (by first | exact Nat.le_refl _ | exact Nat.le_succ _)) t c _
  · exact hid_ok (good_setFrames hg (by simpa using hr))
  · exact hid_ok (good_setFrames hg (by simpa using hr))
  · exact hid_bad (by simp)

theorem hid_leave {s : State} (hg : Good h0 s) (t : Tid) (c : CtxId) (k : UKind) (x : Option Var) (rest : List Frame) (hr : FOk h0 rest) :
    Hid h0 (leave s t c k x rest) := by
  simp only [leave]
  split
  · exact hid_ok (good_setFrames (s := { s with cur := upd s.cur t none, status := upd s.status c .ended }) (good_of hg rfl rfl (by first | exact Nat.le_refl _ | exact Nat.le_succ _)) (by simp))
  · exact hid_ok (good_setFrames hg hr)
  · exact hid_ok (good_setFrames hg hr)
  · exact hid_finish (s := s.kill _) (good_of hg rfl rfl (by first | exact Nat.le_refl _ | exact Nat.le_succ _)) t c _
  · rename_i x
    split
    · exact hid_ok (good_setFrames (s := State.newVar _ _ _) (good_of hg rfl rfl (by first | exact Nat.le_refl _ | exact Nat.le_succ _)) (by have hfr : h0 (State.kill { s with ontop := upd s.ontop c none } x).nextVar = false := hg.fresh; simp [hfr] at hr ⊢; exact hr))
    · exact hid_ok (good_setFrames (s := State.newVar _ _ _) (good_of hg rfl rfl (by first | exact Nat.le_refl _ | exact Nat.le_succ _)) (by have hfr : h0 (State.kill { s with ontop := upd s.ontop c none } x).nextVar = false := hg.fresh; simp [hfr] at hr ⊢; exact hr))
    · exact hid_bad (by simp)
  · exact hid_bad (by simp)

theorem hid_exitStep {s : State} (hg : Good h0 s) (t : Tid) (c n : CtxId) (rest : List Frame) (hr : FOk h0 rest) :
    Hid h0 (exitStep s t c n rest) := by
  simp only [exitStep]
  split
  · refine hid_destroyVar ?_ t c _
    exact good_of hg rfl rfl (by first | exact Nat.le_refl _ | exact Nat.le_succ _)
  · split
    · have h1 : Good h0 (({ s with status := upd s.status n .freed, frames := upd s.frames n [] } : State).addLog (.dealloc n)) := by
        refine ⟨hg.1, hg.2, fun d => ?_⟩
        simp only [State.addLog, upd_apply]; split
        · simp
        · exact hg.3 d
      split
      · exact hid_ok (good_of (good_setFrames h1 (by simp at hr; exact hr)) rfl rfl (by first | exact Nat.le_refl _ | exact Nat.le_succ _))
      · exact hid_ok (good_setFrames h1 hr)
    · exact hid_bad (by simp)

/-- one step keeps the invariant; only `callcc` hides an object, its temporary -/
theorem step_vars {s s' : State} {t : Tid} {op : Op} (hg : Good s.hidden s) (ho : Old s) (hlt : ∀ x, s'.hidden x = true → x < s'.nextVar) (hn : ∀ c, s.cur t = some c → c ≠ s.nextCtx) (h : step s t op = .ok s') :
    (Good s.hidden s' ∧ ∀ xs, op ≠ .callcc xs .success) ∨
    ∃ xs, op = .callcc xs .success ∧ Good (upd s.hidden (s.nextVar + xs.length) true) s' := by
  by_cases hop : ∃ xs, op = .callcc xs .success
  · obtain ⟨xs, rfl⟩ := hop
    refine .inr ⟨xs, rfl, ?_⟩
    simp only [step] at h
    split at h
    · simp at h
    · rename_i c hc
      split at h <;> try (simp at h; done)
      simp only [userStep] at h
      split at h
      · exact hid_doCallcc hg ho _ _ _ _ _ _ hc (hn c hc) ‹_› (fun s2 h2 => by rw [h] at h2; cases h2; exact hlt) s' h
      · simp at h
  · refine .inl ⟨?_, fun xs hx => hop ⟨xs, hx⟩⟩
    simp only [step] at h
    split at h
    · simp at h
    · rename_i c hcur
      have hcc := hg.3 c
      split at h <;> rename_i hf <;> (try rw [hf] at hcc)
      · simp only [fok_cons, frameOk_user, true_and] at hcc
        cases op <;> simp only [userStep] at h
        case newHeap => cases h; exact good_of hg rfl rfl (by first | exact Nat.le_refl _ | exact Nat.le_succ _)
        case newLocal => cases h; exact good_setFrames (s := s.newVar _ _) (good_of hg rfl rfl (by first | exact Nat.le_refl _ | exact Nat.le_succ _)) (by simpa [hg.fresh] using hcc)
        case moveHeap => split at h <;> cases h; exact good_of hg rfl rfl (by first | exact Nat.le_refl _ | exact Nat.le_succ _)
        case moveLocal => split at h <;> cases h; exact good_setFrames (s := (s.setVal _ _).newVar _ _) (good_of hg rfl rfl (by first | exact Nat.le_refl _ | exact Nat.le_succ _)) (by simpa [hg.fresh] using hcc)
        case moveAssign =>
          split at h
          · split at h
            · cases h; exact hg
            · split at h
              · cases h; exact good_of hg rfl rfl (by first | exact Nat.le_refl _ | exact Nat.le_succ _)
              · exact hid_destroyPtr (s := (s.setVal _ _).setVal _ _) (good_of hg rfl rfl (by first | exact Nat.le_refl _ | exact Nat.le_succ _)) t c _ s' h
          · cases h
        case swap => split at h <;> cases h; exact good_of hg rfl rfl (by first | exact Nat.le_refl _ | exact Nat.le_succ _)
        case drop =>
          split at h
          · exact hid_destroyVar (good_setFrames hg (by simp at hcc ⊢; exact ⟨fun x hx => hcc.1 x (List.mem_of_mem_erase hx), hcc.2⟩)) t c _ s' h
          · split at h
            · exact hid_destroyVar hg t c _ s' h
            · cases h
        case callcc xs o =>
          split at h
          · cases o with
            | success => exact absurd ⟨xs, rfl⟩ hop
            | allocThrows n => cases h; exact good_setFrames hg (by simpa [hg.fresh] using hcc)
            | fnThrows => cases h
          · cases h
        case resume => split at h <;> first | exact hid_doResume hg t c _ s' h | cases h
        case resumeWith => split at h <;> first | exact hid_doResumeWith hg t c _ s' h | cases h
        case call => cases h; exact good_setFrames hg (by simpa [hg.fresh] using hcc)
        case cleanup => cases h; exact good_setFrames hg (by simpa [hg.fresh] using hcc)
        case ret => split at h <;> cases h <;> exact good_setFrames hg (by simpa [hg.fresh] using hcc)
        case retHandle =>
          split at h
          · split at h <;> cases h <;> exact good_setFrames (s := (s.setVal _ _).newVar _ _) (good_of hg rfl rfl (by first | exact Nat.le_refl _ | exact Nat.le_succ _)) (by simpa [hg.fresh] using hcc)
          · cases h
        case throw => cases h; exact good_setFrames hg (by simpa [hg.fresh] using hcc)
        case spawn =>
          cases h
          refine ⟨hg.1, hg.2, fun d => ?_⟩
          simp only [upd_apply]; split
          · simp
          · exact hg.3 d
        all_goals cases h
      · cases op <;> simp only [] at h <;> first
          | (cases h; done) | exact hid_destroyVar (good_setFrames hg (by simp at hcc ⊢; exact ⟨hcc.1.2, hcc.2⟩)) t c _ s' h
          | (cases h; exact good_setFrames hg (by simpa [hg.fresh] using hcc))
      · cases op <;> simp only [] at h <;> first
          | (cases h; done) | exact hid_propagate hg t c _ _ _ (by simpa [hg.fresh] using hcc) s' h
          | (cases h; exact good_setFrames hg (by simpa [hg.fresh] using hcc)) | skip
        · split at h <;> cases h; exact good_setFrames hg (by simpa [hg.fresh] using hcc)
        · split at h
          · split at h <;> cases h
            · exact good_of (s := (s.setFrames c _)) (good_setFrames hg (by simpa [hg.fresh] using hcc)) rfl rfl (by first | exact Nat.le_refl _ | exact Nat.le_succ _)
            · exact good_of (s := (s.setFrames c _)) (good_setFrames hg (by simpa [hg.fresh] using hcc)) rfl rfl (by first | exact Nat.le_refl _ | exact Nat.le_succ _)
          · cases h
      · cases op <;> simp only [] at h <;> first
          | (cases h; done) | exact hid_leave hg t c _ _ _ (by simpa [hg.fresh] using hcc) s' h
          | (cases h; exact good_setFrames hg (by simpa [hg.fresh] using hcc))
      · cases op <;> simp only [] at h <;> first
          | (cases h; done) | exact hid_destroyVar (good_setFrames hg (by simp at hcc ⊢; simp only [hcc, true_and, and_true]; first | exact hcc.1.2.1 | exact hcc.1.2)) t c _ s' h
      · cases op <;> simp only [] at h <;> first
          | (cases h; done) | exact hid_destroyVar (good_setFrames hg (by simp at hcc ⊢; simp only [hcc, true_and, and_true]; first | exact hcc.1.2.1 | exact hcc.1.2)) t c _ s' h
      · cases op <;> simp only [] at h <;> first
          | (cases h; done) | exact hid_exitStep hg t c _ _ (by simpa [hg.fresh] using hcc) s' h
          | (cases h; exact good_setFrames hg (by simpa [hg.fresh] using hcc))
      · cases h

theorem reachable_vars {s : State} (h : Reachable s) : Good s.hidden s := by
  induction h with
  | init =>
    refine ⟨rfl, by simp [init], fun c => ?_⟩
    simp only [init]; split <;> simp
  | @step s s' t op h hs ih =>
    have f := reachable_facts h
    have ho : Old s := by
      intro d x hx
      have h1 : s.abs.kind x = .loc d := (f.inv.oi.locs d x).1 hx
      refine Nat.lt_of_not_le fun hle => ?_
      have := f.inv.oi.fresh x hle
      rw [h1] at this; cases this
    rcases step_vars ih ho (fun x hx => (hidden_empty (.step h hs) x hx).1) (fun c hc => f.fresh hc) hs with h | ⟨xs, _, h⟩
    · rw [h.1.hid]; exact h.1
    · rw [h.hid]; exact h

end Verif.UCont.Vars
