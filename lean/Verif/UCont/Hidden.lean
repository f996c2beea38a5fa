import Verif.UCont.Sim

/-! # Invariants of the `continuation` machine on ucontext: no never-started context is ever observable, and user code cannot name the temporary of `callcc` -/

namespace Verif.UCont
open Verif.Fiber (CtxId Var Tid Kind Exc Mode UKind Status Event CreateOutcome upd upd_apply)

/-- not the suspension point of a never started context; the temporary of a `callcc` is hidden -/
def FrameOk (h0 : Var → Bool) : Frame → Prop
  | .entryJump => False
  | .callcc x _ _ _ => h0 x = true
  | _ => True

def FOk (h0 : Var → Bool) (fs : List Frame) : Prop := ∀ f ∈ fs, FrameOk h0 f

@[simp] theorem fok_nil (h0 : Var → Bool) : FOk h0 [] := by intro f hf; simp at hf
@[simp] theorem fok_cons (h0 : Var → Bool) (f : Frame) (fs : List Frame) : FOk h0 (f :: fs) ↔ FrameOk h0 f ∧ FOk h0 fs := by
  simp [FOk]
@[simp] theorem frameOk_user (h0 : Var → Bool) (k : UKind) (ls : List Var) (m : Mode) : FrameOk h0 (.user k ls m) := trivial
@[simp] theorem frameOk_resume (h0 : Var → Bool) : FrameOk h0 .resume := trivial
@[simp] theorem frameOk_entryRun (h0 : Var → Bool) : FrameOk h0 .entryRun := trivial
@[simp] theorem frameOk_dtor (h0 : Var → Bool) (v : CtxId) : FrameOk h0 (.dtor v) := trivial
@[simp] theorem frameOk_exiting (h0 : Var → Bool) (v : CtxId) : FrameOk h0 (.exiting v) := trivial
@[simp] theorem frameOk_exitJump (h0 : Var → Bool) : FrameOk h0 .exitJump := trivial
@[simp] theorem frameOk_entryJump (h0 : Var → Bool) : ¬ FrameOk h0 .entryJump := id
@[simp] theorem frameOk_callcc (h0 : Var → Bool) (x : Var) (cm : CcMode) (k : UKind) (ls : List Var) : FrameOk h0 (.callcc x cm k ls) ↔ h0 x = true := Iff.rfl

/-- the hidden objects are `h0`, the temporaries of all activations of `callcc` are among them, no context is waiting to be started, and no
never-started context was destroyed -/
structure Good (h0 : Var → Bool) (s : State) : Prop where
  hid : s.hidden = h0
  early : s.early = false
  fr : ∀ c, FOk h0 (s.frames c)

/-- `r`, if a state, is good -/
def Hid (h0 : Var → Bool) (r : Res) : Prop := ∀ s', r = .ok s' → Good h0 s'

variable {h0 : Var → Bool}

theorem hid_ok {s : State} (h : Good h0 s) : Hid h0 (.ok s) := by rintro s' ⟨⟩; exact h
theorem hid_bad {r : Res} (h : ∀ s, r ≠ .ok s) : Hid h0 r := fun s' hs => absurd hs (h s')

theorem good_setFrames {s : State} {c : CtxId} {fs : List Frame} (h : Good h0 s) (hf : FOk h0 fs) : Good h0 (s.setFrames c fs) := by
  refine ⟨h.1, h.2, ?_⟩
  intro d
  simp only [State.setFrames, upd_apply]
  split
  · exact hf
  · exact h.3 d

theorem good_of {s s' : State} (h : Good h0 s) (hf : s'.frames = s.frames) (hh : s'.hidden = s.hidden) (he : s'.early = s.early) : Good h0 s' := by
  refine ⟨hh.trans h.1, he.trans h.2, ?_⟩; rw [hf]; exact h.3

theorem good_addLog {s : State} (h : Good h0 s) (e : Event) : Good h0 (s.addLog e) := good_of h rfl rfl rfl

theorem good_newVar {s : State} (h : Good h0 s) (k : Kind) (v : Option CtxId) : Good h0 (s.newVar k v) := good_of h rfl rfl rfl

theorem good_switchTo {s s' : State} {t : Tid} {w : CtxId} {l : Status} (hg : Good h0 s) (h : s.switchTo t w l = some s') : Good h0 s' :=
  good_of hg (switchTo_frames h) (switchTo_hidden h) (switchTo_early h)

theorem hid_arrive {s : State} (hg : Good h0 s) (w : CtxId) : Hid h0 (s.arrive w) := by
  have hc := hg.3 w
  simp only [State.arrive]
  split <;> rename_i hf <;> (try rw [hf] at hc)
  · simp at hc
  · simp only [fok_cons, frameOk_resume, frameOk_user, true_and] at hc
    have hg1 : Good h0 ({ s with frm := upd s.frm w none }) := good_of hg rfl rfl rfl
    split
    · exact hid_ok (good_setFrames (good_newVar hg1 _ _) (by simpa using hc))
    · split
      · exact hid_ok (good_addLog (good_setFrames (good_newVar hg1 _ _) (by simpa using hc)) _)
      · exact hid_ok (good_setFrames (good_newVar hg1 _ _) (by simpa using hc))
  · simp only [fok_cons, frameOk_resume, frameOk_callcc, true_and] at hc
    have hg1 : Good h0 ({ s with frm := upd s.frm w none }) := good_of hg rfl rfl rfl
    split
    · exact hid_ok (good_setFrames (good_newVar hg1 _ _) (by simpa using hc))
    · split
      · exact hid_ok (good_addLog (good_setFrames (good_newVar hg1 _ _) (by simpa using hc)) _)
      · exact hid_ok (good_setFrames (good_newVar hg1 _ _) (by simpa using hc))
  · split
    · exact hid_bad (by simp)
    · split
      · refine hid_ok (good_setFrames (good_of hg rfl rfl rfl) (by simpa using hc))
      · exact hid_bad (by simp)
  · exact hid_bad (by simp)

theorem hid_switch {s : State} (hg : Good h0 s) (t : Tid) (w : CtxId) (l : Status) :
    Hid h0 (match s.switchTo t w l with | none => .ub | some s => s.arrive w) := by
  cases h1 : s.switchTo t w l with
  | none => exact hid_bad (by simp)
  | some s1 => exact hid_arrive (good_switchTo hg h1) w

theorem hid_destroyPtr {s : State} (hg : Good h0 s) (t : Tid) (c v : CtxId) : Hid h0 (s.destroyPtr t c v) := by
  simp only [State.destroyPtr]
  split
  · exact hid_bad (by simp)
  · split
    · exact hid_ok (good_of hg rfl rfl rfl)
    · split
      · exact hid_ok (good_setFrames hg (by simpa using hg.3 c))
      · refine hid_switch (good_setFrames ?_ ?_) t v _
        rotate_left
        · simpa using hg.3 c
        refine ⟨hg.1, ?_, hg.3⟩
        show (s.early || decide (s.frames v = [Frame.entryJump])) = false
        rw [hg.2]
        have := hg.3 v
        simp only [Bool.false_or, decide_eq_false_iff_not]
        intro hh; rw [hh] at this; simp at this

theorem hid_destroyVar {s : State} (hg : Good h0 s) (t : Tid) (c : CtxId) (x : Var) : Hid h0 (s.destroyVar t c x) := by
  simp only [State.destroyVar]
  split
  · exact hid_ok (good_of hg rfl rfl rfl)
  · exact hid_destroyPtr (s := s.kill x) (good_of hg rfl rfl rfl) t c _

theorem hid_finish {s : State} (hg : Good h0 s) (t : Tid) (c : CtxId) (p : Option CtxId) : Hid h0 (s.finish t c p) := by
  simp only [State.finish]
  split
  · exact hid_bad (by simp)
  · split
    · exact hid_bad (by simp)
    · refine hid_switch (good_setFrames ?_ ?_) t _ _
      · exact good_of hg rfl rfl rfl
      · simp

theorem hid_doResume {s : State} (hg : Good h0 s) (t : Tid) (c : CtxId) (x : Var) : Hid h0 (s.doResume t c x) := by
  simp only [State.doResume]
  split
  · exact hid_bad (by simp)
  · split
    · exact hid_bad (by simp)
    · refine hid_switch (good_setFrames ?_ ?_) t _ _
      · exact good_of hg rfl rfl rfl
      · simpa using hg.3 c

theorem hid_doResumeWith {s : State} (hg : Good h0 s) (t : Tid) (c : CtxId) (x : Var) : Hid h0 (s.doResumeWith t c x) := by
  simp only [State.doResumeWith]
  split
  · exact hid_bad (by simp)
  · split
    · exact hid_bad (by simp)
    · refine hid_switch (good_setFrames ?_ ?_) t _ _
      · exact good_of hg rfl rfl rfl
      · simpa using hg.3 c

theorem capture_nextCtx (s : State) (n : CtxId) (xs : List Var) : (s.capture n xs).nextCtx = s.nextCtx := by
  induction xs generalizing s with
  | nil => rfl
  | cons x xs ih => simp only [State.capture]; rw [ih]; rfl

theorem capture_status (s : State) (n : CtxId) (xs : List Var) : (s.capture n xs).status = s.status := by
  induction xs generalizing s with
  | nil => rfl
  | cons x xs ih => simp only [State.capture]; rw [ih]; rfl

theorem capture_log (s : State) (n : CtxId) (xs : List Var) : (s.capture n xs).log = s.log := by
  induction xs generalizing s with
  | nil => rfl
  | cons x xs ih => simp only [State.capture]; rw [ih]; rfl

/-- capturing empties the captured objects and changes no other existing object -/
theorem capture_old (s : State) (n : CtxId) (xs : List Var) (h : ∀ x ∈ xs, x < s.nextVar) : ∀ y, y < s.nextVar →
    (s.capture n xs).val y = (if y ∈ xs then none else s.val y) ∧ (s.capture n xs).kind y = s.kind y := by
  induction xs generalizing s with
  | nil => intro y _; simp [State.capture]
  | cons x xs ih =>
    intro y hy
    simp only [State.capture]
    have hy' : y ≠ s.nextVar := Nat.ne_of_lt hy
    have := ih { (s.setVal x none).newVar (.cap n) (s.val x) with caps := upd ((s.setVal x none).newVar (.cap n) (s.val x)).caps n (s.nextVar :: ((s.setVal x none).newVar (.cap n) (s.val x)).caps n) }
      (fun z hz => Nat.lt_succ_of_lt (h z (by simp [hz]))) y (Nat.lt_succ_of_lt hy)
    rw [this.1, this.2]
    simp only [State.newVar, State.setVal, upd_apply, hy', if_false, List.mem_cons, and_true]
    by_cases h1 : y ∈ xs
    · simp [h1]
    · by_cases h2 : y = x
      · simp [h2]
      · simp [h1, h2]

/-- What `callcc` does: the context is created and entered at once. -/
theorem doCallcc_eq (s : State) (t : Tid) (c : CtxId) (k : UKind) (ls : List Var) (rest : List Frame) (xs : List Var) (hc : s.cur t = some c)
    (hn : c ≠ s.nextCtx) : ∃ s', s.doCallcc t c k ls rest xs = .ok s' ∧
      s'.hidden = upd s.hidden (s.nextVar + xs.length) true ∧ s'.early = s.early ∧
      s'.frames = upd (upd (upd s.frames s.nextCtx [.entryJump]) c (.resume :: .callcc (s.nextVar + xs.length) .waiting k ls :: rest)) s.nextCtx
        [.user .fn [s.nextVar + xs.length + 1] .normal, .entryRun] ∧
      s'.cur = upd s.cur t (some s.nextCtx) ∧ s'.status = upd (upd (upd s.status s.nextCtx .suspended) c .suspended) s.nextCtx (.running t) ∧
      s'.log = .enter s.nextCtx :: .alloc s.nextCtx :: s.log ∧ s'.val (s.nextVar + xs.length + 1) = some c ∧
      ((∀ x ∈ xs, x < s.nextVar) → ∀ y, y < s.nextVar → s'.val y = (if y ∈ xs then none else s.val y) ∧ s'.kind y = s.kind y) := by
  obtain ⟨s1, hs1⟩ : ∃ s1, s1 = ({ s with nextCtx := s.nextCtx + 1 }.addLog (.alloc s.nextCtx)).capture s.nextCtx xs := ⟨_, rfl⟩
  have f1 : s1.frames = s.frames := by rw [hs1, capture_frames]; rfl
  have n1 : s1.nextVar = s.nextVar + xs.length := by rw [hs1, capture_nextVar]; rfl
  have c1 : s1.cur = s.cur := by rw [hs1, capture_cur]; rfl
  have hh1 : s1.hidden = s.hidden := by rw [hs1, capture_hidden]; rfl
  have he1 : s1.early = s.early := by rw [hs1, capture_early]; rfl
  obtain ⟨s2, hs2⟩ : ∃ s2 : State, s2 = { s1 with status := upd s1.status s.nextCtx .suspended, frames := upd s1.frames s.nextCtx [.entryJump], root := upd s1.root s.nextCtx false, frm := upd s1.frm s.nextCtx none, ontop := upd s1.ontop s.nextCtx none, term := upd s1.term s.nextCtx false, unw := upd s1.unw s.nextCtx false } := ⟨_, rfl⟩
  obtain ⟨s3, hs3⟩ : ∃ s3, s3 = State.setFrames { s2.newVar (.loc c) (some s.nextCtx) with hidden := upd s2.hidden s2.nextVar true } c
      (.callcc s2.nextVar .waiting k ls :: rest) := ⟨_, rfl⟩
  have hcc : s.doCallcc t c k ls rest xs = s3.doResume t c s2.nextVar := by rw [hs3, hs2, hs1]; rfl
  have n2 : s2.nextVar = s.nextVar + xs.length := by rw [hs2]; exact n1
  have hv : s3.val s2.nextVar = some s.nextCtx := by rw [hs3]; simp [State.setFrames, State.newVar]
  have hst : s3.status s.nextCtx = .suspended := by rw [hs3]; show s2.status _ = _; rw [hs2]; simp
  have c3 : s3.cur t = some c := by rw [hs3]; show s2.cur t = _; rw [hs2]; show s1.cur t = _; rw [c1, hc]
  have f3 : s3.frames = upd (upd s.frames s.nextCtx [.entryJump]) c (.callcc s2.nextVar .waiting k ls :: rest) := by
    rw [hs3]; show upd s2.frames _ _ = _; rw [hs2]; show upd (upd s1.frames _ _) _ _ = _; rw [f1]
  have hh3 : s3.hidden = upd s.hidden (s.nextVar + xs.length) true := by
    rw [hs3]; show upd s2.hidden _ _ = _; rw [n2, hs2]; show upd s1.hidden _ _ = _; rw [hh1]
  have he3 : s3.early = s.early := by rw [hs3]; show s2.early = _; rw [hs2]; exact he1
  have n3 : s3.nextVar = s.nextVar + xs.length + 1 := by rw [hs3]; show s2.nextVar + 1 = _; rw [n2]
  obtain ⟨s4, hs4⟩ : ∃ s4, s4 = (s3.setVal s2.nextVar none).setFrames c (.resume :: s3.frames c) := ⟨_, rfl⟩
  obtain ⟨s5, hs5⟩ : ∃ s5 : State, s5 = { s4 with frm := upd s4.frm s.nextCtx (some c), cur := upd s4.cur t (some s.nextCtx), status := upd (upd s4.status c .suspended) s.nextCtx (.running t) } := ⟨_, rfl⟩
  have hsw : s4.switchTo t s.nextCtx .suspended = some s5 := by
    have h1 : s4.cur t = some c := by rw [hs4]; exact c3
    have h2 : s4.status s.nextCtx = .suspended := by rw [hs4]; exact hst
    simp only [State.switchTo, h1, if_pos h2]; rw [hs5]
  have f5 : s5.frames = upd s3.frames c (.resume :: s3.frames c) := by rw [hs5, hs4]; rfl
  have f5n : s5.frames s.nextCtx = [.entryJump] := by rw [f5, f3]; simp [upd_apply, Ne.symm hn]
  refine ⟨((s5.newVar (.loc s.nextCtx) (s5.frm s.nextCtx)).setFrames s.nextCtx (.user .fn [s5.nextVar] .normal :: .entryRun :: [])).addLog (.enter s.nextCtx),
    ?_, ?_, ?_, ?_, ?_, ?_, ?_, ?_, ?_⟩
  · rw [hcc]
    simp only [State.doResume, hv, hst, reduceCtorEq, if_false]
    rw [← hs4, hsw]
    simp only [State.arrive, f5n]
  · show s5.hidden = _; rw [hs5, hs4]; exact hh3
  · show s5.early = _; rw [hs5, hs4]; exact he3
  · show upd s5.frames _ _ = _
    have n5 : s5.nextVar = s.nextVar + xs.length + 1 := by rw [hs5, hs4]; exact n3
    rw [n5, f5, f3, n2]
    funext d; simp only [upd_apply]; split
    · rfl
    · split
      · simp
      · rfl
  · show s5.cur = _; rw [hs5, hs4]; show upd s3.cur _ _ = _; rw [hs3]; show upd s2.cur _ _ = _; rw [hs2]; show upd s1.cur _ _ = _; rw [c1]
  · show s5.status = _; rw [hs5, hs4]; show upd (upd s3.status _ _) _ _ = _; rw [hs3]; show upd (upd s2.status _ _) _ _ = _
    rw [hs2]; show upd (upd (upd s1.status _ _) _ _) _ _ = _; rw [hs1, capture_status]; rfl
  · show _ :: s5.log = _; rw [hs5, hs4]; show _ :: s3.log = _; rw [hs3]; show _ :: s2.log = _; rw [hs2]; show _ :: s1.log = _; rw [hs1, capture_log]; rfl
  · have n5 : s5.nextVar = s.nextVar + xs.length + 1 := by rw [hs5, hs4]; exact n3
    show upd s5.val s5.nextVar _ _ = _
    rw [n5]; simp only [upd_apply, if_true]; rw [hs5]; simp
  · intro hx y hy
    have n5 : s5.nextVar = s.nextVar + xs.length + 1 := by rw [hs5, hs4]; exact n3
    have y1 : y ≠ s.nextVar + xs.length + 1 := by omega
    have y2 : y ≠ s.nextVar + xs.length := by omega
    have ho := capture_old ({ s with nextCtx := s.nextCtx + 1 }.addLog (.alloc s.nextCtx)) s.nextCtx xs hx y hy
    rw [← hs1] at ho
    constructor
    · show upd s5.val s5.nextVar _ _ = _
      rw [n5]; simp only [upd_apply, y1, if_false]; rw [hs5, hs4]; show upd s3.val _ _ _ = _
      rw [n2]; simp only [upd_apply, y2, if_false]; rw [hs3]; show upd s2.val _ _ _ = _
      rw [n2]; simp only [upd_apply, y2, if_false]; rw [hs2]; exact ho.1
    · show upd s5.kind s5.nextVar _ _ = _
      rw [n5]; simp only [upd_apply, y1, if_false]; rw [hs5, hs4]; show s3.kind _ = _
      rw [hs3]; show upd s2.kind _ _ _ = _
      rw [n2]; simp only [upd_apply, y2, if_false]; rw [hs2]; exact ho.2

theorem hid_doCallcc {s : State} (hg : Good h0 s) (t : Tid) (c : CtxId) (k : UKind) (ls : List Var) (rest : List Frame) (xs : List Var)
    (hc : s.cur t = some c) (hn : c ≠ s.nextCtx) (hf : s.frames c = .user k ls .normal :: rest) :
    Hid (upd h0 (s.nextVar + xs.length) true) (s.doCallcc t c k ls rest xs) := by
  obtain ⟨s', hs, h1, h2, h3, -⟩ := doCallcc_eq s t c k ls rest xs hc hn
  rw [hs]
  have up : ∀ fs, FOk h0 fs → FOk (upd h0 (s.nextVar + xs.length) true) fs := by
    intro fs h f hf
    have := h f hf
    cases f <;> simp_all [FrameOk, upd_apply]
  refine hid_ok ⟨by rw [h1, hg.1], by rw [h2, hg.2], fun d => ?_⟩
  rw [h3]; simp only [upd_apply]
  split
  · simp
  · split
    · have := hg.3 c; rw [hf] at this; simp only [fok_cons] at this
      simp [upd_apply, up _ this.2]
    · exact up _ (hg.3 d)

theorem hid_propagate {s : State} (hg : Good h0 s) (t : Tid) (c : CtxId) (k : UKind) (e : Exc) (rest : List Frame) (hr : FOk h0 rest) :
    Hid h0 (propagate s t c k e rest) := by
  simp only [propagate]
  split
  · exact hid_bad (by simp)
  · exact hid_bad (by simp)
  · exact hid_ok (good_setFrames hg (by simpa using hr))
  · split
    · exact hid_bad (by simp)
    · exact hid_finish (s := s.kill _) (good_of hg rfl rfl rfl) t c _
  · exact hid_ok (good_setFrames hg (by simpa using hr))
  · exact hid_ok (good_setFrames hg (by simpa using hr))
  · exact hid_bad (by simp)

theorem hid_leave {s : State} (hg : Good h0 s) (t : Tid) (c : CtxId) (k : UKind) (x : Option Var) (rest : List Frame) (hr : FOk h0 rest) :
    Hid h0 (leave s t c k x rest) := by
  simp only [leave]
  split
  · exact hid_ok (good_setFrames (s := { s with cur := upd s.cur t none, status := upd s.status c .ended }) (good_of hg rfl rfl rfl) (by simp))
  · exact hid_ok (good_setFrames hg hr)
  · exact hid_ok (good_setFrames hg hr)
  · exact hid_finish (s := s.kill _) (good_of hg rfl rfl rfl) t c _
  · split
    · exact hid_ok (good_setFrames (s := State.newVar _ _ _) (good_of hg rfl rfl rfl) (by simpa using hr))
    · exact hid_ok (good_setFrames (s := State.newVar _ _ _) (good_of hg rfl rfl rfl) (by simpa using hr))
    · exact hid_bad (by simp)
  · exact hid_bad (by simp)

theorem hid_exitStep {s : State} (hg : Good h0 s) (t : Tid) (c n : CtxId) (rest : List Frame) (hr : FOk h0 rest) :
    Hid h0 (exitStep s t c n rest) := by
  simp only [exitStep]
  split
  · refine hid_destroyVar ?_ t c _
    exact good_of hg rfl rfl rfl
  · split
    · have h1 : Good h0 (({ s with status := upd s.status n .freed, frames := upd s.frames n [] } : State).addLog (.dealloc n)) := by
        refine ⟨hg.1, hg.2, fun d => ?_⟩
        simp only [State.addLog, upd_apply]; split
        · simp
        · exact hg.3 d
      split
      · exact hid_ok (good_of (good_setFrames h1 (by simp at hr; exact hr)) rfl rfl rfl)
      · exact hid_ok (good_setFrames h1 hr)
    · exact hid_bad (by simp)

/-- one step keeps the invariant; only `callcc` hides an object, its temporary -/
theorem step_hidden {s s' : State} {t : Tid} {op : Op} (hg : Good s.hidden s) (hn : ∀ c, s.cur t = some c → c ≠ s.nextCtx) (h : step s t op = .ok s') :
    (Good s.hidden s' ∧ ∀ xs, op ≠ .callcc xs .success) ∨
    ∃ xs, op = .callcc xs .success ∧ Good (upd s.hidden (s.nextVar + xs.length) true) s' := by
  by_cases hop : ∃ xs, op = .callcc xs .success
  · obtain ⟨xs, rfl⟩ := hop
    refine .inr ⟨xs, rfl, ?_⟩
    simp only [step] at h
    split at h
    · simp at h
    · rename_i c hc
      split at h <;> try (simp at h; done)
      simp only [userStep] at h
      split at h
      · exact hid_doCallcc hg _ _ _ _ _ _ hc (hn c hc) ‹_› s' h
      · simp at h
  · refine .inl ⟨?_, fun xs hx => hop ⟨xs, hx⟩⟩
    simp only [step] at h
    split at h
    · simp at h
    · rename_i c hcur
      have hcc := hg.3 c
      split at h <;> rename_i hf <;> (try rw [hf] at hcc)
      · simp only [fok_cons, frameOk_user, true_and] at hcc
        cases op <;> simp only [userStep] at h
        case newHeap => cases h; exact good_of hg rfl rfl rfl
        case newLocal => cases h; exact good_setFrames (s := s.newVar _ _) (good_of hg rfl rfl rfl) (by simpa using hcc)
        case moveHeap => split at h <;> cases h; exact good_of hg rfl rfl rfl
        case moveLocal => split at h <;> cases h; exact good_setFrames (s := (s.setVal _ _).newVar _ _) (good_of hg rfl rfl rfl) (by simpa using hcc)
        case moveAssign =>
          split at h
          · split at h
            · cases h; exact hg
            · split at h
              · cases h; exact good_of hg rfl rfl rfl
              · exact hid_destroyPtr (s := (s.setVal _ _).setVal _ _) (good_of hg rfl rfl rfl) t c _ s' h
          · cases h
        case swap => split at h <;> cases h; exact good_of hg rfl rfl rfl
        case drop =>
          split at h
          · exact hid_destroyVar (good_setFrames hg (by simpa using hcc)) t c _ s' h
          · split at h
            · exact hid_destroyVar hg t c _ s' h
            · cases h
        case callcc xs o =>
          split at h
          · cases o with
            | success => exact absurd ⟨xs, rfl⟩ hop
            | allocThrows n => cases h; exact good_setFrames hg (by simpa using hcc)
            | fnThrows => cases h
          · cases h
        case resume => split at h <;> first | exact hid_doResume hg t c _ s' h | cases h
        case resumeWith => split at h <;> first | exact hid_doResumeWith hg t c _ s' h | cases h
        case call => cases h; exact good_setFrames hg (by simpa using hcc)
        case cleanup => cases h; exact good_setFrames hg (by simpa using hcc)
        case ret => split at h <;> cases h <;> exact good_setFrames hg (by simpa using hcc)
        case retHandle =>
          split at h
          · split at h <;> cases h <;> exact good_setFrames (s := (s.setVal _ _).newVar _ _) (good_of hg rfl rfl rfl) (by simpa using hcc)
          · cases h
        case throw => cases h; exact good_setFrames hg (by simpa using hcc)
        case spawn =>
          cases h
          refine ⟨hg.1, hg.2, fun d => ?_⟩
          simp only [upd_apply]; split
          · simp
          · exact hg.3 d
        all_goals cases h
      · cases op <;> simp only [] at h <;> first
          | (cases h; done) | exact hid_destroyVar (good_setFrames hg (by simpa using hcc)) t c _ s' h
          | (cases h; exact good_setFrames hg (by simpa using hcc))
      · cases op <;> simp only [] at h <;> first
          | (cases h; done) | exact hid_propagate hg t c _ _ _ (by simpa using hcc) s' h
          | (cases h; exact good_setFrames hg (by simpa using hcc)) | skip
        · split at h <;> cases h; exact good_setFrames hg (by simpa using hcc)
        · split at h
          · split at h <;> cases h
            · exact good_of (s := (s.setFrames c _)) (good_setFrames hg (by simpa using hcc)) rfl rfl rfl
            · exact good_of (s := (s.setFrames c _)) (good_setFrames hg (by simpa using hcc)) rfl rfl rfl
          · cases h
      · cases op <;> simp only [] at h <;> first
          | (cases h; done) | exact hid_leave hg t c _ _ _ (by simpa using hcc) s' h
          | (cases h; exact good_setFrames hg (by simpa using hcc))
      · cases op <;> simp only [] at h <;> first
          | (cases h; done) | exact hid_destroyVar (good_setFrames hg (by simp at hcc; simpa using hcc.2)) t c _ s' h
      · cases op <;> simp only [] at h <;> first
          | (cases h; done) | exact hid_destroyVar (good_setFrames hg (by simp at hcc; simpa using hcc.2)) t c _ s' h
      · cases op <;> simp only [] at h <;> first
          | (cases h; done) | exact hid_exitStep hg t c _ _ (by simpa using hcc) s' h
          | (cases h; exact good_setFrames hg (by simpa using hcc))
      · cases h

end Verif.UCont
