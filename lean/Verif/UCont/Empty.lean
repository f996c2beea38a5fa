import Verif.UCont.Step

/-! # The temporary of `callcc` is empty until its lifetime ends -/

namespace Verif.UCont
open Verif.Fiber (CtxId Var Tid Kind Exc Mode UKind Status Event CreateOutcome upd upd_apply)

/-- objects that exist and are empty in `s` are empty in `s'` -/
def VL (s s' : State) : Prop := s.nextVar ≤ s'.nextVar ∧ ∀ x, x < s.nextVar → s.val x = none → s'.val x = none

theorem VL.refl (s : State) : VL s s := ⟨Nat.le_refl _, fun _ _ h => h⟩
theorem VL.trans {s s' s'' : State} (h : VL s s') (h' : VL s' s'') : VL s s'' :=
  ⟨Nat.le_trans h.1 h'.1, fun x hx hv => h'.2 x (Nat.lt_of_lt_of_le hx h.1) (h.2 x hx hv)⟩
theorem vl_of {s s' : State} (hn : s'.nextVar = s.nextVar) (hv : s'.val = s.val) : VL s s' := ⟨by rw [hn]; exact Nat.le_refl _, fun x _ h => by rw [hv]; exact h⟩
theorem vl_newVar (s : State) (k : Kind) (v : Option CtxId) : VL s (s.newVar k v) := by
  refine ⟨Nat.le_succ _, fun x hx hv => ?_⟩
  simp only [State.newVar, upd_apply]; rw [if_neg (Nat.ne_of_lt hx)]; exact hv
theorem vl_setNone (s : State) (y : Var) : VL s (s.setVal y none) := by
  refine ⟨Nat.le_refl _, fun x hx hv => ?_⟩
  simp only [State.setVal, upd_apply]; split
  · rfl
  · exact hv
theorem vl_kill (s : State) (y : Var) : VL s (s.kill y) := by
  refine ⟨Nat.le_refl _, fun x hx hv => ?_⟩
  simp only [State.kill, upd_apply]; split
  · rfl
  · exact hv
theorem vl_setFrames (s : State) (c : CtxId) (fs : List Frame) : VL s (s.setFrames c fs) := vl_of rfl rfl
theorem vl_addLog (s : State) (e : Event) : VL s (s.addLog e) := vl_of rfl rfl

/-- `r`, if a state, has all objects of `s` that were empty still empty -/
def VR (s : State) (r : Res) : Prop := ∀ s', r = .ok s' → VL s s'

theorem vr_ok {s s' : State} (h : VL s s') : VR s (.ok s') := by rintro _ ⟨⟩; exact h
theorem vr_bad {s : State} {r : Res} (h : ∀ s', r ≠ .ok s') : VR s r := fun s' hs => absurd hs (h s')
theorem vr_trans {s s1 : State} {r : Res} (h : VL s s1) (hr : VR s1 r) : VR s r := fun s' hs => h.trans (hr s' hs)

theorem vl_switchTo {s s' : State} {t : Tid} {w : CtxId} {l : Status} (h : s.switchTo t w l = some s') : VL s s' := by
  simp only [State.switchTo] at h
  split at h
  · cases h
  · split at h
    · cases h; exact vl_of rfl rfl
    · cases h

theorem vr_arrive (s : State) (w : CtxId) : VR s (s.arrive w) := by
  have h1 : VL s { s with frm := upd s.frm w none } := vl_of rfl rfl
  simp only [State.arrive]
  split
  · exact vr_ok ((vl_newVar _ _ _).trans ((vl_setFrames _ _ _).trans (vl_addLog _ _)))
  · split
    · exact vr_ok (h1.trans ((vl_newVar _ _ _).trans (vl_setFrames _ _ _)))
    · split
      · exact vr_ok (h1.trans ((vl_newVar _ _ _).trans ((vl_setFrames _ _ _).trans (vl_addLog _ _))))
      · exact vr_ok (h1.trans ((vl_newVar _ _ _).trans (vl_setFrames _ _ _)))
  · split
    · exact vr_ok (h1.trans ((vl_newVar _ _ _).trans (vl_setFrames _ _ _)))
    · split
      · exact vr_ok (h1.trans ((vl_newVar _ _ _).trans ((vl_setFrames _ _ _).trans (vl_addLog _ _))))
      · exact vr_ok (h1.trans ((vl_newVar _ _ _).trans (vl_setFrames _ _ _)))
  · split
    · exact vr_bad (by simp)
    · split
      · exact vr_ok (vl_of rfl rfl)
      · exact vr_bad (by simp)
  · exact vr_bad (by simp)

theorem vr_switch (s : State) (t : Tid) (w : CtxId) (l : Status) :
    VR s (match s.switchTo t w l with | none => .ub | some s => s.arrive w) := by
  cases h : s.switchTo t w l with
  | none => exact vr_bad (by simp)
  | some s1 => exact vr_trans (vl_switchTo h) (vr_arrive s1 w)

theorem vr_destroyPtr (s : State) (t : Tid) (c v : CtxId) : VR s (s.destroyPtr t c v) := by
  simp only [State.destroyPtr]
  split
  · exact vr_bad (by simp)
  · split
    · exact vr_ok (vl_of rfl rfl)
    · split
      · exact vr_ok (vl_setFrames _ _ _)
      · refine vr_trans ?_ (vr_switch _ t v _)
        exact vl_of rfl rfl

theorem vr_destroyVar (s : State) (t : Tid) (c : CtxId) (x : Var) : VR s (s.destroyVar t c x) := by
  simp only [State.destroyVar]
  split
  · exact vr_ok (vl_kill _ _)
  · exact vr_trans (vl_kill _ _) (vr_destroyPtr _ t c _)

theorem vr_finish (s : State) (t : Tid) (c : CtxId) (p : Option CtxId) : VR s (s.finish t c p) := by
  simp only [State.finish]
  split
  · exact vr_bad (by simp)
  · split
    · exact vr_bad (by simp)
    · refine vr_trans ?_ (vr_switch _ t _ _)
      exact vl_of rfl rfl

theorem vr_doResume (s : State) (t : Tid) (c : CtxId) (x : Var) : VR s (s.doResume t c x) := by
  simp only [State.doResume]
  split
  · exact vr_bad (by simp)
  · split
    · exact vr_bad (by simp)
    · exact vr_trans ((vl_setNone _ _).trans (vl_setFrames _ _ _)) (vr_switch _ t _ _)

theorem vr_doResumeWith (s : State) (t : Tid) (c : CtxId) (x : Var) : VR s (s.doResumeWith t c x) := by
  simp only [State.doResumeWith]
  split
  · exact vr_bad (by simp)
  · split
    · exact vr_bad (by simp)
    · refine vr_trans ?_ (vr_switch _ t _ _)
      refine ⟨Nat.le_refl _, fun z hz hv => ?_⟩
      simp only [State.setFrames, State.setVal, upd_apply]; split
      · rfl
      · exact hv

theorem vl_capture (s : State) (n : CtxId) (xs : List Var) : VL s (s.capture n xs) := by
  induction xs generalizing s with
  | nil => exact .refl _
  | cons x xs ih =>
    simp only [State.capture]
    refine VL.trans ?_ (ih _)
    exact ((vl_setNone s x).trans (vl_newVar _ (.cap n) (s.val x))).trans (vl_of rfl rfl)

/-- the values of objects after a successful `callcc` -/
theorem doCallcc_vals {s s' : State} {t : Tid} {c : CtxId} {k : UKind} {ls : List Var} {rest : List Frame} {xs : List Var}
    (hd : s.doCallcc t c k ls rest xs = .ok s') : VL s s' ∧ s.nextVar + xs.length < s'.nextVar ∧ s'.val (s.nextVar + xs.length) = none := by
  obtain ⟨s1, hs1⟩ : ∃ s1, s1 = ({ s with nextCtx := s.nextCtx + 1 }.addLog (.alloc s.nextCtx)).capture s.nextCtx xs := ⟨_, rfl⟩
  have v1 : VL s s1 := by rw [hs1]; exact VL.trans (s' := { s with nextCtx := s.nextCtx + 1 }.addLog (.alloc s.nextCtx)) (vl_of rfl rfl) (vl_capture _ _ _)
  have n1 : s1.nextVar = s.nextVar + xs.length := by rw [hs1, capture_nextVar]; rfl
  obtain ⟨s2, hs2⟩ : ∃ s2 : State, s2 = { s1 with status := upd s1.status s.nextCtx .suspended, frames := upd s1.frames s.nextCtx [.entryJump], root := upd s1.root s.nextCtx false, frm := upd s1.frm s.nextCtx none, ontop := upd s1.ontop s.nextCtx none, term := upd s1.term s.nextCtx false, unw := upd s1.unw s.nextCtx false } := ⟨_, rfl⟩
  have v2 : VL s1 s2 := by rw [hs2]; exact vl_of rfl rfl
  have n2 : s2.nextVar = s.nextVar + xs.length := by rw [hs2]; exact n1
  obtain ⟨s3, hs3⟩ : ∃ s3, s3 = State.setFrames { s2.newVar (.loc c) (some s.nextCtx) with hidden := upd s2.hidden s2.nextVar true } c
      (.callcc s2.nextVar .waiting k ls :: rest) := ⟨_, rfl⟩
  have v3 : VL s2 s3 := by rw [hs3]; exact VL.trans (vl_newVar _ (.loc c) _) (vl_of rfl rfl)
  have n3 : s3.nextVar = s.nextVar + xs.length + 1 := by rw [hs3]; show s2.nextVar + 1 = _; rw [n2]
  have hcc : s.doCallcc t c k ls rest xs = s3.doResume t c s2.nextVar := by rw [hs3, hs2, hs1]; rfl
  rw [hcc] at hd
  have v4 := vr_doResume _ _ _ _ _ hd
  refine ⟨v1.trans (v2.trans (v3.trans v4)), Nat.lt_of_lt_of_le (by rw [n3]; exact Nat.lt_succ_self _) v4.1, ?_⟩
  simp only [State.doResume] at hd
  split at hd
  · cases hd
  · split at hd
    · cases hd
    · refine (vr_switch _ t _ _ _ hd).2 _ ?_ ?_
      · show _ < s3.nextVar; rw [n3]; exact Nat.lt_succ_self _
      · show (upd s3.val s2.nextVar none) _ = _; rw [n2]; simp

theorem vr_propagate (s : State) (t : Tid) (c : CtxId) (k : UKind) (e : Exc) (rest : List Frame) : VR s (propagate s t c k e rest) := by
  simp only [propagate]
  split
  · exact vr_bad (by simp)
  · exact vr_bad (by simp)
  · exact vr_ok (vl_setFrames _ _ _)
  · split
    · exact vr_bad (by simp)
    · exact vr_trans (vl_kill _ _) (vr_finish _ _ _ _)
  · exact vr_ok (vl_setFrames _ _ _)
  · exact vr_ok (vl_setFrames _ _ _)
  · exact vr_bad (by simp)

theorem vr_leave (s : State) (t : Tid) (c : CtxId) (k : UKind) (x : Option Var) (rest : List Frame) : VR s (leave s t c k x rest) := by
  simp only [leave]
  split
  · exact vr_ok (vl_of rfl rfl)
  · exact vr_ok (vl_setFrames _ _ _)
  · exact vr_ok (vl_setFrames _ _ _)
  · exact vr_trans (vl_kill _ _) (vr_finish _ _ _ _)
  · split
    · refine vr_ok (VL.trans (s' := { s with ontop := upd s.ontop c none }) (vl_of rfl rfl) ((vl_kill _ _).trans ((vl_newVar _ _ _).trans (vl_setFrames _ _ _))))
    · refine vr_ok (VL.trans (s' := { s with ontop := upd s.ontop c none }) (vl_of rfl rfl) ((vl_kill _ _).trans ((vl_newVar _ _ _).trans (vl_setFrames _ _ _))))
    · exact vr_bad (by simp)
  · exact vr_bad (by simp)

theorem vr_exitStep (s : State) (t : Tid) (c n : CtxId) (rest : List Frame) : VR s (exitStep s t c n rest) := by
  simp only [exitStep]
  split
  · refine vr_trans ?_ (vr_destroyVar _ _ _ _)
    exact vl_of rfl rfl
  · split
    · split
      · exact vr_ok (vl_of rfl rfl)
      · exact vr_ok (vl_of rfl rfl)
    · exact vr_bad (by simp)

/-- an empty object that user code cannot name stays empty; `callcc` leaves its temporary empty -/
theorem step_vals {s s' : State} {t : Tid} {op : Op} (h : step s t op = .ok s') :
    s.nextVar ≤ s'.nextVar ∧ (∀ x, x < s.nextVar → s.hidden x = true → s.val x = none → s'.val x = none) ∧
    ∀ xs, op = .callcc xs .success → s.nextVar + xs.length < s'.nextVar ∧ s'.val (s.nextVar + xs.length) = none := by
  have fin : VL s s' → (∀ xs, op ≠ .callcc xs .success) → _ := fun (hv : VL s s') hn =>
    (⟨hv.1, fun x hx _ h0 => hv.2 x hx h0, fun xs hh => absurd hh (hn xs)⟩ :
      s.nextVar ≤ s'.nextVar ∧ (∀ x, x < s.nextVar → s.hidden x = true → s.val x = none → s'.val x = none) ∧
      ∀ xs, op = .callcc xs .success → s.nextVar + xs.length < s'.nextVar ∧ s'.val (s.nextVar + xs.length) = none)
  have hacc : ∀ x, s.accessible x = true → s.hidden x = false := by
    intro x hx
    simp only [State.accessible] at hx
    split at hx <;> simp_all
  simp only [step] at h
  split at h
  · cases h
  · rename_i c hcur
    split at h
    · cases op <;> simp only [userStep] at h
      case newHeap => cases h; exact fin (vl_newVar _ _ _) (by simp)
      case newLocal => cases h; exact fin ((vl_newVar _ _ _).trans (vl_setFrames _ _ _)) (by simp)
      case moveHeap x => split at h <;> cases h; exact fin ((vl_setNone _ _).trans (vl_newVar _ _ _)) (by simp)
      case moveLocal x => split at h <;> cases h; exact fin ((vl_setNone _ _).trans ((vl_newVar _ _ _).trans (vl_setFrames _ _ _))) (by simp)
      case moveAssign y x =>
        split at h
        · rename_i ha
          split at h
          · cases h; exact fin (.refl _) (by simp)
          · have hval : ∀ z, s.hidden z = true → s.val z = none → ((s.setVal y (s.val x)).setVal x none).val z = none := by
              intro z hz hv
              simp only [State.setVal, upd_apply]
              split
              · rfl
              · split
                · subst z; rw [hacc y ha.2] at hz; cases hz
                · exact hv
            split at h
            · cases h
              exact ⟨Nat.le_refl _, fun z _ hz hv => hval z hz hv, fun xs hh => by cases hh⟩
            · have := vr_destroyPtr _ _ _ _ _ h
              exact ⟨this.1, fun z hlt hz hv => this.2 z hlt (hval z hz hv), fun xs hh => by cases hh⟩
        · cases h
      case swap x y =>
        split at h <;> cases h
        rename_i ha
        refine ⟨Nat.le_refl _, fun z _ hz hv => ?_, fun xs hh => by cases hh⟩
        simp only [State.setVal, upd_apply]
        split
        · subst z; rw [hacc y ha.2] at hz; cases hz
        · split
          · subst z; rw [hacc x ha.1] at hz; cases hz
          · exact hv
      case drop x =>
        split at h
        · exact fin (vr_trans (vl_setFrames _ _ _) (vr_destroyVar _ _ _ _) _ h) (by simp)
        · split at h
          · exact fin (vr_destroyVar _ _ _ _ _ h) (by simp)
          · cases h
      case callcc xs o =>
        split at h
        · cases o with
          | success =>
            have := doCallcc_vals h
            refine ⟨this.1.1, fun x hx _ hv => this.1.2 x hx hv, fun ys hh => ?_⟩
            cases hh; exact this.2
          | allocThrows n => cases h; exact fin (vl_setFrames _ _ _) (by simp)
          | fnThrows => cases h
        · cases h
      case resume => split at h <;> first | exact fin (vr_doResume _ _ _ _ _ h) (by simp) | cases h
      case resumeWith => split at h <;> first | exact fin (vr_doResumeWith _ _ _ _ _ h) (by simp) | cases h
      case call => cases h; exact fin (vl_setFrames _ _ _) (by simp)
      case cleanup => cases h; exact fin (vl_setFrames _ _ _) (by simp)
      case ret => split at h <;> cases h <;> exact fin (vl_setFrames _ _ _) (by simp)
      case retHandle =>
        split at h
        · split at h <;> cases h <;> exact fin ((vl_setNone _ _).trans ((vl_newVar _ _ _).trans (vl_setFrames _ _ _))) (by simp)
        · cases h
      case throw => cases h; exact fin (vl_setFrames _ _ _) (by simp)
      case spawn => cases h; exact fin (vl_of rfl rfl) (by simp)
      all_goals cases h
    · cases op <;> simp only [] at h <;> first
        | (cases h; done) | exact fin (vr_trans (vl_setFrames _ _ _) (vr_destroyVar _ _ _ _) _ h) (by simp)
        | (cases h; exact fin (vl_setFrames _ _ _) (by simp))
    · cases op <;> simp only [] at h <;> first
        | (cases h; done) | exact fin (vr_propagate _ _ _ _ _ _ _ h) (by simp)
        | (cases h; exact fin (vl_setFrames _ _ _) (by simp)) | skip
      · split at h <;> cases h; exact fin (vl_setFrames _ _ _) (by simp)
      · split at h
        · split at h <;> cases h
          · refine fin (VL.trans (vl_setFrames s c _) (VL.trans (vl_kill _ _) (vl_of rfl rfl))) (by simp)
          · exact fin (VL.trans (vl_setFrames _ _ _) (vl_kill _ _)) (by simp)
        · cases h
    · cases op <;> simp only [] at h <;> first
        | (cases h; done) | exact fin (vr_leave _ _ _ _ _ _ _ h) (by simp)
        | (cases h; exact fin (vl_setFrames _ _ _) (by simp))
    · cases op <;> simp only [] at h <;> first
        | (cases h; done) | exact fin (vr_trans (vl_setFrames _ _ _) (vr_destroyVar _ _ _ _) _ h) (by simp)
    · cases op <;> simp only [] at h <;> first
        | (cases h; done) | exact fin (vr_trans (vl_setFrames _ _ _) (vr_destroyVar _ _ _ _) _ h) (by simp)
    · cases op <;> simp only [] at h <;> first
        | (cases h; done) | exact fin (vr_exitStep _ _ _ _ _ _ h) (by simp)
        | (cases h; exact fin (vl_setFrames _ _ _) (by simp))
    · cases h

/-- The temporary of a `callcc` is empty whenever user code or another step of the runtime is next. -/
theorem hidden_empty {s : State} (h : Reachable s) : ∀ x, s.hidden x = true → x < s.nextVar ∧ s.val x = none := by
  induction h with
  | init => intro x hx; simp [init] at hx
  | @step s s' t op hr hs ih =>
    have f := reachable_facts hr
    obtain ⟨h1, h2, h3⟩ := step_vals hs
    have hold : ∀ x, s.hidden x = true → x < s'.nextVar ∧ s'.val x = none := fun x hx =>
      ⟨Nat.lt_of_lt_of_le (ih x hx).1 h1, h2 x (ih x hx).1 hx (ih x hx).2⟩
    rcases step_hidden f.good (fun c hc => f.fresh hc) hs with h | ⟨xs, rfl, h⟩
    · rw [h.1.hid]; exact hold
    · rw [h.hid]
      intro x hx
      simp only [upd_apply] at hx
      split at hx
      · subst x; exact h3 xs rfl
      · exact hold x hx

end Verif.UCont
