import Verif.Fiber.Steps3

/-!
# What the library does, as a sequence of calls of the low-level routines

Every step of the model of `fiber_fcontext.hpp` (`Verif.Fiber.Model`) is a sequence of calls of `jump_fcontext`, `ontop_fcontext` and `make_fcontext`, of starts and ends of
threads and of releases of stacks; in between only objects and frames change.
-/

namespace Verif.Link

open Verif.Fiber

/-- Calls of the low-level routines, with the handles they get and pass on.
* `jump t f back`: thread `t` calls `jump_fcontext( f)`; the target receives `back`;
* `ontop t f back fin`: the same for `ontop_fcontext`; `fin`: the calling context is never going to be resumed (`fiber_fcontext.hpp` 103);
* `make n`: `make_fcontext` for context `n` (205);
* `free n`: the stack of `n` is given back (134);
* `spawn t n`: thread `t` starts, in context `n`;  `exit t n`: thread `t`, executing context `n`, ends. -/
inductive Prim
  | jump (t : Tid) (f back : Fctx)
  | ontop (t : Tid) (f back : Fctx) (fin : Bool)
  | make (n : CtxId)
  | free (n : CtxId)
  | spawn (t : Tid) (n : CtxId)
  | exit (t : Tid) (n : CtxId)
  deriving DecidableEq, Repr

/-- Two states differ only in frames, objects and ghost data. -/
structure Core (s s' : State) : Prop where
  cur : s'.cur = s.cur
  status : s'.status = s.status
  seq : s'.seq = s.seq

/-- Effect of a call on the contexts. -/
inductive PStep : State → Prim → State → Prop
  | jump {s s1 s' : State} {t f back} : s.jump t f = some (s1, back) → Core s1 s' → PStep s (.jump t f back) s'
  | ontop {s s1 s' : State} {t f back fin} : s.ontopSwitch t f (if fin then .terminated else .suspended) = some (s1, back) → Core s1 s' →
      PStep s (.ontop t f back fin) s'
  | make {s s' : State} {n} : s.status n = .absent → Core { s with status := upd s.status n .raw, seq := upd s.seq n 0 } s' → PStep s (.make n) s'
  | free {s s' : State} {n} : s.status n = .terminated → Core { s with status := upd s.status n .freed } s' → PStep s (.free n) s'
  | spawn {s s' : State} {t n} : s.cur t = none → s.status n = .absent →
      Core { s with cur := upd s.cur t (some n), status := upd s.status n (.running t), seq := upd s.seq n 0 } s' → PStep s (.spawn t n) s'
  | exit {s s' : State} {t n} : s.cur t = some n → Core { s with cur := upd s.cur t none, status := upd s.status n .ended } s' → PStep s (.exit t n) s'

inductive PTrace : State → List Prim → State → Prop
  | nil {s s' : State} : Core s s' → PTrace s [] s'
  | cons {s s1 s' : State} {p l} : PStep s p s1 → PTrace s1 l s' → PTrace s (p :: l) s'

theorem Core.rfl' (s : State) : Core s s := ⟨rfl, rfl, rfl⟩
theorem Core.symm {s s' : State} (h : Core s s') : Core s' s := ⟨h.cur.symm, h.status.symm, h.seq.symm⟩
theorem Core.trans {s s' s'' : State} (h : Core s s') (h' : Core s' s'') : Core s s'' := ⟨h'.cur.trans h.cur, h'.status.trans h.status, h'.seq.trans h.seq⟩

theorem switch_core {s s1 s2 : State} {t f st b back} (h : Core s s1) (hs : s1.switch t f st b = some (s2, back)) :
    ∃ s3, s.switch t f st b = some (s3, back) ∧ Core s3 s2 := by
  obtain ⟨h1, h2, h3⟩ := h
  unfold State.switch at hs ⊢
  rw [h1] at hs
  cases hc : s.cur t with
  | none => rw [hc] at hs; cases hs
  | some c =>
    rw [hc] at hs
    simp only at hs ⊢
    split at hs
    · rename_i hq
      rw [h2, h3] at hq
      rw [if_pos hq]
      injection hs with hs
      injection hs with hs hb
      rw [h3] at hb
      rw [hb]
      refine ⟨_, rfl, ?_, ?_, ?_⟩ <;> rw [← hs] <;> simp [h2, h3]
    · cases hs

theorem PStep.core {s s1 s' : State} {p} (h : Core s s1) (hp : PStep s1 p s') : PStep s p s' := by
  have h0 := h
  obtain ⟨h1, h2, h3⟩ := h
  cases hp with
  | jump a b =>
    obtain ⟨s3, a', b'⟩ := switch_core h0 a
    exact .jump a' (b'.trans b)
  | ontop a b =>
    obtain ⟨s3, a', b'⟩ := switch_core h0 a
    exact .ontop a' (b'.trans b)
  | make a b => exact .make (by rw [← h2]; exact a) ⟨by rw [b.cur]; exact h1, by rw [b.status]; simp [h2], by rw [b.seq]; simp [h3]⟩
  | free a b => exact .free (by rw [← h2]; exact a) ⟨by rw [b.cur]; exact h1, by rw [b.status]; simp [h2], by rw [b.seq]; simp [h3]⟩
  | spawn a a' b => exact .spawn (by rw [← h1]; exact a) (by rw [← h2]; exact a') ⟨by rw [b.cur]; simp [h1], by rw [b.status]; simp [h2], by rw [b.seq]; simp [h3]⟩
  | exit a b => exact .exit (by rw [← h1]; exact a) ⟨by rw [b.cur]; simp [h1], by rw [b.status]; simp [h2], by rw [b.seq]; simp [h3]⟩

theorem PTrace.core {s s1 s' : State} {l} (h : Core s s1) (hp : PTrace s1 l s') : PTrace s l s' := by
  cases hp with
  | nil a => exact .nil (h.trans a)
  | cons a b => exact .cons (a.core h) b

theorem PTrace.append {s s1 s' : State} {l l'} (h : PTrace s l s1) (h' : PTrace s1 l' s') : PTrace s (l ++ l') s' := by
  induction h with
  | nil a => exact h'.core a
  | cons a _ ih => exact .cons a (ih h')

/-- the result, if any, is reached by low-level calls -/
def Reaches (s : State) (r : Res) : Prop := ∀ s', r = .ok s' → ∃ l, PTrace s l s'

theorem Reaches.core {s s1 : State} {r} (h : Core s s1) (hr : Reaches s1 r) : Reaches s r := fun s' hs => by
  obtain ⟨l, hl⟩ := hr s' hs
  exact ⟨l, hl.core h⟩

theorem Reaches.step {s s1 : State} {p r} (h : PStep s p s1) (hr : Reaches s1 r) : Reaches s r := fun s' hs => by
  obtain ⟨l, hl⟩ := hr s' hs
  exact ⟨p :: l, .cons h hl⟩

theorem Reaches.ok {s s' : State} (h : Core s s') : Reaches s (.ok s') := fun s'' hs => by
  injection hs with hs; subst hs; exact ⟨[], .nil h⟩

theorem Reaches.no {s : State} {r : Res} (h : ∀ s', r ≠ .ok s') : Reaches s r := fun s' hs => absurd hs (h s')

theorem finish_reaches (s : State) (t c f) : Reaches s (s.finish t c f) := by
  unfold State.finish
  simp only
  split
  · exact .no (by simp)
  · rename_i s1 b h
    obtain ⟨s3, h3, h4⟩ := switch_core (s := s) (s1 := s.setFrames c [.exitJump]) ⟨rfl, rfl, rfl⟩ h
    exact .step (.ontop (fin := true) (s1 := s3) (s' := s1) h3 h4) (.ok ⟨rfl, rfl, rfl⟩)

theorem deliver_reaches (s : State) (c v) : Reaches s (s.deliver c v) := by
  unfold State.deliver
  split <;> first | exact .ok ⟨rfl, rfl, rfl⟩ | exact .no (by simp)

theorem raiseUser_reaches (s : State) (c n) : Reaches s (s.raiseUser c n) := by
  unfold State.raiseUser
  split <;> first | exact .ok ⟨rfl, rfl, rfl⟩ | exact .no (by simp)

theorem raiseForced_reaches (s : State) (t c f) : Reaches s (s.raiseForced t c f) := by
  unfold State.raiseForced
  split <;> first | exact .ok ⟨rfl, rfl, rfl⟩ | exact finish_reaches _ _ _ _ | exact .no (by simp)

theorem destroyFctx_reaches (s : State) (t c f) : Reaches s (s.destroyFctx t c f) := by
  unfold State.destroyFctx
  simp only
  split
  · exact .no (by simp)
  · rename_i s1 b h
    obtain ⟨s3, h3, h4⟩ := switch_core (s := s) (s1 := s.setFrames c (.dtor f.ctx :: s.frames c)) ⟨rfl, rfl, rfl⟩ h
    exact .step (.ontop (fin := false) (s1 := s3) (s' := s1) h3 h4) (raiseForced_reaches _ _ _ _)

theorem destroyVar_reaches (s : State) (t c x) : Reaches s (s.destroyVar t c x) := by
  unfold State.destroyVar
  split
  · exact .ok ⟨rfl, rfl, rfl⟩
  · exact .core (s1 := s.kill x) ⟨rfl, rfl, rfl⟩ (destroyFctx_reaches _ _ _ _)

theorem doResume_reaches (s : State) (t c x) : Reaches s (s.doResume t c x) := by
  unfold State.doResume
  split
  · exact .no (by simp)
  · rename_i f hf
    simp only
    split
    · exact .no (by simp)
    · rename_i s1 b h
      obtain ⟨s3, h3, h4⟩ := switch_core (s := s) (s1 := (s.setVal x none).setFrames c (.resume :: s.frames c)) ⟨rfl, rfl, rfl⟩ h
      exact .step (.jump (s1 := s3) (s' := s1) h3 h4) (deliver_reaches _ _ _)

theorem doResumeWith_reaches (s : State) (t c x) : Reaches s (s.doResumeWith t c x) := by
  unfold State.doResumeWith
  split
  · exact .no (by simp)
  · rename_i f hf
    simp only
    split
    · exact .no (by simp)
    · rename_i s1 b h
      obtain ⟨s3, h3, h4⟩ := switch_core (s := s) (s1 := (s.setVal x none).setFrames c (.resume :: s.frames c)) ⟨rfl, rfl, rfl⟩ h
      exact .step (.ontop (fin := false) (s1 := s3) (s' := s1) h3 h4) (.ok ⟨rfl, rfl, rfl⟩)

theorem doWithThrows_reaches (s : State) (t c k ls rest x n b) : Reaches s (s.doWithThrows t c k ls rest x n b) := by
  unfold State.doWithThrows
  split
  · exact .no (by simp)
  · rename_i f hf
    simp only
    split
    · split
      · exact .no (by simp)
      · rename_i s1 b h
        obtain ⟨s3, h3, h4⟩ := switch_core (s := s) (s1 := (s.setVal x none).setFrames c (.resume :: s.frames c)) ⟨rfl, rfl, rfl⟩ h
        exact .step (.ontop (fin := false) (s1 := s3) (s' := s1) h3 h4) (.core (s1 := { s1 with lost := upd s1.lost b.ctx true }) ⟨rfl, rfl, rfl⟩ (raiseUser_reaches _ _ _))
    · exact .ok ⟨rfl, rfl, rfl⟩

theorem capture_core (n : CtxId) (xs : List Var) (s : State) : Core s (s.capture n xs) := by
  induction xs generalizing s with
  | nil => exact Core.rfl' s
  | cons x xs ih =>
    unfold State.capture
    simp only
    refine Core.trans ?_ (ih _)
    exact ⟨rfl, rfl, rfl⟩

theorem doCreate_reaches (s : State) (t c k ls rest xs) (ha : s.status s.nextCtx = .absent) : Reaches s (s.doCreate t c k ls rest xs) := by
  unfold State.doCreate
  simp only
  obtain ⟨s0, h0⟩ : ∃ s0, s0 = ({ s with nextCtx := s.nextCtx + 1 }.addLog (.alloc s.nextCtx)).capture s.nextCtx xs := ⟨_, rfl⟩
  rw [← h0]
  have hc : Core s s0 := by
    rw [h0]; exact Core.trans (s' := { s with nextCtx := s.nextCtx + 1 }.addLog (.alloc s.nextCtx)) ⟨rfl, rfl, rfl⟩ (capture_core _ _ _)
  refine .core hc ?_
  have ha' : s0.status s.nextCtx = .absent := by rw [hc.status]; exact ha
  refine .step (.make (n := s.nextCtx) (s' := { s0 with status := upd s0.status s.nextCtx .raw, seq := upd s0.seq s.nextCtx 0 }) ha' ⟨rfl, rfl, rfl⟩) ?_
  split
  · exact .no (by simp)
  · rename_i s1 b h
    refine .step (.jump h (Core.rfl' s1)) ?_
    split
    · exact .no (by simp)
    · rename_i s2 f h
      obtain ⟨s3, h3, h4⟩ := switch_core (s := s1) (s1 := s1.setFrames s.nextCtx [.entryJump]) ⟨rfl, rfl, rfl⟩ h
      exact .step (.jump (s1 := s3) (s' := s2) h3 h4) (.ok ⟨rfl, rfl, rfl⟩)

theorem userStep_reaches {s : State} (hi : Inv s) (t c k ls rest op) : Reaches s (userStep s t c k ls rest op) := by
  have ha : s.status s.nextCtx = .absent := (hi.ci.absent _).2 (Nat.le_refl _)
  cases op with
  | moveAssign y x =>
    simp only [userStep]
    split
    · split
      · exact .ok ⟨rfl, rfl, rfl⟩
      · split
        · exact .ok ⟨rfl, rfl, rfl⟩
        · exact .core (s1 := (s.setVal y (s.val x)).setVal x none) ⟨rfl, rfl, rfl⟩ (destroyFctx_reaches _ _ _ _)
    · exact .no (by simp)
  | drop x =>
    simp only [userStep]
    split
    · exact .core (s1 := s.setFrames c (.user k (ls.erase x) .normal :: rest)) ⟨rfl, rfl, rfl⟩ (destroyVar_reaches _ _ _ _)
    · split
      · exact destroyVar_reaches _ _ _ _
      · exact .no (by simp)
  | create xs o =>
    simp only [userStep]
    split
    · cases o with
      | success => exact doCreate_reaches _ _ _ _ _ _ _ ha
      | allocThrows n => exact .ok ⟨rfl, rfl, rfl⟩
      | fnThrows => exact .no (by simp)
    · exact .no (by simp)
  | resume x =>
    simp only [userStep]
    split
    · exact doResume_reaches _ _ _ _
    · exact .no (by simp)
  | resumeWith x =>
    simp only [userStep]
    split
    · exact doResumeWith_reaches _ _ _ _
    · exact .no (by simp)
  | withThrows x n b =>
    simp only [userStep]
    split
    · exact doWithThrows_reaches _ _ _ _ _ _ _ _ _
    · exact .no (by simp)
  | spawn =>
    simp only [userStep]
    exact .step (.spawn (t := s.nextTid) (n := s.nextCtx) (hi.ci.tids _ (Nat.le_refl _)) ha (Core.rfl' _)) (.ok ⟨rfl, rfl, rfl⟩)
  | _ =>
    simp only [userStep]
    repeat' (first | exact .ok ⟨rfl, rfl, rfl⟩ | (refine .no ?_; intro _ h; cases h; done) | split)

theorem propagate_reaches (s : State) (t c k e rest) : Reaches s (propagate s t c k e rest) := by
  unfold propagate
  split
  · exact .no (by simp)
  · exact .no (by simp)
  · exact .ok ⟨rfl, rfl, rfl⟩
  · split
    · exact .no (by simp)
    · split
      · exact .no (by simp)
      · rename_i x _ f _
        exact .core (s1 := s.kill x) ⟨rfl, rfl, rfl⟩ (finish_reaches _ _ _ _)
  · split
    · exact .core (s1 := s.setFrames c rest) ⟨rfl, rfl, rfl⟩ (raiseUser_reaches _ _ _)
    · split
      · exact .no (by simp)
      · rename_i x _ f _
        exact .core (s1 := (s.setFrames c rest).kill x) ⟨rfl, rfl, rfl⟩ (raiseForced_reaches _ _ _ _)
  · exact .no (by simp)

theorem leave_reaches (s : State) (t c k x rest) (hc : s.cur t = some c) : Reaches s (leave s t c k x rest) := by
  unfold leave
  split
  · exact .step (.exit hc (Core.rfl' _)) (.ok ⟨rfl, rfl, rfl⟩)
  · exact .ok ⟨rfl, rfl, rfl⟩
  · exact .ok ⟨rfl, rfl, rfl⟩
  · split
    · exact .no (by simp)
    · exact .core (s1 := s.kill _) ⟨rfl, rfl, rfl⟩ (finish_reaches _ _ _ _)
  · exact .core (s1 := (s.setFrames c rest).kill _) ⟨rfl, rfl, rfl⟩ (deliver_reaches _ _ _)
  · exact .no (by simp)

theorem exitStep_reaches (s : State) (t c n rest) : Reaches s (exitStep s t c n rest) := by
  unfold exitStep
  split
  · rename_i x xs _
    exact .core (s1 := { s with caps := upd s.caps n xs }) ⟨rfl, rfl, rfl⟩ (destroyVar_reaches _ _ _ _)
  · split
    · rename_i h
      refine .step (.free h (Core.rfl' _)) (.core ?_ (deliver_reaches _ _ _))
      exact ⟨rfl, rfl, rfl⟩
    · exact .no (by simp)

/-- **C80**: every step of the library is a sequence of calls of the low-level routines (and starts and ends of threads and releases of stacks). -/
theorem C80_step_prims {s s' : State} {t op} (hr : Reachable s) (hs : step s t op = .ok s') : ∃ l, PTrace s l s' := by
  have hi := reachable_inv hr
  refine (?_ : Reaches s (step s t op)) s' hs
  unfold step
  split
  · exact .no (by simp)
  · rename_i c hc
    split
    · exact userStep_reaches hi _ _ _ _ _ _
    · rename_i k x ls m rest _ _
      split
      · exact .core (s1 := s.setFrames c (.user k ls m :: rest)) ⟨rfl, rfl, rfl⟩ (destroyVar_reaches _ _ _ _)
      · exact .ok ⟨rfl, rfl, rfl⟩
      · exact .no (by simp)
    · split
      · exact propagate_reaches _ _ _ _ _ _
      · exact .ok ⟨rfl, rfl, rfl⟩
      · repeat' (first | exact .ok ⟨rfl, rfl, rfl⟩ | (refine .no ?_; intro _ h; cases h; done) | split)
      · repeat' (first | exact .ok ⟨rfl, rfl, rfl⟩ | (refine .no ?_; intro _ h; cases h; done) | split)
      · exact .no (by simp)
    · split
      · exact leave_reaches _ _ _ _ _ _ hc
      · exact .ok ⟨rfl, rfl, rfl⟩
      · exact .no (by simp)
    · split
      · exact exitStep_reaches _ _ _ _ _
      · exact .ok ⟨rfl, rfl, rfl⟩
      · exact .no (by simp)
    · exact .no (by simp)

/-- **C80**: so is every history. -/
theorem C80_history_prims (h : List (Tid × Op)) : ∀ s' : State, run init h = .ok s' → ∃ l, PTrace init l s' := by
  have : ∀ (h : List (Tid × Op)) (s s' : State), Reachable s → run s h = .ok s' → ∃ l, PTrace s l s' := by
    intro h
    induction h with
    | nil => intro s s' _ hs; injection hs with hs; subst hs; exact ⟨[], .nil (Core.rfl' _)⟩
    | cons p h ih =>
      intro s s' hr hs
      obtain ⟨t, op⟩ := p
      rw [run] at hs
      split at hs
      · rename_i s1 h1
        obtain ⟨l1, a1⟩ := C80_step_prims hr h1
        obtain ⟨l2, a2⟩ := ih s1 s' (.step hr h1) hs
        exact ⟨l1 ++ l2, a1.append a2⟩
      · rename_i r h1
        exact absurd hs (h1 s')
  exact fun s' hs => this h init s' .init hs

/-! ### Which calls the operations make -/

/-- **C80**: `resume` on a non-empty handle is one call of `jump_fcontext` with the stored context. -/
theorem C80_resume_prims {s s' : State} {t x f c k ls rest} (hs : step s t (.resume x) = .ok s') (hc : s.cur t = some c) (hf : s.frames c = .user k ls .normal :: rest)
    (hx : s.val x = some f) : PTrace s [.jump t f ⟨c, s.seq c + 1⟩] s' := by
  simp only [step, hc, hf, userStep] at hs
  split at hs
  · unfold State.doResume at hs
    rw [hx] at hs
    simp only at hs
    split at hs
    · cases hs
    · rename_i s1 b h
      have hb : b = ⟨c, s.seq c + 1⟩ := by
        unfold State.jump State.switch at h
        rw [show ((s.setVal x none).setFrames c (.resume :: s.frames c)).cur t = some c from hc] at h
        simp only at h
        split at h
        · injection h with h; injection h with _ h; exact h.symm
        · cases h
      subst hb
      obtain ⟨s3, h3, h4⟩ := switch_core (s := s) (s1 := (s.setVal x none).setFrames c (.resume :: s.frames c)) ⟨rfl, rfl, rfl⟩ h
      refine .cons (.jump h3 h4) (.nil ?_)
      revert hs
      unfold State.deliver
      split <;> intro hs <;> first | (injection hs with hs; subst hs; exact ⟨rfl, rfl, rfl⟩) | cases hs
  · cases hs

/-- **C80**: `resume_with` on a non-empty handle is one call of `ontop_fcontext` with the stored context. -/
theorem C80_resume_with_prims {s s' : State} {t x f c k ls rest} (hs : step s t (.resumeWith x) = .ok s') (hc : s.cur t = some c) (hf : s.frames c = .user k ls .normal :: rest)
    (hx : s.val x = some f) : PTrace s [.ontop t f ⟨c, s.seq c + 1⟩ false] s' := by
  simp only [step, hc, hf, userStep] at hs
  split at hs
  · unfold State.doResumeWith at hs
    rw [hx] at hs
    simp only at hs
    split at hs
    · cases hs
    · rename_i s1 b h
      have hb : b = ⟨c, s.seq c + 1⟩ := by
        unfold State.ontopSwitch State.switch at h
        rw [show ((s.setVal x none).setFrames c (.resume :: s.frames c)).cur t = some c from hc] at h
        simp only at h
        split at h
        · injection h with h; injection h with _ h; exact h.symm
        · cases h
      subst hb
      obtain ⟨s3, h3, h4⟩ := switch_core (s := s) (s1 := (s.setVal x none).setFrames c (.resume :: s.frames c)) ⟨rfl, rfl, rfl⟩ h
      refine .cons (.ontop (fin := false) h3 h4) (.nil ?_)
      injection hs with hs; subst hs; exact ⟨rfl, rfl, rfl⟩
  · cases hs

/-- **C80**: construction of a fiber is one call of `make_fcontext`, a switch to the new context and a switch back. -/
theorem C80_create_prims {s s' : State} {t xs c k ls rest} (hr : Reachable s) (hs : step s t (.create xs .success) = .ok s') (hc : s.cur t = some c)
    (hf : s.frames c = .user k ls .normal :: rest) :
    PTrace s [.make s.nextCtx, .jump t ⟨s.nextCtx, 0⟩ ⟨c, s.seq c + 1⟩, .jump t ⟨c, s.seq c + 1⟩ ⟨s.nextCtx, 1⟩] s' := by
  have hi := reachable_inv hr
  have ha : s.status s.nextCtx = .absent := (hi.ci.absent _).2 (Nat.le_refl _)
  have hcr := (hi.ci.curRun t c).1 hc
  have hcn : c ≠ s.nextCtx := fun h => by rw [h, ha] at hcr; cases hcr
  simp only [step, hc, hf, userStep] at hs
  split at hs
  · unfold State.doCreate at hs
    simp only at hs
    obtain ⟨s0, h0⟩ : ∃ s0, s0 = ({ s with nextCtx := s.nextCtx + 1 }.addLog (.alloc s.nextCtx)).capture s.nextCtx xs := ⟨_, rfl⟩
    rw [← h0] at hs
    have hco : Core s s0 := by
      rw [h0]; exact Core.trans (s' := { s with nextCtx := s.nextCtx + 1 }.addLog (.alloc s.nextCtx)) ⟨rfl, rfl, rfl⟩ (capture_core _ _ _)
    clear h0
    refine PTrace.core hco ?_
    have ha' : s0.status s.nextCtx = .absent := by rw [hco.status]; exact ha
    refine .cons (.make (n := s.nextCtx) (s' := { s0 with status := upd s0.status s.nextCtx .raw, seq := upd s0.seq s.nextCtx 0 }) ha' ⟨rfl, rfl, rfl⟩) ?_
    split at hs
    · cases hs
    · rename_i s1 b h
      have hj := h
      unfold State.jump State.switch at h
      rw [show ({ s0 with status := upd s0.status s.nextCtx .raw, seq := upd s0.seq s.nextCtx 0 } : State).cur t = some c by rw [hco.cur]; exact hc] at h
      simp only at h
      split at h
      · injection h with h; injection h with h1 hb
        have hb : b = ⟨c, s.seq c + 1⟩ := by rw [← hb]; simp [hcn, hco.seq]
        subst hb
        refine .cons (.jump hj (Core.rfl' s1)) ?_
        split at hs
        · cases hs
        · rename_i s2 f h
          obtain ⟨s3, h3, h4⟩ := switch_core (s := s1) (s1 := s1.setFrames s.nextCtx [.entryJump]) ⟨rfl, rfl, rfl⟩ h
          have hf : f = ⟨s.nextCtx, 1⟩ := by
            unfold State.switch at h3
            rw [show s1.cur t = some s.nextCtx by rw [← h1]; simp] at h3
            simp only at h3
            split at h3
            · injection h3 with h3; injection h3 with _ h3; rw [← h3, ← h1]; simp [Ne.symm hcn]
            · cases h3
          subst hf
          refine .cons (.jump (s1 := s3) (s' := s2) h3 h4) (.nil ?_)
          injection hs with hs; subst hs; exact ⟨rfl, rfl, rfl⟩
      · cases h
  · cases hs

/-- **C80**: the destructor of a non-empty handle begins with one call of `ontop_fcontext` with the stored context (if that context has nothing to unwind, the calls it makes in
order to end follow). -/
theorem C80_destroy_prims {s s' : State} {t x f c k ls rest} (hs : step s t (.drop x) = .ok s') (hc : s.cur t = some c) (hf : s.frames c = .user k ls .normal :: rest)
    (hx : s.val x = some f) : ∃ l, PTrace s (.ontop t f ⟨c, s.seq c + 1⟩ false :: l) s' := by
  have key : ∀ s1 : State, Core s s1 → s1.val x = some f → s1.destroyVar t c x = .ok s' → ∃ l, PTrace s (.ontop t f ⟨c, s.seq c + 1⟩ false :: l) s' := by
    intro s1 hco hv h
    unfold State.destroyVar at h
    rw [hv] at h
    simp only at h
    unfold State.destroyFctx at h
    simp only at h
    split at h
    · cases h
    · rename_i s2 b h2
      obtain ⟨s3, h3, h4⟩ := switch_core (s := s) (s1 := (s1.kill x).setFrames c (.dtor f.ctx :: (s1.kill x).frames c)) ⟨hco.cur, hco.status, hco.seq⟩ h2
      have hb : b = ⟨c, s.seq c + 1⟩ := by
        unfold State.switch at h3
        rw [hc] at h3
        simp only at h3
        split at h3
        · injection h3 with h3; injection h3 with _ h3; exact h3.symm
        · cases h3
      subst hb
      obtain ⟨l, hl⟩ := raiseForced_reaches _ _ _ _ s' h
      exact ⟨l, .cons (.ontop (fin := false) h3 h4) hl⟩
  simp only [step, hc, hf, userStep] at hs
  split at hs
  · exact key (s.setFrames c (.user k (ls.erase x) .normal :: rest)) ⟨rfl, rfl, rfl⟩ hx hs
  · split at hs
    · exact key _ (Core.rfl' _) hx hs
    · cases hs

end Verif.Link
