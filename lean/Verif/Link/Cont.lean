import Verif.Link.Round
import Verif.Cont.Props

/-!
# `continuation` as a sequence of calls of the low-level routines (C80)

With the refinement of the fiber model (C21) the calls of the fiber model are those of the model of `continuation_fcontext.hpp`.
-/

namespace Verif.Link

open Verif.Cont
open Verif.Fiber (Tid Var Fctx CtxId UKind)

theorem fiber_run_prims (h : List (Tid × Fiber.Op)) : ∀ {s s' : Fiber.State}, Fiber.Reachable s → Fiber.run s h = .ok s' → ∃ l, PTrace s l s' := by
  induction h with
  | nil => intro s s' _ hs; injection hs with hs; subst hs; exact ⟨[], .nil (Core.rfl' _)⟩
  | cons p h ih =>
    intro s s' hr hs
    obtain ⟨t, op⟩ := p
    rw [Fiber.run] at hs
    split at hs
    · rename_i s1 h1
      obtain ⟨l1, a1⟩ := C80_step_prims hr h1
      obtain ⟨l2, a2⟩ := ih (.step hr h1) hs
      exact ⟨l1 ++ l2, a1.append a2⟩
    · rename_i r h1
      exact absurd hs (h1 s')

/-- **C80**: every step of `continuation` is a sequence of calls of the low-level routines. -/
theorem C80_cont_step_prims {s s' : State} {t op} (hr : Reachable s) (hs : step s t op = .ok s') : ∃ l, PTrace s.abs l s'.abs := by
  have := C21_step_refines (op := op) (t := t) hr (lvalue_not_ok hs) (by rw [hs]; simp)
  rw [hs] at this
  exact fiber_run_prims _ (reachable_spec hr).2 this

/-- **C80**: so is every history. -/
theorem C80_cont_history_prims {h : List (Tid × Op)} {s : State} (hr : run init h = .ok s) : ∃ l, PTrace Fiber.init l s.abs := by
  obtain ⟨h', hh⟩ := C21_history_refines hr
  exact C80_history_prims h' _ hh

/-- the result of a history of one fiber operation -/
theorem run_one {s s' : Fiber.State} {t op} (h : Fiber.run s [(t, op)] = .ok s') : Fiber.step s t op = .ok s' := by
  rw [Fiber.run] at h
  split at h
  · rename_i hq; injection h with h; rw [hq, h]
  · rename_i hq; exact absurd h (hq _)

/-- **C80**: `resume` of a non-empty continuation is one call of `jump_fcontext` with the stored context. -/
theorem C80_cont_resume_prims {s s' : State} {t x f c k ls rest} (hr : Reachable s) (hs : step s t (.resume x) = .ok s') (hu : UserCode s t c k ls rest) (hx : s.val x = some f) :
    PTrace s.abs [.jump t f ⟨c, s.seq c + 1⟩] s'.abs := by
  have := C21_step_refines (op := .resume x) (t := t) hr rfl (by rw [hs]; simp)
  rw [hs] at this
  exact C80_resume_prims (run_one this) hu.1 (by show (s.frames c).map Frame.abs = _; rw [hu.2]; rfl) hx

/-- **C80**: `resume_with` of a non-empty continuation is one call of `ontop_fcontext` with the stored context. -/
theorem C80_cont_resume_with_prims {s s' : State} {t x f c k ls rest lv} (hr : Reachable s) (hs : step s t (.resumeWith x lv) = .ok s') (hu : UserCode s t c k ls rest)
    (hx : s.val x = some f) : PTrace s.abs [.ontop t f ⟨c, s.seq c + 1⟩ false] s'.abs := by
  have := C21_step_refines (op := .resumeWith x lv) (t := t) hr (lvalue_not_ok hs) (by rw [hs]; simp)
  rw [hs] at this
  exact C80_resume_with_prims (run_one this) hu.1 (by show (s.frames c).map Frame.abs = _; rw [hu.2]; rfl) hx

theorem capture_nextVar (s : Fiber.State) (n : CtxId) (xs : List Var) : (s.capture n xs).nextVar = s.nextVar + xs.length := by
  induction xs generalizing s with
  | nil => rfl
  | cons x xs ih =>
    rw [Fiber.State.capture]
    simp only [ih]
    show s.nextVar + 1 + xs.length = s.nextVar + (xs.length + 1)
    omega

/-- **C80**: `callcc` is one call of `make_fcontext`, a switch to the new context, a switch back (`continuation_fcontext.hpp` 170-211), and the switch that enters the function. -/
theorem C80_callcc_prims {s s' : State} {t xs c k ls rest} (hr : Reachable s) (hs : step s t (.callcc xs .success) = .ok s') (hu : UserCode s t c k ls rest) :
    PTrace s.abs [.make s.nextCtx, .jump t ⟨s.nextCtx, 0⟩ ⟨c, s.seq c + 1⟩, .jump t ⟨c, s.seq c + 1⟩ ⟨s.nextCtx, 1⟩, .jump t ⟨s.nextCtx, 1⟩ ⟨c, s.seq c + 2⟩] s'.abs := by
  have hF := (reachable_spec hr).2
  have hi := Fiber.reachable_inv hF
  have hf : s.abs.frames c = .user k ls .normal :: Cont.absL rest := by show (s.frames c).map Frame.abs = _; rw [hu.2]; rfl
  have := C21_callcc_refines (xs := xs) (t := t) hr (by rw [hs]; simp)
  rw [hs] at this
  rw [Fiber.run] at this
  split at this
  · rename_i s1 h1
    have p1 := C80_create_prims hF h1 hu.1 hf
    have h2 := run_one this
    have hn : c ≠ s.nextCtx := by
      have h3 := (hi.ci.curRun t c).1 hu.1
      have h4 := (hi.ci.absent s.abs.nextCtx).2 (Nat.le_refl _)
      intro h; rw [h, show s.nextCtx = s.abs.nextCtx from rfl, h4] at h3; cases h3
    have hs1 : s1.cur t = some c ∧ s1.frames c = .user k ((s.nextVar + xs.length) :: ls) .normal :: Cont.absL rest ∧
        s1.val (s.nextVar + xs.length) = some ⟨s.nextCtx, 1⟩ ∧ s1.seq c = s.seq c + 1 := by
      simp only [Fiber.step, show s.abs.cur t = some c from hu.1, hf, Fiber.userStep] at h1
      split at h1
      · rw [Fiber.doCreate_eq hi hu.1] at h1
        injection h1 with h1
        have hcap := Fiber.capture_same ({ s.abs with nextCtx := s.abs.nextCtx + 1 }.addLog (.alloc s.abs.nextCtx)) s.abs.nextCtx xs
        have hnv := capture_nextVar ({ s.abs with nextCtx := s.abs.nextCtx + 1 }.addLog (.alloc s.abs.nextCtx)) s.abs.nextCtx xs
        obtain ⟨u, hu'⟩ : ∃ u, u = ({ s.abs with nextCtx := s.abs.nextCtx + 1 }.addLog (.alloc s.abs.nextCtx)).capture s.abs.nextCtx xs := ⟨_, rfl⟩
        rw [← hu'] at h1 hcap hnv
        have e1 : u.cur = s.cur := hcap.1
        have e2 : u.seq = s.seq := hcap.2.2.1
        have e3 : u.nextVar = s.nextVar + xs.length := hnv
        rw [← h1]
        refine ⟨?_, ?_, ?_, ?_⟩
        · show u.cur t = some c
          rw [e1]; exact hu.1
        · show Fiber.upd _ c (Fiber.Frame.user k (u.nextVar :: ls) .normal :: _) c = _
          rw [e3]; simp [Fiber.upd]
        · show Fiber.upd u.val u.nextVar (some ⟨s.nextCtx, 1⟩) (s.nextVar + xs.length) = _
          rw [e3]; simp [Fiber.upd]
        · show Fiber.upd (Fiber.upd u.seq s.nextCtx 1) c (u.seq c + 1) c = _
          rw [e2]; simp [Fiber.upd]
      · cases h1
    have p2 := C80_resume_prims h2 hs1.1 hs1.2.1 hs1.2.2.1
    rw [hs1.2.2.2] at p2
    exact p1.append p2
  · rename_i r h1
    exact absurd this (h1 _)

section
open Verif.Asm Verif.Asm.Many
variable {A : Arch} {P : Port A}

/-- **C80**, from `callcc()` to `resume()`: after a history `h`, context `i` calls `callcc`; the call of `jump_fcontext` that enters the function is made in machine state `c₁.s`; any
other history `h'` happens; then context `k` resumes a continuation that contains the handle given up for `i`.  On the machine the call of `i` returns, with the registers and the
stack it was made with, and the handle it returns is the address of the one given up for `k`. -/
theorem C80_callcc_returns {X : Extra P} {g : Env A → St A → A.W} (S : Spec X g) {e : Env A} {W : Nat → A.W → Prop} {s₀ s₂ s₃ s₄ : State} {c₀ c₁ c₂ c₃ c₄ : Cfg A}
    {E₀ E₁ E₂ E₃ E₄ : Enc A} {t u xs y i k ki ls rest kk ls' rest' l} (h h' : List (Tid × Op))
    (hh : run init h = .ok s₀) (hat : At X e W c₀ E₀ s₀.abs)
    (o₁ : step s₀ t (.callcc xs .success) = .ok s₂) (hu₁ : UserCode s₀ t i ki ls rest)
    (m₁ : Follow X e W c₀ E₀ [.make s₀.nextCtx, .jump t ⟨s₀.nextCtx, 0⟩ ⟨i, s₀.seq i + 1⟩, .jump t ⟨i, s₀.seq i + 1⟩ ⟨s₀.nextCtx, 1⟩] c₁ E₁)
    (m₁' : FStep X e c₁ E₁ (.jump t ⟨s₀.nextCtx, 1⟩ ⟨i, s₀.seq i + 2⟩) c₂ E₂)
    (hh' : run s₂ h' = .ok s₃) (hl : PTrace s₂.abs l s₃.abs) (m₂ : Follow X e W c₂ E₂ l c₃ E₃)
    (o₂ : step s₃ u (.resume y) = .ok s₄) (hu₂ : UserCode s₃ u k kk ls' rest') (hy : s₃.val y = some ⟨i, s₀.seq i + 2⟩)
    (m₃ : FStep X e c₃ E₃ (.jump u ⟨i, s₀.seq i + 2⟩ ⟨k, s₃.seq k + 1⟩) c₄ E₄) :
    c₁.cur = i ∧ c₄.cur = i ∧ P.Returned c₁.s c₄.s (exec e P.jump c₃.s).2 ∧ P.resF c₁.s c₄.s = E₄ ⟨k, s₃.seq k + 1⟩ ∧
    ∀ a, c₁.stk i a → c₄.s.mem a ≠ c₁.s.mem a → InR a (P.fctx c₁.s) P.frame ∨ P.slot c₁.s a ∨ ∃ j, j ≠ i ∧ W j a := by
  have reach : ∀ (h : List (Tid × Op)) {s s' : State}, Reachable s → run s h = .ok s' → Reachable s' := by
    intro h
    induction h with
    | nil => intro s s' hr hs; injection hs with hs; subst hs; exact hr
    | cons p h ih =>
      intro s s' hr hs
      obtain ⟨t, op⟩ := p
      rw [run] at hs
      split at hs
      · rename_i h1; exact ih (.step hr h1) hs
      · rename_i h1; exact absurd hs (h1 _)
  have r₀ := reach h .init hh
  have r₃ := reach h' (.step r₀ o₁) hh'
  have p₁ := C80_callcc_prims r₀ o₁ hu₁
  have p₂ := C80_cont_resume_prims r₃ o₂ hu₂ hy
  obtain ⟨b0, B0, l0, a1, a2, a3⟩ := hat.ex
  cases p₁ with
  | cons q₁ p₁ =>
    cases p₁ with
    | cons q₂ p₁ =>
      cases p₁ with
      | cons q₃ p₁ =>
        cases p₁ with
        | cons q₄ p₁ =>
          cases p₁ with
          | nil q₅ =>
            cases p₂ with
            | cons p₂ q₆ =>
              have hat' : At X e W c₁ E₁ _ := ⟨b0, B0, _, a1, a2.append (.cons q₁ (.cons q₂ (.cons q₃ (.nil (Core.rfl' _))))), a3.append m₁⟩
              obtain ⟨r1, r2, r3, r4, r5, r6, r7⟩ := S.resume hat' (.inl ⟨t, _, rfl⟩) q₄ m₁' (hl.core q₅) m₂ p₂ m₃
              exact ⟨r1, r2, r4, r5, r7⟩

end

/-- a call of `callcc` -/
example : ∃ s', step init 0 (.callcc [] .success) = .ok s' ∧ UserCode init 0 0 .main [] [] ∧
    PTrace init.abs [.make 1, .jump 0 ⟨1, 0⟩ ⟨0, 1⟩, .jump 0 ⟨0, 1⟩ ⟨1, 1⟩, .jump 0 ⟨1, 1⟩ ⟨0, 2⟩] s'.abs :=
  by
  obtain ⟨s', hs⟩ : ∃ s', step init 0 (.callcc [] .success) = .ok s' := ⟨_, rfl⟩
  exact ⟨s', hs, ⟨rfl, rfl⟩, C80_callcc_prims .init hs ⟨rfl, rfl⟩⟩

end Verif.Link
