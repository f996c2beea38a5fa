import Verif.Link.Follow

/-!
# The library on the machine: what a resumed context finds (C80)
-/

namespace Verif.Link

open Verif.Asm Verif.Asm.Many
open Verif.Fiber (State Fctx Status Tid CtxId Op)

variable {A : Arch} {P : Port A}

/-- the machine in the beginning: thread 0 executes context 0, there are no other contexts -/
structure Start (X : Extra P) (c : Cfg A) : Prop where
  thr : c.thr = 0
  cur : c.cur = 0
  ctx : ∀ i, c.ctx i = none
  stk : ∀ a, c.stk 0 a → ¬ X.null a

/-- The machine has made the calls `l` of a sequence of library steps that leads from the initial state to `s`. -/
structure At (X : Extra P) (e : Env A) (W : Nat → A.W → Prop) (c : Cfg A) (E : Enc A) (s : State) : Prop where
  ex : ∃ c₀ E₀ l, Start X c₀ ∧ PTrace Fiber.init l s ∧ Follow X e W c₀ E₀ l c E

/-- **C80**, for a port.

The machine runs threads that make the calls the library makes, with the addresses of the handles.

`sync`: the machine has the contexts the handle-level model says it has: the same ones run, on the same threads, and the same ones are suspended; the addresses of the handles of
suspended contexts are those of their data.

`resume`: a context leaves, by a call in machine state `c₁.s` that gives up the handle `⟨i, q⟩` for it; any number of library steps happen, on any threads; somebody jumps to
this handle.  The context continues after its call with its stack pointer, return address and callee-saved registers, gets the address of the handle given up for the context that
resumed it, and that context's data, and its stack is as it was except for its frame and its result and what other contexts' code wrote.

`ontop`: likewise, with a function on top.

`start`: a context is made; any number of library steps happen; somebody jumps to its first handle: its function is entered on its stack, with the address of the handle given
up for the context that resumed it, and that context's data. -/
structure Spec (X : Extra P) (g : Env A → St A → A.W) : Prop where
  sync : ∀ {e W c E s}, At X e W c E s → Abs P e c s E
  resume : ∀ {e W c₁ c₂ c₃ c₄ E₁ E₂ E₃ E₄ s₁ s₂ s₃ s₄ p l t i q back}, At X e W c₁ E₁ s₁ → ((∃ u f, p = .jump u f ⟨i, q⟩) ∨ ∃ u f, p = .ontop u f ⟨i, q⟩ false) →
    PStep s₁ p s₂ → FStep X e c₁ E₁ p c₂ E₂ → PTrace s₂ l s₃ → Follow X e W c₂ E₂ l c₃ E₃ →
    PStep s₃ (.jump t ⟨i, q⟩ back) s₄ → FStep X e c₃ E₃ (.jump t ⟨i, q⟩ back) c₄ E₄ →
    c₁.cur = i ∧ c₄.cur = i ∧ c₄.s = (exec e P.jump c₃.s).1 ∧ P.Returned c₁.s c₄.s (exec e P.jump c₃.s).2 ∧
    P.resF c₁.s c₄.s = E₄ back ∧ P.resD c₁.s c₄.s = P.argD c₃.s ∧
    ∀ a, c₁.stk i a → c₄.s.mem a ≠ c₁.s.mem a → InR a (P.fctx c₁.s) P.frame ∨ P.slot c₁.s a ∨ ∃ k, k ≠ i ∧ W k a
  ontop : ∀ {e W c₁ c₂ c₃ c₄ E₁ E₂ E₃ E₄ s₁ s₂ s₃ s₄ p l t i q back fin}, At X e W c₁ E₁ s₁ → ((∃ u f, p = .jump u f ⟨i, q⟩) ∨ ∃ u f, p = .ontop u f ⟨i, q⟩ false) →
    PStep s₁ p s₂ → FStep X e c₁ E₁ p c₂ E₂ → PTrace s₂ l s₃ → Follow X e W c₂ E₂ l c₃ E₃ →
    PStep s₃ (.ontop t ⟨i, q⟩ back fin) s₄ → FStep X e c₃ E₃ (.ontop t ⟨i, q⟩ back fin) c₄ E₄ →
    c₁.cur = i ∧ c₄.cur = i ∧ c₄.s = (exec e P.ontop c₃.s).1 ∧ (exec e P.ontop c₃.s).2 = g e c₃.s ∧ P.CalledAs c₁.s c₄.s (E₄ back) (P.argD c₃.s) ∧
    ∀ a, c₁.stk i a → c₄.s.mem a ≠ c₁.s.mem a → InR a (P.fctx c₁.s) P.frame ∨ P.slot c₁.s a ∨ P.oarea c₁.s a ∨ ∃ k, k ≠ i ∧ W k a
  start : ∀ {e W c₁ c₂ c₃ c₄ E₁ E₂ E₃ E₄ s₁ s₂ s₃ s₄ l t n back}, At X e W c₁ E₁ s₁ → PStep s₁ (.make n) s₂ → FStep X e c₁ E₁ (.make n) c₂ E₂ → PTrace s₂ l s₃ →
    Follow X e W c₂ E₂ l c₃ E₃ → PStep s₃ (.jump t ⟨n, 0⟩ back) s₄ → FStep X e c₃ E₃ (.jump t ⟨n, 0⟩ back) c₄ E₄ →
    c₄.cur = n ∧ c₄.s = (P.enter e c₃.s).1 ∧ (P.enter e c₃.s).2 = P.argMFn c₁.s ∧ P.inF c₄.s = E₄ back ∧ P.inD c₄.s = P.argD c₃.s ∧ P.ra c₄.s = e P.finish ∧
    P.aligned (c₄.s.gpr P.sp) ∧ (c₄.s.gpr P.sp - P.resM c₂.s).toNat ≤ (P.argTop c₁.s - P.resM c₂.s).toNat ∧
    ∀ a, c₂.stk n a → c₄.s.mem a ≠ c₂.s.mem a → P.mslot (P.resM c₂.s) a ∨ ∃ k, k ≠ n ∧ W k a

variable {X : Extra P} {e : Env A}

theorem start_abs {c : Cfg A} (h : Start X c) (E : Enc A) : Abs P e c Fiber.init E ∧ Many.Reachable X e c := by
  obtain ⟨h1, h2, h3, h4⟩ := h
  refine ⟨⟨by rw [h1, h2]; rfl, fun t => ?_, fun i hi => ?_⟩, .init _ h3 (by rw [h2]; exact h4)⟩
  · rw [h1, h2]; simp only [Fiber.init]; split <;> simp [*]
  · rw [h2] at hi
    rw [h3]
    refine ⟨by simp [Fiber.init, hi], by simp [Fiber.init, hi], fun t => ?_⟩
    simp only [Fiber.init]; split <;> simp [Ne.symm hi]

theorem At.sync {g : Env A → St A → A.W} (hJ : P.JumpSpec) (hO : X.OntopS g) (hM : X.MakeS) {W c E s} (h : At X e W c E s) :
    Many.Reachable X e c ∧ Abs P e c s E := by
  obtain ⟨c0, E0, l, h1, h2, h3⟩ := h.ex
  obtain ⟨a1, a2⟩ := start_abs h1 E0
  obtain ⟨f1, f2, -⟩ := follow hJ hO hM h3 a2 a1 h2
  exact ⟨f1, f2⟩

/-- between the two calls nobody switches to the context -/
theorem between {g : Env A → St A → A.W} (hJ : P.JumpSpec) (hO : X.OntopS g) (hM : X.MakeS) {W : Nat → A.W → Prop} {c₁ c₂ c₃ : Cfg A} {E₁ E₂ E₃ s₁ s₂ s₃ p l i q}
    (hr : Many.Reachable X e c₁) (h : Abs P e c₁ s₁ E₁) (hp : (∃ u f, p = .jump u f ⟨i, q⟩) ∨ ∃ u f, p = .ontop u f ⟨i, q⟩ false)
    (h1 : PStep s₁ p s₂) (h2 : FStep X e c₁ E₁ p c₂ E₂) (h3 : PTrace s₂ l s₃) (h4 : Follow X e W c₂ E₂ l c₃ E₃) (hs : s₃.status i = .suspended ∨ s₃.status i = .raw)
    (hq : s₃.seq i = q) :
    c₁.cur = i ∧ (∃ a k, Step X e c₁ a c₂ ∧ (a = .jump k ∨ a = .ontop k)) ∧ Away X e i (fun a => ∃ k, k ≠ i ∧ W k a) c₂ c₃ ∧ Many.Reachable X e c₃ ∧ Abs P e c₃ s₃ E₃ := by
  obtain ⟨f1, f2, -⟩ := fstep hJ hO hM hr h h1 h2
  obtain ⟨g1, g2, g3⟩ := follow hJ hO hM h4 f1 f2 h3
  have key : ∀ (s' : State) t f b, s₁.switch t f .suspended b = some (s', ⟨i, q⟩) → t = c₁.thr → Core s' s₂ →
      c₁.cur = i ∧ s₂.status i = .suspended ∧ s₂.seq i = q := by
    intro s' t f b hs ht hc
    obtain ⟨k, k1, k2, k3, k4, k5, k6, k7⟩ := switch_cases hs
    subst ht
    have hkc : k = c₁.cur := by have := (h.cur c₁.thr).2 rfl; rw [k1] at this; injection this
    subst hkc
    injection k4 with k4 k4'
    have hne : f.ctx ≠ c₁.cur := fun hh => by
      rw [hh, h.st] at k2
      rcases k2 with h | h
      · cases h
      · cases h.2
    rw [hc.status, hc.seq, k6, k7, k4]
    simp [Fiber.upd, k4', Ne.symm hne]
  have main : c₁.cur = i ∧ (∃ a k, Step X e c₁ a c₂ ∧ (a = .jump k ∨ a = .ontop k)) ∧ s₂.status i = .suspended ∧ s₂.seq i = q := by
    rcases hp with ⟨u, f, rfl⟩ | ⟨u, f, rfl⟩
    · cases h1 with
      | jump hs hc =>
        cases h2 with
        | jump ha hk =>
          obtain ⟨c1, st, -⟩ := sim_jump hJ hO hM hr h hs ha hk
          have e1 : c1 = Many.switch c₁ f.ctx (landed P e c₁ f.ctx) := by
            cases st with
            | resume _ σ hx => rw [landed, hx]
            | start _ σ hx => rw [landed, hx]
          rw [e1] at st
          obtain ⟨k1, k2, k3⟩ := key _ _ _ _ hs rfl hc
          exact ⟨k1, ⟨_, _, st, .inl rfl⟩, k2, k3⟩
    · cases h1 with
      | ontop hs hc =>
        cases h2 with
        | ontop ha hk ho =>
          obtain ⟨c1, c2, σ, h0, st, -⟩ := sim_ontop hJ hO hM hr h hs ha hk ho
          have e1 : c1 = Many.switch c₁ f.ctx (exec e P.ontop c₁.s).1 := by cases st; rfl
          rw [e1] at st
          obtain ⟨k1, k2, k3⟩ := key _ _ _ _ hs rfl hc
          exact ⟨k1, ⟨_, _, st, .inr rfl⟩, k2, k3⟩
  obtain ⟨m1, ⟨a, k, st, hak⟩, m2, m3⟩ := main
  refine ⟨m1, ⟨a, k, st, hak⟩, (g3 i (by rw [m2]; simp)).2 ?_ ?_, g1, g2⟩
  · unfold age
    rw [m2, m3, hq]
    rcases hs with h | h <;> simp [h]
  · subst m1
    exact ⟨_, (leave hJ hO hM hr st hak).1, by intros; simp⟩

/-- **C80**, for every port whose routines meet their specifications -/
theorem C80_of_calls (X : Extra P) {g : Env A → St A → A.W} (hJ : P.JumpSpec) (hO : X.OntopS g) (hM : X.MakeS) : Spec X g where
  sync h := (h.sync hJ hO hM).2
  resume := by
    intro e W c₁ c₂ c₃ c₄ E₁ E₂ E₃ E₄ s₁ s₂ s₃ s₄ p l t i q back hat hp h1 h2 h3 h4 h5 h6
    obtain ⟨hr, h⟩ := hat.sync hJ hO hM
    cases h5 with
    | jump hs hc =>
      obtain ⟨k, k1, k2, k3, k4, k5, k6, k7⟩ := switch_cases hs
      obtain ⟨b1, ⟨a, j, b2, b2'⟩, b3, b4, b5⟩ := between hJ hO hM hr h hp h1 h2 h3 h4 (k2.imp id And.right) k3
      subst b1
      have hx : c₂.ctx c₁.cur = some (.susp c₁.s) := (leave hJ hO hM hr b2 b2').1
      obtain ⟨a1, -, -⟩ := away_susp hJ hO hM b3 (.step hr b2) hx (by intros; simp)
      cases h6 with
      | jump ha hk =>
        obtain ⟨c1, st, -⟩ := sim_jump hJ hO hM b4 b5 hs ha hk
        have e1 : c1 = Many.switch c₃ c₁.cur (landed P e c₃ c₁.cur) := by
          cases st with
          | resume _ σ hx => rw [landed, hx]
          | start _ σ hx => rw [landed, hx]
        rw [e1] at st
        obtain ⟨r1, r2, r3, r4, -, r6⟩ := round_trip hJ hO hM hr b2 b2' b3 st
        exact ⟨rfl, rfl, r1, r2, by rw [r3]; simp [Enc.set], r4, r6⟩
  ontop := by
    intro e W c₁ c₂ c₃ c₄ E₁ E₂ E₃ E₄ s₁ s₂ s₃ s₄ p l t i q back fin hat hp h1 h2 h3 h4 h5 h6
    obtain ⟨hr, h⟩ := hat.sync hJ hO hM
    cases h5 with
    | ontop hs hc =>
      obtain ⟨k, k1, k2, k3, k4, k5, k6, k7⟩ := switch_cases hs
      obtain ⟨b1, ⟨a, j, b2, b2'⟩, b3, b4, b5⟩ := between hJ hO hM hr h hp h1 h2 h3 h4 (k2.imp id And.right) k3
      subst b1
      have hat : t = c₃.thr := by cases h6 <;> rfl
      subst hat
      have ha : P.argF c₃.s = E₃ ⟨c₁.cur, q⟩ := by cases h6 <;> assumption
      have hk : CallOk X c₃ := by cases h6 <;> assumption
      have ho : X.oot := by cases h6 <;> assumption
      obtain ⟨c1, c2, σ, -, st, -⟩ := sim_ontop hJ hO hM b4 b5 hs ha hk ho
      have e1 : c1 = Many.switch c₃ c₁.cur (exec e P.ontop c₃.s).1 := by cases st; rfl
      rw [e1] at st
      obtain ⟨r1, r2, r3, r6⟩ := round_trip_ontop hJ hO hM hr b2 b2' b3 st
      cases h6 with
      | ontop _ _ _ => exact ⟨rfl, rfl, r1, r2, by rw [show E₃.set back (P.fctx c₃.s) back = P.fctx c₃.s by simp [Enc.set]]; exact r3, r6⟩
      | last _ _ _ => exact ⟨rfl, rfl, r1, r2, by rw [show E₃.set back (P.fctx c₃.s) back = P.fctx c₃.s by simp [Enc.set]]; exact r3, r6⟩
  start := by
    intro e W c₁ c₂ c₃ c₄ E₁ E₂ E₃ E₄ s₁ s₂ s₃ s₄ l t n back hat h1 h2 h3 h4 h5 h6
    obtain ⟨hr, h⟩ := hat.sync hJ hO hM
    obtain ⟨f1, f2, -⟩ := fstep hJ hO hM hr h h1 h2
    obtain ⟨g1, g2, g3⟩ := follow hJ hO hM h4 f1 f2 h3
    cases h1 with
    | make ha hc =>
      cases h5 with
      | jump hs hc' =>
        obtain ⟨k, k1, k2, k3, -⟩ := switch_cases hs
        have k3 : s₃.seq n = 0 := k3
        have k2 : s₃.status n = .suspended ∨ s₃.status n = .raw := k2.imp id And.right
        have st : Step X e c₁ (.make n) c₂ ∧ c₂.ctx n = some (.fresh c₁.s) := by
          cases h2 with
          | make R m1 m2 m3 m4 m5 =>
            have hn : n ≠ c₁.cur := fun hh => by rw [hh, h.st] at ha; cases ha
            have hcx : c₁.ctx n = none := by
              have := h.ctx n hn
              revert this
              cases c₁.ctx n with
              | none => exact fun _ => rfl
              | some x => cases x <;> intro this <;> exact absurd (this.1.symm.trans ha) (by simp)
            exact ⟨Step.make (X := X) (e := e) (c := c₁) n R (fun hl => hl.elim hn (fun hl => hl hcx)) m1 m2 m3 m4 m5, by simp⟩
        have aw := (g3 n (by rw [hc.status]; simp [Fiber.upd])).2 (by
          unfold age
          rw [hc.status, hc.seq, k3]
          rcases k2 with h | h <;> simp [Fiber.upd, h]) ⟨_, st.2, by intros; simp⟩
        cases h6 with
        | jump ha hk =>
          obtain ⟨c1, st', -⟩ := sim_jump hJ hO hM g1 g2 hs ha hk
          have e1 : c1 = Many.switch c₃ n (landed P e c₃ n) := by
            cases st' with
            | resume _ σ hx => rw [landed, hx]
            | start _ σ hx => rw [landed, hx]
          rw [e1] at st'
          obtain ⟨r1, -, r3, r4, r5, r6, r7, r8, r9⟩ := Many.first hJ hO hM hr st.1 aw st'
          exact ⟨rfl, r1, r3, by rw [r4]; simp [Enc.set], r5, r6, r7, r8, r9⟩

/-- **C80**, for every port whose routines meet their specifications for all calls -/
theorem C80_of_specs (X : Extra P) {g : Env A → St A → A.W} (hJ : P.JumpSpec) (hO : P.OntopSpecTo g) (hM : P.MakeSpec) : Spec X g :=
  C80_of_calls X hJ (fun _ => hO) (fun e σ _ => hM e σ)

/-- **C80**, from `resume()` to `resume()`: after a history `h` of the library, context `i` resumes a fiber, by a call of `jump_fcontext` in machine state `c₁.s`; then any other
history `h'` happens; then context `k` resumes a fiber object that contains the handle given up for `i`.  On the machine the first call returns, with the registers and the stack it
was made with, and the handle it returns is the address of the one given up for `k`. -/
theorem C80_resume_returns {X : Extra P} {g : Env A → St A → A.W} (S : Spec X g) {e : Env A} {W : Nat → A.W → Prop} {s₁ s₂ s₃ s₄ : State} {c₁ c₂ c₃ c₄ : Cfg A}
    {E₁ E₂ E₃ E₄ : Enc A} {t u x y f i k ki ls rest kk ls' rest' l} (h h' : List (Tid × Op))
    (hh : Fiber.run Fiber.init h = .ok s₁) (hat : At X e W c₁ E₁ s₁)
    (o₁ : Fiber.step s₁ t (.resume x) = .ok s₂) (hc₁ : s₁.cur t = some i) (hf₁ : s₁.frames i = .user ki ls .normal :: rest) (hx : s₁.val x = some f)
    (m₁ : FStep X e c₁ E₁ (.jump t f ⟨i, s₁.seq i + 1⟩) c₂ E₂)
    (hh' : Fiber.run s₂ h' = .ok s₃) (hl : PTrace s₂ l s₃) (m₂ : Follow X e W c₂ E₂ l c₃ E₃)
    (o₂ : Fiber.step s₃ u (.resume y) = .ok s₄) (hc₂ : s₃.cur u = some k) (hf₂ : s₃.frames k = .user kk ls' .normal :: rest') (hy : s₃.val y = some ⟨i, s₁.seq i + 1⟩)
    (m₃ : FStep X e c₃ E₃ (.jump u ⟨i, s₁.seq i + 1⟩ ⟨k, s₃.seq k + 1⟩) c₄ E₄) :
    s₄.cur u = some i ∧ c₄.cur = i ∧ P.Returned c₁.s c₄.s (exec e P.jump c₃.s).2 ∧ P.resF c₁.s c₄.s = E₄ ⟨k, s₃.seq k + 1⟩ ∧
    ∀ a, c₁.stk i a → c₄.s.mem a ≠ c₁.s.mem a → InR a (P.fctx c₁.s) P.frame ∨ P.slot c₁.s a ∨ ∃ j, j ≠ i ∧ W j a := by
  have _ := hh
  have _ := hh'
  have p₁ := C80_resume_prims o₁ hc₁ hf₁ hx
  have p₂ := C80_resume_prims o₂ hc₂ hf₂ hy
  cases p₁ with
  | cons p₁ q₁ =>
    cases p₂ with
    | cons p₂ q₂ =>
      cases q₁ with
      | nil q₁ =>
        cases q₂ with
        | nil q₂ =>
          obtain ⟨r1, r2, r3, r4, r5, r6, r7⟩ := S.resume hat (.inl ⟨t, f, rfl⟩) p₁ m₁ (hl.core q₁) m₂ p₂ m₃
          refine ⟨?_, r2, r4, r5, r7⟩
          cases p₂ with
          | jump hs hc =>
            obtain ⟨_, -, -, -, -, k5, -⟩ := switch_cases hs
            rw [q₂.cur, hc.cur, k5]
            simp [Fiber.upd]

/-- **C80**, `operator<` and `operator bool` (`fiber_fcontext.hpp` 349-360 compare the addresses): the handles of different contexts that wait to be resumed have different
addresses, and none is null if the address 0 belongs to no stack. -/
theorem C80_addresses {X : Extra P} {g : Env A → St A → A.W} (hJ : P.JumpSpec) (hO : X.OntopS g) (hM : X.MakeS) (h0 : 0 < X.fp) (h1 : 0 < P.mkeep) {e : Env A} {W c E s}
    (hat : At X e W c E s) {i : Nat} (hi : s.status i = .suspended ∨ s.status i = .raw) :
    ((∀ k, ¬ c.stk k 0#_) → E ⟨i, s.seq i⟩ ≠ 0#_) ∧ ∀ j, i ≠ j → (s.status j = .suspended ∨ s.status j = .raw) → E ⟨i, s.seq i⟩ ≠ E ⟨j, s.seq j⟩ := by
  obtain ⟨hr, h⟩ := hat.sync hJ hO hM
  have hinv := inv_reachable hJ hO hM hr
  have key : ∀ k, (s.status k = .suspended ∨ s.status k = .raw) → live c k ∧ c.stk k (E ⟨k, s.seq k⟩) := by
    intro k hk
    have hkc : k ≠ c.cur := fun hh => by
      rw [hh, h.st] at hk
      rcases hk with h | h <;> cases h
    have hx := h.ctx k hkc
    cases hcx : c.ctx k with
    | none => rw [hcx] at hx; rcases hk with h | h; exact absurd h hx.1; exact absurd h hx.2.1
    | some x =>
      rw [hcx] at hx
      refine ⟨.inr (by rw [hcx]; simp), ?_⟩
      cases x with
      | par t g q => rw [show s.status k = .running t from hx.1] at hk; rcases hk with h | h <;> cases h
      | susp σ =>
        rw [hx.2.1]
        refine (hinv.susp k σ hcx).foot _ ?_
        unfold InR
        rw [BitVec.sub_self]; exact h0
      | fresh σ =>
        rw [hx.2.1]
        refine (hinv.fresh k σ hcx).foot _ ?_
        unfold InR
        rw [BitVec.sub_self]; exact h1
  obtain ⟨l1, l2⟩ := key i hi
  refine ⟨fun hz hh => hz i (hh ▸ l2), fun j hij hj hh => ?_⟩
  obtain ⟨l3, l4⟩ := key j hj
  exact hinv.disj i j _ l1 l3 hij l2 (hh ▸ l4)

/-- A machine that executes the calls of the construction of a fiber exists, and so do the steps of the library. -/
theorem inhabited_of {X : Extra P} (hM : X.MakeS) (C : Calls X) (e : Env A) : ∃ s c c₁ c₂ E E₁ E₂, Fiber.run Fiber.init [(0, .create [] .success)] = .ok s ∧
    (∃ s₁, At X e (fun _ _ => True) c E s₁ ∧ ∃ s₂, PStep s₁ (.jump 0 ⟨1, 0⟩ ⟨0, 1⟩) s₂ ∧ FStep X e c E (.jump 0 ⟨1, 0⟩ ⟨0, 1⟩) c₁ E₁ ∧
      ∃ c₁' E₁', Follow X e (fun _ _ => True) c₁ E₁ [] c₁' E₁' ∧ PStep s₂ (.jump 0 ⟨0, 1⟩ ⟨1, 1⟩) s ∧ FStep X e c₁' E₁' (.jump 0 ⟨0, 1⟩ ⟨1, 1⟩) c₂ E₂) ∧
    At X e (fun _ _ => True) c₂ E₂ s ∧ ∀ i, ¬ c₂.stk i 0#_ := by
  obtain ⟨b₀, b₁, c₀, c₁, c₂, c₃, ⟨h1, h2, h3, h4⟩, s1, s2, s3, s4, s5, h, hz⟩ := there_and_back hM C e
  obtain ⟨s, hs⟩ : ∃ s, Fiber.run Fiber.init [(0, .create [] .success)] = .ok s := ⟨_, rfl⟩
  have hst : Fiber.step Fiber.init 0 (.create [] .success) = .ok s := by
    rw [Fiber.run] at hs
    split at hs
    · rename_i hq; injection hs with hs; rw [hq, hs]
    · exact absurd hs (by rename_i hq; exact hq _)
  have pt := C80_create_prims .init hst rfl rfl
  have hst0 : Start X b₀ := ⟨h1, h2, h3, h4⟩
  have f1 : FStep X e b₀ (fun _ => 0#_) (.make 1) b₁ (Enc.set (fun _ => 0#_) ⟨1, 0⟩ (P.resM (exec e P.make b₀.s).1)) := by
    cases s1 with
    | make _ R m1 m2 m3 m4 m5 m6 => exact .make R m2 m3 m4 m5 m6
  have x1 : b₁.ctx = fun k => if k = 1 then some (.fresh b₀.s) else none := by
    cases s1 with
    | make _ R m1 m2 m3 m4 m5 m6 => funext k; simp only [h3]
  have t1 : b₁.thr = 0 ∧ b₁.cur = 0 := by cases s1; exact ⟨h1, h2⟩
  have x2 : c₀.ctx = fun k => if k = 1 then some (.fresh b₀.s) else none := by cases s2; exact x1
  have t2 : c₀.thr = 0 ∧ c₀.cur = 0 := by cases s2; exact t1
  have f2 : FStep X e c₀ (Enc.set (fun _ => 0#_) ⟨1, 0⟩ (P.resM (exec e P.make b₀.s).1)) (.jump c₀.thr ⟨1, 0⟩ ⟨0, 1⟩) c₁
      ((Enc.set (fun _ => 0#_) ⟨1, 0⟩ (P.resM (exec e P.make b₀.s).1)).set ⟨0, 1⟩ (P.fctx c₀.s)) := by
    cases s3 with
    | resume _ σ hx => rw [x2] at hx; simp at hx
    | start _ σ hx ha hc =>
      have hσ : b₀.s = σ := by rw [x2] at hx; simpa using hx
      subst hσ
      have := FStep.jump (X := X) (e := e) (E := Enc.set (fun _ => 0#_) ⟨1, 0⟩ (P.resM (exec e P.make b₀.s).1)) (f := ⟨1, 0⟩) (back := ⟨0, 1⟩)
        (by rw [ha]; simp [Enc.set]) hc
      simp only [landed, hx] at this
      exact this
  have x3 : c₁.ctx = fun k => if k = 0 then some (.susp c₀.s) else none := by
    have : ∀ s, (Many.switch c₀ 1 s).ctx = fun k => if k = 0 then some (.susp c₀.s) else none := by
      intro s
      funext k
      simp only [Many.switch, t2.2, x2]
      by_cases hk : k = 0
      · simp [hk]
      · by_cases hk1 : k = 1 <;> simp [hk, hk1]
    cases s3 <;> exact this _
  have t3 : c₁.thr = 0 ∧ c₁.cur = 1 := by cases s3 <;> exact ⟨t2.1, rfl⟩
  have x4 : c₂.ctx = fun k => if k = 0 then some (.susp c₀.s) else none := by cases s4; exact x3
  have t4 : c₂.thr = 0 ∧ c₂.cur = 1 := by cases s4; exact t3
  rw [t2.2] at s5
  have f3 : FStep X e c₂ ((Enc.set (fun _ => 0#_) ⟨1, 0⟩ (P.resM (exec e P.make b₀.s).1)).set ⟨0, 1⟩ (P.fctx c₀.s)) (.jump c₂.thr ⟨0, 1⟩ ⟨1, 1⟩) c₃
      (((Enc.set (fun _ => 0#_) ⟨1, 0⟩ (P.resM (exec e P.make b₀.s).1)).set ⟨0, 1⟩ (P.fctx c₀.s)).set ⟨1, 1⟩ (P.fctx c₂.s)) := by
    cases s5 with
    | start _ σ hx => rw [x4] at hx; simp at hx
    | resume _ σ hx ha hc =>
      have hσ : c₀.s = σ := by rw [x4] at hx; simpa using hx
      subst hσ
      have := FStep.jump (X := X) (e := e) (E := (Enc.set (fun _ => 0#_) ⟨1, 0⟩ (P.resM (exec e P.make b₀.s).1)).set ⟨0, 1⟩ (P.fctx c₀.s)) (f := ⟨0, 1⟩) (back := ⟨1, 1⟩)
        (by rw [ha]; simp [Enc.set]) hc
      simp only [landed, hx] at this
      exact this
  rw [t2.1] at f2
  rw [t4.1] at f3
  have triv : ∀ (c c' : Cfg A), ∀ a, c'.s.mem a ≠ c.s.mem a → (fun (_ : Nat) (_ : A.W) => True) c.cur a := fun _ _ _ _ => trivial
  have pt : PTrace Fiber.init [.make 1, .jump 0 ⟨1, 0⟩ ⟨0, 1⟩, .jump 0 ⟨0, 1⟩ ⟨1, 1⟩] s := pt
  have pt0 := pt
  cases pt with
  | cons p1 pt =>
    cases pt with
    | cons p2 pt =>
      cases pt with
      | cons p3 pt =>
        cases pt with
        | nil q =>
          rename_i u1 u2 u3
          have p3' : PStep u2 (.jump 0 ⟨0, 1⟩ ⟨1, 1⟩) s := by
            cases p3 with
            | jump a b => exact .jump a (b.trans q)
          refine ⟨s, c₀, c₁, c₃, _, _, _, hs, ⟨u1, ⟨b₀, _, [.make 1], hst0, .cons p1 (.nil (Core.rfl' _)), .call f1 (.run s2 (triv _ _) .nil)⟩, u2, p2, f2, c₂, _,
            .run s4 (triv _ _) .nil, p3', f3⟩, ⟨b₀, _, _, hst0, pt0, .call f1 (.run s2 (triv _ _) (.call f2 (.run s4 (triv _ _) (.call f3 .nil))))⟩, hz⟩

theorem inhabited {X : Extra P} (hM : P.MakeSpec) (C : Calls X) (e : Env A) : ∃ s c c₁ c₂ E E₁ E₂, Fiber.run Fiber.init [(0, .create [] .success)] = .ok s ∧
    (∃ s₁, At X e (fun _ _ => True) c E s₁ ∧ ∃ s₂, PStep s₁ (.jump 0 ⟨1, 0⟩ ⟨0, 1⟩) s₂ ∧ FStep X e c E (.jump 0 ⟨1, 0⟩ ⟨0, 1⟩) c₁ E₁ ∧
      ∃ c₁' E₁', Follow X e (fun _ _ => True) c₁ E₁ [] c₁' E₁' ∧ PStep s₂ (.jump 0 ⟨0, 1⟩ ⟨1, 1⟩) s ∧ FStep X e c₁' E₁' (.jump 0 ⟨0, 1⟩ ⟨1, 1⟩) c₂ E₂) ∧
    At X e (fun _ _ => True) c₂ E₂ s ∧ ∀ i, ¬ c₂.stk i 0#_ :=
  inhabited_of (fun e σ _ => hM e σ) C e

end Verif.Link
