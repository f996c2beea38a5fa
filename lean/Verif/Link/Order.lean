import Verif.Link.Round
import Verif.Fiber.Props1

/-!
# Comparison of `fiber` objects (C90)

`operator bool`, `operator!`, `operator<` and `operator<<` of `fiber` (`fiber_fcontext.hpp` 349-373) and `continuation` (`continuation_fcontext.hpp` 344-364) work on the stored
`fcontext_t`, a machine address.  On the machine of C80 these addresses are those of the data of the suspended contexts.
-/

namespace Verif.Link

open Verif.Asm Verif.Asm.Many
open Verif.Fiber (State Fctx Status Tid CtxId Op Var)

variable {A : Arch} {P : Port A}

/-- member `fctx_` (`fiber_fcontext.hpp` 264) of object `x` as a machine word -/
def word (E : Enc A) (s : State) (x : Var) : A.W :=
  match s.val x with
  | none => 0#_
  | some f => E f

/-- `explicit operator bool` (`fiber_fcontext.hpp` 349-351) -/
def toBool (E : Enc A) (s : State) (x : Var) : Bool := 0#_ != word E s x

/-- `operator!` (353-355) -/
def isEmpty (E : Enc A) (s : State) (x : Var) : Bool := 0#_ == word E s x

/-- `operator<` (357-359): built-in comparison of pointers -/
def less (E : Enc A) (s : State) (x y : Var) : Bool := (word E s x).ult (word E s y)

/-- what `operator<<` writes (363-373): a pointer, or the text `{not-a-context}` -/
inductive Output (A : Arch)
  | pointer (w : A.W)
  | notAContext

/-- `operator<<` (363-373) -/
def output (E : Enc A) (s : State) (x : Var) : Output A := if 0#_ ≠ word E s x then .pointer (word E s x) else .notAContext

/-- **C90**, for a port.  In every reachable state `s`, on every machine that has made its calls, none of whose stacks contains address 0:

`bool`: `operator bool` tells whether the object holds a handle (and `operator!` the opposite).

`total`: two distinct objects that hold handles are never equivalent: exactly one is less than the other.

`empty`: an empty object is less than every object that holds a handle; two empty objects are equivalent.

`trans`: the order is transitive.

`printed`: an object that holds a handle is printed as a pointer, different objects as different pointers; an empty object as `{not-a-context}`.

`stable`: as long as two objects keep what they hold, their order does not change, whatever the program does. -/
structure OrderSpec (X : Extra P) : Prop where
  bool : ∀ {e W c E s} (_ : Fiber.Reachable s), At X e W c E s → (∀ i, live c i → ¬ c.stk i 0#_) → ∀ x,
    (toBool E s x = true ↔ ∃ f, s.val x = some f) ∧ (isEmpty E s x = true ↔ s.val x = none)
  total : ∀ {e W c E s} (_ : Fiber.Reachable s), At X e W c E s → ∀ x y f g, x ≠ y → s.val x = some f → s.val y = some g →
    less E s x y = !less E s y x
  empty : ∀ {e W c E s} (_ : Fiber.Reachable s), At X e W c E s → (∀ i, live c i → ¬ c.stk i 0#_) → ∀ x y, s.val x = none →
    (less E s x y = true ↔ ∃ f, s.val y = some f) ∧ less E s y x = false
  trans : ∀ {E : Enc A} {s x y z}, less E s x y = true → less E s y z = true → less E s x z = true
  printed : ∀ {e W c E s} (_ : Fiber.Reachable s), At X e W c E s → (∀ i, live c i → ¬ c.stk i 0#_) → ∀ x,
    (s.val x = none → output E s x = .notAContext) ∧
    ∀ f, s.val x = some f → output E s x = .pointer (E f) ∧ ∀ y, y ≠ x → output E s y ≠ .pointer (E f)
  stable : ∀ {e W c c' E E' s s' l} (h' : List (Tid × Op)), Fiber.Reachable s → At X e W c E s → Fiber.run s h' = .ok s' → PTrace s l s' → Follow X e W c E l c' E' →
    ∀ x y, s'.val x = s.val x → s'.val y = s.val y → less E' s' x y = less E s x y ∧ output E' s' x = output E s x

variable {X : Extra P} {e : Env A}

theorem inR_self (a : A.W) {n : Nat} (h : 0 < n) : InR a a n := by
  unfold InR; rw [BitVec.sub_self]; exact h

/-- the context of a handle on the machine -/
theorem handle_ctx {c : Cfg A} {s : State} {E : Enc A} (h : Abs P e c s E) {f : Fctx} (hs : s.status f.ctx = .suspended ∨ s.status f.ctx = .raw) (hq : s.seq f.ctx = f.seq) :
    (∃ σ, c.ctx f.ctx = some (.susp σ) ∧ E f = P.fctx σ) ∨ ∃ σ, c.ctx f.ctx = some (.fresh σ) ∧ E f = P.resM (exec e P.make σ).1 := by
  have hne : f.ctx ≠ c.cur := by
    intro hh; rw [hh, h.st] at hs; rcases hs with h | h <;> cases h
  have := h.ctx f.ctx hne
  have hf : (⟨f.ctx, s.seq f.ctx⟩ : Fctx) = f := by rw [hq]
  revert this
  cases hx : c.ctx f.ctx with
  | none => intro hh; rcases hs with h | h <;> simp [CtxAbs, h] at hh
  | some x =>
    cases x with
    | susp σ => simp only [CtxAbs, hf]; exact fun hh => .inl ⟨σ, rfl, hh.2.1⟩
    | fresh σ => simp only [CtxAbs, hf]; exact fun hh => .inr ⟨σ, rfl, hh.2.1⟩
    | par => intro hh; rcases hs with h | h <;> simp [CtxAbs, h] at hh

theorem handle_stk (h0 : 0 < X.fp) (h1 : 0 < P.mkeep) {c : Cfg A} {s : State} {E : Enc A} (hi : Inv X e c) (h : Abs P e c s E) {f : Fctx}
    (hs : s.status f.ctx = .suspended ∨ s.status f.ctx = .raw) (hq : s.seq f.ctx = f.seq) : live c f.ctx ∧ c.stk f.ctx (E f) := by
  rcases handle_ctx h hs hq with ⟨σ, hx, he⟩ | ⟨σ, hx, he⟩
  · exact ⟨.inr (by rw [hx]; simp), by rw [he]; exact (hi.susp _ _ hx).foot _ (inR_self _ h0)⟩
  · exact ⟨.inr (by rw [hx]; simp), by rw [he]; exact (hi.fresh _ _ hx).foot _ (inR_self _ h1)⟩

theorem reachable_run (h : List (Tid × Op)) : ∀ {s s' : State}, Fiber.Reachable s → Fiber.run s h = .ok s' → Fiber.Reachable s' := by
  induction h with
  | nil => intro s s' hr h; injection h with h; exact h ▸ hr
  | cons a h ih =>
    intro s s' hr hh
    obtain ⟨t, op⟩ := a
    rw [Fiber.run] at hh
    cases hs : Fiber.step s t op with
    | ok s1 => rw [hs] at hh; exact ih (.step hr hs) hh
    | rejected => rw [hs] at hh; cases hh
    | terminate => rw [hs] at hh; cases hh
    | assertion => rw [hs] at hh; cases hh
    | ub => rw [hs] at hh; cases hh

/-- **C90**, for every port whose routines meet their specifications -/
theorem C90_of_calls (X : Extra P) {g : Env A → St A → A.W} (h0 : 0 < X.fp) (h1 : 0 < P.mkeep) (hJ : P.JumpSpec) (hO : X.OntopS g) (hM : X.MakeS) : OrderSpec X := by
  have dst : ∀ {e W c E s} (_ : Fiber.Reachable s), At X e W c E s → ∀ x y f g, x ≠ y → s.val x = some f → s.val y = some g → E f ≠ E g := by
    intro e W c E s hr hat x y f g hxy hf hg he
    obtain ⟨r, a⟩ := hat.sync hJ hO hM
    have hi := inv_reachable hJ hO hM r
    obtain ⟨f1, f2, -⟩ := Fiber.C02_no_dangling hr hf
    obtain ⟨g1, g2, -⟩ := Fiber.C02_no_dangling hr hg
    obtain ⟨a1, a2⟩ := handle_stk h0 h1 hi a (.inl f1) f2
    obtain ⟨b1, b2⟩ := handle_stk h0 h1 hi a (.inl g1) g2
    have hne : f.ctx ≠ g.ctx := fun hc => hxy (Fiber.C01_exclusive hr ⟨f, hf, rfl⟩ ⟨g, hg, hc.symm⟩)
    exact hi.disj _ _ _ a1 b1 hne a2 (he ▸ b2)
  have nz : ∀ {e W c E s} (_ : Fiber.Reachable s), At X e W c E s → (∀ i, live c i → ¬ c.stk i 0#_) → ∀ x f, s.val x = some f → E f ≠ 0#_ := by
    intro e W c E s hr hat hz x f hf he
    obtain ⟨r, a⟩ := hat.sync hJ hO hM
    have hi := inv_reachable hJ hO hM r
    obtain ⟨f1, f2, -⟩ := Fiber.C02_no_dangling hr hf
    obtain ⟨a1, a2⟩ := handle_stk h0 h1 hi a (.inl f1) f2
    exact hz _ a1 (he ▸ a2)
  have st : ∀ {e W c c' E E' s s' l} (h' : List (Tid × Op)), Fiber.Reachable s → At X e W c E s → Fiber.run s h' = .ok s' → PTrace s l s' → Follow X e W c E l c' E' →
      ∀ x, s'.val x = s.val x → word E' s' x = word E s x := by
    intro e W c c' E E' s s' l h' hr hat hh' hp hf x hx
    obtain ⟨r, a⟩ := hat.sync hJ hO hM
    obtain ⟨r', a', k⟩ := follow hJ hO hM hf r a hp
    unfold word
    rw [hx]
    cases hv : s.val x with
    | none => rfl
    | some f =>
      show E' f = E f
      have hr' : Fiber.Reachable s' := reachable_run h' hr hh'
      obtain ⟨f1, f2, -⟩ := Fiber.C02_no_dangling hr hv
      obtain ⟨g1, g2, -⟩ := Fiber.C02_no_dangling hr' (hx.trans hv)
      have f1 : s.status f.ctx = .suspended := f1
      have g1 : s'.status f.ctx = .suspended := g1
      obtain ⟨-, kk⟩ := k f.ctx (by rw [f1]; simp)
      have hage : age s' f.ctx = age s f.ctx := by unfold age; rw [f1, g1, f2, g2]
      rcases handle_ctx a (.inl f1) f2 with ⟨σ, hc, he⟩ | ⟨σ, hc, he⟩
      · have aw := kk hage ⟨_, hc, by intros; simp⟩
        have e1 := (away_susp hJ hO hM aw r hc (by intros; simp)).1
        rcases handle_ctx a' (.inl g1) g2 with ⟨σ', hc', he'⟩ | ⟨σ', hc', he'⟩
        · rw [e1] at hc'; injection hc' with hc'; injection hc' with hc'; rw [he, he', hc']
        · rw [e1] at hc'; injection hc' with hc'; cases hc'
      · have aw := kk hage ⟨_, hc, by intros; simp⟩
        have e1 := (away_susp hJ hO hM aw r hc (by intros; simp)).1
        rcases handle_ctx a' (.inl g1) g2 with ⟨σ', hc', he'⟩ | ⟨σ', hc', he'⟩
        · rw [e1] at hc'; injection hc' with hc'; cases hc'
        · rw [e1] at hc'; injection hc' with hc'; injection hc' with hc'; rw [he, he', hc']
  refine ⟨?_, ?_, ?_, ?_, ?_, ?_⟩
  · intro e W c E s hr hat hz x
    have := nz hr hat hz x
    unfold toBool isEmpty word
    cases hv : s.val x with
    | none => simp
    | some f => have := this f hv; simp [Ne.symm this]
  · intro e W c E s hr hat x y f g hxy hf hg
    have := dst hr hat x y f g hxy hf hg
    unfold less word
    rw [hf, hg]
    have hne : (E f).toNat ≠ (E g).toNat := fun h => this (BitVec.eq_of_toNat_eq h)
    simp only [BitVec.ult]
    by_cases hl : (E f).toNat < (E g).toNat
    · simp [hl, Nat.le_of_lt hl]
    · have : (E g).toNat < (E f).toNat := by omega
      simp [this, Nat.le_of_lt this]
  · intro e W c E s hr hat hz x y hx
    have := nz hr hat hz y
    unfold less word
    rw [hx]
    cases hv : s.val y with
    | none => simp [BitVec.ult]
    | some f =>
      have := this f hv
      have hp : (E f).toNat ≠ 0 := fun h => this (BitVec.eq_of_toNat_eq (by simpa using h))
      simp [BitVec.ult, Nat.pos_of_ne_zero hp]
  · intro E s x y z h1 h2
    simp only [less, BitVec.ult, decide_eq_true_eq] at *
    omega
  · intro e W c E s hr hat hz x
    refine ⟨fun hx => by simp [output, word, hx], fun f hf => ⟨?_, fun y hy ho => ?_⟩⟩
    · have := nz hr hat hz x f hf
      simp [output, word, hf, Ne.symm this]
    · unfold output at ho
      split at ho
      · injection ho with ho
        revert ho
        unfold word
        cases hv : s.val y with
        | none => exact fun ho => nz hr hat hz x f hf ho.symm
        | some g => exact fun ho => dst hr hat y x g f hy hv hf ho
      · cases ho
  · intro e W c c' E E' s s' l h' hr hat hh' hp hf x y hx hy
    have e1 := st h' hr hat hh' hp hf x hx
    have e2 := st h' hr hat hh' hp hf y hy
    exact ⟨by unfold less; rw [e1, e2], by unfold output; rw [e1]⟩

theorem C90_of_specs (X : Extra P) {g : Env A → St A → A.W} (h0 : 0 < X.fp) (h1 : 0 < P.mkeep) (hJ : P.JumpSpec) (hO : P.OntopSpecTo g) (hM : P.MakeSpec) : OrderSpec X :=
  C90_of_calls X h0 h1 hJ (fun _ => hO) (fun e σ _ h => hM e σ h)

/-- The hypotheses of `OrderSpec` are met: after the construction of a fiber object 0 holds a handle, object 5 none. -/
theorem order_inhabited {X : Extra P} (hM : X.MakeS) (C : Calls X) (e : Env A) : ∃ s c E, Fiber.Reachable s ∧ At X e (fun _ _ => True) c E s ∧ (∀ i, live c i → ¬ c.stk i 0#_) ∧
    (∃ f, s.val 0 = some f) ∧ s.val 5 = none := by
  obtain ⟨s, c, c₁, c₂, E, E₁, E₂, hs, -, h, hz⟩ := inhabited_of hM C e
  refine ⟨s, c₂, E₂, reachable_run _ .init hs, h, fun i _ => hz i, ?_⟩
  have hs : s = (match Fiber.run Fiber.init [(0, .create [] .success)] with | .ok s => s | _ => s) := by rw [hs]
  rw [hs]
  exact ⟨⟨_, rfl⟩, rfl⟩

end Verif.Link
