import Verif.Asm.Spec

/-!
# Any number of contexts, any sequence of switches (C40)

A transition system in which an unbounded number of contexts, each with a stack of its own, on any number of threads with common memory, create and switch to each other
with the routines of a port, running arbitrary code in between; a context may be suspended on one thread and resumed on another.  (A call of a routine is one step.)  The only demands on that code are that it does not write into the data of suspended contexts and that it calls the routines as the ABI
demands.  The theorems hold for every port that meets `JumpSpec`, `OntopSpec` and `MakeSpec`; they are instantiated in `ManyPorts`.  (No code of `/repo` is modelled
in this file beyond the routines of the port.)
-/

namespace Verif.Asm

/-- What else has to be known about a port: how much of the stack a call occupies (`fp` bytes from the `fcontext_t` on: the frame, the return address, arguments on the
stack), and that the platform-specific demands `ok` follow from the disjointness of stacks. -/
structure Extra {A : Arch} (P : Port A) where
  fp : Nat
  /-- bytes of the target a call may look at -/
  tk : Nat
  /-- addresses that cannot belong to a stack (s390x: the bytes at address 0, because a null result pointer has a special meaning) -/
  null : A.W → Prop
  /-- local demands on a call (s390x: result pointer not null) -/
  nn : St A → Prop
  /-- demands on a call of `make_fcontext` beyond those of `MakeSpec` (i386 Windows: the chain of exception handlers) -/
  mok : Env A → St A → Prop := fun _ _ => True
  /-- whether contexts call `ontop_fcontext` (not on the ports whose `ontop_fcontext` does not meet its specification) -/
  oot : Prop := True
  frame : P.frame ≤ fp
  keep : P.keep ≤ fp
  tk1 : tk ≤ fp
  tk2 : tk ≤ P.mkeep
  oarea : ∀ σ a, P.oarea σ a → InR a (P.fctx σ) fp
  ok : ∀ (s : St A) (T : A.W → Prop), (∀ a, InR a (P.fctx s) fp → ¬ T a ∧ ¬ null a) → (∀ a, P.slot s a → ¬ InR a (P.fctx s) fp) → nn s →
    (∀ a, InR a (P.argF s) tk → T a) → (∀ a, P.tslot s a → T a ∨ null a) → P.ok s
  /-- the result object of a suspended target -/
  told : ∀ (e : Env A) (σ τ : St A) (m : Mem A), P.Left e σ m → P.ok σ → (∀ a, P.tslot σ a → ¬ InR a (P.fctx σ) (max P.frame P.keep)) →
    (∀ a, InR a (P.fctx σ) P.keep → τ.mem a = m a) → P.argF τ = P.fctx σ → ∀ a, P.tslot τ a → P.slot σ a
  /-- the result object of a new target, and what the stub between the switch and the function writes -/
  fresh : ∀ (e : Env A) (σ τ : St A), mok e σ →
    (∀ a, InR a (P.resM (exec e P.make σ).1) (P.argTop σ - P.resM (exec e P.make σ).1).toNat →
      ¬ InR a (σ.gpr P.sp - off A P.mscratch) (P.mscratch + A.k)) →
    P.argF τ = P.resM (exec e P.make σ).1 →
    (∀ a, InR a (P.argF τ) P.mkeep → τ.mem a = (exec e P.make σ).1.mem a) →
    (∀ a, InR a (P.argF τ) P.mkeep → ¬ InR a (P.fctx τ) P.frame) →
    (∀ a, P.tslot τ a → InR a (P.argF τ) P.mkeep ∨ null a) ∧
    ∀ a, (P.enter e τ).1.mem a ≠ (exec e P.jump τ).1.mem a → InR a (P.argF τ) P.mkeep

/-- what `MakeSpec` demands of a call of `make_fcontext` with entry state `σ` -/
def Port.MakeAt {A : Arch} (P : Port A) (e : Env A) (σ : St A) : Prop :=
  P.ReturnedTo (P.mspRet σ) σ (exec e P.make σ).1 (exec e P.make σ).2 ∧
  (P.mkeep ≤ (P.argTop σ - P.resM (exec e P.make σ).1).toNat ∧ (P.argTop σ - P.resM (exec e P.make σ).1).toNat ≤ P.mkeep + 64) ∧
  (∀ a, (exec e P.make σ).1.mem a ≠ σ.mem a →
    InR a (P.resM (exec e P.make σ).1) (P.argTop σ - P.resM (exec e P.make σ).1).toNat ∨
    InR a (σ.gpr P.sp - off A P.mscratch) P.mscratch) ∧
  ∀ τ : St A, P.argF τ = P.resM (exec e P.make σ).1 →
    (∀ a, InR a (P.argF τ) P.mkeep → τ.mem a = (exec e P.make σ).1.mem a) →
    (∀ a, InR a (P.argF τ) P.mkeep → ¬ InR a (P.fctx τ) P.frame) →
    (∀ l c, P.tramp = some (l, c) → (exec e P.jump τ).2 = e l) ∧
    (P.enter e τ).2 = P.argMFn σ ∧
    P.inF (P.enter e τ).1 = P.fctx τ ∧ P.inD (P.enter e τ).1 = P.argD τ ∧
    P.ra (P.enter e τ).1 = e P.finish ∧
    P.aligned ((P.enter e τ).1.gpr P.sp) ∧
    ((P.enter e τ).1.gpr P.sp - P.argF τ).toNat ≤ (P.argTop σ - P.argF τ).toNat ∧
    (∀ a, (P.enter e τ).1.mem a ≠ τ.mem a → InR a (P.fctx τ) P.frame ∨ P.mslot (P.argF τ) a) ∧
    ∀ a, P.mslot (P.argF τ) a → InR a (P.argF τ) P.mkeep

/-- `ontop_fcontext` meets its specification, if it is called -/
def Extra.OntopS {A : Arch} {P : Port A} (X : Extra P) (f : Env A → St A → A.W) : Prop := X.oot → P.OntopSpecTo f

/-- calls of `make_fcontext` that meet `mok` do what `MakeSpec` demands -/
def Extra.MakeS {A : Arch} {P : Port A} (X : Extra P) : Prop := ∀ e σ, X.mok e σ →
  (∀ a, InR a (P.resM (exec e P.make σ).1) (P.argTop σ - P.resM (exec e P.make σ).1).toNat →
    ¬ InR a (σ.gpr P.sp - off A P.mscratch) (P.mscratch + A.k)) → P.MakeAt e σ

namespace Many

/-- a context other than the one that takes the next step: made by a call of `make_fcontext` with entry state `σ` and not started; suspended by a call (of `jump_fcontext` or
`ontop_fcontext`) with entry state `σ`; running on another thread `t`, with registers `g`, `q` -/
inductive Ctx (A : Arch)
  | fresh (σ : St A)
  | susp (σ : St A)
  | par (t : Nat) (g : A.R → A.W) (q : (q : A.F) → BitVec (8 * A.fb q))

/-- The thread that takes the next step, the context it executes, its registers and the memory, the stack of each context, and the other contexts. -/
structure Cfg (A : Arch) where
  thr : Nat
  cur : Nat
  s : St A
  stk : Nat → A.W → Prop
  ctx : Nat → Option (Ctx A)

variable {A : Arch} {P : Port A}

/-- the bytes of a context that is not running that nobody may write -/
def held (P : Port A) (e : Env A) : Ctx A → A.W → Prop
  | .fresh σ, a => InR a (P.resM (exec e P.make σ).1) P.mkeep
  | .susp σ, a => InR a (P.fctx σ) P.keep
  | .par _ _ _, _ => False

def live (c : Cfg A) (i : Nat) : Prop := i = c.cur ∨ c.ctx i ≠ none

/-- The running context calls one of the switching routines as the ABI demands: on its own stack, with a result object on its own stack. -/
structure CallOk (X : Extra P) (c : Cfg A) : Prop where
  foot : ∀ a, InR a (P.fctx c.s) X.fp → c.stk c.cur a
  slot : ∀ a, P.slot c.s a → c.stk c.cur a ∧ ¬ InR a (P.fctx c.s) X.fp
  nn : X.nn c.s

/-- context `i` runs in state `s'`; the context that ran is suspended -/
def switch (c : Cfg A) (i : Nat) (s' : St A) : Cfg A :=
  { c with cur := i, s := s', ctx := fun k => if k = c.cur then some (.susp c.s) else if k = i then none else c.ctx k }

inductive Act
  | run
  | make (j : Nat)
  | jump (i : Nat)
  | ontop (i : Nat)
  | drop (j : Nat)
  | sched (i : Nat)
  | spawn (j : Nat)

/-- One step: arbitrary code of the running context; `make_fcontext` on a new stack `R`; `jump_fcontext` to a suspended or new context; `ontop_fcontext` to a suspended
context; a context that is never going to be resumed is given up, so that its stack can be reused; another thread takes the next step; a new thread starts. -/
inductive Step (X : Extra P) (e : Env A) : Cfg A → Act → Cfg A → Prop
  | run {c : Cfg A} (s' : St A) : (∀ i x a, c.ctx i = some x → held P e x a → s'.mem a = c.s.mem a) → Step X e c .run { c with s := s' }
  | make {c : Cfg A} (j : Nat) (R : A.W → Prop) : ¬ live c j → (∀ i a, live c i → c.stk i a → ¬ R a) → (∀ a, R a → ¬ X.null a) →
      (∀ a, InR a (P.resM (exec e P.make c.s).1) (P.argTop c.s - P.resM (exec e P.make c.s).1).toNat → R a) →
      (∀ a, InR a (c.s.gpr P.sp - off A P.mscratch) (P.mscratch + A.k) → c.stk c.cur a) → X.mok e c.s →
      Step X e c (.make j) { c with s := (exec e P.make c.s).1, stk := fun k => if k = j then R else c.stk k,
                                    ctx := fun k => if k = j then some (.fresh c.s) else c.ctx k }
  | resume {c : Cfg A} (i : Nat) (σ : St A) : c.ctx i = some (.susp σ) → P.argF c.s = P.fctx σ → CallOk X c →
      Step X e c (.jump i) (switch c i (exec e P.jump c.s).1)
  | start {c : Cfg A} (i : Nat) (σ : St A) : c.ctx i = some (.fresh σ) → P.argF c.s = P.resM (exec e P.make σ).1 → CallOk X c →
      Step X e c (.jump i) (switch c i (P.enter e c.s).1)
  | ontop {c : Cfg A} (i : Nat) (σ : St A) : c.ctx i = some (.susp σ) → P.argF c.s = P.fctx σ → CallOk X c → X.oot →
      Step X e c (.ontop i) (switch c i (exec e P.ontop c.s).1)
  | drop {c : Cfg A} (j : Nat) : Step X e c (.drop j) { c with ctx := fun k => if k = j then none else c.ctx k }
  | sched {c : Cfg A} (i t : Nat) (g : A.R → A.W) (q : (q : A.F) → BitVec (8 * A.fb q)) : c.ctx i = some (.par t g q) →
      Step X e c (.sched i) { c with thr := t, cur := i, s := ⟨g, q, c.s.mem⟩,
                                     ctx := fun k => if k = c.cur then some (.par c.thr c.s.gpr c.s.fpr) else if k = i then none else c.ctx k }
  | spawn {c : Cfg A} (j t : Nat) (R : A.W → Prop) (g : A.R → A.W) (q : (q : A.F) → BitVec (8 * A.fb q)) : ¬ live c j → (∀ i a, live c i → c.stk i a → ¬ R a) →
      (∀ a, R a → ¬ X.null a) → t ≠ c.thr → (∀ k g q, c.ctx k ≠ some (.par t g q)) →
      Step X e c (.spawn j) { c with stk := fun k => if k = j then R else c.stk k, ctx := fun k => if k = j then some (.par t g q) else c.ctx k }

/-- in the beginning there is one thread with one context, which runs -/
inductive Reachable (X : Extra P) (e : Env A) : Cfg A → Prop
  | init (c : Cfg A) : (∀ i, c.ctx i = none) → (∀ a, c.stk c.cur a → ¬ X.null a) → Reachable X e c
  | step {c c' : Cfg A} {l : Act} : Reachable X e c → Step X e c l c' → Reachable X e c'

/-- Any number of steps none of which switches to context `i` or gives it up; other contexts' own code writes only at addresses in `W`. -/
inductive Away (X : Extra P) (e : Env A) (i : Nat) (W : A.W → Prop) : Cfg A → Cfg A → Prop
  | refl (c : Cfg A) : Away X e i W c c
  | step {c c1 c2 : Cfg A} {l : Act} : Away X e i W c c1 → Step X e c1 l c2 → l ≠ .jump i → l ≠ .ontop i → l ≠ .drop i →
      (l = .run → ∀ a, c2.s.mem a ≠ c1.s.mem a → W a) → Away X e i W c c2

/-- **C40**, for a port.

`resume`: a context leaves in state `c₀.s` (by `jump_fcontext` or `ontop_fcontext`), any number of contexts run, are created and switch in any order, and somebody jumps
to it: it continues after its call with the stack pointer, return address and callee-saved registers it left with, gets the identity of the context that resumed it and
that context's data, and its stack is as it was except where its own call put its frame and its result and where other contexts' own code wrote.

`ontop`: the same history, but somebody calls a function on top: the function is entered on the suspended context's stack as if it had been called in place of the
suspended call, with the callee-saved registers, return address and stack pointer of that call.

`start`: a context is made by `make_fcontext` called in state `c₀.s`, any number of contexts run, are created and switch in any order, and somebody jumps to it: its
function is entered, on its own stack, with the identity of the context that resumed it and that context's data. -/
structure Spec (X : Extra P) (f : Env A → St A → A.W) : Prop where
  resume : ∀ {e : Env A} {c₀ c₁ c₂ c₃ : Cfg A} {l : Act} {k : Nat} {W : A.W → Prop}, Reachable X e c₀ → Step X e c₀ l c₁ → (l = .jump k ∨ l = .ontop k) →
    Away X e c₀.cur W c₁ c₂ → Step X e c₂ (.jump c₀.cur) c₃ →
    c₃.s = (exec e P.jump c₂.s).1 ∧ P.Returned c₀.s c₃.s (exec e P.jump c₂.s).2 ∧ P.resF c₀.s c₃.s = P.fctx c₂.s ∧ P.resD c₀.s c₃.s = P.argD c₂.s ∧ P.also c₀.s c₃.s ∧
    ∀ a, c₀.stk c₀.cur a → c₃.s.mem a ≠ c₀.s.mem a → InR a (P.fctx c₀.s) P.frame ∨ P.slot c₀.s a ∨ W a
  ontop : ∀ {e : Env A} {c₀ c₁ c₂ c₃ : Cfg A} {l : Act} {k : Nat} {W : A.W → Prop}, Reachable X e c₀ → Step X e c₀ l c₁ → (l = .jump k ∨ l = .ontop k) →
    Away X e c₀.cur W c₁ c₂ → Step X e c₂ (.ontop c₀.cur) c₃ →
    c₃.s = (exec e P.ontop c₂.s).1 ∧ (exec e P.ontop c₂.s).2 = f e c₂.s ∧ P.CalledAs c₀.s c₃.s (P.fctx c₂.s) (P.argD c₂.s) ∧
    ∀ a, c₀.stk c₀.cur a → c₃.s.mem a ≠ c₀.s.mem a → InR a (P.fctx c₀.s) P.frame ∨ P.slot c₀.s a ∨ P.oarea c₀.s a ∨ W a
  start : ∀ {e : Env A} {c₀ c₁ c₂ c₃ : Cfg A} {j : Nat} {W : A.W → Prop}, Reachable X e c₀ → Step X e c₀ (.make j) c₁ → Away X e j W c₁ c₂ → Step X e c₂ (.jump j) c₃ →
    c₃.s = (P.enter e c₂.s).1 ∧ (∀ l cc, P.tramp = some (l, cc) → (exec e P.jump c₂.s).2 = e l) ∧ (P.enter e c₂.s).2 = P.argMFn c₀.s ∧
    P.inF c₃.s = P.fctx c₂.s ∧ P.inD c₃.s = P.argD c₂.s ∧ P.ra c₃.s = e P.finish ∧ P.aligned (c₃.s.gpr P.sp) ∧
    (c₃.s.gpr P.sp - P.resM c₁.s).toNat ≤ (P.argTop c₀.s - P.resM c₁.s).toNat ∧
    ∀ a, c₁.stk j a → c₃.s.mem a ≠ c₁.s.mem a → P.mslot (P.resM c₁.s) a ∨ W a

/-! ## Invariant -/

structure SuspOk (X : Extra P) (e : Env A) (c : Cfg A) (i : Nat) (σ : St A) : Prop where
  ok : P.ok σ
  foot : ∀ a, InR a (P.fctx σ) X.fp → c.stk i a
  slot : ∀ a, P.slot σ a → c.stk i a ∧ ¬ InR a (P.fctx σ) X.fp
  tslot : ∀ a, P.tslot σ a → ¬ InR a (P.fctx σ) (max P.frame P.keep)
  mem : ∃ m, P.Left e σ m ∧ ∀ a, InR a (P.fctx σ) P.keep → c.s.mem a = m a

structure FreshOk (X : Extra P) (e : Env A) (c : Cfg A) (i : Nat) (σ : St A) : Prop where
  mok : X.mok e σ
  pre : ∀ a, InR a (P.resM (exec e P.make σ).1) (P.argTop σ - P.resM (exec e P.make σ).1).toNat →
      ¬ InR a (σ.gpr P.sp - off A P.mscratch) (P.mscratch + A.k)
  foot : ∀ a, InR a (P.resM (exec e P.make σ).1) P.mkeep → c.stk i a
  mem : ∀ a, InR a (P.resM (exec e P.make σ).1) P.mkeep → c.s.mem a = (exec e P.make σ).1.mem a

structure Inv (X : Extra P) (e : Env A) (c : Cfg A) : Prop where
  disj : ∀ i j a, live c i → live c j → i ≠ j → c.stk i a → ¬ c.stk j a
  null : ∀ i a, live c i → c.stk i a → ¬ X.null a
  cur : c.ctx c.cur = none
  susp : ∀ i σ, c.ctx i = some (.susp σ) → SuspOk X e c i σ
  fresh : ∀ i σ, c.ctx i = some (.fresh σ) → FreshOk X e c i σ

theorem Inv.held_stk {X : Extra P} {e : Env A} {c : Cfg A} (h : Inv X e c) {i x a} (hx : c.ctx i = some x) (ha : held P e x a) : c.stk i a := by
  cases x with
  | fresh σ => exact (h.fresh i σ hx).foot a ha
  | susp σ => exact (h.susp i σ hx).foot a (inR_mono ha X.keep)
  | par => exact ha.elim

/-- the state after a switch -/
theorem inv_switch {X : Extra P} {e : Env A} {c : Cfg A} (h : Inv X e c) {i : Nat} {x : Ctx A} (hx : c.ctx i = some x) (s' : St A)
    (hc : CallOk X c) (hok : P.ok c.s) (ht : ∀ a, P.tslot c.s a → ¬ InR a (P.fctx c.s) (max P.frame P.keep))
    (hl : ∃ m, P.Left e c.s m ∧ ∀ a, InR a (P.fctx c.s) P.keep → s'.mem a = m a)
    (hm : ∀ a, s'.mem a ≠ c.s.mem a → c.stk c.cur a ∨ c.stk i a) : Inv X e (switch c i s') := by
  have hne : i ≠ c.cur := fun hh => by rw [hh, h.cur] at hx; cases hx
  have hlive : ∀ k, live (switch c i s') k → live c k := by
    intro k hk
    rcases hk with hk | hk
    · exact .inr (by rw [show k = i from hk, hx]; simp)
    · by_cases h1 : k = c.cur
      · exact .inl h1
      · by_cases h2 : k = i
        · exact absurd (by simp [switch, h2, hne]) hk
        · right; intro h3; exact hk (by simp [switch, h1, h2, h3])
  have other : ∀ k y, k ≠ c.cur → k ≠ i → c.ctx k = some y → ∀ a, held P e y a → s'.mem a = c.s.mem a := by
    intro k y h1 h2 h3 a ha
    have hs := h.held_stk h3 ha
    by_cases hq : s'.mem a = c.s.mem a
    · exact hq
    · rcases hm a hq with h4 | h4
      · exact absurd hs (h.disj c.cur k a (.inl rfl) (.inr (by rw [h3]; simp)) (Ne.symm h1) h4)
      · exact absurd hs (h.disj i k a (.inr (by rw [hx]; simp)) (.inr (by rw [h3]; simp)) (Ne.symm h2) h4)
  constructor
  · intro k j a hk hj; exact h.disj k j a (hlive k hk) (hlive j hj)
  · intro k a hk; exact h.null k a (hlive k hk)
  · simp [switch, hne]
  · intro k σ hk
    by_cases h1 : k = c.cur
    · subst h1
      simp only [switch, if_true, Option.some.injEq, Ctx.susp.injEq] at hk
      subst hk
      exact ⟨hok, hc.foot, hc.slot, ht, hl⟩
    · by_cases h2 : k = i
      · simp [switch, h2, hne] at hk
      · simp only [switch, h1, h2, if_false] at hk
        have := h.susp k σ hk
        obtain ⟨m, m1, m2⟩ := this.mem
        exact ⟨this.ok, this.foot, this.slot, this.tslot, m, m1, fun a ha => (other k _ h1 h2 hk a ha).trans (m2 a ha)⟩
  · intro k σ hk
    by_cases h1 : k = c.cur
    · simp [switch, h1] at hk
    · by_cases h2 : k = i
      · simp [switch, h2, hne] at hk
      · simp only [switch, h1, h2, if_false] at hk
        have := h.fresh k σ hk
        exact ⟨this.mok, this.pre, this.foot, fun a ha => (other k _ h1 h2 hk a ha).trans (this.mem a ha)⟩

/-- the hypotheses of `JumpSpec` hold at every switch to a suspended context -/
theorem intact {X : Extra P} {e : Env A} {c : Cfg A} (h : Inv X e c) {i : Nat} {σ : St A} (hx : c.ctx i = some (.susp σ))
    (ha : P.argF c.s = P.fctx σ) (hc : CallOk X c) : (∃ m, P.Left e σ m ∧ P.Intact σ m c.s) ∧ (∀ a, P.tslot c.s a → c.stk i a) := by
  have hi := h.susp i σ hx
  have hli : live c i := .inr (by rw [hx]; simp)
  have hne : c.cur ≠ i := fun hh => by rw [← hh, h.cur] at hx; cases hx
  obtain ⟨m, m1, m2⟩ := hi.mem
  have ht : ∀ a, P.tslot c.s a → c.stk i a := fun a h1 => (hi.slot a (X.told e σ c.s m m1 hi.ok hi.tslot m2 ha a h1)).1
  refine ⟨⟨m, m1, hi.ok, ?_, hi.tslot, ?_, m2, ?_⟩, ht⟩
  · refine X.ok c.s (c.stk i) ?_ (fun a h1 => (hc.slot a h1).2) hc.nn ?_ (fun a h1 => .inl (ht a h1))
    · exact fun a h1 => ⟨h.disj c.cur i a (.inl rfl) hli hne (hc.foot a h1), h.null c.cur a (.inl rfl) (hc.foot a h1)⟩
    · intro a h1; rw [ha] at h1; exact hi.foot a (inR_mono h1 X.tk1)
  · intro a h1
    have := hi.slot a h1
    refine ⟨fun h2 => this.2 (inR_mono h2 X.keep), fun h2 => ?_⟩
    exact h.disj c.cur i a (.inl rfl) hli hne (hc.foot a (inR_mono h2 X.frame)) this.1
  · intro a h1 h2
    exact h.disj c.cur i a (.inl rfl) hli hne (hc.foot a (inR_mono h2 X.frame)) (hi.foot a (inR_mono h1 X.keep))

variable {X : Extra P} {e : Env A}

/-- facts about a first activation -/
theorem started {c : Cfg A} (hM : X.MakeS) (h : Inv X e c) {i : Nat} {σ : St A} (hx : c.ctx i = some (.fresh σ))
    (ha : P.argF c.s = P.resM (exec e P.make σ).1) (hc : CallOk X c) :
    P.ok c.s ∧ (∀ a, P.tslot c.s a → ¬ InR a (P.fctx c.s) (max P.frame P.keep)) ∧
    (∀ a, InR a (P.fctx c.s) P.keep → (P.enter e c.s).1.mem a = (exec e P.jump c.s).1.mem a) ∧
    (∀ a, (P.enter e c.s).1.mem a ≠ c.s.mem a → InR a (P.fctx c.s) P.frame ∨ (P.mslot (P.argF c.s) a ∧ c.stk i a)) ∧
    (∀ l cc, P.tramp = some (l, cc) → (exec e P.jump c.s).2 = e l) ∧
    (P.enter e c.s).2 = P.argMFn σ ∧
    P.inF (P.enter e c.s).1 = P.fctx c.s ∧ P.inD (P.enter e c.s).1 = P.argD c.s ∧
    P.ra (P.enter e c.s).1 = e P.finish ∧
    P.aligned ((P.enter e c.s).1.gpr P.sp) ∧
    ((P.enter e c.s).1.gpr P.sp - P.argF c.s).toNat ≤ (P.argTop σ - P.argF c.s).toNat := by
  have hi := h.fresh i σ hx
  have hli : live c i := .inr (by rw [hx]; simp)
  have hne : c.cur ≠ i := fun hh => by rw [← hh, h.cur] at hx; cases hx
  have hst : ∀ a, InR a (P.argF c.s) P.mkeep → c.stk i a := fun a h1 => hi.foot a (ha ▸ h1)
  have hmem : ∀ a, InR a (P.argF c.s) P.mkeep → c.s.mem a = (exec e P.make σ).1.mem a := fun a h1 => hi.mem a (ha ▸ h1)
  have hfo : ∀ a, InR a (P.fctx c.s) X.fp → ¬ c.stk i a := fun a h1 => h.disj c.cur i a (.inl rfl) hli hne (hc.foot a h1)
  have hdj : ∀ a, InR a (P.argF c.s) P.mkeep → ¬ InR a (P.fctx c.s) P.frame := fun a h1 h2 => hfo a (inR_mono h2 X.frame) (hst a h1)
  obtain ⟨f1, f2⟩ := X.fresh e σ c.s hi.mok hi.pre ha hmem hdj
  obtain ⟨-, -, -, h4⟩ := hM e σ hi.mok hi.pre
  obtain ⟨g1, g2, g3, g4, g5, g6, g7, g8, g9⟩ := h4 c.s ha hmem hdj
  refine ⟨?_, ?_, ?_, ?_, g1, g2, g3, g4, g5, g6, g7⟩
  · refine X.ok c.s (c.stk i) (fun a h1 => ⟨hfo a h1, h.null c.cur a (.inl rfl) (hc.foot a h1)⟩) (fun a h1 => (hc.slot a h1).2) hc.nn
      (fun a h1 => hst a (inR_mono h1 X.tk2)) ?_
    intro a h1
    exact (f1 a h1).imp (hst a) id
  · intro a h1 h2
    have h3 : InR a (P.fctx c.s) X.fp := inR_mono h2 (by have := X.frame; have := X.keep; omega)
    rcases f1 a h1 with h4 | h4
    · exact hfo a h3 (hst a h4)
    · exact h.null c.cur a (.inl rfl) (hc.foot a h3) h4
  · intro a h1
    by_cases hq : (P.enter e c.s).1.mem a = (exec e P.jump c.s).1.mem a
    · exact hq
    · exact absurd (hst a (f2 a hq)) (hfo a (inR_mono h1 X.keep))
  · intro a h1
    exact (g8 a h1).imp id fun h2 => ⟨h2, hst a (g9 a h2)⟩

/-- what a switch writes -/
theorem step_mem {f : Env A → St A → A.W} (hJ : P.JumpSpec) (hO : X.OntopS f) (hM : X.MakeS) {c c' : Cfg A} {l : Act} (h : Inv X e c)
    (hs : Step X e c l c') (hr : l ≠ .run) (i : Nat) (hi : live c i) (h1 : l ≠ .jump i) (h2 : l ≠ .ontop i) (a : A.W) (ha : c.stk i a)
    (hd : c'.s.mem a ≠ c.s.mem a) : i = c.cur ∧ ((∃ j, l = .make j) ∨ InR a (P.fctx c.s) P.frame) := by
  cases hs with
  | run => exact absurd rfl hr
  | make j R m1 m2 m3 m4 m5 m6 =>
    obtain ⟨-, -, h3, -⟩ := hM e c.s m6 (fun b hb hb2 => m2 c.cur b (.inl rfl) (m5 b hb2) (m4 b hb))
    refine ⟨?_, .inl ⟨j, rfl⟩⟩
    rcases h3 a hd with h4 | h4
    · exact absurd (m4 a h4) (m2 i a hi ha)
    · have h5 := m5 a (inR_mono h4 (by omega))
      by_cases hq : i = c.cur
      · exact hq
      · exact absurd h5 (h.disj i c.cur a hi (.inl rfl) hq ha)
  | resume j σ hx hf hc =>
    have hji : j ≠ i := fun h => h1 (by rw [h])
    obtain ⟨⟨m, k1, k2⟩, k3⟩ := intact h hx hf hc
    obtain ⟨-, -, -, h4, h5, -⟩ := hJ e σ c.s m k1 k2 hf
    rcases h4 a hd with h6 | h6
    · refine ⟨?_, .inr h6⟩
      have h7 := hc.foot a (inR_mono h6 X.frame)
      by_cases hq : i = c.cur
      · exact hq
      · exact absurd h7 (h.disj i c.cur a hi (.inl rfl) hq ha)
    · exact absurd ha (h.disj j i a (.inr (by rw [hx]; simp)) hi hji (k3 a ((h5 a).2 h6)))
  | start j σ hx hf hc =>
    have hji : j ≠ i := fun h => h1 (by rw [h])
    obtain ⟨-, -, -, h4, -⟩ := started hM h hx hf hc
    rcases h4 a hd with h6 | ⟨-, h6⟩
    · refine ⟨?_, .inr h6⟩
      have h7 := hc.foot a (inR_mono h6 X.frame)
      by_cases hq : i = c.cur
      · exact hq
      · exact absurd h7 (h.disj i c.cur a hi (.inl rfl) hq ha)
    · exact absurd ha (h.disj j i a (.inr (by rw [hx]; simp)) hi hji h6)
  | ontop j σ hx hf hc ho =>
    have hji : j ≠ i := fun h => h2 (by rw [h])
    obtain ⟨⟨m, k1, k2⟩, k3⟩ := intact h hx hf hc
    obtain ⟨-, -, h4, h5⟩ := hO ho e σ c.s m k1 k2 hf
    rcases h4 a hd with h6 | h6 | h6
    · refine ⟨?_, .inr h6⟩
      have h7 := hc.foot a (inR_mono h6 X.frame)
      by_cases hq : i = c.cur
      · exact hq
      · exact absurd h7 (h.disj i c.cur a hi (.inl rfl) hq ha)
    · exact absurd ha (h.disj j i a (.inr (by rw [hx]; simp)) hi hji (k3 a ((h5 a).2 h6)))
    · exact absurd ha (h.disj j i a (.inr (by rw [hx]; simp)) hi hji ((h.susp j σ hx).foot a (X.oarea σ a h6)))
  | drop j => exact absurd rfl hd
  | sched => exact absurd rfl hd
  | spawn => exact absurd rfl hd

theorem inv_step {f : Env A → St A → A.W} (hJ : P.JumpSpec) (hO : X.OntopS f) (hM : X.MakeS) {c c' : Cfg A} {l : Act} (h : Inv X e c)
    (hs : Step X e c l c') : Inv X e c' := by
  have h0 := hs
  cases hs with
  | run s' hs =>
    refine ⟨h.disj, h.null, h.cur, ?_, ?_⟩
    · intro i σ hx
      have := h.susp i σ hx
      obtain ⟨m, m1, m2⟩ := this.mem
      exact ⟨this.ok, this.foot, this.slot, this.tslot, m, m1, fun a ha => (hs i _ a hx ha).trans (m2 a ha)⟩
    · intro i σ hx
      have := h.fresh i σ hx
      exact ⟨this.mok, this.pre, this.foot, fun a ha => (hs i _ a hx ha).trans (this.mem a ha)⟩
  | make j R m1 m2 m3 m4 m5 m6 =>
    have hpre : ∀ b, InR b (P.resM (exec e P.make c.s).1) (P.argTop c.s - P.resM (exec e P.make c.s).1).toNat →
        ¬ InR b (c.s.gpr P.sp - off A P.mscratch) (P.mscratch + A.k) := fun b hb hb2 => m2 c.cur b (.inl rfl) (m5 b hb2) (m4 b hb)
    obtain ⟨-, ⟨hk, -⟩, -, -⟩ := hM e c.s m6 hpre
    have hjc : j ≠ c.cur := fun hh => m1 (.inl hh)
    have other : ∀ k x, c.ctx k = some x → ∀ a, held P e x a → (exec e P.make c.s).1.mem a = c.s.mem a := by
      intro k x hx a ha
      by_cases hq : (exec e P.make c.s).1.mem a = c.s.mem a
      · exact hq
      · have hkc : k ≠ c.cur := fun hh => by rw [hh, h.cur] at hx; cases hx
        exact absurd (step_mem hJ hO hM h h0 (by simp) k (.inr (by rw [hx]; simp)) (by simp) (by simp) a (h.held_stk hx ha) hq).1 hkc
    have hl : ∀ k, k ≠ j → live { c with s := (exec e P.make c.s).1, stk := fun k => if k = j then R else c.stk k,
                                         ctx := fun k => if k = j then some (.fresh c.s) else c.ctx k } k → live c k := by
      intro k hkj hk
      rcases hk with hk | hk
      · exact .inl hk
      · simp only [hkj, if_false] at hk; exact .inr hk
    constructor
    · intro i k a hi hk hik
      by_cases hij : i = j
      · have hkj : k ≠ j := fun hh => hik (hij.trans hh.symm)
        simp only [hij, hkj, if_true, if_false]
        exact fun h1 h2 => m2 k a (hl k hkj hk) h2 h1
      · by_cases hkj : k = j
        · simp only [hij, hkj, if_true, if_false]
          exact m2 i a (hl i hij hi)
        · simp only [hij, hkj, if_false]
          exact h.disj i k a (hl i hij hi) (hl k hkj hk) hik
    · intro i a hi
      by_cases hij : i = j
      · simp only [hij, if_true]; exact m3 a
      · simp only [hij, if_false]; exact h.null i a (hl i hij hi)
    · simp [Ne.symm hjc, h.cur]
    · intro k σ hk
      by_cases hkj : k = j
      · simp [hkj] at hk
      · simp only [hkj, if_false] at hk
        have := h.susp k σ hk
        obtain ⟨m, m1, m2⟩ := this.mem
        refine ⟨this.ok, ?_, ?_, this.tslot, m, m1, fun a ha => (other k _ hk a ha).trans (m2 a ha)⟩
        · simp only [hkj, if_false]; exact this.foot
        · simp only [hkj, if_false]; exact this.slot
    · intro k σ hk
      by_cases hkj : k = j
      · subst hkj
        simp only [if_true, Option.some.injEq, Ctx.fresh.injEq] at hk
        subst hk
        refine ⟨m6, hpre, ?_, fun a _ => rfl⟩
        simp only [if_true]
        exact fun a ha => m4 a (inR_mono ha hk)
      · simp only [hkj, if_false] at hk
        have := h.fresh k σ hk
        refine ⟨this.mok, this.pre, ?_, fun a ha => (other k _ hk a ha).trans (this.mem a ha)⟩
        simp only [hkj, if_false]; exact this.foot
  | resume i σ hx hf hc =>
    obtain ⟨⟨m, k1, k2⟩, k3⟩ := intact h hx hf hc
    obtain ⟨-, -, -, h4, h5, -⟩ := hJ e σ c.s m k1 k2 hf
    have hli : live c i := .inr (by rw [hx]; simp)
    have hne : c.cur ≠ i := fun hh => by rw [← hh, h.cur] at hx; cases hx
    refine inv_switch h hx _ hc k2.ok' (fun a h1 h2 => ?_) ⟨_, .inl rfl, fun _ _ => rfl⟩ fun a h1 => ?_
    · have h3 : InR a (P.fctx c.s) X.fp := inR_mono h2 (by have := X.frame; have := X.keep; omega)
      exact h.disj c.cur i a (.inl rfl) hli hne (hc.foot a h3) (k3 a h1)
    · exact (h4 a h1).imp (fun h2 => hc.foot a (inR_mono h2 X.frame)) fun h2 => k3 a ((h5 a).2 h2)
  | start i σ hx hf hc =>
    obtain ⟨h1, h2, h3, h4, -⟩ := started hM h hx hf hc
    exact inv_switch h hx _ hc h1 h2 ⟨_, .inl rfl, h3⟩ fun a ha => (h4 a ha).imp (fun h2 => hc.foot a (inR_mono h2 X.frame)) (·.2)
  | ontop i σ hx hf hc ho =>
    obtain ⟨⟨m, k1, k2⟩, k3⟩ := intact h hx hf hc
    obtain ⟨-, -, h4, h5⟩ := hO ho e σ c.s m k1 k2 hf
    have hli : live c i := .inr (by rw [hx]; simp)
    have hne : c.cur ≠ i := fun hh => by rw [← hh, h.cur] at hx; cases hx
    refine inv_switch h hx _ hc k2.ok' (fun a h1 h2 => ?_) ⟨_, .inr rfl, fun _ _ => rfl⟩ fun a h1 => ?_
    · have h3 : InR a (P.fctx c.s) X.fp := inR_mono h2 (by have := X.frame; have := X.keep; omega)
      exact h.disj c.cur i a (.inl rfl) hli hne (hc.foot a h3) (k3 a h1)
    · rcases h4 a h1 with h2 | h2 | h2
      · exact .inl (hc.foot a (inR_mono h2 X.frame))
      · exact .inr (k3 a ((h5 a).2 h2))
      · exact .inr ((h.susp i σ hx).foot a (X.oarea σ a h2))
  | drop j =>
    have hl : ∀ k, live { c with ctx := fun k => if k = j then none else c.ctx k } k → live c k := by
      intro k hk
      rcases hk with hk | hk
      · exact .inl hk
      · by_cases hkj : k = j
        · simp [hkj] at hk
        · simp only [hkj, if_false] at hk; exact .inr hk
    refine ⟨fun i k a hi hk => h.disj i k a (hl i hi) (hl k hk), fun i a hi => h.null i a (hl i hi), ?_, ?_, ?_⟩
    · show (if c.cur = j then none else c.ctx c.cur) = none
      rw [h.cur]; simp
    · intro k σ hk
      by_cases hkj : k = j
      · simp [hkj] at hk
      · simp only [hkj, if_false] at hk
        have := h.susp k σ hk
        exact ⟨this.ok, this.foot, this.slot, this.tslot, this.mem⟩
    · intro k σ hk
      by_cases hkj : k = j
      · simp [hkj] at hk
      · simp only [hkj, if_false] at hk
        have := h.fresh k σ hk
        exact ⟨this.mok, this.pre, this.foot, this.mem⟩
  | sched i t g q hx =>
    have hne : i ≠ c.cur := fun hh => by rw [hh, h.cur] at hx; cases hx
    obtain ⟨c', hc'⟩ : ∃ c' : Cfg A, c' = { c with thr := t, cur := i, s := ⟨g, q, c.s.mem⟩, ctx := fun k => if k = c.cur then some (.par c.thr c.s.gpr c.s.fpr) else if k = i then none else c.ctx k } := ⟨_, rfl⟩
    have hl : ∀ k, live c' k → live c k := by
      intro k hk
      rw [hc'] at hk
      rcases hk with hk | hk
      · exact .inr (by rw [show k = i from hk, hx]; simp)
      · by_cases h1 : k = c.cur
        · exact .inl h1
        · by_cases h2 : k = i
          · exact .inr (by rw [h2, hx]; simp)
          · simp only [h1, h2, if_false] at hk; exact .inr hk
    have hcx : ∀ k x, c'.ctx k = some x → (∃ t g q, x = .par t g q) ∨ c.ctx k = some x := by
      intro k x hk
      rw [hc'] at hk
      by_cases h1 : k = c.cur
      · simp only [h1, if_true, Option.some.injEq] at hk; exact .inl ⟨_, _, _, hk.symm⟩
      · by_cases h2 : k = i
        · simp [h2, hne] at hk
        · simp only [h1, h2, if_false] at hk; exact .inr hk
    have e1 : c'.stk = c.stk := by rw [hc']
    have e2 : c'.s.mem = c.s.mem := by rw [hc']
    rw [← hc']
    refine ⟨fun i k a hi hk => by rw [e1]; exact h.disj i k a (hl i hi) (hl k hk), fun i a hi => by rw [e1]; exact h.null i a (hl i hi), by rw [hc']; simp [hne], ?_, ?_⟩
    · intro k σ hk
      rcases hcx k _ hk with ⟨_, _, _, h1⟩ | h1
      · cases h1
      · have := h.susp k σ h1
        exact ⟨this.ok, by rw [e1]; exact this.foot, by rw [e1]; exact this.slot, this.tslot, by rw [e2]; exact this.mem⟩
    · intro k σ hk
      rcases hcx k _ hk with ⟨_, _, _, h1⟩ | h1
      · cases h1
      · have := h.fresh k σ h1
        exact ⟨this.mok, this.pre, by rw [e1]; exact this.foot, by rw [e2]; exact this.mem⟩
  | spawn j t R g q m1 m2 m3 =>
    have hjc : j ≠ c.cur := fun hh => m1 (.inl hh)
    obtain ⟨c', hc'⟩ : ∃ c' : Cfg A, c' = { c with stk := fun k => if k = j then R else c.stk k, ctx := fun k => if k = j then some (.par t g q) else c.ctx k } := ⟨_, rfl⟩
    have hl : ∀ k, k ≠ j → live c' k → live c k := by
      intro k hkj hk
      rw [hc'] at hk
      rcases hk with hk | hk
      · exact .inl hk
      · simp only [hkj, if_false] at hk; exact .inr hk
    have e1 : c'.stk j = R := by rw [hc']; simp
    have e2 : ∀ k, k ≠ j → c'.stk k = c.stk k := fun k hk => by rw [hc']; simp [hk]
    have e3 : ∀ k x, c'.ctx k = some x → (∃ t g q, x = .par t g q) ∨ (k ≠ j ∧ c.ctx k = some x) := by
      intro k x hk
      rw [hc'] at hk
      by_cases h1 : k = j
      · simp only [h1, if_true, Option.some.injEq] at hk; exact .inl ⟨_, _, _, hk.symm⟩
      · simp only [h1, if_false] at hk; exact .inr ⟨h1, hk⟩
    have e4 : c'.s = c.s := by rw [hc']
    rw [← hc']
    constructor
    · intro i k a hi hk hik
      by_cases hij : i = j
      · have hkj : k ≠ j := fun hh => hik (hij.trans hh.symm)
        rw [hij, e1, e2 k hkj]
        exact fun h1 h2 => m2 k a (hl k hkj hk) h2 h1
      · by_cases hkj : k = j
        · rw [hkj, e1, e2 i hij]; exact m2 i a (hl i hij hi)
        · rw [e2 i hij, e2 k hkj]; exact h.disj i k a (hl i hij hi) (hl k hkj hk) hik
    · intro i a hi
      by_cases hij : i = j
      · rw [hij, e1]; exact m3 a
      · rw [e2 i hij]; exact h.null i a (hl i hij hi)
    · rw [hc']; simp [Ne.symm hjc, h.cur]
    · intro k σ hk
      rcases e3 k _ hk with ⟨_, _, _, h1⟩ | ⟨h0, h1⟩
      · cases h1
      · have := h.susp k σ h1
        exact ⟨this.ok, by rw [e2 k h0]; exact this.foot, by rw [e2 k h0]; exact this.slot, this.tslot, by rw [e4]; exact this.mem⟩
    · intro k σ hk
      rcases e3 k _ hk with ⟨_, _, _, h1⟩ | ⟨h0, h1⟩
      · cases h1
      · have := h.fresh k σ h1
        exact ⟨this.mok, this.pre, by rw [e2 k h0]; exact this.foot, by rw [e4]; exact this.mem⟩

theorem inv_reachable {f : Env A → St A → A.W} (hJ : P.JumpSpec) (hO : X.OntopS f) (hM : X.MakeS) {c : Cfg A} (h : Reachable X e c) : Inv X e c := by
  induction h with
  | init c h1 h2 =>
    have hl : ∀ i, live c i → i = c.cur := fun i hi => hi.resolve_right (fun h => h (h1 i))
    exact ⟨fun i j a hi hj hne => absurd ((hl i hi).trans (hl j hj).symm) hne, fun i a hi => by rw [hl i hi]; exact h2 a, h1 _, fun i σ hx => by simp [h1] at hx, fun i σ hx => by simp [h1] at hx⟩
  | step _ hs ih => exact inv_step hJ hO hM ih hs

/-! ## While a context is suspended -/

theorem away_reachable {c c' : Cfg A} {i : Nat} {W : A.W → Prop} (h : Away X e i W c c') (hr : Reachable X e c) : Reachable X e c' := by
  induction h with
  | refl => exact hr
  | step _ hs _ _ _ _ ih => exact .step ih hs

theorem away_susp {f : Env A → St A → A.W} (hJ : P.JumpSpec) (hO : X.OntopS f) (hM : X.MakeS) {c c' : Cfg A} {i : Nat} {W : A.W → Prop} {x : Ctx A}
    (h : Away X e i W c c') (hr : Reachable X e c)
    (hx : c.ctx i = some x) (hp : ∀ t g q, x ≠ .par t g q) : c'.ctx i = some x ∧ c'.stk i = c.stk i ∧ ∀ a, c.stk i a → c'.s.mem a ≠ c.s.mem a → W a := by
  induction h with
  | refl => exact ⟨hx, rfl, fun a _ h => absurd rfl h⟩
  | @step c1 c2 l h1 hs n1 n2 n3 hw ih =>
    obtain ⟨i1, i2, i3⟩ := ih
    have hinv := inv_reachable hJ hO hM (away_reachable h1 hr)
    have hli : live c1 i := .inr (by rw [i1]; simp)
    have hne : i ≠ c1.cur := fun hh => by rw [hh, hinv.cur] at i1; cases i1
    refine ⟨?_, ?_, ?_⟩
    · cases hs with
      | run => exact i1
      | make j R m1 =>
        have : i ≠ j := fun hh => m1 (hh ▸ hli)
        simp [this, i1]
      | resume j σ hxj =>
        have : i ≠ j := fun hh => n1 (by rw [hh])
        simp [switch, hne, this, i1]
      | start j σ hxj =>
        have : i ≠ j := fun hh => n1 (by rw [hh])
        simp [switch, hne, this, i1]
      | ontop j σ hxj =>
        have : i ≠ j := fun hh => n2 (by rw [hh])
        simp [switch, hne, this, i1]
      | drop j =>
        have : i ≠ j := fun hh => n3 (by rw [hh])
        simp [this, i1]
      | sched j t g q hj =>
        have : i ≠ j := fun hh => by subst hh; rw [i1] at hj; injection hj with hj; exact hp _ _ _ hj
        simp [hne, this, i1]
      | spawn j t R g q m1 =>
        have : i ≠ j := fun hh => m1 (hh ▸ hli)
        simp [this, i1]
    · cases hs with
      | make j R m1 =>
        have : i ≠ j := fun hh => m1 (hh ▸ hli)
        simp [this, i2]
      | spawn j t R g q m1 =>
        have : i ≠ j := fun hh => m1 (hh ▸ hli)
        simp [this, i2]
      | _ => exact i2
    · intro a ha hd
      by_cases hq : c2.s.mem a = c1.s.mem a
      · exact i3 a ha (hq ▸ hd)
      · by_cases hrun : l = .run
        · exact hw hrun a hq
        · exact absurd (step_mem hJ hO hM hinv hs hrun i hli n1 n2 a (by rw [i2]; exact ha) hq).1 hne

/-- a context leaves: it is suspended and of its stack only the frame is written -/
theorem leave {f : Env A → St A → A.W} (hJ : P.JumpSpec) (hO : X.OntopS f) (hM : X.MakeS) {c c' : Cfg A} {l : Act} {k : Nat} (hr : Reachable X e c)
    (hs : Step X e c l c') (hl : l = .jump k ∨ l = .ontop k) :
    c'.ctx c.cur = some (.susp c.s) ∧ c'.stk = c.stk ∧ ∀ a, c.stk c.cur a → c'.s.mem a ≠ c.s.mem a → InR a (P.fctx c.s) P.frame := by
  have hinv := inv_reachable hJ hO hM hr
  have h0 := hs
  have hk : k ≠ c.cur := by
    have hz : ∃ x, c.ctx k = some x := by
      rcases hl with rfl | rfl
      · cases hs with
        | resume _ σ hx => exact ⟨_, hx⟩
        | start _ σ hx => exact ⟨_, hx⟩
      · cases hs with
        | ontop _ σ hx => exact ⟨_, hx⟩
    rintro rfl
    obtain ⟨x, hx⟩ := hz
    rw [hinv.cur] at hx; cases hx
  refine ⟨?_, ?_, ?_⟩
  · rcases hl with rfl | rfl <;> cases hs <;> simp [switch]
  · rcases hl with rfl | rfl <;> cases hs <;> rfl
  · intro a ha hd
    have := step_mem hJ hO hM hinv h0 (by rcases hl with rfl | rfl <;> simp) c.cur (.inl rfl)
      (by rcases hl with rfl | rfl <;> simp [hk]) (by rcases hl with rfl | rfl <;> simp [hk]) a ha hd
    rcases this.2 with ⟨j, hj⟩ | h
    · rcases hl with rfl | rfl <;> cases hj
    · exact h

theorem round_trip {f : Env A → St A → A.W} (hJ : P.JumpSpec) (hO : X.OntopS f) (hM : X.MakeS) {c₀ c₁ c₂ c₃ : Cfg A} {l : Act} {k : Nat} {W : A.W → Prop}
    (hr : Reachable X e c₀) (h0 : Step X e c₀ l c₁) (hl : l = .jump k ∨ l = .ontop k) (h1 : Away X e c₀.cur W c₁ c₂) (h2 : Step X e c₂ (.jump c₀.cur) c₃) :
    c₃.s = (exec e P.jump c₂.s).1 ∧ P.Returned c₀.s c₃.s (exec e P.jump c₂.s).2 ∧ P.resF c₀.s c₃.s = P.fctx c₂.s ∧ P.resD c₀.s c₃.s = P.argD c₂.s ∧ P.also c₀.s c₃.s ∧
    ∀ a, c₀.stk c₀.cur a → c₃.s.mem a ≠ c₀.s.mem a → InR a (P.fctx c₀.s) P.frame ∨ P.slot c₀.s a ∨ W a := by
  obtain ⟨l1, l2, l3⟩ := leave hJ hO hM hr h0 hl
  have r1 := Reachable.step hr h0
  obtain ⟨a1, a2, a3⟩ := away_susp hJ hO hM h1 r1 l1 (by intros; simp)
  have hinv := inv_reachable hJ hO hM (away_reachable h1 r1)
  rw [l2] at a2 a3
  cases h2 with
  | start _ σ hx => rw [a1] at hx; cases hx
  | resume _ σ hx hf hc =>
    have hσ : c₀.s = σ := by rw [a1] at hx; injection hx with hx; injection hx
    subst hσ
    obtain ⟨⟨m, k1, k2⟩, k3⟩ := intact hinv hx hf hc
    obtain ⟨j1, j2, j3, j4, j5, j6⟩ := hJ e c₀.s c₂.s m k1 k2 hf
    have hne : c₂.cur ≠ c₀.cur := fun hh => by rw [← hh, hinv.cur] at hx; cases hx
    refine ⟨rfl, j1, j2, j3, j6, fun a ha hd => ?_⟩
    by_cases q1 : (exec e P.jump c₂.s).1.mem a = c₂.s.mem a
    · by_cases q2 : c₂.s.mem a = c₁.s.mem a
      · exact .inl (l3 a ha (fun q3 => hd (q1.trans (q2.trans q3))))
      · exact .inr (.inr (a3 a ha q2))
    · rcases j4 a q1 with h | h
      · exact absurd (a2 ▸ ha) (hinv.disj c₂.cur c₀.cur a (.inl rfl) (.inr (by rw [a1]; simp)) hne (hc.foot a (inR_mono h X.frame)))
      · exact .inr (.inl h)

theorem round_trip_ontop {f : Env A → St A → A.W} (hJ : P.JumpSpec) (hO : X.OntopS f) (hM : X.MakeS) {c₀ c₁ c₂ c₃ : Cfg A} {l : Act} {k : Nat} {W : A.W → Prop}
    (hr : Reachable X e c₀) (h0 : Step X e c₀ l c₁) (hl : l = .jump k ∨ l = .ontop k) (h1 : Away X e c₀.cur W c₁ c₂) (h2 : Step X e c₂ (.ontop c₀.cur) c₃) :
    c₃.s = (exec e P.ontop c₂.s).1 ∧ (exec e P.ontop c₂.s).2 = f e c₂.s ∧ P.CalledAs c₀.s c₃.s (P.fctx c₂.s) (P.argD c₂.s) ∧
    ∀ a, c₀.stk c₀.cur a → c₃.s.mem a ≠ c₀.s.mem a → InR a (P.fctx c₀.s) P.frame ∨ P.slot c₀.s a ∨ P.oarea c₀.s a ∨ W a := by
  obtain ⟨l1, l2, l3⟩ := leave hJ hO hM hr h0 hl
  have r1 := Reachable.step hr h0
  obtain ⟨a1, a2, a3⟩ := away_susp hJ hO hM h1 r1 l1 (by intros; simp)
  have hinv := inv_reachable hJ hO hM (away_reachable h1 r1)
  rw [l2] at a2 a3
  cases h2 with
  | ontop _ σ hx hf hc ho =>
    have hσ : c₀.s = σ := by rw [a1] at hx; injection hx with hx; injection hx
    subst hσ
    obtain ⟨⟨m, k1, k2⟩, k3⟩ := intact hinv hx hf hc
    obtain ⟨j1, j2, j4, j5⟩ := hO ho e c₀.s c₂.s m k1 k2 hf
    have hne : c₂.cur ≠ c₀.cur := fun hh => by rw [← hh, hinv.cur] at hx; cases hx
    refine ⟨rfl, j1, j2, fun a ha hd => ?_⟩
    by_cases q1 : (exec e P.ontop c₂.s).1.mem a = c₂.s.mem a
    · by_cases q2 : c₂.s.mem a = c₁.s.mem a
      · exact .inl (l3 a ha (fun q3 => hd (q1.trans (q2.trans q3))))
      · exact .inr (.inr (.inr (a3 a ha q2)))
    · rcases j4 a q1 with h | h | h
      · exact absurd (a2 ▸ ha) (hinv.disj c₂.cur c₀.cur a (.inl rfl) (.inr (by rw [a1]; simp)) hne (hc.foot a (inR_mono h X.frame)))
      · exact .inr (.inl h)
      · exact .inr (.inr (.inl h))

theorem first {f : Env A → St A → A.W} (hJ : P.JumpSpec) (hO : X.OntopS f) (hM : X.MakeS) {c₀ c₁ c₂ c₃ : Cfg A} {j : Nat} {W : A.W → Prop}
    (hr : Reachable X e c₀) (h0 : Step X e c₀ (.make j) c₁) (h1 : Away X e j W c₁ c₂) (h2 : Step X e c₂ (.jump j) c₃) :
    c₃.s = (P.enter e c₂.s).1 ∧ (∀ l cc, P.tramp = some (l, cc) → (exec e P.jump c₂.s).2 = e l) ∧ (P.enter e c₂.s).2 = P.argMFn c₀.s ∧
    P.inF c₃.s = P.fctx c₂.s ∧ P.inD c₃.s = P.argD c₂.s ∧ P.ra c₃.s = e P.finish ∧ P.aligned (c₃.s.gpr P.sp) ∧
    (c₃.s.gpr P.sp - P.resM c₁.s).toNat ≤ (P.argTop c₀.s - P.resM c₁.s).toNat ∧
    ∀ a, c₁.stk j a → c₃.s.mem a ≠ c₁.s.mem a → P.mslot (P.resM c₁.s) a ∨ W a := by
  have r1 := Reachable.step hr h0
  have hx1 : c₁.ctx j = some (.fresh c₀.s) ∧ c₁.s = (exec e P.make c₀.s).1 := by cases h0; simp
  obtain ⟨a1, a2, a3⟩ := away_susp hJ hO hM h1 r1 hx1.1 (by intros; simp)
  have hinv := inv_reachable hJ hO hM (away_reachable h1 r1)
  cases h2 with
  | resume _ σ hx => rw [a1] at hx; cases hx
  | start _ σ hx hf hc =>
    have hσ : c₀.s = σ := by rw [a1] at hx; injection hx with hx; injection hx
    subst hσ
    obtain ⟨s1, s2, s3, s4, s5, s6, s7, s8, s9, s10, s11⟩ := started hM hinv hx hf hc
    have hne : c₂.cur ≠ j := fun hh => by rw [← hh, hinv.cur] at hx; cases hx
    rw [hx1.2, ← hf]
    refine ⟨rfl, s5, s6, s7, s8, s9, s10, s11, fun a ha hd => ?_⟩
    by_cases q1 : (P.enter e c₂.s).1.mem a = c₂.s.mem a
    · by_cases q2 : c₂.s.mem a = c₁.s.mem a
      · exact absurd (q1.trans (hx1.2 ▸ q2)) hd
      · exact .inr (a3 a ha q2)
    · rcases s4 a q1 with h | h
      · exact absurd (a2 ▸ ha) (hinv.disj c₂.cur j a (.inl rfl) (.inr (by rw [a1]; simp)) hne (hc.foot a (inR_mono h X.frame)))
      · exact .inl h.1

/-- **C40**, for every port whose routines meet their specifications -/
theorem C40_of_calls (X : Extra P) {f : Env A → St A → A.W} (hJ : P.JumpSpec) (hO : X.OntopS f) (hM : X.MakeS) : Spec X f :=
  ⟨round_trip hJ hO hM, round_trip_ontop hJ hO hM, first hJ hO hM⟩

/-- **C40**, for every port whose routines meet their specifications for all calls -/
theorem C40_of_specs (X : Extra P) {f : Env A → St A → A.W} (hJ : P.JumpSpec) (hO : P.OntopSpecTo f) (hM : P.MakeSpec) : Spec X f :=
  C40_of_calls X hJ (fun _ => hO) (fun e σ _ => hM e σ)

/-! ## Such histories exist -/

theorem inR_toNat {a b : A.W} {n : Nat} (h : InR a b n) (hn : b.toNat + n ≤ 2 ^ (8 * A.k)) : b.toNat ≤ a.toNat ∧ a.toNat < b.toNat + n := by
  unfold InR at h
  rw [BitVec.toNat_sub] at h
  have := a.isLt
  have := b.isLt
  by_cases hq : b.toNat ≤ a.toNat
  · have e : 2 ^ (8 * A.k) - b.toNat + a.toNat = (a.toNat - b.toNat) + 2 ^ (8 * A.k) := by omega
    rw [e, Nat.add_mod_right, Nat.mod_eq_of_lt (by omega)] at h
    omega
  · rw [Nat.mod_eq_of_lt (by omega)] at h
    omega

/-- How to prepare a call: a state with memory `m` (except for arguments on the stack), stack pointer `sp`, result object at `h`, target `to` (or, for
`make_fcontext`, top of stack `h = to`), all other registers containing `x`. -/
structure Calls (X : Extra P) where
  call : Mem A → (sp h to x : A.W) → St A
  fr : Nat
  k : 4 ≤ A.k
  sz : X.fp ≤ 0x400 ∧ fr ≤ 0x400 ∧ P.mscratch + A.k ≤ 0x400 ∧ P.mkeep ≤ 0x400
  null : ∀ a, X.null a → a.toNat < 0x1000
  mem : ∀ m sp h to x a, ¬ InR a sp 0x40 → (call m sp h to x).mem a = m a
  sp : ∀ m sp h to x, (call m sp h to x).gpr P.sp = sp
  fctx : ∀ m sp h to x, P.fctx (call m sp h to x) = sp - off A fr
  argF : ∀ m sp h to x, P.argF (call m sp h to x) = to
  res : ∀ e m sp t x, (P.argTop (call m sp t t x) - P.resM (exec e P.make (call m sp t t x)).1).toNat ≤ 0x800
  argTop : ∀ m sp t x, P.argTop (call m sp t t x) = t
  slot : ∀ m sp h to x a, P.slot (call m sp h to x) a → InR a h 0x20
  nn : ∀ m sp h to x, h ≠ 0#_ → X.nn (call m sp h to x)
  mok : ∀ e x, X.mok e (call (fun _ => 0#_) (off A 0x18000) (off A 0x3f000) (off A 0x3f000) x)
  diff : ∃ r ∈ P.saved, ∀ m sp h to x, (call m sp h to x).gpr r = x

def stacks : Nat → A.W → Prop
  | 0, a => 0x10000 ≤ a.toNat ∧ a.toNat < 0x20000
  | _, a => 0x30000 ≤ a.toNat ∧ a.toNat < 0x40000

theorem toNat_off (hk : 4 ≤ A.k) (n : Nat) (h : n < 2 ^ 32) : (off A n).toNat = n := by
  have h2 : 2 ^ 32 ≤ 2 ^ (8 * A.k) := Nat.pow_le_pow_right (by omega) (by omega)
  show (BitVec.ofNat (8 * A.k) n).toNat = n
  rw [BitVec.toNat_ofNat, Nat.mod_eq_of_lt (by omega)]

theorem toNat_sub_off (hk : 4 ≤ A.k) (n m : Nat) (h : n < 2 ^ 32) (hm : m ≤ n) : (off A n - off A m).toNat = n - m := by
  have h2 : 2 ^ 32 ≤ 2 ^ (8 * A.k) := Nat.pow_le_pow_right (by omega) (by omega)
  rw [BitVec.toNat_sub, toNat_off hk n h, toNat_off hk m (by omega), show 2 ^ (8 * A.k) - m + n = (n - m) + 2 ^ (8 * A.k) by omega, Nat.add_mod_right,
    Nat.mod_eq_of_lt (by omega)]

/-- Context 0 makes context 1, switches to it, and context 1, which has changed the callee-saved registers, switches back. -/
theorem there_and_back {X : Extra P} (hM : X.MakeS) (C : Calls X) (e : Env A) : ∃ b₀ b₁ c₀ c₁ c₂ c₃ : Cfg A,
    (b₀.thr = 0 ∧ b₀.cur = 0 ∧ (∀ i, b₀.ctx i = none) ∧ ∀ a, b₀.stk 0 a → ¬ X.null a) ∧
    Step X e b₀ (.make 1) b₁ ∧ Step X e b₁ .run c₀ ∧ Step X e c₀ (.jump 1) c₁ ∧ Step X e c₁ .run c₂ ∧ Step X e c₂ (.jump c₀.cur) c₃ ∧
    (∃ r ∈ P.saved, c₂.s.gpr r ≠ c₀.s.gpr r) ∧ ∀ i, ¬ c₃.stk i 0#_ := by
  have hw : 2 ^ 32 ≤ 2 ^ (8 * A.k) := Nat.pow_le_pow_right (by omega) (by have := C.k; omega)
  have tn := @toNat_off A C.k
  have tns := @toNat_sub_off A C.k
  obtain ⟨z1, z2, z3, z4⟩ := C.sz
  -- the call of make
  obtain ⟨s0, hs0⟩ : ∃ s, s = C.call (fun _ => 0#_) (off A 0x18000) (off A 0x3f000) (off A 0x3f000) 0#_ := ⟨_, rfl⟩
  obtain ⟨d, hd⟩ : ∃ d, d = P.resM (exec e P.make s0).1 := ⟨_, rfl⟩
  have top : P.argTop s0 = off A 0x3f000 := by rw [hs0]; exact C.argTop _ _ _ _
  have sp0 : s0.gpr P.sp = off A 0x18000 := by rw [hs0]; exact C.sp _ _ _ _ _
  have res : (P.argTop s0 - d).toNat ≤ 0x800 := by rw [hd, hs0]; exact C.res _ _ _ _ _
  have hdn : d.toNat + (P.argTop s0 - d).toNat = 0x3f000 := by
    have h1 : P.argTop s0 = d + (P.argTop s0 - d) := by rw [BitVec.add_comm, BitVec.sub_add_cancel]
    have h2 : (P.argTop s0).toNat = 0x3f000 := by rw [top, tn _ (by decide)]
    have h3 := congrArg BitVec.toNat h1
    rw [BitVec.toNat_add, h2] at h3
    have h4 := d.isLt
    have h5 : (d.toNat + (P.argTop s0 - d).toNat) % 2 ^ (8 * A.k) = 0x3f000 := h3.symm
    by_cases hq : d.toNat + (P.argTop s0 - d).toNat < 2 ^ (8 * A.k)
    · rwa [Nat.mod_eq_of_lt hq] at h5
    · rw [Nat.mod_eq_sub_mod (by omega), Nat.mod_eq_of_lt (by omega)] at h5
      omega
  let R : A.W → Prop := stacks 1
  obtain ⟨b0, hb0⟩ : ∃ b : Cfg A, b = ⟨0, 0, s0, fun _ => stacks 0, fun _ => none⟩ := ⟨_, rfl⟩
  have r0 : ∀ a, b0.stk 0 a → ¬ X.null a := by
    intro a ha hn
    have := C.null a hn
    rw [hb0] at ha
    have ha : 0x10000 ≤ a.toNat ∧ a.toNat < 0x20000 := ha
    omega
  have hreg : ∀ a, InR a d (P.argTop s0 - d).toNat → R a := by
    intro a ha
    have := inR_toNat ha (by omega)
    show 0x30000 ≤ a.toNat ∧ a.toNat < 0x40000
    omega
  have hscr : ∀ a, InR a (s0.gpr P.sp - off A P.mscratch) (P.mscratch + A.k) → stacks 0 a := by
    intro a ha
    rw [sp0] at ha
    have q := tns 0x18000 P.mscratch (by decide) (by omega)
    have := inR_toNat ha (by omega)
    show 0x10000 ≤ a.toNat ∧ a.toNat < 0x20000
    omega
  have st1 := Step.make (X := X) (e := e) (c := b0) 1 R (by rw [hb0]; simp [live]) (by
      rw [hb0]
      intro i a hi h1 h2
      have hi : i = 0 := by simpa [live] using hi
      subst hi
      have h1 : 0x10000 ≤ a.toNat ∧ a.toNat < 0x20000 := h1
      have h2 : 0x30000 ≤ a.toNat ∧ a.toNat < 0x40000 := h2
      omega) (fun a ha hn => by
      have := C.null a hn
      have ha : 0x30000 ≤ a.toNat ∧ a.toNat < 0x40000 := ha
      omega) (by rw [hb0]; rw [hd] at hreg; exact hreg) (by rw [hb0]; exact hscr)
      (by rw [hb0, hs0]; exact C.mok e _)
  obtain ⟨b1, hb1⟩ : ∃ b : Cfg A, b = ⟨0, 0, (exec e P.make s0).1, fun k => if k = 1 then R else stacks 0, fun k => if k = 1 then some (.fresh s0) else none⟩ := ⟨_, rfl⟩
  have st1 : Step X e b0 (.make 1) b1 := by
    have e1 : b1 = { b0 with s := (exec e P.make b0.s).1, stk := fun k => if k = 1 then R else b0.stk k,
                             ctx := fun k => if k = 1 then some (.fresh b0.s) else b0.ctx k } := by
      rw [hb1, hb0]
    rw [e1]; exact st1
  -- the call of jump in context 0
  obtain ⟨s2, hs2⟩ : ∃ s, s = C.call (exec e P.make s0).1.mem (off A 0x18000) (off A 0x19000) d 1#_ := ⟨_, rfl⟩
  obtain ⟨b2, hb2⟩ : ∃ b : Cfg A, b = { b1 with s := s2 } := ⟨_, rfl⟩
  obtain ⟨-, ⟨mk1, mk2⟩, -, -⟩ := hM e s0 (by rw [hs0]; exact C.mok e _) (by
    rw [← hd]
    intro a h1 h2
    have h1 : 0x30000 ≤ a.toNat ∧ a.toNat < 0x40000 := hreg a h1
    have h2 : 0x10000 ≤ a.toNat ∧ a.toNat < 0x20000 := hscr a h2
    omega)
  rw [← hd] at mk1 mk2
  have sp18 : ∀ a, InR a (off A 0x18000) 0x40 → 0x18000 ≤ a.toNat ∧ a.toNat < 0x18040 := by
    intro a ha
    have q := tn 0x18000 (by decide)
    have := inR_toNat ha (by omega)
    omega
  have sp38 : ∀ a, InR a (off A 0x38000) 0x40 → 0x38000 ≤ a.toNat ∧ a.toNat < 0x38040 := by
    intro a ha
    have q := tn 0x38000 (by decide)
    have := inR_toNat ha (by omega)
    omega
  have st2 : Step X e b1 .run b2 := by
    rw [hb2]
    refine .run s2 ?_
    rw [hb1]
    intro i x a hx ha
    by_cases hi : i = 1
    · simp only [hi, if_true, Option.some.injEq] at hx
      subst hx
      have ha : InR a (P.resM (exec e P.make s0).1) P.mkeep := ha
      rw [← hd] at ha
      have h1 : 0x30000 ≤ a.toNat ∧ a.toNat < 0x40000 := hreg a (inR_mono ha mk1)
      rw [hs2]
      exact C.mem _ _ _ _ _ _ (fun h => by have := sp18 a h; omega)
    · simp [hi] at hx
  have call0 : CallOk X b2 := by
    rw [hb2, hb1]
    refine ⟨fun a ha => ?_, fun a ha => ?_, ?_⟩
    · show stacks 0 a
      have ha : InR a (P.fctx s2) X.fp := ha
      rw [hs2, C.fctx] at ha
      have q := tns 0x18000 C.fr (by decide) (by omega)
      have := inR_toNat ha (by omega)
      show 0x10000 ≤ a.toNat ∧ a.toNat < 0x20000
      omega
    · have ha : P.slot s2 a := ha
      rw [hs2] at ha
      have ha := C.slot _ _ _ _ _ _ ha
      have q := tn 0x19000 (by decide)
      have h1 := inR_toNat ha (by omega)
      refine ⟨?_, fun h => ?_⟩
      · show 0x10000 ≤ a.toNat ∧ a.toNat < 0x20000
        omega
      · have h : InR a (P.fctx s2) X.fp := h
        rw [hs2, C.fctx] at h
        have q := tns 0x18000 C.fr (by decide) (by omega)
        have := inR_toNat h (by omega)
        omega
    · show X.nn s2
      rw [hs2]
      refine C.nn _ _ _ _ _ fun h => ?_
      have := congrArg BitVec.toNat h
      rw [tn _ (by decide), BitVec.toNat_ofNat, Nat.zero_mod] at this
      omega
  have st3 : Step X e b2 (.jump 1) (switch b2 1 (P.enter e b2.s).1) := by
    refine .start 1 s0 ?_ ?_ call0
    · rw [hb2, hb1]; rfl
    · rw [← hd, hb2, hs2]; exact C.argF _ _ _ _ _
  obtain ⟨s4, hs4⟩ : ∃ s, s = C.call (P.enter e b2.s).1.mem (off A 0x38000) (off A 0x39000) (P.fctx s2) 2#_ := ⟨_, rfl⟩
  obtain ⟨b4, hb4⟩ : ∃ b : Cfg A, b = { switch b2 1 (P.enter e b2.s).1 with s := s4 } := ⟨_, rfl⟩
  have hb2s : b2.s = s2 := by rw [hb2]
  have hb2c : b2.cur = 0 := by rw [hb2, hb1]
  have hb2x : ∀ k, b2.ctx k = if k = 1 then some (.fresh s0) else none := by rw [hb2, hb1]; exact fun _ => rfl
  have hx4 : ∀ k, b4.ctx k = if k = 0 then some (.susp s2) else none := by
    intro k
    rw [hb4]
    show (if k = b2.cur then some (Ctx.susp b2.s) else if k = 1 then none else b2.ctx k) = _
    rw [hb2c, hb2s, hb2x]
    by_cases h0 : k = 0
    · simp [h0]
    · by_cases h1 : k = 1 <;> simp [h0, h1]
  have st4 : Step X e (switch b2 1 (P.enter e b2.s).1) .run b4 := by
    rw [hb4]
    refine .run s4 ?_
    intro i x a hx ha
    have hx' := hx4 i
    rw [hb4] at hx'
    have hx' : (switch b2 1 (P.enter e b2.s).1).ctx i = _ := hx'
    rw [hx'] at hx
    by_cases hi : i = 0
    · simp only [hi, if_true, Option.some.injEq] at hx
      subst hx
      have ha : InR a (P.fctx s2) P.keep := ha
      have hst := call0.foot a (by rw [hb2s]; exact inR_mono ha X.keep)
      rw [hb2, hb1] at hst
      have hst : 0x10000 ≤ a.toNat ∧ a.toNat < 0x20000 := hst
      rw [hs4]
      exact C.mem _ _ _ _ _ _ (fun h => by have := sp38 a h; omega)
    · simp [hi] at hx
  have hstk4 : b4.stk b4.cur = R := by rw [hb4]; show b2.stk 1 = R; rw [hb2, hb1]; rfl
  have hs4' : b4.s = s4 := by rw [hb4]
  have call1 : CallOk X b4 := by
    refine ⟨fun a ha => ?_, fun a ha => ?_, ?_⟩
    · rw [hstk4]
      rw [hs4', hs4, C.fctx] at ha
      have q := tns 0x38000 C.fr (by decide) (by omega)
      have := inR_toNat ha (by omega)
      show 0x30000 ≤ a.toNat ∧ a.toNat < 0x40000
      omega
    · rw [hs4', hs4] at ha ⊢
      have ha := C.slot _ _ _ _ _ _ ha
      have q := tn 0x39000 (by decide)
      have h1 := inR_toNat ha (by omega)
      refine ⟨?_, fun h => ?_⟩
      · rw [hstk4]
        show 0x30000 ≤ a.toNat ∧ a.toNat < 0x40000
        omega
      · rw [C.fctx] at h
        have q := tns 0x38000 C.fr (by decide) (by omega)
        have := inR_toNat h (by omega)
        omega
    · rw [hs4', hs4]
      refine C.nn _ _ _ _ _ fun h => ?_
      have := congrArg BitVec.toNat h
      rw [tn _ (by decide), BitVec.toNat_ofNat, Nat.zero_mod] at this
      omega
  obtain ⟨r, hr1, hr2⟩ := C.diff
  have st5 : Step X e b4 (.jump 0) (switch b4 0 (exec e P.jump b4.s).1) :=
    .resume 0 s2 (by rw [hx4]; rfl) (by rw [hs4', hs4]; exact C.argF _ _ _ _ _) call1
  refine ⟨b0, b1, b2, switch b2 1 (P.enter e b2.s).1, b4, switch b4 0 (exec e P.jump b4.s).1, ⟨by rw [hb0], by rw [hb0], by rw [hb0]; simp, r0⟩, st1, st2, st3, st4,
    by rw [hb2c]; exact st5, ⟨r, hr1, ?_⟩, ?_⟩
  · rw [hs4', hs4, hb2s, hs2, hr2, hr2]
    intro h
    have h := congrArg BitVec.toNat h
    rw [BitVec.toNat_ofNat, BitVec.toNat_ofNat, Nat.mod_eq_of_lt (by omega), Nat.mod_eq_of_lt (by omega)] at h
    omega
  · intro i hi
    have hz : ∀ j, ¬ stacks (A := A) j 0#_ := by
      intro j hj
      cases j <;> simp [stacks] at hj
    have h1 : (switch b4 0 (exec e P.jump b4.s).1).stk = b1.stk := by
      show b4.stk = b1.stk
      rw [hb4]; show b2.stk = b1.stk; rw [hb2]
    rw [h1, hb1] at hi
    simp only at hi
    split at hi
    · exact hz _ hi
    · exact hz _ hi

/-- The hypotheses of `Spec.resume` are met. -/
theorem inhabited_of {X : Extra P} (hM : X.MakeS) (C : Calls X) (e : Env A) : ∃ c₀ c₁ c₂ c₃ W, Reachable X e c₀ ∧ Step X e c₀ (.jump 1) c₁ ∧ Away X e c₀.cur W c₁ c₂ ∧
    Step X e c₂ (.jump c₀.cur) c₃ ∧ ∃ r ∈ P.saved, c₂.s.gpr r ≠ c₀.s.gpr r := by
  obtain ⟨b₀, b₁, c₀, c₁, c₂, c₃, ⟨-, h1, h2, h3⟩, s1, s2, s3, s4, s5, h, -⟩ := there_and_back hM C e
  exact ⟨c₀, c₁, c₂, c₃, fun _ => True, .step (.step (.init _ h2 (by rw [h1]; exact h3)) s1) s2, s3,
    .step (.refl _) s4 (by simp) (by simp) (by simp) (fun _ _ _ => trivial), s5, h⟩

theorem inhabited {X : Extra P} (hM : P.MakeSpec) (C : Calls X) (e : Env A) : ∃ c₀ c₁ c₂ c₃ W, Reachable X e c₀ ∧ Step X e c₀ (.jump 1) c₁ ∧ Away X e c₀.cur W c₁ c₂ ∧
    Step X e c₂ (.jump c₀.cur) c₃ ∧ ∃ r ∈ P.saved, c₂.s.gpr r ≠ c₀.s.gpr r :=
  inhabited_of (fun e σ _ => hM e σ) C e

end Many
end Verif.Asm
