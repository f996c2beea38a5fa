import Verif.Asm.Sparc64

/-!
# SPARC64: any number of contexts on any number of threads (C40)

The machine of `Many.lean` for SPARC64, whose contexts live in register windows and save areas.  Every call may find a different number of windows in the register file
and leaves other junk in new windows (`Env`); only the addresses of the labels stay (`Same`).  No code of `/repo` is modelled here beyond the routines of `Sparc64Code`.
-/

namespace Verif.Asm.Sparc64
namespace Many

/-- the registers of a thread that is not taking the next step -/
structure Regs where
  g : Fin 8 → W
  o : Fin 8 → W
  l : Fin 8 → W
  i : Fin 8 → W
  wins : List Win

def Regs.st (r : Regs) (m : Mem A) : St := ⟨r.g, r.o, r.l, r.i, r.wins, m⟩
def regs (s : St) : Regs := ⟨s.g, s.o, s.l, s.i, s.wins⟩

/-- a context other than the one that takes the next step: made by a call of `make_fcontext` with entry state `σ` and not started; suspended by a call with entry state `σ`
of `jump_fcontext` or `ontop_fcontext`, with `N` callers; running on another thread -/
inductive Ctx
  | fresh (e : Env) (σ : St)
  | susp (σ : St) (N : Nat)
  | par (t : Nat) (r : Regs)

/-- The thread that takes the next step, the context it executes, its registers and the memory, the stack of each context, and the other contexts. -/
structure Cfg where
  thr : Nat
  cur : Nat
  s : St
  stk : Nat → W → Prop
  ctx : Nat → Option Ctx

/-- the bytes of a context that is not running that nobody may write -/
def held : Ctx → W → Prop
  | .fresh _ σ, a => CData σ a
  | .susp σ N, a => Keep σ N a
  | .par _ _, _ => False

def live (c : Cfg) (i : Nat) : Prop := i = c.cur ∨ c.ctx i ≠ none

/-- the save areas of the calling activation and its `N` callers, among them all whose registers are in the register file, lie above each other on its stack -/
structure OnStack (c : Cfg) (N : Nat) : Prop where
  chain : Chain c.s N
  areas : ∀ n ≤ N, ∀ a, Area c.s n a → c.stk c.cur a

/-- a call of one of the switching routines: there is room for its frame, too -/
structure CallOk (c : Cfg) (N : Nat) : Prop extends OnStack c N where
  frame : ∀ a, Frame c.s a → c.stk c.cur a

/-- context `i` runs in state `s'`; the context that ran is suspended, with `N` callers -/
def switch (c : Cfg) (N i : Nat) (s' : St) : Cfg :=
  { c with cur := i, s := s', ctx := fun k => if k = c.cur then some (.susp c.s N) else if k = i then none else c.ctx k }

inductive Act
  | run
  | make (j : Nat)
  | jump (i : Nat)
  | ontop (i : Nat)
  | drop (j : Nat)
  | sched (i : Nat)
  | spawn (j : Nat)

/-- Labels are where they are in `b`. -/
def Same (b e : Env) : Prop := e.tramp = b.tramp ∧ e.one = b.one

/-- One step: arbitrary code of the running context; `make_fcontext` on a new stack `R`; `jump_fcontext` to a suspended or new context (in the latter case through the
trampoline); `ontop_fcontext` to a suspended context; a context that is never going to be resumed is given up, so that its stack can be reused; another thread takes the next
step; a new thread starts. -/
inductive Step (b : Env) : Cfg → Act → Cfg → Prop
  | run {c : Cfg} (s' : St) : (∀ i x a, c.ctx i = some x → held x a → s'.mem a = c.s.mem a) → Step b c .run { c with s := s' }
  | make {c : Cfg} (e : Env) (N j : Nat) (R : W → Prop) : Same b e → ¬ live c j → (∀ i a, live c i → c.stk i a → ¬ R a) → (∀ a, CData c.s a → R a) → OnStack c N →
      Step b c (.make j) { c with s := (exec e make c.s).1, stk := fun k => if k = j then R else c.stk k,
                                  ctx := fun k => if k = j then some (.fresh e c.s) else c.ctx k }
  | resume {c : Cfg} (e : Env) (N i : Nat) (σ : St) (M : Nat) : Same b e → c.ctx i = some (.susp σ M) → c.s.o 0 = fctx σ → CallOk c N →
      Step b c (.jump i) (switch c N i (exec e jump c.s).1)
  | start {c : Cfg} (e : Env) (N i : Nat) (e₀ : Env) (σ : St) : Same b e → c.ctx i = some (.fresh e₀ σ) → c.s.o 0 = (exec e₀ make σ).1.o 0 → CallOk c N →
      Step b c (.jump i) (switch c N i (exec e tramp (exec e jump c.s).1).1)
  | ontop {c : Cfg} (e : Env) (N i : Nat) (σ : St) (M : Nat) : Same b e → c.ctx i = some (.susp σ M) → c.s.o 0 = fctx σ → CallOk c N →
      Step b c (.ontop i) (switch c N i (exec e ontop c.s).1)
  | drop {c : Cfg} (j : Nat) : Step b c (.drop j) { c with ctx := fun k => if k = j then none else c.ctx k }
  | sched {c : Cfg} (i t : Nat) (r : Regs) : c.ctx i = some (.par t r) →
      Step b c (.sched i) { c with thr := t, cur := i, s := r.st c.s.mem,
                                   ctx := fun k => if k = c.cur then some (.par c.thr (regs c.s)) else if k = i then none else c.ctx k }
  | spawn {c : Cfg} (j t : Nat) (R : W → Prop) (r : Regs) : ¬ live c j → (∀ i a, live c i → c.stk i a → ¬ R a) → t ≠ c.thr → (∀ k r, c.ctx k ≠ some (.par t r)) →
      Step b c (.spawn j) { c with stk := fun k => if k = j then R else c.stk k, ctx := fun k => if k = j then some (.par t r) else c.ctx k }

/-- in the beginning there is one thread with one context, which runs -/
inductive Reachable (b : Env) : Cfg → Prop
  | init (c : Cfg) : (∀ i, c.ctx i = none) → Reachable b c
  | step {c c' : Cfg} {l : Act} : Reachable b c → Step b c l c' → Reachable b c'

/-- Any number of steps none of which switches to context `i` or gives it up; other contexts' own code writes only at addresses in `V`. -/
inductive Away (b : Env) (i : Nat) (V : W → Prop) : Cfg → Cfg → Prop
  | refl (c : Cfg) : Away b i V c c
  | step {c c1 c2 : Cfg} {l : Act} : Away b i V c c1 → Step b c1 l c2 → l ≠ .jump i → l ≠ .ontop i → l ≠ .drop i →
      (l = .run → ∀ a, c2.s.mem a ≠ c1.s.mem a → V a) → Away b i V c c2

/-! ## Invariant -/

structure SuspOk (c : Cfg) (i : Nat) (σ : St) (N : Nat) : Prop where
  chain : Chain σ N
  foot : ∀ a, Keep σ N a → c.stk i a
  mem : ∃ e m, Left e σ m ∧ ∀ a, Keep σ N a → c.s.mem a = m a

structure FreshOk (b : Env) (c : Cfg) (i : Nat) (e : Env) (σ : St) : Prop where
  same : Same b e
  foot : ∀ a, CData σ a → c.stk i a
  mem : ∀ a, CData σ a → c.s.mem a = (exec e make σ).1.mem a

structure Inv (b : Env) (c : Cfg) : Prop where
  disj : ∀ i j a, live c i → live c j → i ≠ j → c.stk i a → ¬ c.stk j a
  cur : c.ctx c.cur = none
  susp : ∀ i σ N, c.ctx i = some (.susp σ N) → SuspOk c i σ N
  fresh : ∀ i e σ, c.ctx i = some (.fresh e σ) → FreshOk b c i e σ

variable {b : Env}

theorem Inv.held_stk {c : Cfg} (h : Inv b c) {i x a} (hx : c.ctx i = some x) (ha : held x a) : c.stk i a := by
  cases x with
  | fresh e σ => exact (h.fresh i e σ hx).foot a ha
  | susp σ N => exact (h.susp i σ N hx).foot a ha
  | par => exact ha.elim

theorem CallOk.writes {c : Cfg} {N : Nat} (h : CallOk c N) {a : W} (ha : Writes c.s a) : c.stk c.cur a := by
  rcases ha with ha | ⟨n, hn, ha⟩
  · exact h.frame a ha
  · exact h.areas n (Nat.le_trans hn h.chain.cached) a ha

theorem CallOk.keep {c : Cfg} {N : Nat} (h : CallOk c N) {a : W} (ha : Keep c.s N a) : c.stk c.cur a := by
  rcases ha with ha | ⟨n, hn, ha⟩
  · exact h.frame a ha
  · exact h.areas n hn a ha

theorem live_of {c : Cfg} {i : Nat} {x : Ctx} (h : c.ctx i = some x) : live c i := .inr (by rw [h]; simp)

theorem Inv.ne {c : Cfg} (h : Inv b c) {i : Nat} {x : Ctx} (hx : c.ctx i = some x) : c.cur ≠ i := fun hh => by rw [← hh, h.cur] at hx; cases hx

/-- the state after a switch -/
theorem inv_switch {c : Cfg} (h : Inv b c) {i N : Nat} {x : Ctx} (hx : c.ctx i = some x) (s' : St) (hc : CallOk c N) (hl : ∃ e, Left e c.s s'.mem)
    (hm : ∀ a, s'.mem a ≠ c.s.mem a → Writes c.s a) : Inv b (switch c N i s') := by
  have hne := h.ne hx
  have hlive : ∀ k, live (switch c N i s') k → live c k := by
    intro k hk
    rcases hk with hk | hk
    · exact .inr (by rw [show k = i from hk, hx]; simp)
    · by_cases h1 : k = c.cur
      · exact .inl h1
      · by_cases h2 : k = i
        · exact absurd (by simp [switch, h2, hne.symm]) hk
        · right; intro h3; exact hk (by simp [switch, h1, h2, h3])
  have other : ∀ k y, k ≠ c.cur → c.ctx k = some y → ∀ a, held y a → s'.mem a = c.s.mem a := by
    intro k y h1 h3 a ha
    refine Classical.byContradiction fun hq => ?_
    exact h.disj c.cur k a (.inl rfl) (live_of h3) (Ne.symm h1) (hc.writes (hm a hq)) (h.held_stk h3 ha)
  constructor
  · intro k j a hk hj; exact h.disj k j a (hlive k hk) (hlive j hj)
  · simp [switch, hne.symm]
  · intro k σ M hk
    by_cases h1 : k = c.cur
    · subst h1
      simp only [switch, if_true, Option.some.injEq, Ctx.susp.injEq] at hk
      obtain ⟨rfl, rfl⟩ := hk
      obtain ⟨e, he⟩ := hl
      exact ⟨hc.chain, fun a ha => hc.keep ha, e, _, he, fun _ _ => rfl⟩
    · by_cases h2 : k = i
      · simp [switch, h2, hne.symm] at hk
      · simp only [switch, h1, h2, if_false] at hk
        have := h.susp k σ M hk
        obtain ⟨e, m, m1, m2⟩ := this.mem
        exact ⟨this.chain, this.foot, e, m, m1, fun a ha => (other k _ h1 hk a ha).trans (m2 a ha)⟩
  · intro k e σ hk
    by_cases h1 : k = c.cur
    · simp [switch, h1] at hk
    · by_cases h2 : k = i
      · simp [switch, h2, hne.symm] at hk
      · simp only [switch, h1, h2, if_false] at hk
        have := h.fresh k e σ hk
        exact ⟨this.same, this.foot, fun a ha => (other k _ h1 hk a ha).trans (this.mem a ha)⟩

/-- the hypotheses of `C39_sparc64_jump`, `C39_sparc64_ontop` hold at every switch to a suspended context -/
theorem intact {c : Cfg} (h : Inv b c) {i N M : Nat} {σ : St} (hx : c.ctx i = some (.susp σ M)) (hc : CallOk c N) :
    ∃ e m, Left e σ m ∧ Chain σ M ∧ Intact σ M m c.s := by
  have hi := h.susp i σ M hx
  obtain ⟨e, m, m1, m2⟩ := hi.mem
  exact ⟨e, m, m1, hi.chain, m2, fun a ha hw => h.disj c.cur i a (.inl rfl) (live_of hx) (h.ne hx) (hc.writes hw) (hi.foot a ha)⟩

theorem tramp_mem (e : Env) (s : St) : (exec e tramp s).1.mem = s.mem := by rw [exec_tramp]

theorem jump_writes (e : Env) (s : St) (a : W) (h : (exec e jump s).1.mem a ≠ s.mem a) : Writes s a := by
  rw [exec_jump] at h; exact left_writes e s a h
theorem ontop_writes (e : Env) (s : St) (a : W) (h : (exec e ontop s).1.mem a ≠ s.mem a) : Writes s a := by
  rw [exec_ontop] at h; exact left_writes e s a h

theorem OnStack.apart {c : Cfg} {N : Nat} {R : W → Prop} (h : OnStack c N) (m2 : ∀ i a, live c i → c.stk i a → ¬ R a) (m3 : ∀ a, CData c.s a → R a) :
    ∀ a, CData c.s a → ∀ n ≤ N, ¬ Area c.s n a := fun a ha n hn hh => m2 c.cur a (.inl rfl) (h.areas n hn a hh) (m3 a ha)

theorem make_res (e : Env) (s : St) : area ((exec e make s).1.o 0) = cdata s := by
  rw [exec_make]; simp only [upd_apply, if_pos, area_res]

theorem make_writes {c : Cfg} {N : Nat} (e : Env) (h : OnStack c N) (hd : ∀ a, CData c.s a → ∀ n ≤ N, ¬ Area c.s n a) (a : W)
    (ha : (exec e make c.s).1.mem a ≠ c.s.mem a) : CData c.s a ∨ c.stk c.cur a := by
  have h1 := (C39_sparc64_make (e := e) h.chain hd).2.2.2.2.2.2.2.2 a ha
  rw [make_res] at h1
  exact h1.imp id fun ⟨n, hn, hh⟩ => h.areas n (Nat.le_trans hn h.chain.cached) a hh

theorem inv_step {c c' : Cfg} {l : Act} (h : Inv b c) (hs : Step b c l c') : Inv b c' := by
  cases hs with
  | run s' hk =>
    refine ⟨h.disj, h.cur, fun i σ N hx => ?_, fun i e σ hx => ?_⟩
    · have := h.susp i σ N hx
      obtain ⟨e, m, m1, m2⟩ := this.mem
      exact ⟨this.chain, this.foot, e, m, m1, fun a ha => (hk i _ a hx ha).trans (m2 a ha)⟩
    · have := h.fresh i e σ hx
      exact ⟨this.same, this.foot, fun a ha => (hk i _ a hx ha).trans (this.mem a ha)⟩
  | make e N j R m0 m1 m2 m3 m4 =>
    have hd := m4.apart m2 m3
    have hcj : c.cur ≠ j := fun hh => m1 (.inl hh.symm)
    have hlive : ∀ k, k ≠ j → (k = c.cur ∨ (if k = j then some (Ctx.fresh e c.s) else c.ctx k) ≠ none) → live c k := by
      intro k hk hh
      rw [if_neg hk] at hh
      exact hh
    have kept : ∀ k y, c.ctx k = some y → ∀ a, held y a → (exec e make c.s).1.mem a = c.s.mem a := by
      intro k y hy a ha
      refine Classical.byContradiction fun hq => ?_
      have hst := h.held_stk hy ha
      rcases make_writes e m4 hd a hq with h1 | h1
      · exact m2 k a (live_of hy) hst (m3 a h1)
      · exact h.disj c.cur k a (.inl rfl) (live_of hy) (h.ne hy) h1 hst
    have nj : ∀ k y, c.ctx k = some y → k ≠ j := fun k y hy hh => m1 (hh ▸ live_of hy)
    refine ⟨?_, ?_, ?_, ?_⟩
    · intro k k' a hk hk' hne h1 h2
      by_cases e1 : k = j
      · have e2 : k' ≠ j := fun hh => hne (e1.trans hh.symm)
        simp only [e1, e2, if_true, if_false] at h1 h2
        exact m2 k' a (hlive k' e2 hk') h2 h1
      · by_cases e2 : k' = j
        · simp only [e1, e2, if_true, if_false] at h1 h2
          exact m2 k a (hlive k e1 hk) h1 h2
        · simp only [e1, e2, if_false] at h1 h2
          exact h.disj k k' a (hlive k e1 hk) (hlive k' e2 hk') hne h1 h2
    · show (if c.cur = j then _ else c.ctx c.cur) = none
      rw [if_neg hcj]; exact h.cur
    · intro k σ M hk
      by_cases e1 : k = j
      · simp only [e1, if_true, Option.some.injEq] at hk; cases hk
      · simp only [e1, if_false] at hk
        have := h.susp k σ M hk
        obtain ⟨e', m, m1', m2'⟩ := this.mem
        exact ⟨this.chain, fun a ha => by simp only [e1, if_false]; exact this.foot a ha, e', m, m1', fun a ha => (kept k _ hk a ha).trans (m2' a ha)⟩
    · intro k e' σ hk
      by_cases e1 : k = j
      · simp only [e1, if_true, Option.some.injEq, Ctx.fresh.injEq] at hk
        obtain ⟨rfl, rfl⟩ := hk
        exact ⟨m0, fun a ha => by simp only [e1, if_true]; exact m3 a ha, fun _ _ => rfl⟩
      · simp only [e1, if_false] at hk
        have := h.fresh k e' σ hk
        exact ⟨this.same, fun a ha => by simp only [e1, if_false]; exact this.foot a ha, fun a ha => (kept k _ hk a ha).trans (this.mem a ha)⟩
  | resume e N i σ M _ hx _ hc => exact inv_switch h hx _ hc ⟨e, .inl rfl⟩ (jump_writes e c.s)
  | start e N i e₀ σ _ hx _ hc =>
    exact inv_switch h hx _ hc ⟨e, .inl (tramp_mem ..).symm⟩ fun a ha => jump_writes e c.s a (by rwa [tramp_mem] at ha)
  | ontop e N i σ M _ hx _ hc => exact inv_switch h hx _ hc ⟨e, .inr rfl⟩ (ontop_writes e c.s)
  | drop j =>
    have hlive : ∀ k, (k = c.cur ∨ (if k = j then none else c.ctx k) ≠ none) → live c k := fun k hk => hk.imp id fun hh => by
      by_cases e1 : k = j
      · simp [e1] at hh
      · simpa [e1] using hh
    refine ⟨fun k k' a hk hk' => h.disj k k' a (hlive k hk) (hlive k' hk'), ?_, ?_, ?_⟩
    · show (if c.cur = j then none else c.ctx c.cur) = none
      rw [h.cur]; split <;> rfl
    · intro k σ M hk
      by_cases e1 : k = j
      · simp [e1] at hk
      · simp only [e1, if_false] at hk
        have := h.susp k σ M hk
        exact ⟨this.chain, this.foot, this.mem⟩
    · intro k e σ hk
      by_cases e1 : k = j
      · simp [e1] at hk
      · simp only [e1, if_false] at hk
        have := h.fresh k e σ hk
        exact ⟨this.same, this.foot, this.mem⟩
  | sched i t r hx =>
    have hne := h.ne hx
    have hlive : ∀ k, (k = i ∨ (if k = c.cur then some (Ctx.par c.thr (regs c.s)) else if k = i then none else c.ctx k) ≠ none) → live c k := by
      intro k hk
      by_cases e1 : k = c.cur
      · exact .inl e1
      · by_cases e2 : k = i
        · rw [e2]; exact live_of hx
        · simp only [e1, e2, if_false, false_or] at hk; exact .inr hk
    refine ⟨fun k k' a hk hk' => h.disj k k' a (hlive k hk) (hlive k' hk'), ?_, ?_, ?_⟩
    · show (if i = c.cur then _ else if i = i then none else c.ctx i) = none
      rw [if_neg hne.symm, if_pos rfl]
    · intro k σ M hk
      by_cases e1 : k = c.cur
      · simp only [e1, if_true, Option.some.injEq] at hk; cases hk
      · by_cases e2 : k = i
        · simp [e2, hne.symm] at hk
        · simp only [e1, e2, if_false] at hk
          have := h.susp k σ M hk
          exact ⟨this.chain, this.foot, this.mem⟩
    · intro k e σ hk
      by_cases e1 : k = c.cur
      · simp only [e1, if_true, Option.some.injEq] at hk; cases hk
      · by_cases e2 : k = i
        · simp [e2, hne.symm] at hk
        · simp only [e1, e2, if_false] at hk
          have := h.fresh k e σ hk
          exact ⟨this.same, this.foot, this.mem⟩
  | spawn j t R r m1 m2 m3 m4 =>
    have hcj : c.cur ≠ j := fun hh => m1 (.inl hh.symm)
    have hlive : ∀ k, k ≠ j → (k = c.cur ∨ (if k = j then some (Ctx.par t r) else c.ctx k) ≠ none) → live c k := by
      intro k hk hh
      rw [if_neg hk] at hh
      exact hh
    refine ⟨?_, ?_, ?_, ?_⟩
    · intro k k' a hk hk' hne h1 h2
      by_cases e1 : k = j
      · have e2 : k' ≠ j := fun hh => hne (e1.trans hh.symm)
        simp only [e1, e2, if_true, if_false] at h1 h2
        exact m2 k' a (hlive k' e2 hk') h2 h1
      · by_cases e2 : k' = j
        · simp only [e1, e2, if_true, if_false] at h1 h2
          exact m2 k a (hlive k e1 hk) h1 h2
        · simp only [e1, e2, if_false] at h1 h2
          exact h.disj k k' a (hlive k e1 hk) (hlive k' e2 hk') hne h1 h2
    · show (if c.cur = j then _ else c.ctx c.cur) = none
      rw [if_neg hcj]; exact h.cur
    · intro k σ M hk
      by_cases e1 : k = j
      · simp only [e1, if_true, Option.some.injEq] at hk; cases hk
      · simp only [e1, if_false] at hk
        have := h.susp k σ M hk
        exact ⟨this.chain, fun a ha => by simp only [e1, if_false]; exact this.foot a ha, this.mem⟩
    · intro k e σ hk
      by_cases e1 : k = j
      · simp only [e1, if_true, Option.some.injEq] at hk; cases hk
      · simp only [e1, if_false] at hk
        have := h.fresh k e σ hk
        exact ⟨this.same, fun a ha => by simp only [e1, if_false]; exact this.foot a ha, this.mem⟩

theorem inv {c : Cfg} (h : Reachable b c) : Inv b c := by
  induction h with
  | init c hn =>
    refine ⟨fun i j a hi hj hne => ?_, hn _, fun i σ N hx => absurd ((hn i).symm.trans hx) (by simp), fun i e σ hx => absurd ((hn i).symm.trans hx) (by simp)⟩
    have hi : i = c.cur := hi.resolve_right fun hh => hh (hn i)
    have hj : j = c.cur := hj.resolve_right fun hh => hh (hn j)
    exact absurd (hi.trans hj.symm) hne
  | step _ hs ih => exact inv_step ih hs

/-- what a step other than a switch to it does to a context that is not running -/
theorem step_away {c c' : Cfg} {l : Act} {i : Nat} {x : Ctx} (h : Inv b c) (hs : Step b c l c') (hx : c.ctx i = some x) (hp : ∀ t r, x ≠ .par t r)
    (h1 : l ≠ .jump i) (h2 : l ≠ .ontop i) (h3 : l ≠ .drop i) :
    c'.ctx i = some x ∧ c'.stk i = c.stk i ∧ (l ≠ .run → ∀ a, c.stk i a → c'.s.mem a = c.s.mem a) := by
  have hne := h.ne hx
  have hcur : ∀ a, c.stk i a → ¬ c.stk c.cur a := fun a ha hh => h.disj c.cur i a (.inl rfl) (live_of hx) hne hh ha
  cases hs with
  | run s' m1 => exact ⟨hx, rfl, fun hh => absurd rfl hh⟩
  | make e N j R m1 m2 m3 m4 m5 =>
    have hij : i ≠ j := fun hh => m2 (hh ▸ live_of hx)
    refine ⟨by simp only [hij, if_false]; exact hx, by simp only [hij, if_false], fun _ a ha => Classical.byContradiction fun hh => ?_⟩
    rcases make_writes e m5 (m5.apart m3 m4) a hh with h4 | h4
    · exact m3 i a (live_of hx) ha (m4 a h4)
    · exact hcur a ha h4
  | resume e N i' σ M m1 m2 m3 m4 =>
    have hij : i ≠ i' := fun hh => h1 (by rw [hh])
    exact ⟨by simp only [switch, hij, hne.symm, if_false]; exact hx, rfl, fun _ a ha => Classical.byContradiction fun hh => hcur a ha (m4.writes (jump_writes e _ a hh))⟩
  | start e N i' e₀ σ m1 m2 m3 m4 =>
    have hij : i ≠ i' := fun hh => h1 (by rw [hh])
    refine ⟨by simp only [switch, hij, hne.symm, if_false]; exact hx, rfl, fun _ a ha => Classical.byContradiction fun hh => ?_⟩
    have hh : (exec e tramp (exec e jump c.s).1).1.mem a ≠ c.s.mem a := hh
    rw [tramp_mem] at hh
    exact hcur a ha (m4.writes (jump_writes e _ a hh))
  | ontop e N i' σ M m1 m2 m3 m4 =>
    have hij : i ≠ i' := fun hh => h2 (by rw [hh])
    exact ⟨by simp only [switch, hij, hne.symm, if_false]; exact hx, rfl, fun _ a ha => Classical.byContradiction fun hh => hcur a ha (m4.writes (ontop_writes e _ a hh))⟩
  | drop j =>
    have hij : i ≠ j := fun hh => h3 (by rw [hh])
    exact ⟨by simp only [hij, if_false]; exact hx, rfl, fun _ _ _ => rfl⟩
  | sched i' t r m1 =>
    have hij : i ≠ i' := fun hh => hp t r (by rw [hh, m1] at hx; exact (Option.some.inj hx).symm)
    exact ⟨by simp only [hij, hne.symm, if_false]; exact hx, rfl, fun _ _ _ => rfl⟩
  | spawn j t R r m1 m2 m3 m4 =>
    have hij : i ≠ j := fun hh => m1 (hh ▸ live_of hx)
    exact ⟨by simp only [hij, if_false]; exact hx, by simp only [hij, if_false], fun _ _ _ => rfl⟩

theorem away_inv {c c' : Cfg} {i : Nat} {V : W → Prop} (h : Away b i V c c') (hr : Inv b c) : Inv b c' := by
  induction h with
  | refl => exact hr
  | step _ hs _ _ _ _ ih => exact inv_step ih hs

theorem away_ctx {c c' : Cfg} {i : Nat} {x : Ctx} {V : W → Prop} (h : Away b i V c c') (hr : Inv b c) (hx : c.ctx i = some x) (hp : ∀ t r, x ≠ .par t r) :
    c'.ctx i = some x ∧ c'.stk i = c.stk i ∧ ∀ a, c.stk i a → c'.s.mem a ≠ c.s.mem a → V a := by
  induction h with
  | refl => exact ⟨hx, rfl, fun a _ hh => absurd rfl hh⟩
  | step ha hs h1 h2 h3 h4 ih =>
    obtain ⟨i1, i2, i3⟩ := ih
    obtain ⟨s1, s2, s3⟩ := step_away (away_inv ha hr) hs i1 hp h1 h2 h3
    refine ⟨s1, s2.trans i2, fun a ha hh => ?_⟩
    rename_i c1 c2 l _
    by_cases hl : l = .run
    · by_cases hq : c2.s.mem a = c1.s.mem a
      · exact i3 a ha (hq ▸ hh)
      · exact h4 hl a hq
    · exact i3 a ha (s3 hl a (i2 ▸ ha) ▸ hh)

/-- the state after a context has been left -/
theorem leave {c c' : Cfg} {l : Act} {k : Nat} (hs : Step b c l c') (hl : l = .jump k ∨ l = .ontop k) :
    (∃ N, c'.ctx c.cur = some (.susp c.s N)) ∧ c'.stk = c.stk ∧ ∀ a, c'.s.mem a ≠ c.s.mem a → Writes c.s a := by
  cases hs with
  | resume e N i' σ M m1 m2 m3 m4 => exact ⟨⟨N, by simp only [switch, if_true]⟩, rfl, fun a hh => jump_writes e _ a hh⟩
  | start e N i' e₀ σ m1 m2 m3 m4 =>
    refine ⟨⟨N, by simp only [switch, if_true]⟩, rfl, fun a hh => ?_⟩
    have hh : (exec e tramp (exec e jump c.s).1).1.mem a ≠ c.s.mem a := hh
    rw [tramp_mem] at hh
    exact jump_writes e _ a hh
  | ontop e N i' σ M m1 m2 m3 m4 => exact ⟨⟨N, by simp only [switch, if_true]⟩, rfl, fun a hh => ontop_writes e _ a hh⟩
  | run => rcases hl with hl | hl <;> cases hl
  | make => rcases hl with hl | hl <;> cases hl
  | drop => rcases hl with hl | hl <;> cases hl
  | sched => rcases hl with hl | hl <;> cases hl
  | spawn => rcases hl with hl | hl <;> cases hl

/-! ## Theorems -/

/-- **C40, SPARC64: resuming.** Context `c₀.cur` calls `jump_fcontext` or `ontop_fcontext` in state `c₀.s`, with `N` callers.  Whatever happens then on any thread, the
next `jump_fcontext` to it, called in state `c₂.s` by any context on any thread, returns from that call: at its return address, with its stack pointer, local and in
registers and those of all `N` callers, and with the result `{fctx of the resuming context, data}`.  The memory of its stack has changed only where the call that
suspended it wrote (its frame and the save areas of its own activations) and where other contexts' own code wrote (`V`). -/
theorem C40_sparc64_resume {c₀ c₁ c₂ c₃ : Cfg} {l : Act} {k N : Nat} {V : W → Prop} (hr : Reachable b c₀) (h0 : Step b c₀ l c₁) (hl : l = .jump k ∨ l = .ontop k)
    (hN : c₁.ctx c₀.cur = some (.susp c₀.s N)) (h1 : Away b c₀.cur V c₁ c₂) (h2 : Step b c₂ (.jump c₀.cur) c₃) :
    ∃ e, Same b e ∧ c₃.s = (exec e jump c₂.s).1 ∧ (exec e jump c₂.s).2 = c₀.s.o 7 + off A 8 ∧ c₃.s.o 6 = c₀.s.o 6 ∧ c₃.s.l = c₀.s.l ∧ c₃.s.i = c₀.s.i ∧
      (∀ n ≤ N, act c₃.s n = act c₀.s n) ∧ c₃.s.o 0 = fctx c₂.s ∧ c₃.s.o 1 = c₂.s.o 1 ∧ c₃.cur = c₀.cur ∧
      ∀ a, c₀.stk c₀.cur a → c₃.s.mem a ≠ c₀.s.mem a → Writes c₀.s a ∨ V a := by
  have v0 := inv hr
  have v1 := inv_step v0 h0
  obtain ⟨-, l2, l3⟩ := leave h0 hl
  obtain ⟨a1, a2, a3⟩ := away_ctx h1 v1 hN (fun _ _ hh => by cases hh)
  have v2 := away_inv h1 v1
  generalize hi : c₀.cur = i at *
  cases h2 with
  | start e M i' e₀ σ m1 m2 m3 m4 => rw [a1] at m2; cases m2
  | resume e M i' σ M' m1 m2 m3 m4 =>
    rw [a1] at m2; cases m2
    obtain ⟨e', m, q1, q2, q3⟩ := intact v2 a1 m4
    obtain ⟨r1, r2, r3, r4, r5, r6, r7, r8, r9⟩ := C39_sparc64_jump (e' := e) q1 q2 q3 m3
    refine ⟨e, m1, rfl, r1, r2, r3, r4, r5, r6, r7, rfl, fun a ha hh => ?_⟩
    have hh : (exec e jump c₂.s).1.mem a ≠ c₀.s.mem a := hh
    have hw : ¬ Writes c₂.s a := fun hw => v2.disj c₂.cur i a (.inl rfl) (live_of a1) (v2.ne a1) (m4.writes hw) (by rw [a2, l2]; exact ha)
    have h4 : (exec e jump c₂.s).1.mem a = c₂.s.mem a := Classical.byContradiction fun hh => hw (r9 a hh)
    rw [h4] at hh
    by_cases h5 : c₂.s.mem a = c₁.s.mem a
    · exact .inl (l3 a (h5 ▸ hh))
    · exact .inr (a3 a (by rw [l2]; exact ha) h5)

/-- **C40, SPARC64: functions on top.** As above, for the next switch to the context by `ontop_fcontext`: the function passed is entered as if the suspended call had been a
call of it, with argument `{fctx of the resuming context, data}`. -/
theorem C40_sparc64_ontop {c₀ c₁ c₂ c₃ : Cfg} {l : Act} {k N : Nat} {V : W → Prop} (hr : Reachable b c₀) (h0 : Step b c₀ l c₁) (hl : l = .jump k ∨ l = .ontop k)
    (hN : c₁.ctx c₀.cur = some (.susp c₀.s N)) (h1 : Away b c₀.cur V c₁ c₂) (h2 : Step b c₂ (.ontop c₀.cur) c₃) :
    ∃ e, Same b e ∧ c₃.s = (exec e ontop c₂.s).1 ∧ (exec e ontop c₂.s).2 = c₂.s.o 2 ∧ c₃.s.o 7 = c₀.s.o 7 ∧ c₃.s.o 6 = c₀.s.o 6 ∧ c₃.s.l = c₀.s.l ∧ c₃.s.i = c₀.s.i ∧
      (∀ n ≤ N, act c₃.s n = act c₀.s n) ∧ c₃.s.o 0 = fctx c₂.s ∧ c₃.s.o 1 = c₂.s.o 1 ∧ c₃.cur = c₀.cur ∧
      ∀ a, c₀.stk c₀.cur a → c₃.s.mem a ≠ c₀.s.mem a → Writes c₀.s a ∨ V a := by
  have v0 := inv hr
  have v1 := inv_step v0 h0
  obtain ⟨-, l2, l3⟩ := leave h0 hl
  obtain ⟨a1, a2, a3⟩ := away_ctx h1 v1 hN (fun _ _ hh => by cases hh)
  have v2 := away_inv h1 v1
  generalize hi : c₀.cur = i at *
  cases h2 with
  | ontop e M i' σ M' m1 m2 m3 m4 =>
    rw [a1] at m2; cases m2
    obtain ⟨e', m, q1, q2, q3⟩ := intact v2 a1 m4
    obtain ⟨r1, r2, r3, r4, r5, r6, r7, r8, r9, r10⟩ := C39_sparc64_ontop (e' := e) q1 q2 q3 m3
    refine ⟨e, m1, rfl, r1, r2, r3, r4, r5, r6, r7, r8, rfl, fun a ha hh => ?_⟩
    have hh : (exec e ontop c₂.s).1.mem a ≠ c₀.s.mem a := hh
    have hw : ¬ Writes c₂.s a := fun hw => v2.disj c₂.cur i a (.inl rfl) (live_of a1) (v2.ne a1) (m4.writes hw) (by rw [a2, l2]; exact ha)
    have h4 : (exec e ontop c₂.s).1.mem a = c₂.s.mem a := Classical.byContradiction fun hh => hw (r10 a hh)
    rw [h4] at hh
    by_cases h5 : c₂.s.mem a = c₁.s.mem a
    · exact .inl (l3 a (h5 ▸ hh))
    · exact .inr (a3 a (by rw [l2]; exact ha) h5)

/-- **C40, SPARC64: starting.** A context made by `make_fcontext(top, size, fn)`, called in state `c₀.s`, and first switched to by a `jump_fcontext` in state `c₂.s` enters
`fn` with argument `{fctx of the starting context, data}`, on its stack below `top`, and with the outermost frame marked by a null frame pointer; when `fn` returns, the
code that ends the process runs.  No memory of its stack has been written but by other contexts' own code. -/
theorem C40_sparc64_start {c₀ c₁ c₂ c₃ : Cfg} {j : Nat} {V : W → Prop} (hr : Reachable b c₀) (h0 : Step b c₀ (.make j) c₁) (h1 : Away b j V c₁ c₂)
    (h2 : Step b c₂ (.jump j) c₃) :
    ∃ e, Same b e ∧ c₃.s = (exec e tramp (exec e jump c₂.s).1).1 ∧ (exec e jump c₂.s).2 = b.tramp ∧ (exec e tramp (exec e jump c₂.s).1).2 = c₀.s.o 2 ∧
      c₃.s.o 0 = fctx c₂.s ∧ c₃.s.o 1 = c₂.s.o 1 ∧ c₃.s.o 7 + off A 8 = b.tramp + off A 12 ∧ c₃.s.i 6 = 0#_ ∧
      (c₀.s.o 0 - area (c₃.s.o 6)).toNat ≤ CC64FSZ + 14 ∧ CC64FSZ ≤ (c₀.s.o 0 - area (c₃.s.o 6)).toNat ∧
      ((c₀.s.o 0).toNat % 2 = 0 → (area (c₃.s.o 6)).toNat % 16 = 0) ∧ c₃.cur = j ∧
      ∀ a, c₁.stk j a → c₃.s.mem a ≠ c₁.s.mem a → V a := by
  have v0 := inv hr
  have v1 := inv_step v0 h0
  cases h0 with
  | make e₀ N j R n1 n2 n3 n4 n5 =>
    obtain ⟨a1, a2, a3⟩ := away_ctx (x := .fresh e₀ c₀.s) h1 v1 (by simp only [if_true]) (fun _ _ hh => by cases hh)
    have v2 := away_inv h1 v1
    cases h2 with
    | resume e M i' σ M' m1 m2 m3 m4 => rw [a1] at m2; cases m2
    | start e M i' e₁ σ m1 m2 m3 m4 =>
      rw [a1] at m2; cases m2
      have hf := v2.fresh j e₀ c₀.s a1
      have hap : ∀ a, c₂.stk j a → ¬ Writes c₂.s a := fun a ha hw => v2.disj c₂.cur j a (.inl rfl) (live_of a1) (v2.ne a1) (m4.writes hw) ha
      obtain ⟨r1, r2, r3, r4, r5, r6, r7, r8, r9, r10⟩ := C39_sparc64_enter (e' := e) m3 hf.mem (fun a ha => hap a (hf.foot a ha))
      have hal := C39_sparc64_aligned (e' := e) m3 hf.mem (fun a ha => hap a (hf.foot a ha))
      have het : ∀ s, exec e₀ tramp s = exec e tramp s := fun s => by rw [exec_tramp, exec_tramp, n1.1, m1.1]
      simp only [het] at r2 r3 r4 r5 r6 r7 r8 r9 r10 hal
      rw [n1.1] at r1 r5
      refine ⟨e, m1, rfl, r1, r2, r3, r4, r5, r6, r8, r9, hal, rfl, fun a ha hh => ?_⟩
      have hh : (exec e tramp (exec e jump c₂.s).1).1.mem a ≠ (exec e₀ make c₀.s).1.mem a := hh
      have h4 : (exec e tramp (exec e jump c₂.s).1).1.mem a = c₂.s.mem a := Classical.byContradiction fun hh => hap a (by rw [a2]; exact ha) (r10 a hh)
      rw [h4] at hh
      exact a3 a ha hh

/-! ## The hypotheses can be met -/

/-- the activation of `exσ`, on a stack `[0x8000, 0x40000)` -/
def exS (f : W) (m : Mem A) : St where
  g := fun _ => 0#_
  o := fun n => if n = 6 then 0x10000#_ else if n = 0 then f else 7#_
  l := fun _ => 11#_
  i := fun n => if n = 6 then 0x20000#_ else 12#_
  wins := [⟨fun _ => 13#_, fun n => if n = 6 then 0x30000#_ else 14#_⟩]
  mem := m

theorem exS_act (f : W) (m : Mem A) : (act (exS f m) 0).1 = 0x10000#_ ∧ (act (exS f m) 1).1 = 0x20000#_ ∧ (act (exS f m) 2).1 = 0x30000#_ := ⟨rfl, rfl, rfl⟩

theorem exS_chain (f : W) (m : Mem A) : Chain (exS f m) 2 := by
  obtain ⟨h0, h1, h2⟩ := exS_act f m
  refine ⟨show 1 ≤ 2 by decide, ?_, fun n hn => ?_, ?_⟩
  · show CC64FSZ ≤ (area (0x10000#_)).toNat; decide
  · match n, hn with
    | 0, _ => rw [h0, h1]; decide
    | 1, _ => rw [h1, h2]; decide
  · rw [h2]; decide

theorem exτ_chain (f : W) (m : Mem A) : Chain (exτ f m) 0 := by
  refine ⟨Nat.le_refl _, ?_, fun n hn => absurd hn (by omega), ?_⟩
  · show CC64FSZ ≤ (area (0x50000#_)).toNat; decide
  · show (area (0x50000#_)).toNat + 128 ≤ 2 ^ 64; decide

def stk0 (a : W) : Prop := InR a 0x8000#_ 0x38000
def stk1 (a : W) : Prop := InR a 0x40000#_ 0x20000

theorem stk_disj {a : W} (h : stk0 a) : ¬ stk1 a := fun h' => inR_apart (by decide) (by decide) h h'

theorem inR_le {x y a : W} {n k : Nat} (h : InR a x n) (o : Nat) (e : x = y + off A o) (hk : o + n ≤ k) (h2 : k ≤ 2 ^ 64) : InR a y k := by
  subst e; exact inR_off h hk h2

theorem exS_on {c : Cfg} (f : W) (m : Mem A) (hs : c.s = exS f m) (hc : c.stk c.cur = stk0) : CallOk c 2 := by
  refine ⟨⟨hs ▸ exS_chain f m, fun n hn a ha => ?_⟩, fun a ha => ?_⟩
  · rw [hc]; rw [hs] at ha
    obtain ⟨h0, h1, h2⟩ := exS_act f m
    unfold Area at ha
    rcases (by omega : n = 0 ∨ n = 1 ∨ n = 2) with rfl | rfl | rfl
    · rw [h0] at ha; exact inR_le ha 0x87ff (by decide) (by decide) (by decide)
    · rw [h1] at ha; exact inR_le ha 0x187ff (by decide) (by decide) (by decide)
    · rw [h2] at ha; exact inR_le ha 0x287ff (by decide) (by decide) (by decide)
  · rw [hc]; rw [hs] at ha
    have ha : InR a (area (0x10000#_ - off A CC64FSZ)) CC64FSZ := ha
    exact inR_le ha 0x874f (by decide) (by decide) (by decide)

theorem exτ_on {c : Cfg} (f : W) (m : Mem A) (hs : c.s = exτ f m) (hc : c.stk c.cur = stk1) : CallOk c 0 := by
  have hw : ∀ a, Writes c.s a → c.stk c.cur a := fun a ha => by
    rw [hc]; rw [hs] at ha
    exact inR_le (exτ_writes f m ha) 0x1074f (by decide) (by decide) (by decide)
  exact ⟨⟨hs ▸ exτ_chain f m, fun n hn a ha => hw a (.inr ⟨n, by omega, ha⟩)⟩, fun a ha => hw a (.inl ha)⟩

def w0 : Cfg where
  thr := 0
  cur := 0
  s := exS 0x60000#_ (fun _ => 0#_)
  stk := fun _ => stk0
  ctx := fun _ => none

/-- context 1 is made, then started; it switches back to context 0 (by `jump_fcontext` or `ontop_fcontext`) -/
theorem history (b : Env) : ∃ c₀ c₁ c₂ c₃ c₄ c₅ c₆ : Cfg, Reachable b c₀ ∧ Step b c₀ (.make 1) c₁ ∧ Away b 1 (fun _ => False) c₁ c₂ ∧ c₂.cur = 0 ∧ Step b c₂ (.jump 1) c₃ ∧
    c₃.ctx 0 = some (.susp c₂.s 2) ∧ Away b 0 (fun _ => False) c₃ c₄ ∧ Step b c₄ (.jump 0) c₅ ∧ Step b c₄ (.ontop 0) c₆ ∧ c₂.s.l 0 ≠ c₄.s.l 0 ∧ c₂.s.wins.length = 1 ∧
    (c₀.s.o 0).toNat % 2 = 0 := by
  have hb : Same b b := ⟨rfl, rfl⟩
  have hr : Reachable b w0 := .init _ fun _ => rfl
  have k0 : CallOk w0 2 := exS_on _ _ rfl rfl
  have s1 := Step.make (b := b) (c := w0) b 2 1 stk1 hb (fun h => h.elim (fun hh => by cases hh) (fun hh => hh rfl)) (fun _ _ _ h => stk_disj h)
    (fun a ha => inR_le ha 0x1fea0 (by decide) (by decide) (by decide)) k0.toOnStack
  obtain ⟨c₁, hc₁⟩ : ∃ c₁ : Cfg, c₁ = { w0 with s := (exec b make w0.s).1, stk := fun k => if k = 1 then stk1 else w0.stk k,
                                                  ctx := fun k => if k = 1 then some (.fresh b w0.s) else w0.ctx k } := ⟨_, rfl⟩
  rw [← hc₁] at s1
  have t1 : c₁.cur = 0 ∧ c₁.stk 0 = stk0 ∧ c₁.stk 1 = stk1 ∧ c₁.ctx 1 = some (.fresh b w0.s) ∧ c₁.ctx 0 = none := by subst hc₁; exact ⟨rfl, rfl, rfl, rfl, rfl⟩
  obtain ⟨u1, u2, u3, u4, u5⟩ := t1
  clear hc₁
  obtain ⟨f, hf⟩ : ∃ f, f = (exec b make w0.s).1.o 0 := ⟨_, rfl⟩
  have s2 := Step.run (b := b) (c := c₁) (exS f c₁.s.mem) (fun _ _ _ _ _ => rfl)
  obtain ⟨c₂, hc₂⟩ : ∃ c₂ : Cfg, c₂ = { c₁ with s := exS f c₁.s.mem } := ⟨_, rfl⟩
  rw [← hc₂] at s2
  have e2 : c₂.s = exS f c₁.s.mem := by rw [hc₂]
  have e2o : c₂.s.o 0 = f := by rw [e2]; rfl
  have s3 := Step.start (b := b) (c := c₂) b 2 1 b w0.s hb (by rw [hc₂]; exact u4) (by rw [e2o, hf]) (exS_on _ _ e2 (by rw [hc₂]; show c₁.stk c₁.cur = _; rw [u1, u2]))
  have d2 : c₂.cur = 0 := by rw [hc₂]; exact u1
  have a2 : Away b 1 (fun _ => False) c₁ c₂ := .step (.refl _) s2 (fun h => by cases h) (fun h => by cases h) (fun h => by cases h) (fun _ a hh => hh (by rw [hc₂]; rfl))
  have d2s : c₂.stk 1 = stk1 := by rw [hc₂]; exact u3
  obtain ⟨c₃, hc₃⟩ : ∃ c₃ : Cfg, c₃ = switch c₂ 2 1 (exec b tramp (exec b jump c₂.s).1).1 := ⟨_, rfl⟩
  rw [← hc₃] at s3
  have d3 : c₃.cur = 1 ∧ c₃.stk 1 = stk1 ∧ c₃.ctx 0 = some (.susp c₂.s 2) := by
    subst hc₃; exact ⟨rfl, d2s, by simp only [switch, d2, if_true]⟩
  obtain ⟨d3c, d3s, d3x⟩ := d3
  clear hc₃
  have s4 := Step.run (b := b) (c := c₃) (exτ (fctx c₂.s) c₃.s.mem) (fun _ _ _ _ _ => rfl)
  obtain ⟨c₄, hc₄⟩ : ∃ c₄ : Cfg, c₄ = { c₃ with s := exτ (fctx c₂.s) c₃.s.mem } := ⟨_, rfl⟩
  rw [← hc₄] at s4
  have e4 : c₄.s = exτ (fctx c₂.s) c₃.s.mem := by rw [hc₄]
  have d4 : c₄.stk c₄.cur = stk1 := by rw [hc₄]; show c₃.stk c₃.cur = _; rw [d3c, d3s]
  have d4x : c₄.ctx 0 = some (.susp c₂.s 2) := by rw [hc₄]; exact d3x
  have a4 : Away b 0 (fun _ => False) c₃ c₄ := .step (.refl _) s4 (fun h => by cases h) (fun h => by cases h) (fun h => by cases h) (fun _ a hh => hh (by rw [hc₄]; rfl))
  have o4 : c₄.s.o 0 = fctx c₂.s := by rw [e4]; exact exτ_o0 _ _
  refine ⟨w0, c₁, c₂, c₃, c₄, _, _, hr, s1, a2, d2, s3, d3x, a4, .resume b 0 0 c₂.s 2 hb d4x o4 (exτ_on _ _ e4 d4), .ontop b 0 0 c₂.s 2 hb d4x o4 (exτ_on _ _ e4 d4), ?_, ?_, ?_⟩
  · rw [e2, e4, exτ_l0]; show (11#_ : W) ≠ 22#_; decide
  · rw [e2]; rfl
  · show (0x60000#_ : W).toNat % 2 = 0; decide

/-- `C40_sparc64_start` -/
example (b : Env) : ∃ c₀ c₁ c₂ c₃ : Cfg, Reachable b c₀ ∧ Step b c₀ (.make 1) c₁ ∧ Away b 1 (fun _ => False) c₁ c₂ ∧ Step b c₂ (.jump 1) c₃ :=
  let ⟨c₀, c₁, c₂, c₃, _, _, _, h0, h1, h2, _, h3, _⟩ := history b
  ⟨c₀, c₁, c₂, c₃, h0, h1, h2, h3⟩

/-- `C40_sparc64_resume`, `C40_sparc64_ontop`: other local registers, and a caller in the register file -/
example (b : Env) : ∃ (c₀ c₁ c₂ c₃ c₄ : Cfg), Reachable b c₀ ∧ Step b c₀ (.jump 1) c₁ ∧ c₁.ctx c₀.cur = some (.susp c₀.s 2) ∧ Away b c₀.cur (fun _ => False) c₁ c₂ ∧
    Step b c₂ (.jump c₀.cur) c₃ ∧ Step b c₂ (.ontop c₀.cur) c₄ ∧ c₀.s.l 0 ≠ c₂.s.l 0 ∧ c₀.s.wins.length = 1 := by
  obtain ⟨c₀, c₁, c₂, c₃, c₄, c₅, c₆, h0, h1, h2, hc, h3, h4, h5, h6, h7, h8, h9, -⟩ := history b
  have hr : Reachable b c₂ := by
    have : ∀ c c', Away b 1 (fun _ => False) c c' → Reachable b c → Reachable b c' := fun c c' h hr => by
      induction h with
      | refl => exact hr
      | step _ hs _ _ _ _ ih => exact .step ih hs
    exact this _ _ h2 (.step h0 h1)
  exact ⟨c₂, c₃, c₄, c₅, c₆, hr, h3, hc ▸ h4, hc ▸ h5, hc ▸ h6, hc ▸ h7, h8, h9⟩

end Many
end Verif.Asm.Sparc64
