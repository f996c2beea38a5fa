import Verif.Link.Machine

/-!
# Histories of the library on the machine (C80)

`Follow`: a run of the machine in which threads execute arbitrary code and make the low-level calls the library makes, with the addresses of the handles.  Nothing is assumed
about the targets of the calls: that the preconditions of the routines hold at each of them is proved.
-/

namespace Verif.Link

open Verif.Asm Verif.Asm.Many
open Verif.Fiber (State Fctx Status Tid CtxId Op)

variable {A : Arch} {P : Port A}

/-- The registers and the memory after `jump_fcontext` to context `i` (for a new context: when its function is entered). -/
def landed (P : Port A) (e : Env A) (c : Cfg A) (i : Nat) : St A :=
  match c.ctx i with
  | some (.fresh _) => (P.enter e c.s).1
  | _ => (exec e P.jump c.s).1

/-- Somebody's call.  The handle given up for the context that is left gets the address of the context's data as its address; the handle of a new context gets the address
`make_fcontext` returned.  A context that has called `ontop_fcontext` in order to end is given up, like the context of a thread that has ended. -/
inductive FStep (X : Extra P) (e : Env A) : Cfg A → Enc A → Prim → Cfg A → Enc A → Prop
  | jump {c E f back} : P.argF c.s = E f → CallOk X c → FStep X e c E (.jump c.thr f back) (Many.switch c f.ctx (landed P e c f.ctx)) (E.set back (P.fctx c.s))
  | ontop {c E f back} : P.argF c.s = E f → CallOk X c → X.oot → FStep X e c E (.ontop c.thr f back false) (Many.switch c f.ctx (exec e P.ontop c.s).1) (E.set back (P.fctx c.s))
  | last {c E f back} : P.argF c.s = E f → CallOk X c → X.oot →
      FStep X e c E (.ontop c.thr f back true)
        { Many.switch c f.ctx (exec e P.ontop c.s).1 with ctx := fun k => if k = c.cur then none else (Many.switch c f.ctx (exec e P.ontop c.s).1).ctx k }
        (E.set back (P.fctx c.s))
  | make {c E n} (R : A.W → Prop) : (∀ i a, live c i → c.stk i a → ¬ R a) → (∀ a, R a → ¬ X.null a) →
      (∀ a, InR a (P.resM (exec e P.make c.s).1) (P.argTop c.s - P.resM (exec e P.make c.s).1).toNat → R a) →
      (∀ a, InR a (c.s.gpr P.sp - off A P.mscratch) (P.mscratch + A.k) → c.stk c.cur a) → X.mok e c.s →
      FStep X e c E (.make n) { c with s := (exec e P.make c.s).1, stk := fun k => if k = n then R else c.stk k,
                                       ctx := fun k => if k = n then some (.fresh c.s) else c.ctx k } (E.set ⟨n, 0⟩ (P.resM (exec e P.make c.s).1))
  | free {c E n} : FStep X e c E (.free n) c E
  | spawn {c E t n} (R : A.W → Prop) (g : A.R → A.W) (q : (q : A.F) → BitVec (8 * A.fb q)) : (∀ i a, live c i → c.stk i a → ¬ R a) → (∀ a, R a → ¬ X.null a) →
      FStep X e c E (.spawn t n) { c with stk := fun k => if k = n then R else c.stk k, ctx := fun k => if k = n then some (.par t g q) else c.ctx k } E
  | exit {c E i c1 c2} : Step X e c (.sched i) c1 → Step X e c1 (.drop c.cur) c2 → FStep X e c E (.exit c.thr c.cur) c2 E

/-- Any number of steps: own code of the running contexts (that of context `k` writes only at addresses in `W k`, and not into the data of contexts that do not run), changes of
the thread that takes the next step, and the calls in the list. -/
inductive Follow (X : Extra P) (e : Env A) (W : Nat → A.W → Prop) : Cfg A → Enc A → List Prim → Cfg A → Enc A → Prop
  | nil {c E} : Follow X e W c E [] c E
  | run {c E c1 l c' E'} : Step X e c .run c1 → (∀ a, c1.s.mem a ≠ c.s.mem a → W c.cur a) → Follow X e W c1 E l c' E' → Follow X e W c E l c' E'
  | sched {c E i c1 l c' E'} : Step X e c (.sched i) c1 → Follow X e W c1 E l c' E' → Follow X e W c E l c' E'
  | call {c E p c1 E1 l c' E'} : FStep X e c E p c1 E1 → Follow X e W c1 E1 l c' E' → Follow X e W c E (p :: l) c' E'

variable {X : Extra P} {e : Env A}

theorem Follow.append {W : Nat → A.W → Prop} {c c1 c2 : Cfg A} {E E1 E2 : Enc A} {l l'} (h : Follow X e W c E l c1 E1) (h' : Follow X e W c1 E1 l' c2 E2) :
    Follow X e W c E (l ++ l') c2 E2 := by
  induction h with
  | nil => exact h'
  | run a b _ ih => exact .run a b (ih h')
  | sched a _ ih => exact .sched a (ih h')
  | call a _ ih => exact .call a (ih h')

/-- progress of a context: twice the number of its suspensions, plus one if it is not waiting to be resumed -/
def age (s : State) (i : Nat) : Nat := 2 * s.seq i + if s.status i = .suspended ∨ s.status i = .raw then 0 else 1

theorem age_core {s s' : State} (h : Core s s') (i : Nat) : age s' i = age s i := by
  unfold age; rw [h.status, h.seq]

/-- What one call does: the machine reaches a state that corresponds to the new abstract state by steps of `Many`; a context that exists does not become younger, and
if the steps switch to it or give it up it becomes older. -/
theorem fstep {g : Env A → St A → A.W} (hJ : P.JumpSpec) (hO : X.OntopS g) (hM : X.MakeS) {c c' : Cfg A} {E E' : Enc A} {p : Prim} {s s' : State}
    (hr : Many.Reachable X e c) (h : Abs P e c s E) (hp : PStep s p s') (hf : FStep X e c E p c' E') :
    Many.Reachable X e c' ∧ Abs P e c' s' E' ∧
    ∀ i, s.status i ≠ .absent → s'.status i ≠ .absent ∧ age s i ≤ age s' i ∧ (age s' i = age s i → i ≠ c.cur → ∀ W, Away X e i W c c') := by
  have hinv := inv_reachable hJ hO hM hr
  cases hp with
  | jump hs hc =>
    cases hf with
    | jump ha hk =>
      rename_i s1 f back
      obtain ⟨c1, st, h1, h2, h3, h4⟩ := sim_jump hJ hO hM hr h hs ha hk
      obtain ⟨k, k1, k2, k3, k4, k5, k6, k7⟩ := switch_cases hs
      have hkc : k = c.cur := by have := (h.cur c.thr).2 rfl; rw [k1] at this; injection this
      subst hkc
      have e1 : c1 = Many.switch c f.ctx (landed P e c f.ctx) := by
        cases st with
        | resume _ σ hx => rw [landed, hx]
        | start _ σ hx => rw [landed, hx]
      rw [← e1]
      have hne : f.ctx ≠ c.cur := by
        intro hh
        rw [hh, h.st] at k2
        rcases k2 with h1 | h1
        · cases h1
        · cases h1.2
      refine ⟨.step hr st, h3.core hc, fun i hi => ?_⟩
      rw [age_core hc, hc.status]
      unfold age
      rw [k6, k7]
      simp only [Fiber.upd]
      by_cases hif : i = f.ctx
      · subst hif
        refine ⟨by simp, ?_, ?_⟩
        · rcases k2 with h | h <;> simp [h, hne]
        · rcases k2 with h | h <;> simp [h, hne]
      · by_cases hic : i = c.cur
        · subst hic
          refine ⟨by simp [Ne.symm hne], ?_, fun _ hh => absurd rfl hh⟩
          simp only [Ne.symm hne, if_false, if_true]
          split <;> split <;> omega
        · refine ⟨by simpa [hif, hic] using hi, by simp [hif, hic], fun _ _ W => ?_⟩
          exact .step (.refl _) st (by simp [Ne.symm hif]) (by simp) (by simp) (by simp)
  | ontop hs hc =>
    rename_i s1 t f back fin
    obtain ⟨k, k1, k2, k3, k4, k5, k6, k7⟩ := switch_cases hs
    have ht : t = c.thr := by cases hf <;> rfl
    subst ht
    have hkc : k = c.cur := by have := (h.cur c.thr).2 rfl; rw [k1] at this; injection this
    subst hkc
    have hs2 : s.status f.ctx = .suspended := k2.resolve_right fun h => absurd h.1 (by simp)
    have hne : f.ctx ≠ c.cur := by
      intro hh
      rw [hh, h.st] at hs2
      cases hs2
    have ha : P.argF c.s = E f := by cases hf <;> assumption
    have hk : CallOk X c := by cases hf <;> assumption
    have aged : ∀ i, s.status i ≠ .absent → s'.status i ≠ .absent ∧ age s i ≤ age s' i ∧ (age s' i = age s i → i ≠ c.cur → i ≠ f.ctx) := by
      intro i hi
      rw [age_core hc, hc.status]
      unfold age
      rw [k6, k7]
      simp only [Fiber.upd]
      by_cases hif : i = f.ctx
      · subst hif
        exact ⟨by simp, by simp [hs2, hne], by simp [hs2, hne]⟩
      · by_cases hic : i = c.cur
        · subst hic
          refine ⟨by cases fin <;> simp [Ne.symm hne], ?_, fun _ hh => absurd rfl hh⟩
          simp only [Ne.symm hne, if_false, if_true]
          split <;> split <;> omega
        · exact ⟨by simpa [hif, hic] using hi, by simp [hif, hic], fun _ _ => hif⟩
    have ho : X.oot := by cases hf <;> assumption
    obtain ⟨c1, c2, σ, h0, st, h1, h2, st2, h3, -, -⟩ := sim_ontop hJ hO hM hr h hs ha hk ho
    have e1 : c1 = Many.switch c f.ctx (exec e P.ontop c.s).1 := by cases st; rfl
    cases hf with
    | ontop _ _ _ =>
      have st2 : c2 = c1 := st2
      rw [← e1, ← st2]
      rw [← st2] at st
      refine ⟨.step hr st, h3.core hc, fun i hi => ?_⟩
      obtain ⟨a1, a2, a3⟩ := aged i hi
      refine ⟨a1, a2, fun q1 q2 W => ?_⟩
      exact .step (.refl _) st (by simp) (by simp [Ne.symm (a3 q1 q2)]) (by simp) (by simp)
    | last _ _ _ =>
      have st2 : Step X e c1 (.drop c.cur) c2 := st2
      have e2 : c2 = { c1 with ctx := fun k => if k = c.cur then none else c1.ctx k } := by cases st2; rfl
      rw [e1] at e2
      rw [← e2]
      refine ⟨.step (.step hr st) st2, h3.core hc, fun i hi => ?_⟩
      obtain ⟨a1, a2, a3⟩ := aged i hi
      refine ⟨a1, a2, fun q1 q2 W => ?_⟩
      exact .step (.step (.refl _) st (by simp) (by simp [Ne.symm (a3 q1 q2)]) (by simp) (by simp)) st2 (by simp) (by simp) (by simp [Ne.symm q2]) (by simp)
  | make ha hc =>
    cases hf with
    | make R m1 m2 m3 m4 m5 =>
      rename_i n
      have hn : n ≠ c.cur := fun hh => by rw [hh, h.st] at ha; cases ha
      have hcx : c.ctx n = none := by
        have := h.ctx n hn
        revert this
        cases c.ctx n with
        | none => exact fun _ => rfl
        | some x => cases x <;> intro this <;> exact absurd (this.1.symm.trans ha) (by simp)
      have st := Step.make (X := X) (e := e) (c := c) n R (fun hl => hl.elim hn (fun hl => hl hcx)) m1 m2 m3 m4 m5
      obtain ⟨h1, -, -⟩ := sim_make h ha hc st
      refine ⟨.step hr st, h1, fun i hi => ?_⟩
      have hin : i ≠ n := fun hh => hi (hh ▸ ha)
      rw [age_core hc, hc.status]
      refine ⟨by simpa [Fiber.upd, hin] using hi, by simp [age, Fiber.upd, hin], fun _ _ W => ?_⟩
      exact .step (.refl _) st (by simp) (by simp) (by simp) (by simp)
  | free ht hc =>
    cases hf with
    | free =>
      rename_i n
      refine ⟨hr, sim_free h ht hc, fun i hi => ?_⟩
      rw [age_core hc, hc.status]
      unfold age
      simp only [Fiber.upd]
      refine ⟨?_, ?_, fun _ _ W => .refl _⟩
      · by_cases hin : i = n
        · simp [hin]
        · simpa [hin] using hi
      · by_cases hin : i = n
        · subst hin; simp [ht]
        · simp [hin]
  | spawn ht ha hc =>
    cases hf with
    | spawn R g q m1 m2 =>
      rename_i t n
      have hn : n ≠ c.cur := fun hh => by rw [hh, h.st] at ha; cases ha
      have hcx : c.ctx n = none := by
        have := h.ctx n hn
        revert this
        cases c.ctx n with
        | none => exact fun _ => rfl
        | some x => cases x <;> intro this <;> exact absurd (this.1.symm.trans ha) (by simp)
      have htc : t ≠ c.thr := fun hh => by rw [hh, (h.cur c.thr).2 rfl] at ht; cases ht
      have hpar : ∀ k g q, c.ctx k ≠ some (.par t g q) := by
        intro k g q hk
        have hkc : k ≠ c.cur := fun hh => by rw [hh, hinv.cur] at hk; cases hk
        have := h.ctx k hkc
        rw [hk] at this
        have := (this.2 t).2 rfl
        rw [ht] at this; cases this
      have st := Step.spawn (X := X) (e := e) (c := c) n t R g q (fun hl => hl.elim hn (fun hl => hl hcx)) m1 m2 htc hpar
      have h1 := sim_spawn h ht ha hc st (g := g) (q := q) (by simp)
      refine ⟨.step hr st, h1, fun i hi => ?_⟩
      have hin : i ≠ n := fun hh => hi (hh ▸ ha)
      rw [age_core hc, hc.status]
      refine ⟨by simpa [Fiber.upd, hin] using hi, by simp [age, Fiber.upd, hin], fun _ _ W => ?_⟩
      exact .step (.refl _) st (by simp) (by simp) (by simp) (by simp)
  | exit ht hc =>
    cases hf with
    | exit s1 s2 =>
      rename_i k c1
      refine ⟨.step (.step hr s1) s2, sim_exit h hinv.cur rfl hc s1 s2, fun i hi => ?_⟩
      rw [age_core hc, hc.status]
      unfold age
      simp only [Fiber.upd]
      by_cases hic : i = c.cur
      · subst hic
        exact ⟨by simp, by simp [h.st], fun _ hh => absurd rfl hh⟩
      · refine ⟨by simpa [hic] using hi, by simp [hic], fun _ _ W => ?_⟩
        exact .step (.step (.refl _) s1 (by simp) (by simp) (by simp) (by simp)) s2 (by simp) (by simp) (by simp [Ne.symm hic]) (by simp)

theorem Away.trans {i : Nat} {W : A.W → Prop} {c c1 c2 : Cfg A} (h : Away X e i W c c1) (h' : Away X e i W c1 c2) : Away X e i W c c2 := by
  induction h' with
  | refl => exact h
  | step _ s a b d f ih => exact .step ih s a b d f

/-- A run of the machine that makes the calls of a sequence of library steps stays in correspondence with the abstract state.  A context that does not become older is not
switched to. -/
theorem follow {g : Env A → St A → A.W} (hJ : P.JumpSpec) (hO : X.OntopS g) (hM : X.MakeS) {W : Nat → A.W → Prop} {c c' : Cfg A} {E E' : Enc A} {l : List Prim}
    (hf : Follow X e W c E l c' E') : ∀ {s s' : State}, Many.Reachable X e c → Abs P e c s E → PTrace s l s' →
    Many.Reachable X e c' ∧ Abs P e c' s' E' ∧
    ∀ i, s.status i ≠ .absent → age s i ≤ age s' i ∧ (age s' i = age s i → (∃ x, c.ctx i = some x ∧ ∀ t g q, x ≠ .par t g q) → Away X e i (fun a => ∃ k, k ≠ i ∧ W k a) c c') := by
  induction hf with
  | nil =>
    intro s s' hr h hp
    cases hp with
    | nil hc => exact ⟨hr, h.core hc, fun i hi => ⟨by rw [age_core hc]; omega, fun _ _ => .refl _⟩⟩
  | run st hw _ ih =>
    intro s s' hr h hp
    have hinv := inv_reachable hJ hO hM hr
    obtain ⟨i1, i2, i3⟩ := ih (.step hr st) (sim_run h st) hp
    refine ⟨i1, i2, fun i hi => ⟨(i3 i hi).1, fun q1 q2 => ?_⟩⟩
    obtain ⟨σ, hx, hx'⟩ := q2
    have hne : i ≠ _ := fun hh => by rw [hh, hinv.cur] at hx; cases hx
    refine Away.trans (.step (.refl _) st (by simp) (by simp) (by simp) (fun _ a ha => ⟨_, Ne.symm hne, hw a ha⟩)) ((i3 i hi).2 q1 ⟨σ, ?_, hx'⟩)
    cases st; exact hx
  | sched st _ ih =>
    rename_i c E j c1 l c' E' _
    intro s s' hr h hp
    have hinv := inv_reachable hJ hO hM hr
    obtain ⟨i1, i2, i3⟩ := ih (.step hr st) (sim_sched h hinv.cur st) hp
    refine ⟨i1, i2, fun i hi => ⟨(i3 i hi).1, fun q1 q2 => ?_⟩⟩
    obtain ⟨σ, hx, hx'⟩ := q2
    have hne : i ≠ c.cur := fun hh => by rw [hh, hinv.cur] at hx; cases hx
    refine Away.trans (.step (.refl _) st (by simp) (by simp) (by simp) (by simp)) ((i3 i hi).2 q1 ⟨σ, ?_, hx'⟩)
    cases st with
    | sched _ t g q hj =>
      have hij : i ≠ j := fun hh => by rw [hh, hj] at hx; injection hx with hx; exact hx' _ _ _ hx.symm
      simp [hne, hij, hx]
  | call hfs _ ih =>
    intro s s' hr h hp
    have hinv := inv_reachable hJ hO hM hr
    cases hp with
    | cons p1 p2 =>
      obtain ⟨f1, f2, f3⟩ := fstep hJ hO hM hr h p1 hfs
      obtain ⟨i1, i2, i3⟩ := ih f1 f2 p2
      refine ⟨i1, i2, fun i hi => ?_⟩
      obtain ⟨a1, a2, a3⟩ := f3 i hi
      obtain ⟨b1, b2⟩ := i3 i a1
      refine ⟨by omega, fun q1 q2 => ?_⟩
      obtain ⟨σ, hx, hx'⟩ := q2
      have hne : i ≠ _ := fun hh => by rw [hh, hinv.cur] at hx; cases hx
      have aw := a3 (by omega) hne (fun a => ∃ k, k ≠ i ∧ W k a)
      have := away_susp hJ hO hM aw hr hx hx'
      exact Away.trans aw (b2 (by omega) ⟨σ, this.1, hx'⟩)

end Verif.Link
