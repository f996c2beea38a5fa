import Verif.UFiber.Sched

/-!
# C95: contexts that resume each other directly

Any number of contexts share a set of handles; whoever is in control takes one of them and leaves the handle of the context it came from in its place.
-/

namespace Verif.UFiber
open Verif.Fiber (CtxId Var Tid Kind Exc Mode UKind Frame Status Event Op upd upd_apply half loop)
open State

/-- `x = std::move(x).resume()` where the context resumed moves what it gets into the same object `x` -/
theorem handoff_run {s : State} {t : Tid} {c d : CtxId} {x : Var} {k k' : UKind} {ls ls' : List Var} {rest rest' : List Frame} (h : Reachable s) (he : NoEarlyDestroy s) (hu : UserCode s t c k ls rest)
    (hx : Handle s x) (hd : Designates s x d) (hr : InResume s d k' ls' rest') (hw : s.unw d = false) (ho : s.ontop d = none) :
    run s (half t x x s.nextVar) = .ok (turned s t c d x x (.user k' ls' .normal :: rest')) := by
  have hi := reachable_inv h he
  have hf : s.val x = some d := hd
  have hds : s.status d = .suspended := by
    rcases (hi.vi.valid x d hf).1 with h | h
    · exact h
    · have := hi.ci.fTerm d h
      rw [show s.frames d = _ from hr] at this; cases this
  have hcf : d ≠ c := susp_ne hi hu.1 hds
  have fk : s.kind s.nextVar = .dead := hi.oi.fresh _ (Nat.le_refl _)
  have fv : s.val s.nextVar = none := hi.vi.deadNone _ fk
  have ax := handle_acc hx
  have nx : x ≠ s.nextVar := fun e => by rw [e] at ax; simp [State.accessible, fk] at ax
  simp only [half, run]
  rw [resume_eq hu hx hf hds]
  simp only [InResume] at hr
  simp only [State.accessible] at ax
  simp only [State.arrive, preResume, sw, State.setFrames, State.setVal, upd_apply, hcf, if_false, hr, hw, ho]
  simp [step, State.newVar, userStep, State.accessible, State.setFrames, State.setVal, State.destroyVar, State.kill, upd_apply, nx, ax, hcf]
  simp only [turned, State.mk.injEq, true_and]
  refine ⟨?_, ?_, ?_, ?_, trivial⟩
  · funext e; simp only [upd_apply]; split <;> rfl
  · funext e; simp only [upd_apply]; split
    · next h => rw [h, fk]
    · rfl
  · funext e; simp only [upd_apply]
    by_cases h : e = s.nextVar
    · have h2 : e ≠ x := fun h1 => nx (h1.symm.trans h)
      simp only [if_pos h, if_neg h2]; rw [h, fv]
    · simp only [if_neg h]
  · funext e; simp only [upd_apply]; split <;> rfl

/-- a sequence of such calls, each by the context then in control -/
def handoffs (t : Tid) : List Var → Var → List (Tid × Op)
  | [], _ => []
  | x :: p, v => half t x x v ++ handoffs t p (v + 1)

/-- The stack of each context as it is while the context runs. -/
abbrev Stacks := CtxId → UKind × List Var × List Frame

/-- Thread `t` runs context `c` of the pool, and each object of `X` designates a context that waits in `resume()`; the stacks are those given by `b`. None of them is to be unwound or
has a function of `resume_with()` stored. -/
def Pool (s : State) (t : Tid) (X : List Var) (b : Stacks) (c : CtxId) : Prop :=
  UserCode s t c (b c).1 (b c).2.1 (b c).2.2 ∧ s.unw c = false ∧ s.ontop c = none ∧ ∀ x ∈ X, Handle s x ∧ ∃ d, Designates s x d ∧ InResume s d (b d).1 (b d).2.1 (b d).2.2 ∧ s.unw d = false ∧ s.ontop d = none

/-- the contexts of the pool -/
def Member (s : State) (X : List Var) (c d : CtxId) : Prop := d = c ∨ ∃ x ∈ X, Designates s x d

/-- **C95** Contexts that resume each other directly: any number of contexts share a set `X` of objects; the one in control executes `x.resume()` for an `x` of its choice, and the one resumed moves the handle it gets into
`x`. For every sequence of choices all this goes through. At the end some context of the pool runs and the others wait, each with the stack it had, the objects of `X` designate exactly those that wait,
and nothing else has changed. -/
theorem C95_ucontext_pool {s : State} {t : Tid} {X : List Var} {b : Stacks} {c : CtxId} (h : Reachable s) (he : NoEarlyDestroy s) (hp : Pool s t X b c) (p : List Var) (hX : ∀ x ∈ p, x ∈ X) :
    ∃ s' c', run s (handoffs t p s.nextVar) = .ok s' ∧ Pool s' t X b c' ∧ (∀ d, Member s' X c' d ↔ Member s X c d) ∧ (∀ d, ¬ Member s X c d → s'.frames d = s.frames d ∧ s'.status d = s.status d) ∧
      (∀ t', t' ≠ t → s'.cur t' = s.cur t') ∧ (∀ z, z ∉ X → s'.val z = s.val z) ∧ s'.kind = s.kind ∧ s'.caps = s.caps ∧ s'.log = s.log ∧ s'.root = s.root ∧ s'.early = s.early := by
  induction p generalizing s c with
  | nil => exact ⟨s, c, rfl, hp, fun _ => Iff.rfl, fun _ _ => ⟨rfl, rfl⟩, fun _ _ => rfl, fun _ _ => rfl, rfl, rfl, rfl, rfl, rfl⟩
  | cons x p ih =>
    have hxX : x ∈ X := hX x List.mem_cons_self
    obtain ⟨hu, hu1, hu2, hw⟩ := hp
    obtain ⟨hx, d, hd, hr, hr1, hr2⟩ := hw x hxX
    have hi := reachable_inv h he
    have e1 := handoff_run h he hu hx hd hr hr1 hr2
    obtain ⟨s1, hs1⟩ : ∃ s1, s1 = turned s t c d x x (.user (b d).1 (b d).2.1 .normal :: (b d).2.2) := ⟨_, rfl⟩
    rw [← hs1] at e1
    have h1 : Reachable s1 := (steps_run e1).reachable h
    have he1 : NoEarlyDestroy s1 := by rw [hs1]; exact he
    have hf : s.val x = some d := hd
    have hdc : d ≠ c := by
      rcases (hi.vi.valid x d hf).1 with h | h
      · exact susp_ne hi hu.1 h
      · have := hi.ci.fTerm d h
        rw [show s.frames d = _ from hr] at this; cases this
    -- every other object of the pool designates another context
    have hne : ∀ y e, y ≠ x → y ∈ X → s.val y = some e → e ≠ d ∧ e ≠ c := fun y e hy hyX hg => by
      refine ⟨fun hed => hy (hi.vi.inj y x d (hed ▸ hg) hf), ?_⟩
      obtain ⟨-, e', he', hr', -⟩ := hw y hyX
      have : e = e' := by rw [show s.val y = some e' from he'] at hg; exact (Option.some.inj hg).symm
      subst this
      rcases (hi.vi.valid y e hg).1 with h | h
      · exact susp_ne hi hu.1 h
      · have := hi.ci.fTerm e h
        rw [show s.frames e = _ from hr'] at this; cases this
    have hx1 : s1.val x = some c := by rw [hs1]; simp [turned]
    have hv1 : ∀ y, y ≠ x → s1.val y = s.val y := fun y hy => by rw [hs1]; simp [turned, hy]
    have hk1 : s1.kind = s.kind := by rw [hs1]; rfl
    have hfr : ∀ e, e ≠ d → e ≠ c → s1.frames e = s.frames e ∧ s1.status e = s.status e := fun e h1 h2 => by rw [hs1]; simp [turned, h1, h2]
    have hmem : ∀ e, Member s1 X d e ↔ Member s X c e := by
      intro e
      constructor
      · rintro (rfl | ⟨y, hy, hg⟩)
        · exact .inr ⟨x, hxX, hf⟩
        · by_cases hyx : y = x
          · subst hyx; replace hg : s1.val y = some e := hg; rw [hx1] at hg; cases hg; exact .inl rfl
          · exact .inr ⟨y, hy, (hv1 y hyx).symm.trans hg⟩
      · rintro (rfl | ⟨y, hy, hg⟩)
        · exact .inr ⟨x, hxX, hx1⟩
        · by_cases hyx : y = x
          · subst hyx; replace hg : s.val y = some e := hg; rw [hf] at hg; cases hg; exact .inl rfl
          · exact .inr ⟨y, hy, (hv1 y hyx).trans hg⟩
    have hp1 : Pool s1 t X b d := by
      refine ⟨⟨by rw [hs1]; simp [turned], by rw [hs1]; simp [turned]⟩, by rw [hs1]; exact hr1, by rw [hs1]; exact hr2, fun y hy => ⟨by unfold Handle; rw [hk1]; exact (hw y hy).1, ?_⟩⟩
      by_cases hyx : y = x
      · subst hyx
        refine ⟨c, hx1, ?_, by rw [hs1]; exact hu1, by rw [hs1]; exact hu2⟩
        rw [hs1]; simp [InResume, turned, Ne.symm hdc, hu.2]
      · obtain ⟨-, e, hg, hge', hge1, hge2⟩ := hw y hy
        obtain ⟨n1, n2⟩ := hne y e hyx hy hg
        refine ⟨e, (hv1 y hyx).trans hg, ?_, by rw [hs1]; exact hge1, by rw [hs1]; exact hge2⟩
        unfold InResume at hge' ⊢
        rw [(hfr e n1 n2).1]; exact hge'
    obtain ⟨s', c', e2, b1, b2, b3, b4, b5, b6, b7, b8, b9, b10⟩ := ih h1 he1 hp1 fun y hy => hX y (List.mem_cons_of_mem _ hy)
    refine ⟨s', c', ?_, b1, fun e => (b2 e).trans (hmem e), fun e he => ?_, fun t' ht => ?_, fun z hz => ?_, b6.trans hk1, b7.trans (by rw [hs1]; rfl), b8.trans (by rw [hs1]; rfl), b9.trans (by rw [hs1]; rfl), b10.trans (by rw [hs1]; rfl)⟩
    · simp only [handoffs]
      rw [run_append' e1]
      have : s1.nextVar = s.nextVar + 1 := by rw [hs1]; rfl
      rw [← this]; exact e2
    · have he1 : ¬ Member s1 X d e := fun hm => he ((hmem e).1 hm)
      obtain ⟨q1, q2⟩ := b3 e he1
      obtain ⟨q3, q4⟩ := hfr e (fun hh => he1 (.inl hh)) (fun hh => he (.inl hh))
      exact ⟨q1.trans q3, q2.trans q4⟩
    · rw [b4 t' ht, hs1]; simp [turned, ht]
    · rw [b5 z hz]; exact hv1 z fun hh => hz (hh ▸ hxX)

/-- the stacks of `hSched` -/
def bSched : Stacks
  | 0 => (.main, [5, 3, 2, 0], [])
  | 1 => (.fn, [1], [.entryRun])
  | _ => (.fn, [4], [.entryRun])

theorem hSched_pool : Pool (exec hSched) 0 [2, 5] bSched 0 :=
  ⟨⟨by decide, by decide⟩, by decide, by decide, fun x hx => by
    rcases List.mem_cons.1 hx with rfl | hx
    · exact ⟨.inr (.inl ⟨0, by decide⟩), 1, by unfold Designates; decide, by unfold InResume; decide, by decide, by decide⟩
    · cases List.mem_singleton.1 hx
      exact ⟨.inr (.inl ⟨0, by decide⟩), 2, by unfold Designates; decide, by unfold InResume; decide, by decide, by decide⟩⟩

/-- the hypotheses can be met: main and two fibers -/
example (p : List Var) (hp : ∀ x ∈ p, x = 2 ∨ x = 5) : ∃ s' c', run (exec hSched) (handoffs 0 p (exec hSched).nextVar) = .ok s' ∧ Pool s' 0 [2, 5] bSched c' := by
  obtain ⟨s', c', h1, h2, -⟩ := C95_ucontext_pool (reachable_exec (by decide)) (by unfold NoEarlyDestroy; decide) hSched_pool p fun x hx => by rcases hp x hx with rfl | rfl <;> simp
  exact ⟨s', c', h1, h2⟩

/-- … and a round: main resumes fiber 1, fiber 1 resumes fiber 2, fiber 2 resumes main -/
example : ∃ s', run (exec hSched) (handoffs 0 [2, 5, 2] (exec hSched).nextVar) = .ok s' ∧ s'.cur 0 = some 0 ∧ Designates s' 2 2 ∧ Designates s' 5 1 :=
  ⟨_, rfl, by decide, by unfold Designates; decide, by unfold Designates; decide⟩

end Verif.UFiber
