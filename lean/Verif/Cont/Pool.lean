import Verif.Cont.Sched

/-!
# C95: contexts that resume each other directly

Any number of contexts share a set of handles; whoever is in control takes one of them and leaves the handle of the context it came from in its place.
-/

namespace Verif.Cont
open Verif.Fiber (CtxId Var Tid Fctx Kind Exc Mode UKind Status Event upd upd_apply)
open State

/-- `x = std::move(x).resume()` where the context resumed moves what it gets into the same object `x` -/
theorem handoff_run {s : State} {t : Tid} {c d : CtxId} {x : Var} {k k' : UKind} {ls ls' : List Var} {rest rest' : List Frame} (h : Reachable s) (hu : UserCode s t c k ls rest)
    (hx : Handle s x) (hd : Designates s x d) (hr : InResume s d k' ls' rest') :
    run s (half t x x s.nextVar) = .ok (turned s t c d x x (.user k' none ls' .normal :: rest')) := by
  have hi := Fiber.reachable_inv (reachable_spec h).2
  obtain ⟨f, hf, rfl⟩ := hd
  have hcf : f.ctx ≠ c := ((Fiber.facts hi hu.1).2.2.2 x f hf).2.2
  have fk : s.kind s.nextVar = .dead := hi.oi.fresh _ (Nat.le_refl _)
  have fv : s.val s.nextVar = none := hi.vi.deadNone _ fk
  have ax := handle_accessible hx
  have nx : x ≠ s.nextVar := fun e => by rw [e] at ax; simp [State.accessible, fk] at ax
  simp only [half, run]
  obtain ⟨q1, q2⟩ := hi.vi.valid x f hf
  replace q1 : s.status f.ctx = .suspended := q1
  replace q2 : s.seq f.ctx = f.seq := q2
  have e0 : step s t (.resume x) = s.doResume t c x := by simp only [step, hu.1, hu.2, userStep, ax, if_true]
  have hhn : s.hidden s.nextVar = false := by
    cases e : s.hidden s.nextVar with
    | false => rfl
    | true => exact absurd (hidden_empty h _ e).1 (Nat.lt_irrefl _)
  rw [e0]
  simp only [State.doResume, hf, State.jump, State.switch, State.setFrames, State.setVal, hu.1, q1, q2, true_or, and_self, if_true]
  simp only [InResume] at hr
  simp only [State.accessible] at ax
  simp only [State.deliver, State.setFrames, State.setVal, upd_apply, hcf, if_false, hr]
  simp [step, State.newVar, userStep, State.accessible, State.setFrames, State.setVal, State.destroyVar, State.kill, upd_apply, nx, ax, hcf, hhn]
  simp only [turned, State.mk.injEq, true_and]
  refine ⟨?_, ?_, ?_, trivial⟩
  · funext e; simp only [upd_apply]; split <;> rfl
  · funext e; simp only [upd_apply]; split
    · next h => rw [h, fk]
    · rfl
  · funext e; simp only [upd_apply]
    by_cases h : e = s.nextVar
    · have h2 : e ≠ x := fun h1 => nx (h1.symm.trans h)
      simp only [if_pos h, if_neg h2]; rw [h, fv]
    · simp only [if_neg h]

/-- a sequence of such calls, each by the context then in control -/
def handoffs (t : Tid) : List Var → Var → List (Tid × Op)
  | [], _ => []
  | x :: p, v => half t x x v ++ handoffs t p (v + 1)

/-- The stack of each context as it is while the context runs. -/
abbrev Stacks := CtxId → UKind × List Var × List Frame

/-- Thread `t` runs context `c` of the pool, and each object of `X` designates a context that waits in `resume()`; the stacks are those given by `b`. -/
def Pool (s : State) (t : Tid) (X : List Var) (b : Stacks) (c : CtxId) : Prop :=
  UserCode s t c (b c).1 (b c).2.1 (b c).2.2 ∧ ∀ x ∈ X, Handle s x ∧ ∃ d, Designates s x d ∧ InResume s d (b d).1 (b d).2.1 (b d).2.2

/-- the contexts of the pool -/
def Member (s : State) (X : List Var) (c d : CtxId) : Prop := d = c ∨ ∃ x ∈ X, Designates s x d

/-- **C95** Contexts that resume each other directly: any number of contexts share a set `X` of objects; the one in control executes `x.resume()` for an `x` of its choice, and the one resumed moves the handle it gets into
`x`. For every sequence of choices all this goes through. At the end some context of the pool runs and the others wait, each with the stack it had, the objects of `X` designate exactly those that wait,
and nothing else has changed. -/
theorem C95_continuation_pool {s : State} {t : Tid} {X : List Var} {b : Stacks} {c : CtxId} (h : Reachable s) (hp : Pool s t X b c) (p : List Var) (hX : ∀ x ∈ p, x ∈ X) :
    ∃ s' c', run s (handoffs t p s.nextVar) = .ok s' ∧ Pool s' t X b c' ∧ (∀ d, Member s' X c' d ↔ Member s X c d) ∧ (∀ d, ¬ Member s X c d → s'.frames d = s.frames d ∧ s'.status d = s.status d) ∧
      (∀ t', t' ≠ t → s'.cur t' = s.cur t') ∧ (∀ z, z ∉ X → s'.val z = s.val z) ∧ s'.kind = s.kind ∧ s'.caps = s.caps ∧ s'.log = s.log := by
  induction p generalizing s c with
  | nil => exact ⟨s, c, rfl, hp, fun _ => Iff.rfl, fun _ _ => ⟨rfl, rfl⟩, fun _ _ => rfl, fun _ _ => rfl, rfl, rfl, rfl⟩
  | cons x p ih =>
    have hxX : x ∈ X := hX x List.mem_cons_self
    obtain ⟨hu, hw⟩ := hp
    obtain ⟨hx, d, hd, hr⟩ := hw x hxX
    have hi := Fiber.reachable_inv (reachable_spec h).2
    have e1 := handoff_run h hu hx hd hr
    obtain ⟨s1, hs1⟩ : ∃ s1, s1 = turned s t c d x x (.user (b d).1 none (b d).2.1 .normal :: (b d).2.2) := ⟨_, rfl⟩
    rw [← hs1] at e1
    have h1 : Reachable s1 := (steps_run e1).reachable h
    obtain ⟨f, hf, hfd⟩ := hd
    have hdc : d ≠ c := hfd ▸ ((Fiber.facts hi hu.1).2.2.2 x f hf).2.2
    -- every other object of the pool designates another context
    have hne : ∀ y g, y ≠ x → s.val y = some g → g.ctx ≠ d ∧ g.ctx ≠ c := fun y g hy hg =>
      ⟨fun e => hy (hi.vi.inj y x g f hg hf (e.trans hfd.symm)), ((Fiber.facts hi hu.1).2.2.2 y g hg).2.2⟩
    have hx1 : s1.val x = some ⟨c, s.seq c + 1⟩ := by rw [hs1]; simp [turned]
    have hv1 : ∀ y, y ≠ x → s1.val y = s.val y := fun y hy => by rw [hs1]; simp [turned, hy]
    have hk1 : s1.kind = s.kind := by rw [hs1]; rfl
    have hh1 : s1.hidden = s.hidden := by rw [hs1]; rfl
    have hfr : ∀ e, e ≠ d → e ≠ c → s1.frames e = s.frames e ∧ s1.status e = s.status e := fun e h1 h2 => by rw [hs1]; simp [turned, h1, h2]
    have hmem : ∀ e, Member s1 X d e ↔ Member s X c e := by
      intro e
      constructor
      · rintro (rfl | ⟨y, hy, g, hg, rfl⟩)
        · exact .inr ⟨x, hxX, f, hf, hfd⟩
        · by_cases hyx : y = x
          · subst hyx; rw [hx1] at hg; cases hg; exact .inl rfl
          · rw [hv1 y hyx] at hg; exact .inr ⟨y, hy, g, hg, rfl⟩
      · rintro (rfl | ⟨y, hy, g, hg, rfl⟩)
        · exact .inr ⟨x, hxX, _, hx1, rfl⟩
        · by_cases hyx : y = x
          · subst hyx; rw [hf] at hg; cases hg; exact .inl hfd
          · exact .inr ⟨y, hy, g, (hv1 y hyx).trans hg, rfl⟩
    have hp1 : Pool s1 t X b d := by
      refine ⟨⟨by rw [hs1]; simp [turned], by rw [hs1]; simp [turned]⟩, fun y hy => ⟨by unfold Handle; rw [hk1, hh1]; exact (hw y hy).1, ?_⟩⟩
      by_cases hyx : y = x
      · subst hyx
        refine ⟨c, ⟨_, hx1, rfl⟩, ?_⟩
        rw [hs1]; simp [InResume, turned, Ne.symm hdc, hu.2]
      · obtain ⟨-, e, ⟨g, hg, hge⟩, hge'⟩ := hw y hy
        obtain ⟨n1, n2⟩ := hne y g hyx hg
        rw [hge] at n1 n2
        refine ⟨e, ⟨g, (hv1 y hyx).trans hg, hge⟩, ?_⟩
        unfold InResume at hge' ⊢
        rw [(hfr e n1 n2).1]; exact hge'
    obtain ⟨s', c', e2, b1, b2, b3, b4, b5, b6, b7, b8⟩ := ih h1 hp1 fun y hy => hX y (List.mem_cons_of_mem _ hy)
    refine ⟨s', c', ?_, b1, fun e => (b2 e).trans (hmem e), fun e he => ?_, fun t' ht => ?_, fun z hz => ?_, b6.trans hk1, b7.trans (by rw [hs1]; rfl), b8.trans (by rw [hs1]; rfl)⟩
    · simp only [handoffs]
      rw [run_append' e1]
      have : s1.nextVar = s.nextVar + 1 := by rw [hs1]; rfl
      rw [← this]; exact e2
    · have he1 : ¬ Member s1 X d e := fun hm => he ((hmem e).1 hm)
      obtain ⟨q1, q2⟩ := b3 e he1
      obtain ⟨q3, q4⟩ := hfr e (fun hh => he1 (.inl hh)) (fun hh => he (.inl hh))
      exact ⟨q1.trans q3, q2.trans q4⟩
    · rw [b4 t' ht, hs1]; simp [turned, ht]
    · rw [b5 z hz]; exact hv1 z fun hh => hz (hh ▸ hxX)

/-- the stacks of `hSched` -/
def bSched : Stacks
  | 0 => (.main, [5, 2], [])
  | 1 => (.fn, [1], [.entryRun])
  | _ => (.fn, [4], [.entryRun])

theorem hSched_pool : Pool (exec hSched) 0 [2, 5] bSched 0 :=
  ⟨⟨by decide, by decide⟩, fun x hx => by
    rcases List.mem_cons.1 hx with rfl | hx
    · exact ⟨⟨.inr (.inl ⟨0, by decide⟩), by decide⟩, 1, ⟨⟨1, 2⟩, by decide, rfl⟩, by unfold InResume; decide⟩
    · cases List.mem_singleton.1 hx
      exact ⟨⟨.inr (.inl ⟨0, by decide⟩), by decide⟩, 2, ⟨⟨2, 2⟩, by decide, rfl⟩, by unfold InResume; decide⟩⟩

/-- the hypotheses can be met: main and two contexts -/
example (p : List Var) (hp : ∀ x ∈ p, x = 2 ∨ x = 5) : ∃ s' c', run (exec hSched) (handoffs 0 p (exec hSched).nextVar) = .ok s' ∧ Pool s' 0 [2, 5] bSched c' := by
  obtain ⟨s', c', h1, h2, -⟩ := C95_continuation_pool (reachable_exec (by decide)) hSched_pool p fun x hx => by rcases hp x hx with rfl | rfl <;> simp
  exact ⟨s', c', h1, h2⟩

/-- … and a round: main resumes context 1, which resumes context 2, which resumes main -/
example : ∃ s', run (exec hSched) (handoffs 0 [2, 5, 2] (exec hSched).nextVar) = .ok s' ∧ s'.cur 0 = some 0 ∧ Designates s' 2 2 ∧ Designates s' 5 1 :=
  ⟨_, rfl, by decide, ⟨⟨2, 3⟩, by decide, rfl⟩, ⟨⟨1, 3⟩, by decide, rfl⟩⟩

end Verif.Cont
