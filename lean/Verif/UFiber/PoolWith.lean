import Verif.UFiber.Pool

/-! # C95: contexts that resume each other with a function on top (as `Verif/Fiber/PoolWith.lean`) -/

namespace Verif.UFiber
open Verif.Fiber (CtxId Var Tid Kind Exc Mode UKind Frame Status Event Op upd upd_apply half loop)
open State

/-- `std::move(x).resume_with([&](auto && f) { x = std::move(f); return {}; })`: the function's parameter is `p`; what it returns is empty, the parameter is destroyed (first tick), the function left
(second tick), and the context resumed destroys the empty object it gets from `resume()` -/
def putBack (t : Tid) (x p : Var) : List (Tid × Op) := [(t, .resumeWith x), (t, .moveAssign x p), (t, .retHandle p), (t, .tick), (t, .tick), (t, .drop (p + 2))]

/-- the state afterwards -/
def putBackState (s : State) (t : Tid) (c d : CtxId) (x : Var) (fs : List Frame) : State :=
  { turned s t c d x x fs with
    nextVar := s.nextVar + 3
    nextId := s.nextId + 1
    log := .ontop s.nextId d :: s.log }

theorem putBack_run {s : State} {t : Tid} {c d : CtxId} {x : Var} {k k' : UKind} {ls ls' : List Var} {rest rest' : List Frame} (h : Reachable s) (he : NoEarlyDestroy s) (hu : UserCode s t c k ls rest)
    (hx : Handle s x) (hd : Designates s x d) (hr : InResume s d k' ls' rest') (hw : s.unw d = false) (ho : s.ontop d = none) :
    run s (putBack t x s.nextVar) = .ok (putBackState s t c d x (.user k' ls' .normal :: rest')) := by
  have hi := reachable_inv h he
  have hds := inResume_susp hi hd hr
  have hcf := susp_ne hi hu.1 hds
  have fk : ∀ v, s.nextVar ≤ v → s.kind v = .dead := fun v hv => hi.oi.fresh _ hv
  have fv : ∀ v, s.nextVar ≤ v → s.val v = none := fun v hv => hi.vi.deadNone _ (fk v hv)
  have ax := handle_acc hx
  have nx : ∀ v, s.nextVar ≤ v → x ≠ v := fun v hv e => by rw [e] at ax; simp [State.accessible, fk v hv] at ax
  have n0 := nx s.nextVar (Nat.le_refl _)
  simp only [putBack, run]
  rw [resumeWith_eq hu hx hd hds]
  simp only [InResume] at hr
  simp only [State.accessible] at ax
  simp [State.arrive, preResumeWith, sw, step, userStep, State.accessible, hcf, State.setVal, State.newVar, State.setFrames, State.addLog, State.destroyVar, State.kill, leave, upd_apply, n0, ax, hr, hw]
  simp only [putBackState, turned, State.mk.injEq, true_and]
  repeat' apply And.intro
  all_goals first
    | trivial
    | (funext e; simp only [upd_apply]; have := fk e; have := fv e; grind)

/-- a sequence of such calls, each by the context then in control -/
def putBacks (t : Tid) : List Var → Var → List (Tid × Op)
  | [], _ => []
  | x :: p, v => putBack t x v ++ putBacks t p (v + 3)

/-- **C95** Contexts that resume each other with a function on top: any number of contexts share a set `X` of objects; the one in control executes `x.resume_with(fn)` for an `x` of its choice, where `fn` moves the handle it
gets, that of the context left, into `x`. For every sequence of choices all this goes through. At the end some context of the pool runs and the others wait, each with the stack it had, the objects of `X` designate
exactly those that wait, the functions have run, one for each call, and nothing else has changed. -/
theorem C95_ucontext_pool_with {s : State} {t : Tid} {X : List Var} {b : Stacks} {c : CtxId} (h : Reachable s) (he : NoEarlyDestroy s) (hp : Pool s t X b c) (p : List Var) (hX : ∀ x ∈ p, x ∈ X) :
    ∃ s' c', run s (putBacks t p s.nextVar) = .ok s' ∧ Pool s' t X b c' ∧ (∀ d, Member s' X c' d ↔ Member s X c d) ∧ (∀ d, ¬ Member s X c d → s'.frames d = s.frames d ∧ s'.status d = s.status d) ∧
      (∀ t', t' ≠ t → s'.cur t' = s.cur t') ∧ (∀ z, z ∉ X → s'.val z = s.val z) ∧ s'.kind = s.kind ∧ s'.caps = s.caps ∧ (∃ es, s'.log = es ++ s.log ∧ es.length = p.length ∧ ∀ e ∈ es, ∃ i d, e = Event.ontop i d ∧ Member s X c d) := by
  induction p generalizing s c with
  | nil => exact ⟨s, c, rfl, hp, fun _ => Iff.rfl, fun _ _ => ⟨rfl, rfl⟩, fun _ _ => rfl, fun _ _ => rfl, rfl, rfl, [], rfl, rfl, by simp⟩
  | cons x p ih =>
    have hxX : x ∈ X := hX x List.mem_cons_self
    obtain ⟨hu, hu1, hu2, hw⟩ := hp
    obtain ⟨hx, d, hd, hr, hr1, hr2⟩ := hw x hxX
    have hi := reachable_inv h he
    have e1 := putBack_run h he hu hx hd hr hr1 hr2
    obtain ⟨s1, hs1⟩ : ∃ s1, s1 = putBackState s t c d x (.user (b d).1 (b d).2.1 .normal :: (b d).2.2) := ⟨_, rfl⟩
    rw [← hs1] at e1
    have h1 : Reachable s1 := (steps_run e1).reachable h
    have he1 : NoEarlyDestroy s1 := by rw [hs1]; exact he
    have hf : s.val x = some d := hd
    have hdc : d ≠ c := by
      rcases (hi.vi.valid x d hf).1 with h | h
      · exact susp_ne hi hu.1 h
      · have := hi.ci.fTerm d h
        rw [show s.frames d = _ from hr] at this; cases this
    -- every other object of the pool designates another context
    have hne : ∀ y e, y ≠ x → y ∈ X → s.val y = some e → e ≠ d ∧ e ≠ c := fun y e hy hyX hg => by
      refine ⟨fun hed => hy (hi.vi.inj y x d (hed ▸ hg) hf), ?_⟩
      obtain ⟨-, e', he', hr', -⟩ := hw y hyX
      have : e = e' := by rw [show s.val y = some e' from he'] at hg; exact (Option.some.inj hg).symm
      subst this
      rcases (hi.vi.valid y e hg).1 with h | h
      · exact susp_ne hi hu.1 h
      · have := hi.ci.fTerm e h
        rw [show s.frames e = _ from hr'] at this; cases this
    have hx1 : s1.val x = some c := by rw [hs1]; simp [putBackState, turned]
    have hv1 : ∀ y, y ≠ x → s1.val y = s.val y := fun y hy => by rw [hs1]; simp [putBackState, turned, hy]
    have hk1 : s1.kind = s.kind := by rw [hs1]; rfl
    have hfr : ∀ e, e ≠ d → e ≠ c → s1.frames e = s.frames e ∧ s1.status e = s.status e := fun e h1 h2 => by rw [hs1]; simp [putBackState, turned, h1, h2]
    have hmem : ∀ e, Member s1 X d e ↔ Member s X c e := by
      intro e
      constructor
      · rintro (rfl | ⟨y, hy, hg⟩)
        · exact .inr ⟨x, hxX, hf⟩
        · by_cases hyx : y = x
          · subst hyx; replace hg : s1.val y = some e := hg; rw [hx1] at hg; cases hg; exact .inl rfl
          · exact .inr ⟨y, hy, (hv1 y hyx).symm.trans hg⟩
      · rintro (rfl | ⟨y, hy, hg⟩)
        · exact .inr ⟨x, hxX, hx1⟩
        · by_cases hyx : y = x
          · subst hyx; replace hg : s.val y = some e := hg; rw [hf] at hg; cases hg; exact .inl rfl
          · exact .inr ⟨y, hy, (hv1 y hyx).trans hg⟩
    have hp1 : Pool s1 t X b d := by
      refine ⟨⟨by rw [hs1]; simp [putBackState, turned], by rw [hs1]; simp [putBackState, turned]⟩, by rw [hs1]; exact hr1, by rw [hs1]; exact hr2, fun y hy => ⟨by unfold Handle; rw [hk1]; exact (hw y hy).1, ?_⟩⟩
      by_cases hyx : y = x
      · subst hyx
        refine ⟨c, hx1, ?_, by rw [hs1]; exact hu1, by rw [hs1]; exact hu2⟩
        rw [hs1]; simp [InResume, putBackState, turned, Ne.symm hdc, hu.2]
      · obtain ⟨-, e, hg, hge', hge1, hge2⟩ := hw y hy
        obtain ⟨n1, n2⟩ := hne y e hyx hy hg
        refine ⟨e, (hv1 y hyx).trans hg, ?_, by rw [hs1]; exact hge1, by rw [hs1]; exact hge2⟩
        unfold InResume at hge' ⊢
        rw [(hfr e n1 n2).1]; exact hge'
    obtain ⟨s', c', e2, b1, b2, b3, b4, b5, b6, b7, es, b8, b9, b10⟩ := ih h1 he1 hp1 fun y hy => hX y (List.mem_cons_of_mem _ hy)
    refine ⟨s', c', ?_, b1, fun e => (b2 e).trans (hmem e), fun e he => ?_, fun t' ht => ?_, fun z hz => ?_, b6.trans hk1, b7.trans (by rw [hs1]; rfl), es ++ [.ontop s.nextId d], ?_, ?_, ?_⟩
    · simp only [putBacks]
      rw [run_append' e1]
      have : s1.nextVar = s.nextVar + 3 := by rw [hs1]; rfl
      rw [← this]; exact e2
    · have he1 : ¬ Member s1 X d e := fun hm => he ((hmem e).1 hm)
      obtain ⟨q1, q2⟩ := b3 e he1
      obtain ⟨q3, q4⟩ := hfr e (fun hh => he1 (.inl hh)) (fun hh => he (.inl hh))
      exact ⟨q1.trans q3, q2.trans q4⟩
    · rw [b4 t' ht, hs1]; simp [putBackState, turned, ht]
    · rw [b5 z hz]; exact hv1 z fun hh => hz (hh ▸ hxX)
    · rw [b8, hs1]; simp [putBackState]
    · simp [b9]
    · intro e he
      rcases List.mem_append.1 he with he | he
      · obtain ⟨i, d', e1, e2⟩ := b10 e he
        exact ⟨i, d', e1, (hmem d').1 e2⟩
      · cases List.mem_singleton.1 he
        exact ⟨_, d, rfl, (hmem d).1 (.inl rfl)⟩

/-- the hypotheses can be met: main and two fibers -/
example (p : List Var) (hp : ∀ x ∈ p, x = 2 ∨ x = 5) : ∃ s' c', run (exec hSched) (putBacks 0 p (exec hSched).nextVar) = .ok s' ∧ Pool s' 0 [2, 5] bSched c' := by
  obtain ⟨s', c', h1, h2, -⟩ := C95_ucontext_pool_with (reachable_exec (by decide)) (by unfold NoEarlyDestroy; decide) hSched_pool p fun x hx => by rcases hp x hx with rfl | rfl <;> simp
  exact ⟨s', c', h1, h2⟩

end Verif.UFiber
