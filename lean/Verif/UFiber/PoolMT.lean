import Verif.UFiber.Pool

/-!
# C95: many contexts, many threads

As `Pool.lean`, but several threads run contexts of the pool; each takes handles of the set shared, so that contexts move between threads.
-/

namespace Verif.UFiber
open Verif.Fiber (CtxId Var Tid Kind Exc Mode UKind Frame Status Event Op upd upd_apply half loop)
open State

/-- a sequence of calls `x = std::move(x).resume()`, each by the context then in control on a thread -/
def handoffsOn : List (Tid × Var) → Var → List (Tid × Op)
  | [], _ => []
  | (t, x) :: p, v => half t x x v ++ handoffsOn p (v + 1)

/-- Each thread `t` of `T` runs context `C t`, and each object of `X` designates a context that waits in `resume()`; the stacks are those given by `b`. None of
them is to be unwound or has a function of `resume_with()` stored. -/
def PoolOn (s : State) (T : List Tid) (X : List Var) (b : Stacks) (C : Tid → CtxId) : Prop :=
  (∀ t ∈ T, UserCode s t (C t) (b (C t)).1 (b (C t)).2.1 (b (C t)).2.2 ∧ s.unw (C t) = false ∧ s.ontop (C t) = none) ∧ ∀ x ∈ X, Handle s x ∧ ∃ d, Designates s x d ∧ InResume s d (b d).1 (b d).2.1 (b d).2.2 ∧ s.unw d = false ∧ s.ontop d = none

/-- the contexts of the pool -/
def MemberOn (s : State) (T : List Tid) (X : List Var) (C : Tid → CtxId) (d : CtxId) : Prop := (∃ t ∈ T, d = C t) ∨ ∃ x ∈ X, Designates s x d

/-- **C95** Many contexts, many threads: threads `T` run contexts of a pool, the handles of the others are in objects `X` that all share. In every interleaving of calls `x.resume()`, each by a thread of `T` for an `x` of its
choice, where the context resumed moves the handle it gets into `x`, all calls go through. At the end each thread runs some context of the pool and the others wait, each with the stack it had, the objects of `X` designate
exactly those that wait, and nothing else has changed. -/
theorem C95_ucontext_pool_threads {s : State} {T : List Tid} {X : List Var} {b : Stacks} {C : Tid → CtxId} (h : Reachable s) (he : NoEarlyDestroy s) (hp : PoolOn s T X b C) (p : List (Tid × Var)) (hX : ∀ q ∈ p, q.1 ∈ T ∧ q.2 ∈ X) :
    ∃ s' C', run s (handoffsOn p s.nextVar) = .ok s' ∧ PoolOn s' T X b C' ∧ (∀ d, MemberOn s' T X C' d ↔ MemberOn s T X C d) ∧
      (∀ d, ¬ MemberOn s T X C d → s'.frames d = s.frames d ∧ s'.status d = s.status d) ∧
      (∀ t', t' ∉ T → s'.cur t' = s.cur t') ∧ (∀ z, z ∉ X → s'.val z = s.val z) ∧ s'.kind = s.kind ∧ s'.caps = s.caps ∧ s'.log = s.log := by
  induction p generalizing s C with
  | nil => exact ⟨s, C, rfl, hp, fun _ => Iff.rfl, fun _ _ => ⟨rfl, rfl⟩, fun _ _ => rfl, fun _ _ => rfl, rfl, rfl, rfl⟩
  | cons q p ih =>
    obtain ⟨t, x⟩ := q
    obtain ⟨htT, hxX⟩ : t ∈ T ∧ x ∈ X := hX _ List.mem_cons_self
    obtain ⟨hus, hw⟩ := hp
    obtain ⟨hu, hu1, hu2⟩ := hus t htT
    obtain ⟨c, hc⟩ : ∃ c, c = C t := ⟨_, rfl⟩
    rw [← hc] at hu hu1 hu2
    obtain ⟨hx, d, hd, hr, hr1, hr2⟩ := hw x hxX
    have hi := reachable_inv h he
    have e1 := handoff_run h he hu hx hd hr hr1 hr2
    obtain ⟨s1, hs1⟩ : ∃ s1, s1 = turned s t c d x x (.user (b d).1 (b d).2.1 .normal :: (b d).2.2) := ⟨_, rfl⟩
    rw [← hs1] at e1
    have h1 : Reachable s1 := (steps_run e1).reachable h
    have he1 : NoEarlyDestroy s1 := by rw [hs1]; exact he
    have hf : s.val x = some d := hd
    have hds : s.status d = .suspended := by
      rcases (hi.vi.valid x d hf).1 with h | h
      · exact h
      · have := hi.ci.fTerm d h
        rw [show s.frames d = _ from hr] at this; cases this
    have hdc : d ≠ c := susp_ne hi hu.1 hds
    -- every other object of the pool designates another context, every other thread runs another context
    have hne : ∀ y e, y ≠ x → y ∈ X → s.val y = some e → e ≠ d ∧ e ≠ c := fun y e hy hyX hg => by
      refine ⟨fun hed => hy (hi.vi.inj y x d (hed ▸ hg) hf), ?_⟩
      obtain ⟨-, e', he', hr', -⟩ := hw y hyX
      have : e = e' := by rw [show s.val y = some e' from he'] at hg; exact (Option.some.inj hg).symm
      subst this
      rcases (hi.vi.valid y e hg).1 with h | h
      · exact susp_ne hi hu.1 h
      · have := hi.ci.fTerm e h
        rw [show s.frames e = _ from hr'] at this; cases this
    have hnt : ∀ t' ∈ T, t' ≠ t → C t' ≠ d ∧ C t' ≠ c := fun t' ht' hn => by
      have r1 : s.status (C t') = .running t' := (hi.ci.curRun _ _).1 (hus t' ht').1.1
      have r2 : s.status c = .running t := (hi.ci.curRun _ _).1 hu.1
      refine ⟨fun e => ?_, fun e => ?_⟩
      · rw [e, hds] at r1; cases r1
      · rw [e, r2] at r1; cases r1; exact hn rfl
    have hx1 : s1.val x = some c := by rw [hs1]; simp [turned]
    have hv1 : ∀ y, y ≠ x → s1.val y = s.val y := fun y hy => by rw [hs1]; simp [turned, hy]
    have hk1 : s1.kind = s.kind := by rw [hs1]; rfl
    have hfr : ∀ e, e ≠ d → e ≠ c → s1.frames e = s.frames e ∧ s1.status e = s.status e := fun e h1 h2 => by rw [hs1]; simp [turned, h1, h2]
    have hcu : ∀ t', t' ≠ t → s1.cur t' = s.cur t' := fun t' ht' => by rw [hs1]; simp [turned, ht']
    have hC : ∀ t', t' ≠ t → upd C t d t' = C t' := fun t' ht' => by simp [ht']
    have hCt : upd C t d t = d := by simp
    obtain ⟨C1, hC1⟩ : ∃ C1, C1 = upd C t d := ⟨_, rfl⟩
    rw [← hC1] at hC hCt
    have hmem : ∀ e, MemberOn s1 T X C1 e ↔ MemberOn s T X C e := by
      intro e
      constructor
      · rintro (⟨t', ht', rfl⟩ | ⟨y, hy, hg⟩)
        · by_cases ht : t' = t
          · rw [ht, hCt]; exact .inr ⟨x, hxX, hf⟩
          · exact .inl ⟨t', ht', hC t' ht⟩
        · by_cases hyx : y = x
          · subst hyx; replace hg : s1.val y = some e := hg; rw [hx1] at hg; cases hg; exact .inl ⟨t, htT, hc⟩
          · exact .inr ⟨y, hy, (hv1 y hyx).symm.trans hg⟩
      · rintro (⟨t', ht', rfl⟩ | ⟨y, hy, hg⟩)
        · by_cases ht : t' = t
          · rw [ht, ← hc]; exact .inr ⟨x, hxX, hx1⟩
          · exact .inl ⟨t', ht', (hC t' ht).symm⟩
        · by_cases hyx : y = x
          · subst hyx; replace hg : s.val y = some e := hg; rw [hf] at hg; cases hg; exact .inl ⟨t, htT, by rw [hCt]⟩
          · exact .inr ⟨y, hy, (hv1 y hyx).trans hg⟩
    have hp1 : PoolOn s1 T X b C1 := by
      refine ⟨fun t' ht' => ?_, fun y hy => ⟨by unfold Handle; rw [hk1]; exact (hw y hy).1, ?_⟩⟩
      · by_cases ht : t' = t
        · rw [ht, hCt]
          exact ⟨⟨by rw [hs1]; simp [turned], by rw [hs1]; simp [turned]⟩, by rw [hs1]; exact hr1, by rw [hs1]; exact hr2⟩
        · rw [hC t' ht]
          obtain ⟨n1, n2⟩ := hnt t' ht' ht
          obtain ⟨m1, m2, m3⟩ := hus t' ht'
          exact ⟨⟨(hcu t' ht).trans m1.1, (hfr _ n1 n2).1.trans m1.2⟩, by rw [hs1]; exact m2, by rw [hs1]; exact m3⟩
      by_cases hyx : y = x
      · subst hyx
        refine ⟨c, hx1, ?_, by rw [hs1]; exact hu1, by rw [hs1]; exact hu2⟩
        rw [hs1]; simp [InResume, turned, Ne.symm hdc, hu.2]
      · obtain ⟨-, e, hg, hge', hge1, hge2⟩ := hw y hy
        obtain ⟨n1, n2⟩ := hne y e hyx hy hg
        refine ⟨e, (hv1 y hyx).trans hg, ?_, by rw [hs1]; exact hge1, by rw [hs1]; exact hge2⟩
        unfold InResume at hge' ⊢
        rw [(hfr e n1 n2).1]; exact hge'
    obtain ⟨s', C', e2, b1, b2, b3, b4, b5, b6, b7, b8⟩ := ih h1 he1 hp1 fun y hy => hX y (List.mem_cons_of_mem _ hy)
    refine ⟨s', C', ?_, b1, fun e => (b2 e).trans (hmem e), fun e he => ?_, fun t' ht => ?_, fun z hz => ?_, b6.trans hk1, b7.trans (by rw [hs1]; rfl), b8.trans (by rw [hs1]; rfl)⟩
    · simp only [handoffsOn]
      rw [run_append' e1]
      have : s1.nextVar = s.nextVar + 1 := by rw [hs1]; rfl
      rw [← this]; exact e2
    · have he1 : ¬ MemberOn s1 T X C1 e := fun hm => he ((hmem e).1 hm)
      obtain ⟨q1, q2⟩ := b3 e he1
      obtain ⟨q3, q4⟩ := hfr e (fun hh => he1 (.inl ⟨t, htT, hh.trans hCt.symm⟩)) (fun hh => he (.inl ⟨t, htT, hh.trans hc⟩))
      exact ⟨q1.trans q3, q2.trans q4⟩
    · rw [b4 t' ht]; exact hcu t' fun hh => ht (hh ▸ htT)
    · rw [b5 z hz]; exact hv1 z fun hh => hz (hh ▸ hxX)

/-- as `hSched`, and another thread (1) starts, whose own context is 3 -/
def hSchedMT : List (Tid × Op) := hSched ++ [(0, .spawn)]

/-- the stacks of `hSchedMT` -/
def bSchedMT : Stacks
  | 0 => (.main, [5, 3, 2, 0], [])
  | 1 => (.fn, [1], [.entryRun])
  | 2 => (.fn, [4], [.entryRun])
  | _ => (.main, [], [])

theorem hSchedMT_pool : PoolOn (exec hSchedMT) [0, 1] [2, 5] bSchedMT (fun t => if t = 0 then 0 else 3) :=
  ⟨fun t ht => by
    rcases List.mem_cons.1 ht with rfl | ht
    · exact ⟨⟨by decide, by decide⟩, by decide, by decide⟩
    · cases List.mem_singleton.1 ht
      exact ⟨⟨by decide, by decide⟩, by decide, by decide⟩,
  fun x hx => by
    rcases List.mem_cons.1 hx with rfl | hx
    · exact ⟨.inr (.inl ⟨0, by decide⟩), 1, by unfold Designates; decide, by unfold InResume; decide, by decide, by decide⟩
    · cases List.mem_singleton.1 hx
      exact ⟨.inr (.inl ⟨0, by decide⟩), 2, by unfold Designates; decide, by unfold InResume; decide, by decide, by decide⟩⟩

/-- the hypotheses can be met: two threads and two fibers, any interleaving -/
example (p : List (Tid × Var)) (hp : ∀ q ∈ p, (q.1 = 0 ∨ q.1 = 1) ∧ (q.2 = 2 ∨ q.2 = 5)) :
    ∃ s' C', run (exec hSchedMT) (handoffsOn p (exec hSchedMT).nextVar) = .ok s' ∧ PoolOn s' [0, 1] [2, 5] bSchedMT C' := by
  obtain ⟨s', C', h1, h2, -⟩ := C95_ucontext_pool_threads (reachable_exec (by decide)) (by unfold NoEarlyDestroy; decide) hSchedMT_pool p fun q hq => by
    obtain ⟨a, b⟩ := hp q hq
    exact ⟨by rcases a with a | a <;> simp [a], by rcases b with b | b <;> simp [b]⟩
  exact ⟨s', C', h1, h2⟩

/-- … e.g. thread 0 resumes fiber 1, thread 1 resumes what thread 0 left (main's context), thread 0 takes thread 1's own context -/
example : ∃ s', run (exec hSchedMT) (handoffsOn [(0, 2), (1, 2), (0, 2)] (exec hSchedMT).nextVar) = .ok s' ∧ s'.cur 0 = some 3 ∧ s'.cur 1 = some 0 := ⟨_, rfl, by decide, by decide⟩

end Verif.UFiber
