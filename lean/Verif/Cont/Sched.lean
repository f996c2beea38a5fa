import Verif.Cont.Loop

/-!
# C95: a scheduler

One context resumes many contexts, again and again, in any order.
-/

namespace Verif.Cont
open Verif.Fiber (CtxId Var Tid Fctx Kind Exc Mode UKind Status Event upd upd_apply)
open State

/-- The context designated by `x` waits in `y = std::move(y).resume()`. -/
def Yields (s : State) (x y : Var) : Prop :=
  Handle s x ∧ Handle s y ∧ s.val y = none ∧ ∃ d k ls rest, Designates s x d ∧ InResume s d k ls rest

/-- `x = std::move(x).resume()` for each `x` of a list of choices; `y` is the object into which the context resumed moves what it gets. The temporaries are `v`, `v + 1`, … -/
def sched (t : Tid) : List (Var × Var) → Var → List (Tid × Op)
  | [], _ => []
  | (x, y) :: p, v => loop t x y v 1 ++ sched t p (v + 2)

/-- **C95** A scheduler: a context in control holds any number of contexts each of which waits in `y = std::move(y).resume()`, and executes `x = std::move(x).resume()` for one after the other, chosen in any order,
with any repetitions, any number of times. All this goes through, and at the end all stacks are what they were, the same contexts run and wait, and every object designates what it did (or is empty if it was). -/
theorem C95_continuation_scheduler {s : State} {t : Tid} {c : CtxId} {k : UKind} {ls : List Var} {rest : List Frame} (h : Reachable s) (hu : UserCode s t c k ls rest) (p : List (Var × Var))
    (hp : ∀ q ∈ p, Yields s q.1 q.2) :
    ∃ s', run s (sched t p s.nextVar) = .ok s' ∧ s'.frames = s.frames ∧ s'.cur = s.cur ∧ s'.status = s.status ∧ (∀ x d, Designates s' x d ↔ Designates s x d) ∧ s'.kind = s.kind ∧
      s'.caps = s.caps ∧ s'.log = s.log := by
  induction p generalizing s with
  | nil => exact ⟨s, rfl, rfl, rfl, rfl, fun _ _ => Iff.rfl, rfl, rfl, rfl⟩
  | cons q p ih =>
    obtain ⟨x, y⟩ := q
    obtain ⟨hx, hy, hv, d, k', ls', rest', hd, hr⟩ := hp _ List.mem_cons_self
    obtain ⟨s1, e1, a1, a2, a3, a4, a5, a6, a7, a8, a9, a10⟩ := C95_continuation_loop h hu hx hd hr hy hv 1
    have h1 : Reachable s1 := (steps_run e1).reachable h
    have hdes : ∀ z e, Designates s1 z e ↔ Designates s z e := by
      intro z e
      by_cases hz : z = x
      · subst hz
        obtain ⟨f, hf, hfd⟩ := hd
        obtain ⟨f', hf', hfd'⟩ := a4
        simp only [Designates, hf, hf', Option.some.injEq, exists_eq_left', hfd, hfd']
      · simp only [Designates, a5 z hz]
    have hnone : ∀ z, s1.val z = none ↔ s.val z = none := by
      intro z
      by_cases hz : z = x
      · subst hz
        obtain ⟨f, hf, -⟩ := hd
        obtain ⟨f', hf', -⟩ := a4
        simp [hf, hf']
      · rw [a5 z hz]
    have hu1 : UserCode s1 t c k ls rest := by unfold UserCode at hu ⊢; rw [a1, a2]; exact hu
    obtain ⟨s', e2, b1, b2, b3, b4, b5, b6, b7⟩ := ih h1 hu1 fun q hq => by
      obtain ⟨c1, c2, c3, d', k2, ls2, rest2, c4, c5⟩ := hp q (List.mem_cons_of_mem _ hq)
      refine ⟨?_, ?_, (hnone _).2 c3, d', k2, ls2, rest2, (hdes _ _).2 c4, ?_⟩
      · unfold Handle at c1 ⊢; rw [a6, a9]; exact c1
      · unfold Handle at c2 ⊢; rw [a6, a9]; exact c2
      · unfold InResume at c5 ⊢; rw [a1]; exact c5
    refine ⟨s', ?_, b1.trans a1, b2.trans a2, b3.trans a3, fun z e => (b4 z e).trans (hdes z e), b5.trans a6, b6.trans a7, b7.trans a8⟩
    simp only [sched]
    rw [run_append' e1]
    have : s1.nextVar = s.nextVar + 2 := by rw [a10]
    rw [← this]; exact e2

/-- as `h2`, and then the same with a second context: main has objects 2 and 5 that designate contexts 1 and 2 -/
def hSched : List (Tid × Op) := h2 ++ [(0, .callcc [] .success), (0, .resume 4), (0, .tick)]

theorem hSched_ready : (∃ ls, UserCode (exec hSched) 0 0 .main ls []) ∧ Yields (exec hSched) 2 1 ∧ Yields (exec hSched) 5 4 :=
  ⟨⟨[5, 2], by decide, by decide⟩,
    ⟨⟨.inr (.inl ⟨0, by decide⟩), by decide⟩, ⟨.inr (.inl ⟨1, by decide⟩), by decide⟩, by decide, 1, .fn, [1], [.entryRun], ⟨⟨1, 2⟩, by decide, rfl⟩, by unfold InResume; decide⟩,
    ⟨⟨.inr (.inl ⟨0, by decide⟩), by decide⟩, ⟨.inr (.inl ⟨2, by decide⟩), by decide⟩, by decide, 2, .fn, [4], [.entryRun], ⟨⟨2, 2⟩, by decide, rfl⟩, by unfold InResume; decide⟩⟩

/-- the hypotheses can be met: main may resume these two in any order -/
example (p : List (Var × Var)) (hp : ∀ q ∈ p, q = (2, 1) ∨ q = (5, 4)) :
    ∃ s', run (exec hSched) (sched 0 p (exec hSched).nextVar) = .ok s' ∧ s'.frames = (exec hSched).frames := by
  obtain ⟨⟨ls, hu⟩, r1, r2⟩ := hSched_ready
  obtain ⟨s', h1, h2, -⟩ := C95_continuation_scheduler (reachable_exec (by decide)) hu p fun q hq => by
    rcases hp q hq with rfl | rfl
    · exact r1
    · exact r2
  exact ⟨s', h1, h2⟩

end Verif.Cont
