import Verif.UFiber.Loop

/-!
# C95: a scheduler

One context resumes many fibers, again and again, in any order.
-/

namespace Verif.UFiber
open Verif.Fiber (CtxId Var Tid Kind Exc Mode UKind Frame Status Event Op upd upd_apply half loop)
open State

/-- The fiber designated by `x` waits in `y = std::move(y).resume()`; it is not to be unwound and no function is pending for it. -/
def Yields (s : State) (x y : Var) : Prop :=
  Handle s x ∧ Handle s y ∧ s.val y = none ∧ ∃ d k ls rest, Designates s x d ∧ InResume s d k ls rest ∧ s.unw d = false ∧ s.ontop d = none

/-- `x = std::move(x).resume()` for each `x` of a list of choices; `y` is the object into which the fiber resumed moves what it gets. The temporaries are `v`, `v + 1`, … -/
def sched (t : Tid) : List (Var × Var) → Var → List (Tid × Op)
  | [], _ => []
  | (x, y) :: p, v => loop t x y v 1 ++ sched t p (v + 2)

/-- **C95** A scheduler: a context in control holds any number of fibers each of which waits in `y = std::move(y).resume()`, and executes `x = std::move(x).resume()` for one after the other, chosen in any order,
with any repetitions, any number of times. All this goes through, and at the end all stacks are what they were, the same contexts run and wait, and every object designates what it did (or is empty if it was). -/
theorem C95_ucontext_scheduler {s : State} {t : Tid} {c : CtxId} {k : UKind} {ls : List Var} {rest : List Frame} (h : Reachable s) (he : NoEarlyDestroy s) (hu : UserCode s t c k ls rest) (hw : s.unw c = false ∧ s.ontop c = none)
    (p : List (Var × Var)) (hp : ∀ q ∈ p, Yields s q.1 q.2) :
    ∃ s', run s (sched t p s.nextVar) = .ok s' ∧ s'.frames = s.frames ∧ s'.cur = s.cur ∧ s'.status = s.status ∧ s'.val = s.val ∧ s'.kind = s.kind ∧
      s'.caps = s.caps ∧ s'.log = s.log := by
  induction p generalizing s with
  | nil => exact ⟨s, rfl, rfl, rfl, rfl, rfl, rfl, rfl, rfl⟩
  | cons q p ih =>
    obtain ⟨x, y⟩ := q
    obtain ⟨hx, hy, hv, d, k', ls', rest', hd, hr, hw1, hw2⟩ := hp _ List.mem_cons_self
    obtain ⟨s1, e1, a1, a2, a3, a4, a6, a7, a8, g1, g2, g3, g4⟩ := C95_ucontext_loop h he hu hx hd hr hy hv ⟨hw.1, hw1⟩ ⟨hw.2, hw2⟩ 1
    have h1 : Reachable s1 := (steps_run e1).reachable h
    have he1 : NoEarlyDestroy s1 := by unfold NoEarlyDestroy at he ⊢; rw [g3]; exact he
    have hu1 : UserCode s1 t c k ls rest := by unfold UserCode at hu ⊢; rw [a1, a2]; exact hu
    obtain ⟨s', e2, b1, b2, b3, b4, b5, b6, b7⟩ := ih h1 he1 hu1 (by rw [g1, g2]; exact hw) fun q hq => by
      obtain ⟨c1, c2, c3, d', k2, ls2, rest2, c4, c5, c6⟩ := hp q (List.mem_cons_of_mem _ hq)
      refine ⟨?_, ?_, by rw [a4]; exact c3, d', k2, ls2, rest2, by unfold Designates at c4 ⊢; rw [a4]; exact c4, ?_, by rw [g1, g2]; exact c6⟩
      · unfold Handle at c1 ⊢; rw [a6]; exact c1
      · unfold Handle at c2 ⊢; rw [a6]; exact c2
      · unfold InResume at c5 ⊢; rw [a1]; exact c5
    refine ⟨s', ?_, b1.trans a1, b2.trans a2, b3.trans a3, b4.trans a4, b5.trans a6, b6.trans a7, b7.trans a8⟩
    simp only [sched]
    rw [run_append' e1]
    have : s1.nextVar = s.nextVar + 2 := by rw [g4]
    rw [← this]; exact e2

/-- as `h1`, and then the same with a second fiber: main has objects 2 and 5 that designate fibers 1 and 2 -/
def hSched : List (Tid × Op) := h1 ++ [(0, .create [] .success), (0, .resume 3), (0, .resume 4)]

theorem hSched_ready : (∃ ls, UserCode (exec hSched) 0 0 .main ls []) ∧ Yields (exec hSched) 2 1 ∧ Yields (exec hSched) 5 4 :=
  ⟨⟨[5, 3, 2, 0], by decide, by decide⟩,
    ⟨.inr (.inl ⟨0, by decide⟩), .inr (.inl ⟨1, by decide⟩), by decide, 1, .fn, [1], [.entryRun], by unfold Designates; decide, by unfold InResume; decide, by decide⟩,
    ⟨.inr (.inl ⟨0, by decide⟩), .inr (.inl ⟨2, by decide⟩), by decide, 2, .fn, [4], [.entryRun], by unfold Designates; decide, by unfold InResume; decide, by decide⟩⟩

/-- the hypotheses can be met: main may resume these two in any order -/
example (p : List (Var × Var)) (hp : ∀ q ∈ p, q = (2, 1) ∨ q = (5, 4)) :
    ∃ s', run (exec hSched) (sched 0 p (exec hSched).nextVar) = .ok s' ∧ s'.frames = (exec hSched).frames := by
  obtain ⟨⟨ls, hu⟩, r1, r2⟩ := hSched_ready
  obtain ⟨s', h1, h2, -⟩ := C95_ucontext_scheduler (reachable_exec (by decide)) (by unfold NoEarlyDestroy; decide) hu (by decide) p fun q hq => by
    rcases hp q hq with rfl | rfl
    · exact r1
    · exact r2
  exact ⟨s', h1, h2⟩

end Verif.UFiber
