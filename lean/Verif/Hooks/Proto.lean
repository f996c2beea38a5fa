import Verif.UFiber.Eff

/-!
# Switch events and the protocol they obey

The optional instrumentation of `fiber_ucontext.hpp`, `continuation_ucontext.hpp` (split stacks, AddressSanitizer, ThreadSanitizer) and the resource
handling of `fiber_winfib.hpp`, `continuation_winfib.hpp` is executed at a few places only: when a record is created, when a thread's own record is
created or deleted, at every switch, and when a record is destroyed.  `Ev` lists these places; `Legal` says in which order they can occur.
That the implementations emit legal sequences only is proved in `Verif.Hooks.Trace`.
-/

namespace Verif.Hooks
open Verif.Fiber (CtxId Tid upd upd_apply)

/-- What happens; `a` is what the environment (allocator, operating system, runtime library, user code) contributes. -/
inductive Ev (α : Type)
  /-- `create_fiber1/2` (`fiber_ucontext.hpp` 306-407): record `n` -/
  | create (n : CtxId) (a : α)
  /-- the activation record `n` of thread `t` (`fiber_ucontext.hpp` 107-119, `src/fiber.cpp` 27-31) -/
  | thread (t : Tid) (n : CtxId) (a : α)
  /-- thread `t`, running context `c`, executes `resume()` (`fn = false`, 139-171) or `resume_with()` (`fn = true`, 173-233) of record `w`;
  `fin`: called from `run()` after `terminated = true` (299-301) -/
  | switch (t : Tid) (c w : CtxId) (fin fn : Bool)
  /-- `destroy()` of record `n` (258-265) -/
  | free (n : CtxId)
  /-- thread `t` ends in context `c`; its record is deleted (`src/fiber.cpp` 33-38) -/
  | exit (t : Tid) (c : CtxId)
  /-- code of context `c` executes on thread `t` -/
  | use (t : Tid) (c : CtxId) (a : α)
  deriving DecidableEq, Repr

/-- State of a context: not created; suspended; running; finished; destroyed (or its thread has ended). -/
inductive St | fresh | idle | busy | done | gone
  deriving DecidableEq, Repr

structure Trk where
  run : Tid → Option CtxId
  st : CtxId → St
  root : CtxId → Bool

/-- `Legal k tr`: events `tr` (latest first) can occur in this order, and lead to `k`. -/
inductive Legal {α : Type} : Trk → List (Ev α) → Prop
  | nil : Legal ⟨fun _ => none, fun _ => .fresh, fun _ => false⟩ []
  | create {k tr n a} (h : Legal k tr) (hn : k.st n = .fresh) :
      Legal ⟨k.run, upd k.st n .idle, upd k.root n false⟩ (.create n a :: tr)
  | thread {k tr t n a} (h : Legal k tr) (ht : k.run t = none) (hn : k.st n = .fresh) :
      Legal ⟨upd k.run t (some n), upd k.st n .busy, upd k.root n true⟩ (.thread t n a :: tr)
  | switch {k tr t c w fin fn} (h : Legal k tr) (ht : k.run t = some c) (hw : k.st w = .idle) (hf : fin = true → k.root c = false) :
      Legal ⟨upd k.run t (some w), upd (upd k.st c (if fin then .done else .idle)) w .busy, k.root⟩ (.switch t c w fin fn :: tr)
  | free {k tr n} (h : Legal k tr) (hn : k.st n = .done) (hr : k.root n = false) :
      Legal ⟨k.run, upd k.st n .gone, k.root⟩ (.free n :: tr)
  | exit {k tr t c} (h : Legal k tr) (ht : k.run t = some c) (hr : k.root c = true) :
      Legal ⟨upd k.run t none, upd k.st c .gone, k.root⟩ (.exit t c :: tr)
  | use {k tr t c a} (h : Legal k tr) (ht : k.run t = some c) : Legal k (.use t c a :: tr)

/-- who runs where -/
structure Trk.Ok (k : Trk) : Prop where
  busy : ∀ t c, k.run t = some c → k.st c = .busy
  one : ∀ t t' c, k.run t = some c → k.run t' = some c → t = t'
  fin : ∀ c, k.st c = .done → k.root c = false

theorem Legal.ok {α : Type} {k : Trk} {tr : List (Ev α)} (h : Legal k tr) : k.Ok := by
  induction h with
  | nil => exact ⟨by simp, by simp, by simp⟩
  | @create k tr n a h hn ih =>
    obtain ⟨h1, h2, h3⟩ := ih
    refine ⟨?_, h2, ?_⟩
    · intro t c hc; simp only [upd_apply]; split
      · next e => subst e; rw [h1 t c hc] at hn; cases hn
      · exact h1 t c hc
    · intro c hc; simp only [upd_apply] at hc ⊢; split at hc
      · cases hc
      · next e => rw [if_neg e]; exact h3 c hc
  | @thread k tr t n a h ht hn ih =>
    obtain ⟨h1, h2, h3⟩ := ih
    refine ⟨?_, ?_, ?_⟩
    · intro t' c hc; simp only [upd_apply] at hc ⊢; grind
    · intro t1 t2 c; simp only [upd_apply]; grind
    · intro c; simp only [upd_apply]; grind
  | @switch k tr t c w fin fn h ht hw hf ih =>
    obtain ⟨h1, h2, h3⟩ := ih
    refine ⟨?_, ?_, ?_⟩
    · intro t' c'; simp only [upd_apply]; grind
    · intro t1 t2 c'; simp only [upd_apply]; grind
    · intro c'; simp only [upd_apply]; grind
  | @free k tr n h hn hr ih =>
    obtain ⟨h1, h2, h3⟩ := ih
    refine ⟨?_, h2, ?_⟩ <;> (intro a; simp only [upd_apply]; grind)
  | @exit k tr t c h ht hr ih =>
    obtain ⟨h1, h2, h3⟩ := ih
    refine ⟨?_, ?_, ?_⟩
    · intro t' c'; simp only [upd_apply]; grind
    · intro t1 t2 c'; simp only [upd_apply]; grind
    · intro c'; simp only [upd_apply]; grind
  | use h ht ih => exact ih

end Verif.Hooks
