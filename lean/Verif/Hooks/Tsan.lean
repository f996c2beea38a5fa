import Verif.Hooks.Asan

/-!
# ThreadSanitizer (`BOOST_USE_TSAN`), `fiber_ucontext.hpp` only

The runtime represents every context by a "fiber" object: `__tsan_get_current_fiber`, `__tsan_create_fiber`, `__tsan_switch_to_fiber`,
`__tsan_destroy_fiber`.  The library calls them in lines 115-118, 126-131, 158-160, 222-224, 354-356, 405-407.
-/

namespace Verif.Hooks.Tsan
open Verif.Fiber (CtxId Tid upd upd_apply)
open Verif.Hooks

structure State where
  /-- runtime: names for new fiber objects; current fiber object of a thread; destroyed ones -/
  next : Nat
  tf : Tid → Option Nat
  destroyed : List (Option Nat)
  /-- record: `tsan_fiber`, `destroy_tsan_fiber` (99-102) -/
  fib : CtxId → Option Nat
  flag : CtxId → Bool

/-- `~fiber_activation_record` (126-131) -/
def dtor (h : State) (n : CtxId) : State := if h.flag n then { h with destroyed := h.fib n :: h.destroyed } else h

def ev (h : State) : Ev Unit → State
  -- `record->tsan_fiber = __tsan_create_fiber(0)` (355, 406); `destroy_tsan_fiber{ true }` (101)
  | .create n _ => { h with fib := upd h.fib n (some h.next), flag := upd h.flag n true, next := h.next + 1 }
  -- the runtime has a fiber object for the thread; `tsan_fiber = __tsan_get_current_fiber(); destroy_tsan_fiber = false` (116-117)
  | .thread t n _ =>
    { h with tf := upd h.tf t (some h.next), fib := upd h.fib n (some h.next), flag := upd h.flag n false, next := h.next + 1 }
  -- `__tsan_switch_to_fiber(tsan_fiber, 0)` (159, 223)
  | .switch t _ w _ _ => { h with tf := upd h.tf t (h.fib w) }
  -- `p->~fiber_capture_record()` (262)
  | .free n => dtor h n
  -- `delete fib_current_rec` (`src/fiber.cpp` 36); the thread is gone
  | .exit t c => { dtor h c with tf := upd h.tf t none }
  | .use _ _ _ => h

def run : List (Ev Unit) → State
  | [] => ⟨0, fun _ => none, [], fun _ => none, fun _ => false⟩
  | e :: tr => ev (run tr) e

structure Inv (k : Trk) (h : State) : Prop where
  ex : ∀ c, k.st c ≠ .fresh → ∃ f, h.fib c = some f ∧ f < h.next
  inj : ∀ c d, k.st c ≠ .fresh → k.st d ≠ .fresh → h.fib c = h.fib d → c = d
  cur : ∀ t c, k.run t = some c → h.tf t = h.fib c
  off : ∀ t, k.run t = none → h.tf t = none
  flag : ∀ c, k.st c ≠ .fresh → h.flag c = !k.root c
  dead : ∀ f, f ∈ h.destroyed ↔ ∃ c, k.st c = .gone ∧ k.root c = false ∧ h.fib c = f
  once : h.destroyed.Nodup

theorem inv {k : Trk} {tr : List (Ev Unit)} (h : Legal k tr) : Inv k (run tr) := by
  induction h with
  | nil => constructor <;> simp [run]
  | @create k tr n a h hn ih =>
    have hk := h.ok
    obtain ⟨i1, i2, i3, i4, i5, i6, i7⟩ := ih
    have hnew : ∀ c, k.st c ≠ .fresh → (run tr).fib c ≠ some (run tr).next := by
      intro c hc he; obtain ⟨f, h1, h2⟩ := i1 c hc; rw [he] at h1; cases h1; omega
    refine ⟨?_, ?_, ?_, i4, ?_, ?_, i7⟩
    · intro c hc; simp only [run, ev, upd_apply] at hc ⊢
      by_cases e : c = n
      · exact ⟨(run tr).next, by rw [if_pos e], Nat.lt_succ_self _⟩
      · rw [if_neg e] at hc ⊢; obtain ⟨f, h1, h2⟩ := i1 c hc; exact ⟨f, h1, by omega⟩
    · intro c d; simp only [run, ev, upd_apply]; grind
    · intro t c hc; simp only [run, ev, upd_apply]
      rw [if_neg (by rintro rfl; rw [hk.busy t _ hc] at hn; cases hn)]; exact i3 t c hc
    · intro c; simp only [run, ev, upd_apply]; grind
    · intro f; simp only [run, ev, upd_apply]; rw [i6]
      constructor
      · rintro ⟨c, h1, h2, h3⟩
        have : c ≠ n := by rintro rfl; rw [h1] at hn; cases hn
        exact ⟨c, by rw [if_neg this, if_neg this, if_neg this]; exact ⟨h1, h2, h3⟩⟩
      · rintro ⟨c, h1, h2, h3⟩
        have : c ≠ n := by rintro rfl; simp at h1
        rw [if_neg this] at h1 h2 h3; exact ⟨c, h1, h2, h3⟩
  | @thread k tr t n a h ht hn ih =>
    have hk := h.ok
    obtain ⟨i1, i2, i3, i4, i5, i6, i7⟩ := ih
    have hnew : ∀ c, k.st c ≠ .fresh → (run tr).fib c ≠ some (run tr).next := by
      intro c hc he; obtain ⟨f, h1, h2⟩ := i1 c hc; rw [he] at h1; cases h1; omega
    refine ⟨?_, ?_, ?_, ?_, ?_, ?_, i7⟩
    · intro c hc; simp only [run, ev, upd_apply] at hc ⊢
      by_cases e : c = n
      · exact ⟨(run tr).next, by rw [if_pos e], Nat.lt_succ_self _⟩
      · rw [if_neg e] at hc ⊢; obtain ⟨f, h1, h2⟩ := i1 c hc; exact ⟨f, h1, by omega⟩
    · intro c d; simp only [run, ev, upd_apply]; grind
    · intro t' c hc; simp only [run, ev, upd_apply] at hc ⊢
      by_cases e : t' = t
      · rw [if_pos e] at hc ⊢; cases hc; rw [if_pos rfl]
      · rw [if_neg e] at hc ⊢
        rw [if_neg (by rintro rfl; rw [hk.busy t' _ hc] at hn; cases hn)]; exact i3 t' c hc
    · intro t'; simp only [run, ev, upd_apply]; grind
    · intro c; simp only [run, ev, upd_apply]; grind
    · intro f; simp only [run, ev, upd_apply]; rw [i6]
      constructor
      · rintro ⟨c, h1, h2, h3⟩
        have : c ≠ n := by rintro rfl; rw [h1] at hn; cases hn
        exact ⟨c, by rw [if_neg this, if_neg this, if_neg this]; exact ⟨h1, h2, h3⟩⟩
      · rintro ⟨c, h1, h2, h3⟩
        have : c ≠ n := by rintro rfl; simp at h1
        rw [if_neg this] at h1 h2 h3; exact ⟨c, h1, h2, h3⟩
  | @switch k tr t c w fin fn h ht hw hf ih =>
    have hk := h.ok
    have hb := hk.busy t c ht
    obtain ⟨i1, i2, i3, i4, i5, i6, i7⟩ := ih
    have hfr : ∀ d, (upd (upd k.st c (if fin then .done else .idle)) w .busy d ≠ .fresh) → k.st d ≠ .fresh := by
      intro d; simp only [upd_apply]; grind
    have hgone : ∀ d, (upd (upd k.st c (if fin then .done else .idle)) w .busy d = .gone) ↔ k.st d = .gone := by
      intro d; simp only [upd_apply]; grind
    refine ⟨fun d hd => i1 d (hfr d hd), fun d e hd he => i2 d e (hfr d hd) (hfr e he), ?_, ?_, fun d hd => i5 d (hfr d hd), ?_, i7⟩
    · intro t' c' hc; simp only [run, ev, upd_apply] at hc ⊢
      by_cases e : t' = t
      · rw [if_pos e] at hc ⊢; cases hc; rfl
      · rw [if_neg e] at hc ⊢; exact i3 t' c' hc
    · intro t'; simp only [run, ev, upd_apply]; grind
    · intro f; show f ∈ (run tr).destroyed ↔ _; rw [i6]; simp only [hgone]; rfl
  | @free k tr n h hn hr ih =>
    obtain ⟨i1, i2, i3, i4, i5, i6, i7⟩ := ih
    have hfl : (run tr).flag n = true := by rw [i5 n (by rw [hn]; simp), hr]; rfl
    have e : run (.free n :: tr) = { run tr with destroyed := (run tr).fib n :: (run tr).destroyed } := by
      simp only [run, ev, dtor, hfl, if_true]
    have hfr : ∀ d, upd k.st n .gone d ≠ .fresh → k.st d ≠ .fresh := by intro d; simp only [upd_apply]; grind
    rw [e]
    refine ⟨fun d hd => i1 d (hfr d hd), fun d e hd he => i2 d e (hfr d hd) (hfr e he), i3, i4, fun d hd => i5 d (hfr d hd), ?_, ?_⟩
    · intro f; simp only [List.mem_cons, i6, upd_apply]
      constructor
      · rintro (rfl | ⟨c, h1, h2, h3⟩)
        · exact ⟨n, by rw [if_pos rfl], hr, rfl⟩
        · exact ⟨c, by split <;> first | rfl | exact h1, h2, h3⟩
      · rintro ⟨c, h1, h2, h3⟩
        split at h1
        · next e => subst e; exact .inl h3.symm
        · exact .inr ⟨c, h1, h2, h3⟩
    · refine List.nodup_cons.2 ⟨?_, i7⟩
      rw [i6]; rintro ⟨c, h1, h2, h3⟩
      have := i2 c n (by rw [h1]; simp) (by rw [hn]; simp) h3
      subst this; rw [h1] at hn; cases hn
  | @exit k tr t c h ht hr ih =>
    have hk := h.ok
    have hb := hk.busy t c ht
    obtain ⟨i1, i2, i3, i4, i5, i6, i7⟩ := ih
    have hfl : (run tr).flag c = false := by rw [i5 c (by rw [hb]; simp), hr]; rfl
    have e : run (.exit t c :: tr) = { run tr with tf := upd (run tr).tf t none } := by
      simp only [run, ev, dtor, hfl, Bool.false_eq_true, if_false]
    have hfr : ∀ d, upd k.st c .gone d ≠ .fresh → k.st d ≠ .fresh := by intro d; simp only [upd_apply]; grind
    rw [e]
    refine ⟨fun d hd => i1 d (hfr d hd), fun d e hd he => i2 d e (hfr d hd) (hfr e he), ?_, ?_, fun d hd => i5 d (hfr d hd), ?_, i7⟩
    · intro t'; simp only [upd_apply]; grind
    · intro t'; simp only [upd_apply]; grind
    · intro f; simp only [i6, upd_apply]
      constructor
      · rintro ⟨d, h1, h2, h3⟩; exact ⟨d, by split <;> first | rfl | exact h1, h2, h3⟩
      · rintro ⟨d, h1, h2, h3⟩
        split at h1
        · next e => subst e; rw [hr] at h2; cases h2
        · exact ⟨d, h1, h2, h3⟩
  | use h ht ih => exact ih

/-! ## Theorems -/

/-- While a thread executes a context, the runtime's current fiber object of the thread is the one of that context, which exists and is not destroyed; threads
executing different contexts have different ones. -/
theorem C74_current {s : UFiber.State} {tr : List (Ev Unit)} (h : Trace s tr) {t : Tid} {c : CtxId} (hc : s.cur t = some c) :
    ∃ f, (run tr).tf t = some f ∧ (run tr).fib c = some f ∧ some f ∉ (run tr).destroyed ∧
      ∀ t', t' ≠ t → (run tr).tf t' ≠ some f := by
  have hl := h.legal
  obtain ⟨i1, i2, i3, i4, i5, i6, i7⟩ := inv hl
  have hb := hl.ok.busy t c hc
  obtain ⟨f, h1, _⟩ := i1 c (by rw [hb]; simp)
  refine ⟨f, by rw [i3 t c hc, h1], h1, ?_, ?_⟩
  · rw [i6]; rintro ⟨d, g1, g2, g3⟩
    have := i2 c d (by rw [hb]; simp) (by rw [g1]; simp) (by rw [h1, g3])
    subst this; rw [hb] at g1; cases g1
  · intro t' hne he
    cases hr : (trk s).run t' with
    | none => rw [i4 t' hr] at he; cases he
    | some c' =>
      have hb' := hl.ok.busy t' c' hr
      have := i2 c c' (by rw [hb]; simp) (by rw [hb']; simp) (by rw [h1, ← i3 t' c' hr, he])
      subst this
      exact hne (hl.ok.one _ _ _ hr hc)

/-- Every switch is announced with a fiber object that exists, is not destroyed, and is not current on any thread. -/
theorem C74_switch {s : UFiber.State} {tr : List (Ev Unit)} {t : Tid} {c w : CtxId} {fin fn : Bool} (h : Trace s (.switch t c w fin fn :: tr)) :
    ∃ f, (run tr).fib w = some f ∧ (run (.switch t c w fin fn :: tr)).tf t = some f ∧ some f ∉ (run tr).destroyed ∧ ∀ t', (run tr).tf t' ≠ some f := by
  have hl := h.legal
  generalize trk s = k at hl
  cases hl with
  | @switch k _ _ _ _ _ _ hl ht hw hf =>
    obtain ⟨i1, i2, i3, i4, i5, i6, i7⟩ := inv hl
    obtain ⟨f, h1, _⟩ := i1 w (by rw [hw]; simp)
    refine ⟨f, h1, by simp [run, ev, upd_apply, h1], ?_, ?_⟩
    · rw [i6]; rintro ⟨d, g1, g2, g3⟩
      have := i2 w d (by rw [hw]; simp) (by rw [g1]; simp) (by rw [h1, g3])
      subst this; rw [hw] at g1; cases g1
    · intro t' he
      cases hr : k.run t' with
      | none => rw [i4 t' hr] at he; cases he
      | some c' =>
        have hb' := hl.ok.busy t' c' hr
        have := i2 w c' (by rw [hw]; simp) (by rw [hb']; simp) (by rw [h1, ← i3 t' c' hr, he])
        subst this; rw [hb'] at hw; cases hw

/-- When a record is destroyed, so is its fiber object: one that was not destroyed before and is not current on any thread. -/
theorem C74_destroy {s : UFiber.State} {tr : List (Ev Unit)} {n : CtxId} (h : Trace s (.free n :: tr)) :
    ∃ f, (run tr).fib n = some f ∧ (run (.free n :: tr)).destroyed = some f :: (run tr).destroyed ∧ some f ∉ (run tr).destroyed ∧
      ∀ t, (run tr).tf t ≠ some f := by
  have hl := h.legal
  generalize trk s = k at hl
  cases hl with
  | @free k _ _ hl hn hr =>
    obtain ⟨i1, i2, i3, i4, i5, i6, i7⟩ := inv hl
    obtain ⟨f, h1, _⟩ := i1 n (by rw [hn]; simp)
    have hfl : (run tr).flag n = true := by rw [i5 n (by rw [hn]; simp), hr]; rfl
    refine ⟨f, h1, by simp [run, ev, dtor, hfl, h1], ?_, ?_⟩
    · rw [i6]; rintro ⟨d, g1, g2, g3⟩
      have := i2 n d (by rw [hn]; simp) (by rw [g1]; simp) (by rw [h1, g3])
      subst this; rw [hn] at g1; cases g1
    · intro t' he
      cases hr' : k.run t' with
      | none => rw [i4 t' hr'] at he; cases he
      | some c' =>
        have hb' := hl.ok.busy t' c' hr'
        have := i2 n c' (by rw [hn]; simp) (by rw [hb']; simp) (by rw [h1, ← i3 t' c' hr', he])
        subst this; rw [hb'] at hn; cases hn

/-- No fiber object is destroyed twice; those of threads are never destroyed; a null pointer is never passed to the runtime. -/
theorem C74_once {s : UFiber.State} {tr : List (Ev Unit)} (h : Trace s tr) :
    (run tr).destroyed.Nodup ∧ none ∉ (run tr).destroyed ∧ ∀ c, s.status c ≠ .absent → s.root c = true → (run tr).fib c ∉ (run tr).destroyed := by
  have hl := h.legal
  obtain ⟨i1, i2, i3, i4, i5, i6, i7⟩ := inv hl
  refine ⟨i7, ?_, ?_⟩
  · rw [i6]; rintro ⟨d, g1, g2, g3⟩
    obtain ⟨f, h1, _⟩ := i1 d (by rw [g1]; simp)
    rw [h1] at g3; cases g3
  · intro c hc hr
    rw [i6]; rintro ⟨d, g1, g2, g3⟩
    have hnf : (trk s).st c ≠ .fresh := by
      have hraw := (UFiber.reachable_inv h.reachable h.early).ci.noRaw c
      simp only [trk]; cases hst : s.status c <;> simp_all [stOf]
    have := i2 c d hnf (by rw [g1]; simp) g3.symm
    subst this; exact absurd (hr.symm.trans g2) (by simp)

/-- main creates a fiber and resumes it; it returns; main destroys it -/
def ex : List (Tid × Option Verif.Fiber.Op × Unit) := [(0, some (.create [] .success), ()), (0, some (.resume 0), ())]
def ex2 : List (Tid × Option Verif.Fiber.Op × Unit) :=
  ex ++ [(0, some (.retHandle 1), ()), (0, some .tick, ()), (0, some .tick, ()), (0, some (.drop 3), ()), (0, some .tick, ())]

example : Trace (go UFiber.init [.thread 0 0 ()] ex).1 (trOf () ex) ∧ (run (trOf () ex)).tf 0 = some 1 ∧ (trOf () ex).head? = some (.switch 0 0 1 false false) ∧
    Trace (go UFiber.init [.thread 0 0 ()] ex2).1 (trOf () ex2) ∧ (trOf () ex2).head? = some (.free 1) ∧ (run (trOf () ex2)).destroyed = [some 1] :=
  ⟨go_trace ex (.init ()), by decide, by decide, go_trace ex2 (.init ()), by decide, by decide⟩

/-- `create_fiber1/2` when `getcontext` fails (`fiber_ucontext.hpp` 316-328, 367-379): the record is constructed with `tsan_fiber{ nullptr }`,
`destroy_tsan_fiber{ true }` (100-101), and `record->~capture_t()` is called before `__tsan_create_fiber` was. -/
def createFails (h : State) (n : CtxId) : State := dtor { h with fib := upd h.fib n none, flag := upd h.flag n true } n

/-- **Defect.** When `getcontext` fails, a null pointer is passed to `__tsan_destroy_fiber`; nothing else is destroyed, and no other record or thread is affected. -/
theorem C74_create_fails {s : UFiber.State} {tr : List (Ev Unit)} (_ : Trace s tr) (n : CtxId) :
    (createFails (run tr) n).destroyed = none :: (run tr).destroyed ∧ (createFails (run tr) n).tf = (run tr).tf ∧
      ∀ c, c ≠ n → (createFails (run tr) n).fib c = (run tr).fib c ∧ (createFails (run tr) n).flag c = (run tr).flag c := by
  refine ⟨by simp [createFails, dtor], by simp [createFails, dtor], fun c hc => by simp [createFails, dtor, upd_apply, hc]⟩

end Verif.Hooks.Tsan
