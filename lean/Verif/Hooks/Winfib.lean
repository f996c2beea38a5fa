import Verif.Hooks.Hist

/-!
# Fibers of the operating system (`fiber_winfib.hpp`, `continuation_winfib.hpp`)

A record owns a Windows fiber: of a thread's own context that is `GetCurrentFiber()` or the result of `ConvertThreadToFiber()`, of any other context the result of
`CreateFiber()`.  The operating system expects: `SwitchToFiber` gets an existing fiber that no thread executes; `DeleteFiber` gets an existing fiber, once, that no
thread executes; `ConvertFiberToThread` is called by a thread that is a fiber.  (Line numbers of `fiber_winfib.hpp`; `continuation_winfib.hpp` is the same code.)
-/

namespace Verif.Hooks.Winfib
open Verif.Fiber (CtxId Tid upd upd_apply)
open Verif.Hooks

structure State where
  /-- operating system: name for the next fiber; the fiber a thread executes (`none`: the thread is not a fiber); arguments of `DeleteFiber` so far -/
  next : Nat
  cur : Tid → Option Nat
  deleted : List (Option Nat)
  /-- a call outside the contract of the operating system: `SwitchToFiber(nullptr)` -/
  bad : Bool
  /-- record: `fiber` (66), `main_ctx` (68) -/
  fib : CtxId → Option Nat
  main : CtxId → Bool

/-- `~fiber_activation_record` (100-106), executed by thread `t` -/
def dtor (h : State) (t : Option Tid) (n : CtxId) : State :=
  if h.main n then (match t with
    | some t => { h with cur := upd h.cur t none }
    | none => h)
  else { h with deleted := h.fib n :: h.deleted }

/-- The answer of the environment: at `create`, does `CreateFiber` succeed; at `thread`, is the thread a fiber already. -/
def ev (h : State) : Ev Bool → State
  -- `record->fiber = ::CreateFiber( …)` (258, 276), the result is not tested; `main_ctx{ false }` (97)
  | .create n a => { h with fib := upd h.fib n (if a then some h.next else none), main := upd h.main n false, next := h.next + 1 }
  -- `GetCurrentFiber()` or `ConvertThreadToFiber()` (77-93): either way the thread is a fiber now, and `fiber` names it; `main_ctx{ true }` (68)
  | .thread t n _ => { h with cur := upd h.cur t (some h.next), fib := upd h.fib n (some h.next), main := upd h.main n true, next := h.next + 1 }
  -- `::SwitchToFiber( fiber)` (124, 168)
  | .switch t _ w _ _ => match h.fib w with
    | some f => { h with cur := upd h.cur t (some f) }
    | none => { h with bad := true }
  -- `p->~fiber_capture_record()` (199)
  | .free n => dtor h none n
  -- `delete fib_current_rec` (`src/fiber.cpp` 36)
  | .exit t c => dtor h (some t) c
  | .use _ _ _ => h

def run : List (Ev Bool) → State
  | [] => ⟨0, fun _ => none, [], false, fun _ => none, fun _ => false⟩
  | e :: tr => ev (run tr) e

/-- every `CreateFiber` succeeded -/
def AllOk (tr : List (Ev Bool)) : Prop := ∀ n, .create n false ∉ tr

theorem AllOk.tail {e : Ev Bool} {tr : List (Ev Bool)} (h : AllOk (e :: tr)) : AllOk tr := fun n hn => h n (List.mem_cons_of_mem _ hn)

structure Inv (k : Trk) (h : State) : Prop where
  ex : ∀ c, k.st c ≠ .fresh → ∃ f, h.fib c = some f ∧ f < h.next
  inj : ∀ c d, k.st c ≠ .fresh → k.st d ≠ .fresh → h.fib c = h.fib d → c = d
  cur : ∀ t c, k.run t = some c → h.cur t = h.fib c
  off : ∀ t, k.run t = none → h.cur t = none
  main : ∀ c, k.st c ≠ .fresh → h.main c = k.root c
  dead : ∀ f, f ∈ h.deleted ↔ ∃ c, k.st c = .gone ∧ k.root c = false ∧ h.fib c = f
  once : h.deleted.Nodup
  good : h.bad = false

theorem inv {k : Trk} {tr : List (Ev Bool)} (h : Legal k tr) (ok : AllOk tr) : Inv k (run tr) := by
  induction h with
  | nil => constructor <;> simp [run]
  | @create k tr n a h hn ih =>
    have hk := h.ok
    have ha : a = true := by cases a with | true => rfl | false => exact absurd (List.mem_cons_self) (ok n)
    subst ha
    obtain ⟨i1, i2, i3, i4, i5, i6, i7, i8⟩ := ih ok.tail
    have hnew : ∀ c, k.st c ≠ .fresh → (run tr).fib c ≠ some (run tr).next := by
      intro c hc he; obtain ⟨f, h1, h2⟩ := i1 c hc; rw [he] at h1; cases h1; omega
    refine ⟨?_, ?_, ?_, i4, ?_, ?_, i7, i8⟩
    · intro c hc; simp only [run, ev, upd_apply, if_true] at hc ⊢
      by_cases e : c = n
      · exact ⟨(run tr).next, by rw [if_pos e], Nat.lt_succ_self _⟩
      · rw [if_neg e] at hc ⊢; obtain ⟨f, h1, h2⟩ := i1 c hc; exact ⟨f, h1, by omega⟩
    · intro c d; simp only [run, ev, upd_apply]; grind
    · intro t c hc; simp only [run, ev, upd_apply]
      rw [if_neg (by rintro rfl; rw [hk.busy t _ hc] at hn; cases hn)]; exact i3 t c hc
    · intro c; simp only [run, ev, upd_apply]; grind
    · intro f; simp only [run, ev, upd_apply]; rw [i6]
      constructor
      · rintro ⟨c, h1, h2, h3⟩
        have : c ≠ n := by rintro rfl; rw [h1] at hn; cases hn
        exact ⟨c, by rw [if_neg this, if_neg this, if_neg this]; exact ⟨h1, h2, h3⟩⟩
      · rintro ⟨c, h1, h2, h3⟩
        have : c ≠ n := by rintro rfl; simp at h1
        rw [if_neg this] at h1 h2 h3; exact ⟨c, h1, h2, h3⟩
  | @thread k tr t n a h ht hn ih =>
    have hk := h.ok
    obtain ⟨i1, i2, i3, i4, i5, i6, i7, i8⟩ := ih ok.tail
    have hnew : ∀ c, k.st c ≠ .fresh → (run tr).fib c ≠ some (run tr).next := by
      intro c hc he; obtain ⟨f, h1, h2⟩ := i1 c hc; rw [he] at h1; cases h1; omega
    refine ⟨?_, ?_, ?_, ?_, ?_, ?_, i7, i8⟩
    · intro c hc; simp only [run, ev, upd_apply] at hc ⊢
      by_cases e : c = n
      · exact ⟨(run tr).next, by rw [if_pos e], Nat.lt_succ_self _⟩
      · rw [if_neg e] at hc ⊢; obtain ⟨f, h1, h2⟩ := i1 c hc; exact ⟨f, h1, by omega⟩
    · intro c d; simp only [run, ev, upd_apply]; grind
    · intro t' c hc; simp only [run, ev, upd_apply] at hc ⊢
      by_cases e : t' = t
      · rw [if_pos e] at hc ⊢; cases hc; rw [if_pos rfl]
      · rw [if_neg e] at hc ⊢
        rw [if_neg (by rintro rfl; rw [hk.busy t' _ hc] at hn; cases hn)]; exact i3 t' c hc
    · intro t'; simp only [run, ev, upd_apply]; grind
    · intro c; simp only [run, ev, upd_apply]; grind
    · intro f; simp only [run, ev, upd_apply]; rw [i6]
      constructor
      · rintro ⟨c, h1, h2, h3⟩
        have : c ≠ n := by rintro rfl; rw [h1] at hn; cases hn
        exact ⟨c, by rw [if_neg this, if_neg this, if_neg this]; exact ⟨h1, h2, h3⟩⟩
      · rintro ⟨c, h1, h2, h3⟩
        have : c ≠ n := by rintro rfl; simp at h1
        rw [if_neg this] at h1 h2 h3; exact ⟨c, h1, h2, h3⟩
  | @switch k tr t c w fin fn h ht hw hf ih =>
    have hk := h.ok
    have hb := hk.busy t c ht
    obtain ⟨i1, i2, i3, i4, i5, i6, i7, i8⟩ := ih ok.tail
    obtain ⟨f0, hf0, _⟩ := i1 w (by rw [hw]; simp)
    have e : run (.switch t c w fin fn :: tr) = { run tr with cur := upd (run tr).cur t (some f0) } := by simp only [run, ev, hf0]
    rw [e]
    have hfr : ∀ d, (upd (upd k.st c (if fin then .done else .idle)) w .busy d ≠ .fresh) → k.st d ≠ .fresh := by
      intro d; simp only [upd_apply]; grind
    have hgone : ∀ d, (upd (upd k.st c (if fin then .done else .idle)) w .busy d = .gone) ↔ k.st d = .gone := by
      intro d; simp only [upd_apply]; grind
    refine ⟨fun d hd => i1 d (hfr d hd), fun d e hd he => i2 d e (hfr d hd) (hfr e he), ?_, ?_, fun d hd => i5 d (hfr d hd), ?_, i7, i8⟩
    · intro t' c' hc; simp only [upd_apply] at hc ⊢
      by_cases e : t' = t
      · rw [if_pos e] at hc ⊢; cases hc; exact hf0.symm
      · rw [if_neg e] at hc ⊢; exact i3 t' c' hc
    · intro t'; simp only [upd_apply]; grind
    · intro f; show f ∈ (run tr).deleted ↔ _; rw [i6]; simp only [hgone]
  | @free k tr n h hn hr ih =>
    obtain ⟨i1, i2, i3, i4, i5, i6, i7, i8⟩ := ih ok.tail
    have hfl : (run tr).main n = false := by rw [i5 n (by rw [hn]; simp), hr]
    have e : run (.free n :: tr) = { run tr with deleted := (run tr).fib n :: (run tr).deleted } := by
      simp only [run, ev, dtor, hfl, Bool.false_eq_true, if_false]
    have hfr : ∀ d, upd k.st n .gone d ≠ .fresh → k.st d ≠ .fresh := by intro d; simp only [upd_apply]; grind
    rw [e]
    refine ⟨fun d hd => i1 d (hfr d hd), fun d e hd he => i2 d e (hfr d hd) (hfr e he), i3, i4, fun d hd => i5 d (hfr d hd), ?_, ?_, i8⟩
    · intro f; simp only [List.mem_cons, i6, upd_apply]
      constructor
      · rintro (rfl | ⟨c, h1, h2, h3⟩)
        · exact ⟨n, by rw [if_pos rfl], hr, rfl⟩
        · exact ⟨c, by split <;> first | rfl | exact h1, h2, h3⟩
      · rintro ⟨c, h1, h2, h3⟩
        split at h1
        · next e => subst e; exact .inl h3.symm
        · exact .inr ⟨c, h1, h2, h3⟩
    · refine List.nodup_cons.2 ⟨?_, i7⟩
      rw [i6]; rintro ⟨c, h1, h2, h3⟩
      have := i2 c n (by rw [h1]; simp) (by rw [hn]; simp) h3
      subst this; rw [h1] at hn; cases hn
  | @exit k tr t c h ht hr ih =>
    have hk := h.ok
    have hb := hk.busy t c ht
    obtain ⟨i1, i2, i3, i4, i5, i6, i7, i8⟩ := ih ok.tail
    have hfl : (run tr).main c = true := by rw [i5 c (by rw [hb]; simp), hr]
    have e : run (.exit t c :: tr) = { run tr with cur := upd (run tr).cur t none } := by
      simp only [run, ev, dtor, hfl, if_true]
    have hfr : ∀ d, upd k.st c .gone d ≠ .fresh → k.st d ≠ .fresh := by intro d; simp only [upd_apply]; grind
    rw [e]
    refine ⟨fun d hd => i1 d (hfr d hd), fun d e hd he => i2 d e (hfr d hd) (hfr e he), ?_, ?_, fun d hd => i5 d (hfr d hd), ?_, i7, i8⟩
    · intro t'; simp only [upd_apply]; grind
    · intro t'; simp only [upd_apply]; grind
    · intro f; simp only [i6, upd_apply]
      constructor
      · rintro ⟨d, h1, h2, h3⟩; exact ⟨d, by split <;> first | rfl | exact h1, h2, h3⟩
      · rintro ⟨d, h1, h2, h3⟩
        split at h1
        · next e => subst e; rw [hr] at h2; cases h2
        · exact ⟨d, h1, h2, h3⟩
  | use h ht ih => exact ih ok.tail

/-- contexts do not disappear, and remain what they are -/
theorem thread_root {k : Trk} {tr : List (Ev Bool)} (h : Legal k tr) {t : Tid} {n : CtxId} {a : Bool} (hm : .thread t n a ∈ tr) :
    k.st n ≠ .fresh ∧ k.root n = true := by
  induction h with
  | nil => cases hm
  | @create k tr m b h hn ih =>
    obtain ⟨h1, h2⟩ := ih (by simpa using hm)
    have : n ≠ m := by rintro rfl; exact h1 hn
    simp [upd_apply, this, h1, h2]
  | @thread k tr t' m b h ht hn ih =>
    simp only [upd_apply]
    rcases List.mem_cons.1 hm with e | hm
    · cases e; simp
    · obtain ⟨h1, h2⟩ := ih hm
      grind
  | @switch k tr t' c w fin fn h ht hw hf ih =>
    obtain ⟨h1, h2⟩ := ih (by simpa using hm)
    refine ⟨?_, h2⟩
    simp only [upd_apply]; grind
  | @free k tr m h hn hr ih =>
    obtain ⟨h1, h2⟩ := ih (by simpa using hm)
    refine ⟨?_, h2⟩
    simp only [upd_apply]; grind
  | @exit k tr t' c h ht hr ih =>
    obtain ⟨h1, h2⟩ := ih (by simpa using hm)
    refine ⟨?_, h2⟩
    simp only [upd_apply]; grind
  | use h ht ih => exact ih (by simpa using hm)

theorem null_fiber {k : Trk} {tr : List (Ev Bool)} (h : Legal k tr) {n : CtxId} (hm : .create n false ∈ tr) :
    k.st n ≠ .fresh ∧ (run tr).fib n = none := by
  induction h with
  | nil => cases hm
  | @create k tr m b h hn ih =>
    rcases List.mem_cons.1 hm with e | hm
    · cases e; simp [run, ev, upd_apply]
    · obtain ⟨h1, h2⟩ := ih hm
      have : n ≠ m := by rintro rfl; exact h1 hn
      simp [run, ev, upd_apply, this, h1, h2]
  | @thread k tr t' m b h ht hn ih =>
    obtain ⟨h1, h2⟩ := ih (by simpa using hm)
    have : n ≠ m := by rintro rfl; exact h1 hn
    simp [run, ev, upd_apply, this, h1, h2]
  | @switch k tr t' c w fin fn h ht hw hf ih =>
    obtain ⟨h1, h2⟩ := ih (by simpa using hm)
    refine ⟨?_, ?_⟩
    · simp only [upd_apply]; grind
    · simp only [run, ev]; split <;> exact h2
  | @free k tr m h hn hr ih =>
    obtain ⟨h1, h2⟩ := ih (by simpa using hm)
    refine ⟨?_, ?_⟩
    · simp only [upd_apply]; grind
    · simp only [run, ev, dtor]; split <;> exact h2
  | @exit k tr t' c h ht hr ih =>
    obtain ⟨h1, h2⟩ := ih (by simpa using hm)
    refine ⟨?_, ?_⟩
    · simp only [upd_apply]; grind
    · simp only [run, ev, dtor]; split <;> exact h2
  | use h ht ih => exact ih (by simpa using hm)

/-! ## Theorems -/

/-- If every `CreateFiber` succeeded: a thread that executes a context executes that context's fiber of the operating system, which is not deleted, and which no
other thread executes; the operating system was never asked to switch to a null fiber. -/
theorem C75_current {cur : Tid → Option CtxId} {tr : List (Ev Bool)} (h : Hist cur tr) (ok : AllOk tr) : (run tr).bad = false ∧
    ∀ t c, cur t = some c → ∃ f, (run tr).cur t = some f ∧ (run tr).fib c = some f ∧ some f ∉ (run tr).deleted ∧
      ∀ t', t' ≠ t → (run tr).cur t' ≠ some f := by
  obtain ⟨k, hl, rfl⟩ := h.legal
  obtain ⟨i1, i2, i3, i4, i5, i6, i7, i8⟩ := inv hl ok
  refine ⟨i8, fun t c hc => ?_⟩
  have hb := hl.ok.busy t c hc
  obtain ⟨f, h1, _⟩ := i1 c (by rw [hb]; simp)
  refine ⟨f, by rw [i3 t c hc, h1], h1, ?_, ?_⟩
  · rw [i6]; rintro ⟨d, g1, g2, g3⟩
    have := i2 c d (by rw [hb]; simp) (by rw [g1]; simp) (by rw [h1, g3])
    subst this; rw [hb] at g1; cases g1
  · intro t' hne he
    cases hr : k.run t' with
    | none => rw [i4 t' hr] at he; cases he
    | some c' =>
      have hb' := hl.ok.busy t' c' hr
      have := i2 c c' (by rw [hb]; simp) (by rw [hb']; simp) (by rw [h1, ← i3 t' c' hr, he])
      subst this
      exact hne (hl.ok.one _ _ _ hr hc)

/-- If every `CreateFiber` succeeded: `SwitchToFiber` gets a fiber that exists, is not deleted and is not executed by any thread, and the thread executes it
afterwards. -/
theorem C75_switch {cur : Tid → Option CtxId} {tr : List (Ev Bool)} {t : Tid} {c w : CtxId} {fin fn : Bool} (h : Hist cur (.switch t c w fin fn :: tr))
    (ok : AllOk tr) :
    ∃ f, (run tr).fib w = some f ∧ (run (.switch t c w fin fn :: tr)).cur t = some f ∧ some f ∉ (run tr).deleted ∧ ∀ t', (run tr).cur t' ≠ some f := by
  obtain ⟨k, hl, _⟩ := h.legal
  cases hl with
  | @switch k _ _ _ _ _ _ hl ht hw hf =>
    obtain ⟨i1, i2, i3, i4, i5, i6, i7⟩ := inv hl ok
    obtain ⟨f, h1, _⟩ := i1 w (by rw [hw]; simp)
    refine ⟨f, h1, by simp [run, ev, upd_apply, h1], ?_, ?_⟩
    · rw [i6]; rintro ⟨d, g1, g2, g3⟩
      have := i2 w d (by rw [hw]; simp) (by rw [g1]; simp) (by rw [h1, g3])
      subst this; rw [hw] at g1; cases g1
    · intro t' he
      cases hr : k.run t' with
      | none => rw [i4 t' hr] at he; cases he
      | some c' =>
        have hb' := hl.ok.busy t' c' hr
        have := i2 w c' (by rw [hw]; simp) (by rw [hb']; simp) (by rw [h1, ← i3 t' c' hr, he])
        subst this; rw [hb'] at hw; cases hw

/-- If every `CreateFiber` succeeded: with a record exactly its fiber is deleted, one that exists, was not deleted before and is not executed by any thread. -/
theorem C75_delete {cur : Tid → Option CtxId} {tr : List (Ev Bool)} {n : CtxId} (h : Hist cur (.free n :: tr)) (ok : AllOk tr) :
    ∃ f, (run tr).fib n = some f ∧ (run (.free n :: tr)).deleted = some f :: (run tr).deleted ∧ some f ∉ (run tr).deleted ∧
      ∀ t, (run tr).cur t ≠ some f := by
  obtain ⟨k, hl, _⟩ := h.legal
  cases hl with
  | @free k _ _ hl hn hr =>
    obtain ⟨i1, i2, i3, i4, i5, i6, i7⟩ := inv hl ok
    obtain ⟨f, h1, _⟩ := i1 n (by rw [hn]; simp)
    have hfl : (run tr).main n = false := by rw [i5 n (by rw [hn]; simp), hr]
    refine ⟨f, h1, by simp [run, ev, dtor, hfl, h1], ?_, ?_⟩
    · rw [i6]; rintro ⟨d, g1, g2, g3⟩
      have := i2 n d (by rw [hn]; simp) (by rw [g1]; simp) (by rw [h1, g3])
      subst this; rw [hn] at g1; cases g1
    · intro t' he
      cases hr' : k.run t' with
      | none => rw [i4 t' hr'] at he; cases he
      | some c' =>
        have hb' := hl.ok.busy t' c' hr'
        have := i2 n c' (by rw [hn]; simp) (by rw [hb']; simp) (by rw [h1, ← i3 t' c' hr', he])
        subst this; rw [hb'] at hn; cases hn

/-- If every `CreateFiber` succeeded: a thread whose record is deleted was a fiber until then (so `ConvertFiberToThread` is legal), and is none afterwards; no fiber
is deleted by that. -/
theorem C75_exit {cur : Tid → Option CtxId} {tr : List (Ev Bool)} {t : Tid} {c : CtxId} (h : Hist cur (.exit t c :: tr)) (ok : AllOk tr) :
    (∃ f, (run tr).cur t = some f ∧ some f ∉ (run tr).deleted) ∧ (run (.exit t c :: tr)).cur t = none ∧
      (run (.exit t c :: tr)).deleted = (run tr).deleted ∧ ∀ t', t' ≠ t → (run (.exit t c :: tr)).cur t' = (run tr).cur t' := by
  obtain ⟨k, hl, _⟩ := h.legal
  cases hl with
  | @exit k _ _ _ hl ht hr =>
    obtain ⟨i1, i2, i3, i4, i5, i6, i7⟩ := inv hl ok
    have hb := hl.ok.busy t c ht
    obtain ⟨f, h1, _⟩ := i1 c (by rw [hb]; simp)
    have hfl : (run tr).main c = true := by rw [i5 c (by rw [hb]; simp), hr]
    have e : run (.exit t c :: tr) = { run tr with cur := upd (run tr).cur t none } := by
      simp only [run, ev, dtor, hfl, if_true]
    refine ⟨⟨f, by rw [i3 t c ht, h1], ?_⟩, ?_, ?_, ?_⟩
    · rw [i6]; rintro ⟨d, g1, g2, g3⟩
      have := i2 c d (by rw [hb]; simp) (by rw [g1]; simp) (by rw [h1, g3])
      subst this; rw [hb] at g1; cases g1
    · rw [e]; simp [upd_apply]
    · rw [e]
    · intro t' hne; rw [e]; simp [upd_apply, hne]

/-- No fiber is deleted twice, and the fiber of a thread is never deleted. -/
theorem C75_once {cur : Tid → Option CtxId} {tr : List (Ev Bool)} (h : Hist cur tr) (ok : AllOk tr) :
    (run tr).deleted.Nodup ∧ none ∉ (run tr).deleted ∧ ∀ t n a, .thread t n a ∈ tr → (run tr).fib n ∉ (run tr).deleted := by
  obtain ⟨k, hl, rfl⟩ := h.legal
  obtain ⟨i1, i2, i3, i4, i5, i6, i7, i8⟩ := inv hl ok
  refine ⟨i7, ?_, ?_⟩
  · rw [i6]; rintro ⟨d, g1, g2, g3⟩
    obtain ⟨f, h1, _⟩ := i1 d (by rw [g1]; simp)
    rw [h1] at g3; cases g3
  · intro t n a hm
    obtain ⟨hnf, hr⟩ := thread_root hl hm
    rw [i6]; rintro ⟨d, g1, g2, g3⟩
    have := i2 n d hnf (by rw [g1]; simp) g3.symm
    subst this; rw [hr] at g2; cases g2

/-! ## Defects -/

/-- `create_fiber1/2` do not test the result of `CreateFiber`: if it failed, the fiber object looks like any other, and the first switch to it passes a null pointer
to `SwitchToFiber`. -/
theorem C75_create_unchecked {cur : Tid → Option CtxId} {tr : List (Ev Bool)} {t : Tid} {c w : CtxId} {fin fn : Bool}
    (h : Hist cur (.switch t c w fin fn :: tr)) (hc : .create w false ∈ tr) : (run (.switch t c w fin fn :: tr)).bad = true := by
  obtain ⟨k, hl, _⟩ := h.legal
  cases hl with
  | @switch k _ _ _ _ _ _ hl ht hw hf =>
    have := (null_fiber hl hc).2
    simp [run, ev, this]

/-- A thread that was a fiber before it used the library (as the constructor of its record allows) is no fiber any more after its record is deleted. -/
theorem C75_conversion_undone {cur : Tid → Option CtxId} {tr : List (Ev Bool)} {t : Tid} {n : CtxId} (h : Hist cur (.exit t n :: tr))
    (_ : .thread t n true ∈ tr) (ok : AllOk tr) : (∃ f, (run tr).cur t = some f) ∧ (run (.exit t n :: tr)).cur t = none := by
  obtain ⟨⟨f, h1, _⟩, h2, _⟩ := C75_exit h ok
  exact ⟨⟨f, h1⟩, h2⟩

/-! ## Concrete histories -/

/-- main creates a fiber and resumes it; it returns; main destroys it; the thread ends -/
def ex (a : Bool) : List (Tid × Option Verif.Fiber.Op × Bool) := [(0, some (.create [] .success), a), (0, some (.resume 0), true)]
def ex2 : List (Tid × Option Verif.Fiber.Op × Bool) :=
  ex true ++ [(0, some (.retHandle 1), true), (0, some .tick, true), (0, some .tick, true), (0, some (.drop 3), true), (0, some .tick, true)]
def ex3 : List (Tid × Option Verif.Fiber.Op × Bool) :=
  ex2 ++ [(0, some .ret, true), (0, some .tick, true), (0, some .tick, true), (0, some .tick, true), (0, some .tick, true)]

instance : DecidablePred AllOk := fun tr =>
  decidable_of_iff (tr.all fun e => match e with | .create _ false => false | _ => true) (by
    simp only [List.all_eq_true, AllOk]
    constructor
    · intro h n hn; simpa using h _ hn
    · intro h e he
      cases e with
      | create n a => cases a with
        | true => rfl
        | false => exact absurd he (h n)
      | _ => rfl)

example : Hist (curOf false (ex true)) (trOf false (ex true)) ∧ AllOk (trOf false (ex true)) ∧ curOf false (ex true) 0 = some 1 ∧
    (run (trOf false (ex true))).cur 0 = some 1 ∧ (trOf false (ex true)).head? = some (.switch 0 0 1 false false) :=
  ⟨hist_of _ _, by decide, by decide, by decide, by decide⟩
example : Hist (curOf false ex2) (trOf false ex2) ∧ AllOk (trOf false ex2) ∧ (trOf false ex2).head? = some (.free 1) ∧
    (run (trOf false ex2)).deleted = [some 1] := ⟨hist_of _ _, by decide, by decide, by decide⟩
example : Hist (curOf true ex3) (trOf true ex3) ∧ AllOk (trOf true ex3) ∧ (trOf true ex3).head? = some (.exit 0 0) ∧ .thread 0 0 true ∈ trOf true ex3 ∧
    (run (trOf true ex3)).cur 0 = none := ⟨hist_of _ _, by decide, by decide, by decide, by decide⟩
example : Hist (curOf false (ex false)) (trOf false (ex false)) ∧ (trOf false (ex false)).head? = some (.switch 0 0 1 false false) ∧
    .create 1 false ∈ trOf false (ex false) ∧ (run (trOf false (ex false))).bad = true := ⟨hist_of _ _, by decide, by decide, by decide⟩

end Verif.Hooks.Winfib
