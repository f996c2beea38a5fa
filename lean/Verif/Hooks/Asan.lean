import Verif.Hooks.Hist

/-!
# AddressSanitizer (`BOOST_USE_ASAN`)

The runtime keeps, per thread, the bounds of the current stack and a "fake stack" (created when instrumented code first needs it).
`__sanitizer_start_switch_fiber( save, bottom, size)` stores the fake stack in `*save` (or destroys it if `save` is null: "the fiber will die"), sets it to null, and
announces the bounds of the next stack; `__sanitizer_finish_switch_fiber( saved, &bottom_old, &size_old)` installs the saved fake stack if there is one,
stores the bounds of the previous stack, and makes the announced bounds current.  Starting twice or finishing without starting is a fatal error
(compiler-rt, `asan_thread.cpp`).  The library calls them in `fiber_ucontext.hpp` 151-157, 161-165, 219-221, 225-229, 280-284
(`continuation_ucontext.hpp` 130-136, 139-143, 193-195, 198-202, 255-259).
-/

namespace Verif.Hooks.Asan
open Verif.Fiber (CtxId Tid upd upd_apply)
open Verif.Hooks

/-- bottom and size of a stack -/
abbrev Bounds := Nat × Nat
/-- a fake stack; the first component is the context whose code was running when the runtime created it -/
abbrev Fake := CtxId × Nat
/-- answers of the environment: bounds of a stack; name of a fake stack -/
abbrev Ans := Bounds × Nat

structure State where
  /-- runtime: fake stack, stack bounds, announced bounds of a thread -/
  fs : Tid → Option Fake
  bd : Tid → Bounds
  next : Tid → Option Bounds
  destroyed : List Fake
  fatal : Bool
  /-- record: `fake_stack`, `stack_bottom`/`stack_size`, `terminated` (`fiber_ucontext.hpp` 90-96) -/
  fake : CtxId → Option Fake
  bot : CtxId → Bounds
  term : CtxId → Bool

/-- `__sanitizer_start_switch_fiber`; `save` = the record whose `fake_stack` is passed -/
def start (h : State) (t : Tid) (save : Option CtxId) (b : Bounds) : State :=
  if (h.next t).isSome then { h with fatal := true }
  else
    let h := match save with
      | some c => { h with fake := upd h.fake c (h.fs t) }
      | none => { h with destroyed := (h.fs t).toList ++ h.destroyed }
    { h with fs := upd h.fs t none, next := upd h.next t (some b) }

/-- `__sanitizer_finish_switch_fiber( w->fake_stack, & c->stack_bottom, & c->stack_size)` -/
def finish (h : State) (t : Tid) (w c : CtxId) : State :=
  match h.next t with
  | none => { h with fatal := true }
  | some b =>
    { h with fs := upd h.fs t (match h.fake w with | some f => some f | none => h.fs t), bot := upd h.bot c (h.bd t),
             bd := upd h.bd t b, next := upd h.next t none }

def ev (h : State) : Ev Ans → State
  -- `record->stack_bottom = ...` (350-353, 401-404; `continuation_ucontext.hpp` 318-321, 361-364)
  | .create n a => { h with bot := upd h.bot n a.1, fake := upd h.fake n none, term := upd h.term n false }
  -- members initialized (90-96); the runtime knows the thread's stack
  | .thread t n a =>
    { h with fs := upd h.fs t none, bd := upd h.bd t a.1, next := upd h.next t none,
             bot := upd h.bot n (0, 0), fake := upd h.fake n none, term := upd h.term n false }
  | .switch t c w fin fn =>
    let h := if fin then { h with term := upd h.term c true } else h                                  -- 299
    -- `resume()`: `if ( terminated)` (152), the member of record `w`; `resume_with()` does not test (220)
    let h := start h t (if !fn && h.term w then none else some c) (h.bot w)
    -- in context `w`: 162-164 resp. 226-228 with `current() = w`, `current()->from = c`; in a new context 281-283
    finish h t w c
  | .free _ => h
  | .exit _ _ => h
  -- instrumented code makes the runtime create a fake stack
  | .use t c a => { h with fs := upd h.fs t (match h.fs t with | some f => some f | none => some (c, a.2)) }

def run : List (Ev Ans) → State
  | [] => ⟨fun _ => none, fun _ => (0, 0), fun _ => none, [], false, fun _ => none, fun _ => (0, 0), fun _ => false⟩
  | e :: tr => ev (run tr) e

/-! ## Specification -/

/-- bounds of the stack of context `c` -/
def bounds (c : CtxId) : List (Ev Ans) → Bounds
  | [] => (0, 0)
  | .create n a :: tr => if n = c then a.1 else bounds c tr
  | .thread _ n a :: tr => if n = c then a.1 else bounds c tr
  | _ :: tr => bounds c tr

/-- the fake stack created for code of context `c`, if any -/
def mine (c : CtxId) : List (Ev Ans) → Option Fake
  | [] => none
  | .use _ n a :: tr => match mine c tr with
    | some f => some f
    | none => if n = c then some (c, a.2) else none
  | .create n _ :: tr => if n = c then none else mine c tr
  | .thread _ n _ :: tr => if n = c then none else mine c tr
  | _ :: tr => mine c tr

theorem mine_fst {c : CtxId} {tr : List (Ev Ans)} {f : Fake} (h : mine c tr = some f) : f.1 = c := by
  induction tr with
  | nil => simp [mine] at h
  | cons e tr ih =>
    cases e with
    | use t n a =>
      simp only [mine] at h
      split at h
      · cases h; exact ih (by assumption)
      · split at h
        · cases h; rfl
        · cases h
    | create n a => simp only [mine] at h; split at h; cases h; exact ih h
    | thread t n a => simp only [mine] at h; split at h; cases h; exact ih h
    | _ => exact ih h

structure Inv (k : Trk) (tr : List (Ev Ans)) (h : State) : Prop where
  ok : h.fatal = false
  none : h.destroyed = []
  next : ∀ t, h.next t = .none
  bd : ∀ t c, k.run t = some c → h.bd t = bounds c tr
  fs : ∀ t c, k.run t = some c → h.fs t = mine c tr
  bot : ∀ c, k.st c = .idle ∨ k.st c = .done → h.bot c = bounds c tr
  fake : ∀ c, k.st c = .idle ∨ k.st c = .done → h.fake c = mine c tr
  term : ∀ c, k.st c = .idle ∨ k.st c = .busy → h.term c = false

theorem pair_eq {h : State} {t : Tid} {c w : CtxId} (hn : h.next t = none) (hcw : c ≠ w) :
    finish (start h t (some c) (h.bot w)) t w c = { h with
      fake := upd h.fake c (h.fs t), fs := upd h.fs t (h.fake w), bot := upd h.bot c (h.bd t), bd := upd h.bd t (h.bot w) } := by
  have h1 : start h t (some c) (h.bot w) = { h with
      fake := upd h.fake c (h.fs t), fs := upd h.fs t none, next := upd h.next t (some (h.bot w)) } := by
    simp [start, hn]
  rw [h1]
  have h2 : upd (upd h.next t (some (h.bot w))) t none = h.next := by
    funext t'; simp only [upd_apply]; split
    · next e => rw [e, hn]
    · rfl
  have h3 : upd h.fake c (h.fs t) w = h.fake w := by rw [upd_apply, if_neg (Ne.symm hcw)]
  have h4 : upd (upd h.fs t none) t (h.fake w) = upd h.fs t (h.fake w) := by
    funext t'; simp only [upd_apply]; split <;> rfl
  have h5 : (match h.fake w with | some f => some f | none => upd h.fs t none t) = h.fake w := by
    cases h.fake w <;> simp [upd_apply]
  have h6 : upd h.next t (some (h.bot w)) t = some (h.bot w) := by rw [upd_apply, if_pos rfl]
  simp only [finish, h6, h3, h5, h2, h4]

theorem inv {k : Trk} {tr : List (Ev Ans)} (h : Legal k tr) : Inv k tr (run tr) := by
  induction h with
  | nil => constructor <;> simp [run]
  | @create k tr n a h hn ih =>
    have hk := h.ok
    have hr : ∀ t c, k.run t = some c → n ≠ c := by rintro t c hc rfl; rw [hk.busy t _ hc] at hn; cases hn
    refine ⟨ih.ok, ih.none, ih.next, fun t c hc => ?_, fun t c hc => ?_, fun c hc => ?_, fun c hc => ?_, fun c hc => ?_⟩
    · simp only [run, ev, bounds, if_neg (hr t c hc)]; exact ih.bd t c hc
    · simp only [run, ev, mine, if_neg (hr t c hc)]; exact ih.fs t c hc
    all_goals
      simp only [run, ev, bounds, mine, upd_apply] at hc ⊢
      by_cases e : c = n
      · subst e; simp
      · rw [if_neg e] at hc ⊢
        first
          | (rw [if_neg (Ne.symm e)]; first | exact ih.bot c hc | exact ih.fake c hc)
          | exact ih.term c hc
  | @thread k tr t n a h ht hn ih =>
    have hk := h.ok
    have hr : ∀ t c, k.run t = some c → n ≠ c := by rintro t c hc rfl; rw [hk.busy t _ hc] at hn; cases hn
    refine ⟨ih.ok, ih.none, fun t' => ?_, fun t' c hc => ?_, fun t' c hc => ?_, fun c hc => ?_, fun c hc => ?_, fun c hc => ?_⟩
    · simp only [run, ev, upd_apply]; split
      · rfl
      · exact ih.next t'
    · simp only [run, ev, bounds, upd_apply] at hc ⊢
      by_cases e : t' = t
      · subst e; simp only [if_true, Option.some.injEq] at hc ⊢; subst hc; simp
      · rw [if_neg e] at hc ⊢; rw [if_neg (hr t' c hc)]; exact ih.bd t' c hc
    · simp only [run, ev, mine, upd_apply] at hc ⊢
      by_cases e : t' = t
      · subst e; simp only [if_true, Option.some.injEq] at hc ⊢; subst hc; simp
      · rw [if_neg e] at hc ⊢; rw [if_neg (hr t' c hc)]; exact ih.fs t' c hc
    all_goals
      simp only [run, ev, bounds, mine, upd_apply] at hc ⊢
      by_cases e : c = n
      · subst e; simp_all
      · rw [if_neg e] at hc ⊢
        first
          | (rw [if_neg (Ne.symm e)]; first | exact ih.bot c hc | exact ih.fake c hc)
          | exact ih.term c hc
  | @switch k tr t c w fin fn h ht hw hf ih =>
    have hk := h.ok
    have hcw : c ≠ w := by rintro rfl; rw [hk.busy t _ ht] at hw; cases hw
    have htw : (run tr).term w = false := ih.term w (.inl hw)
    obtain ⟨tm, htm⟩ : ∃ tm, tm = (if fin then upd (run tr).term c true else (run tr).term) := ⟨_, rfl⟩
    have htmw : tm w = false := by
      rw [htm]; split
      · rw [upd_apply, if_neg (Ne.symm hcw)]; exact htw
      · exact htw
    have hpre : (if fin then { run tr with term := upd (run tr).term c true } else run tr) = { run tr with term := tm } := by
      rw [htm]; cases fin <;> rfl
    have e : run (.switch t c w fin fn :: tr) = { run tr with
        term := tm, fake := upd (run tr).fake c ((run tr).fs t),
        fs := upd (run tr).fs t ((run tr).fake w), bot := upd (run tr).bot c ((run tr).bd t), bd := upd (run tr).bd t ((run tr).bot w) } := by
      simp only [run, ev, hpre, htmw, Bool.and_false, Bool.false_eq_true, if_false]
      exact pair_eq (h := { run tr with term := tm }) (ih.next t) hcw
    rw [e]
    refine ⟨ih.ok, ih.none, ih.next, fun t' c' hc => ?_, fun t' c' hc => ?_, fun c' hc => ?_, fun c' hc => ?_, fun c' hc => ?_⟩
    · simp only [bounds, upd_apply] at hc ⊢
      by_cases e : t' = t
      · subst e; simp only [if_true, Option.some.injEq] at hc ⊢; subst hc; exact ih.bot _ (.inl hw)
      · rw [if_neg e] at hc ⊢; exact ih.bd t' c' hc
    · simp only [mine, upd_apply] at hc ⊢
      by_cases e : t' = t
      · subst e; simp only [if_true, Option.some.injEq] at hc ⊢; subst hc; exact ih.fake _ (.inl hw)
      · rw [if_neg e] at hc ⊢; exact ih.fs t' c' hc
    · simp only [bounds, upd_apply] at hc ⊢
      by_cases e : c' = c
      · subst e; rw [if_pos rfl]; exact ih.bd t _ ht
      · rw [if_neg e]
        by_cases e' : c' = w
        · subst e'; simp at hc
        · rw [if_neg e', if_neg e] at hc; exact ih.bot c' hc
    · simp only [mine, upd_apply] at hc ⊢
      by_cases e : c' = c
      · subst e; rw [if_pos rfl]; exact ih.fs t _ ht
      · rw [if_neg e]
        by_cases e' : c' = w
        · subst e'; simp at hc
        · rw [if_neg e', if_neg e] at hc; exact ih.fake c' hc
    · simp only [upd_apply] at hc
      by_cases e' : c' = w
      · subst e'; exact htmw
      · rw [if_neg e'] at hc
        rw [htm]
        by_cases e : c' = c
        · subst e; rw [if_pos rfl] at hc
          cases fin
          · simp only [Bool.false_eq_true, if_false]; exact ih.term _ (.inr (hk.busy t _ ht))
          · simp at hc
        · rw [if_neg e] at hc
          split
          · show upd (run tr).term c true c' = false
            rw [upd_apply, if_neg e]; exact ih.term c' hc
          · exact ih.term c' hc
  | @free k tr n h hn hr ih =>
    refine ⟨ih.ok, ih.none, ih.next, ih.bd, ih.fs, fun c hc => ?_, fun c hc => ?_, fun c hc => ?_⟩ <;>
      (simp only [upd_apply] at hc; split at hc; · simp at hc)
    · exact ih.bot c hc
    · exact ih.fake c hc
    · exact ih.term c hc
  | @exit k tr t c h ht hr ih =>
    refine ⟨ih.ok, ih.none, ih.next, fun t' c' hc => ?_, fun t' c' hc => ?_, fun c hc => ?_, fun c hc => ?_, fun c hc => ?_⟩ <;>
      (simp only [upd_apply] at hc; split at hc; · simp at hc)
    · exact ih.bd t' c' hc
    · exact ih.fs t' c' hc
    · exact ih.bot c hc
    · exact ih.fake c hc
    · exact ih.term c hc
  | @use k tr t c a h ht ih =>
    have hk := h.ok
    have hi : ∀ c', k.st c' = .idle ∨ k.st c' = .done → c ≠ c' := by
      rintro c' hc rfl; rw [hk.busy t _ ht] at hc; simp at hc
    refine ⟨ih.ok, ih.none, ih.next, ih.bd, fun t' c' hc => ?_, ih.bot, fun c' hc => ?_, ih.term⟩
    · simp only [run, ev, mine, upd_apply]
      by_cases e : t' = t
      · subst e; rw [ht] at hc; cases hc; rw [if_pos rfl, if_pos rfl, ih.fs t' c ht]
      · have hne : c ≠ c' := by rintro rfl; exact e (hk.one _ _ _ hc ht)
        rw [if_neg e, if_neg hne, ih.fs t' c' hc]
        cases mine c' tr <;> rfl
    · simp only [run, ev, mine, if_neg (hi c' hc)]
      rw [ih.fake c' hc]
      cases mine c' tr <;> rfl

/-! ## Theorems -/

/-- The calls of the runtime are paired in every history: it never reports a fatal error. -/
theorem C73_no_fatal {cur : Tid → Option CtxId} {tr : List (Ev Ans)} (h : Hist cur tr) : (run tr).fatal = false ∧ ∀ t, (run tr).next t = none := by
  obtain ⟨k, hl, rfl⟩ := h.legal
  exact ⟨(inv hl).ok, (inv hl).next⟩

/-- While a thread executes a context, the runtime has the bounds of the stack of that context. -/
theorem C73_bounds {cur : Tid → Option CtxId} {tr : List (Ev Ans)} (h : Hist cur tr) {t : Tid} {c : CtxId} (hc : cur t = some c) :
    (run tr).bd t = bounds c tr := by
  obtain ⟨k, hl, rfl⟩ := h.legal
  exact (inv hl).bd t c hc

/-- While a thread executes a context, its fake stack is the one created for that context, or none if none was created. -/
theorem C73_fake_stack {cur : Tid → Option CtxId} {tr : List (Ev Ans)} (h : Hist cur tr) {t : Tid} {c : CtxId} (hc : cur t = some c) :
    (run tr).fs t = mine c tr := by
  obtain ⟨k, hl, rfl⟩ := h.legal
  exact (inv hl).fs t c hc

/-- **Leak.** No fake stack is ever destroyed, although the last switch away from a finished context is documented to do that: line 152 tests `terminated` of
the context that is switched to. -/
theorem C73_never_destroyed {cur : Tid → Option CtxId} {tr : List (Ev Ans)} (h : Hist cur tr) : (run tr).destroyed = [] := by
  obtain ⟨k, hl, rfl⟩ := h.legal
  exact (inv hl).none

theorem freed_gone {α : Type} {k : Trk} {tr : List (Ev α)} (h : Legal k tr) {n : CtxId} (hn : .free n ∈ tr) : k.st n = .gone := by
  induction h with
  | nil => simp at hn
  | @create k tr m a h hm ih =>
    have := ih (by simpa using hn)
    simp only [upd_apply]; split
    · next e => subst e; rw [this] at hm; cases hm
    · exact this
  | @thread k tr t m a h ht hm ih =>
    have := ih (by simpa using hn)
    simp only [upd_apply]; split
    · next e => subst e; rw [this] at hm; cases hm
    · exact this
  | @switch k tr t c w fin fn h ht hw hf ih =>
    have := ih (by simpa using hn)
    have hk := h.ok
    simp only [upd_apply]; split
    · next e => subst e; rw [this] at hw; cases hw
    · split
      · next e => subst e; rw [hk.busy t _ ht] at this; cases this
      · exact this
  | @free k tr m h hm hr ih =>
    simp only [upd_apply]; split
    · rfl
    · next e =>
      have : n = m ∨ .free n ∈ tr := by simpa using hn
      rcases this with e' | e'
      · exact absurd e' e
      · exact ih e'
  | @exit k tr t c h ht hr ih =>
    have := ih (by simpa using hn)
    simp only [upd_apply]; split
    · rfl
    · exact this
  | use h ht ih => exact ih (by simpa using hn)

/-- The fake stack of a destroyed record is lost: not destroyed, and no thread has it. -/
theorem C73_leak {cur : Tid → Option CtxId} {tr : List (Ev Ans)} (h : Hist cur tr) {n : CtxId} {f : Fake} (hf : .free n ∈ tr) (hm : mine n tr = some f) :
    f ∉ (run tr).destroyed ∧ ∀ t c, cur t = some c → (run tr).fs t ≠ some f := by
  refine ⟨by rw [C73_never_destroyed h]; simp, fun t c hc he => ?_⟩
  rw [C73_fake_stack h hc] at he
  have h1 := mine_fst he
  have h2 := mine_fst hm
  have hcn : c = n := by rw [← h1, ← h2]
  subst hcn
  obtain ⟨k, hl, rfl⟩ := h.legal
  have h3 := freed_gone hl hf
  rw [hl.ok.busy t c hc] at h3
  cases h3

/-- main (bounds 5) creates a fiber (bounds 10); both use fake stacks (70, 80); the fiber returns to main, main destroys it -/
def ex : List (Tid × Option Verif.Fiber.Op × Ans) :=
  [(0, some (.create [] .success), ((10, 1), 0)), (0, none, ((0, 0), 70)), (0, some (.resume 0), ((0, 0), 0)), (0, none, ((0, 0), 80))]
def ex2 : List (Tid × Option Verif.Fiber.Op × Ans) :=
  ex ++ [(0, some (.retHandle 1), ((0, 0), 0)), (0, some .tick, ((0, 0), 0)), (0, some .tick, ((0, 0), 0)), (0, some (.drop 3), ((0, 0), 0)),
    (0, some .tick, ((0, 0), 0))]

example : Hist (curOf ((5, 1), 0) ex) (trOf ((5, 1), 0) ex) ∧ curOf ((5, 1), 0) ex 0 = some 1 ∧ (run (trOf ((5, 1), 0) ex)).bd 0 = (10, 1) ∧
    (run (trOf ((5, 1), 0) ex)).fs 0 = some (1, 80) ∧ (run (trOf ((5, 1), 0) ex)).bot 0 = (5, 1) :=
  ⟨hist_of _ _, by decide, by decide, by decide, by decide⟩
example : Hist (curOf ((5, 1), 0) ex2) (trOf ((5, 1), 0) ex2) ∧ .free 1 ∈ trOf ((5, 1), 0) ex2 ∧ mine 1 (trOf ((5, 1), 0) ex2) = some (1, 80) ∧
    (run (trOf ((5, 1), 0) ex2)).fs 0 = some (0, 70) ∧ (run (trOf ((5, 1), 0) ex2)).bd 0 = (5, 1) :=
  ⟨hist_of _ _, by decide, by decide, by decide, by decide⟩

end Verif.Hooks.Asan
