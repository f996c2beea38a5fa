import Verif.Hooks.Hist

/-!
# Split stacks (`BOOST_USE_SEGMENTED_STACKS`)

libgcc keeps, per thread, a "split stack context" (the list of stack segments in use and the limit of the current one).  `__splitstack_getcontext` copies it to
a buffer, `__splitstack_setcontext` installs a copy, `__splitstack_makecontext` fills a buffer for a new stack, `__splitstack_releasecontext` frees the segments
a buffer describes.  What the context consists of does not matter here: type `α`.  User code changes the thread's context whenever it needs or gives back
a segment (`use`).  The library calls these functions in `fiber_ucontext.hpp` 146-150 and 214-218 (`continuation_ucontext.hpp` 125-129, 188-192) and in
`posix/segmented_stack.hpp` 57-75.
-/

namespace Verif.Hooks.Split
open Verif.Fiber (CtxId Tid upd upd_apply)
open Verif.Hooks

structure State (α : Type) where
  /-- the split stack context of the thread (libgcc) -/
  thr : Tid → Option α
  /-- `sctx.segments_ctx` of a record (`stack_context.hpp` 31, `fiber_ucontext.hpp` 86) -/
  sctx : CtxId → Option α
  /-- arguments of `__splitstack_releasecontext` so far, with the record they come from -/
  rel : List (CtxId × Option α)

variable {α : Type}

/-- what the library (and user code, in `use`) does at an event -/
def ev (h : State α) : Ev α → State α
  -- `allocate()`: `__splitstack_makecontext` (`posix/segmented_stack.hpp` 59), copied into the record (`fiber_ucontext.hpp` 121-124)
  | .create n a => { h with sctx := upd h.sctx n (some a) }
  -- `segments_ctx{}` (`stack_context.hpp` 31); the thread has its own context
  | .thread t n a => { h with thr := upd h.thr t (some a), sctx := upd h.sctx n none }
  -- `__splitstack_getcontext( from->sctx.segments_ctx)`, `__splitstack_setcontext( sctx.segments_ctx)` (148-149, 216-217)
  | .switch t c w _ _ =>
    let h := { h with sctx := upd h.sctx c (h.thr t) }
    { h with thr := upd h.thr t (h.sctx w) }
  -- `destroy()`: `salloc.deallocate( p->sctx)` (258-265): `__splitstack_releasecontext( sctx.segments_ctx)` (`posix/segmented_stack.hpp` 74)
  | .free n => { h with rel := (n, h.sctx n) :: h.rel }
  | .exit _ _ => h
  | .use t _ a => { h with thr := upd h.thr t (some a) }

def run : List (Ev α) → State α
  | [] => ⟨fun _ => none, fun _ => none, []⟩
  | e :: tr => ev (run tr) e

/-! ## Specification -/

/-- The split stack context of context `c`: the one its code installed last, or the one it was given in the beginning. -/
def own (c : CtxId) : List (Ev α) → Option α
  | [] => none
  | .create n a :: tr => if n = c then some a else own c tr
  | .thread _ n a :: tr => if n = c then some a else own c tr
  | .use _ n a :: tr => if n = c then some a else own c tr
  | _ :: tr => own c tr

structure Inv (k : Trk) (tr : List (Ev α)) (h : State α) : Prop where
  run : ∀ t c, k.run t = some c → h.thr t = own c tr ∧ own c tr ≠ none
  idle : ∀ c, k.st c = .idle ∨ k.st c = .done → h.sctx c = own c tr ∧ own c tr ≠ none

theorem inv {k : Trk} {tr : List (Ev α)} (h : Legal k tr) : Inv k tr (run tr) := by
  induction h with
  | nil => exact ⟨by simp, by simp⟩
  | @create k tr n a h hn ih =>
    have hk := h.ok
    refine ⟨fun t c hc => ?_, fun c hc => ?_⟩
    · have hne : n ≠ c := by rintro rfl; rw [hk.busy t _ hc] at hn; cases hn
      simp only [run, ev, own, if_neg hne]; exact ih.run t c hc
    · simp only [run, ev, own, upd_apply] at hc ⊢
      by_cases e : c = n
      · subst e; simp
      · rw [if_neg e] at hc ⊢; rw [if_neg (Ne.symm e)]; exact ih.idle c hc
  | @thread k tr t n a h ht hn ih =>
    have hk := h.ok
    refine ⟨fun t' c hc => ?_, fun c hc => ?_⟩
    · simp only [run, ev, own, upd_apply] at hc ⊢
      by_cases e : t' = t
      · subst e; simp only [if_true, Option.some.injEq] at hc ⊢; subst hc; simp
      · rw [if_neg e] at hc ⊢
        have hne : n ≠ c := by rintro rfl; rw [hk.busy t' _ hc] at hn; cases hn
        rw [if_neg hne]; exact ih.run t' c hc
    · simp only [run, ev, own, upd_apply] at hc ⊢
      by_cases e : c = n
      · subst e; simp at hc
      · rw [if_neg e] at hc ⊢; rw [if_neg (Ne.symm e)]; exact ih.idle c hc
  | @switch k tr t c w fin fn h ht hw hf ih =>
    have hk := h.ok
    have hcw : c ≠ w := by rintro rfl; rw [hk.busy t _ ht] at hw; cases hw
    refine ⟨fun t' c' hc => ?_, fun c' hc => ?_⟩
    · simp only [run, ev, own, upd_apply] at hc ⊢
      by_cases e : t' = t
      · subst e; simp only [if_true, Option.some.injEq] at hc ⊢; subst hc
        rw [if_neg (Ne.symm hcw)]; exact ih.idle _ (.inl hw)
      · rw [if_neg e] at hc ⊢; exact ih.run t' c' hc
    · simp only [run, ev, own, upd_apply] at hc ⊢
      by_cases e : c' = c
      · subst e; rw [if_pos rfl]; exact ih.run t _ ht
      · rw [if_neg e]
        by_cases e' : c' = w
        · subst e'; simp at hc
        · rw [if_neg e', if_neg e] at hc; exact ih.idle c' hc
  | @free k tr n h hn hr ih =>
    refine ⟨fun t c hc => ?_, fun c hc => ?_⟩
    · exact ih.run t c hc
    · simp only [run, ev, own, upd_apply] at hc ⊢
      by_cases e : c = n
      · subst e; simp at hc
      · rw [if_neg e] at hc; exact ih.idle c hc
  | @exit k tr t c h ht hr ih =>
    refine ⟨fun t' c' hc => ?_, fun c' hc => ?_⟩
    · simp only [run, ev, own, upd_apply] at hc ⊢
      by_cases e : t' = t
      · subst e; simp at hc
      · rw [if_neg e] at hc; exact ih.run t' c' hc
    · simp only [run, ev, own, upd_apply] at hc ⊢
      by_cases e : c' = c
      · subst e; simp at hc
      · rw [if_neg e] at hc; exact ih.idle c' hc
  | @use k tr t c a h ht ih =>
    have hk := h.ok
    refine ⟨fun t' c' hc => ?_, fun c' hc => ?_⟩
    · simp only [run, ev, own, upd_apply]
      by_cases e : t' = t
      · subst e; rw [ht] at hc; cases hc; simp
      · have hne : c ≠ c' := by rintro rfl; exact e (hk.one _ _ _ hc ht)
        rw [if_neg e, if_neg hne]; exact ih.run t' c' hc
    · have hne : c ≠ c' := by
        rintro rfl; rw [hk.busy t _ ht] at hc; simp at hc
      simp only [run, ev, own, if_neg hne]; exact ih.idle c' hc

/-! ## Theorems -/

/-- While a thread executes a context, its split stack context is the one of that context: what the context's own code installed last, however often it was
suspended, and on whatever threads it and others have run in between. -/
theorem C72_runs_own {cur : Tid → Option CtxId} {tr : List (Ev α)} (h : Hist cur tr) {t : Tid} {c : CtxId} (hc : cur t = some c) :
    ∃ v, own c tr = some v ∧ (run tr).thr t = some v := by
  obtain ⟨k, hl, rfl⟩ := h.legal
  have := (inv hl).run t c hc
  cases ho : own c tr with
  | none => exact absurd ho this.2
  | some v => exact ⟨v, rfl, by rw [this.1, ho]⟩

/-- When a record is destroyed, `__splitstack_releasecontext` gets the split stack context its code left behind: all segments it ever added and did not give
back are described by it. -/
theorem C72_releases_own {cur : Tid → Option CtxId} {tr : List (Ev α)} {n : CtxId} (h : Hist cur (.free n :: tr)) :
    ∃ v, own n tr = some v ∧ (run (.free n :: tr)).rel = (n, some v) :: (run tr).rel := by
  obtain ⟨k, hl, rfl⟩ := h.legal
  cases hl with
  | free h hn hr =>
    have := (inv h).idle n (.inr hn)
    cases ho : own n tr with
    | none => exact absurd ho this.2
    | some v => exact ⟨v, rfl, by simp only [run, ev, this.1, ho]⟩

theorem rel_count {k : Trk} {tr : List (Ev α)} (h : Legal k tr) : ∀ n, ((run tr).rel.map Prod.fst).count n ≤ 1 ∧
    (k.st n ≠ .gone → ((run tr).rel.map Prod.fst).count n = 0) := by
  induction h with
  | nil => intro n; simp [run]
  | @create k tr n a h hn ih =>
    intro m; refine ⟨(ih m).1, fun hm => (ih m).2 ?_⟩
    simp only [upd_apply] at hm; split at hm
    · next e => subst e; rw [hn]; simp
    · exact hm
  | @thread k tr t n a h ht hn ih =>
    intro m; refine ⟨(ih m).1, fun hm => (ih m).2 ?_⟩
    simp only [upd_apply] at hm; split at hm
    · next e => subst e; rw [hn]; simp
    · exact hm
  | @switch k tr t c w fin fn h ht hw hf ih =>
    intro m; refine ⟨(ih m).1, fun hm => (ih m).2 ?_⟩
    have hk := h.ok
    intro hg
    simp only [upd_apply] at hm; split at hm
    · next e => subst e; rw [hw] at hg; cases hg
    · split at hm
      · next e => subst e; rw [hk.busy t _ ht] at hg; cases hg
      · exact hm hg
  | @free k tr n h hn hr ih =>
    intro m
    simp only [run, ev, List.map_cons, List.count_cons]
    by_cases e : n = m
    · subst e
      have := (ih n).2 (by rw [hn]; simp)
      simp [this, upd_apply]
    · refine ⟨by simp [e]; exact (ih m).1, fun hm => ?_⟩
      simp only [upd_apply, if_neg (Ne.symm e)] at hm
      simp [e]; simpa using (ih m).2 hm
  | @exit k tr t c h ht hr ih =>
    intro m; refine ⟨(ih m).1, fun hm => (ih m).2 ?_⟩
    simp only [upd_apply] at hm; split at hm
    · simp at hm
    · exact hm
  | use h ht ih => exact ih

/-- The segments of a context are released at most once, and not while it can still run. -/
theorem C72_released_once {cur : Tid → Option CtxId} {tr : List (Ev α)} (h : Hist cur tr) (n : CtxId) :
    ((run tr).rel.map Prod.fst).count n ≤ 1 ∧ ((∃ t, cur t = some n) → n ∉ (run tr).rel.map Prod.fst) := by
  obtain ⟨k, hl, rfl⟩ := h.legal
  refine ⟨(rel_count hl n).1, ?_⟩
  rintro ⟨t, ht⟩
  have := (rel_count hl n).2 (by rw [hl.ok.busy t n ht]; simp)
  intro hm
  exact absurd (List.count_pos_iff.2 hm) (by omega)

/-- main creates a fiber (segments 10), which grows its stack to 11 and returns to main, which had grown to 7; main destroys it -/
def ex : List (Tid × Option Verif.Fiber.Op × Nat) :=
  [(0, some (.create [] .success), 10), (0, none, 7), (0, some (.resume 0), 0), (0, none, 11), (0, some (.resume 1), 0)]
def ex2 : List (Tid × Option Verif.Fiber.Op × Nat) := ex ++ [(0, some (.drop 2), 0), (0, some .tick, 0), (0, some .tick, 0), (0, some .tick, 0)]

example : Hist (curOf 5 ex) (trOf 5 ex) ∧ curOf 5 ex 0 = some 0 ∧ (run (trOf 5 ex)).thr 0 = some 7 ∧ (run (trOf 5 ex)).sctx 1 = some 11 :=
  ⟨hist_of _ _, by decide, by decide, by decide⟩
example : Hist (curOf 5 ex2) (trOf 5 ex2) ∧ (trOf 5 ex2).head? = some (.free 1) ∧ (run (trOf 5 ex2)).rel = [(1, some 11)] :=
  ⟨hist_of _ _, by decide, by decide⟩

end Verif.Hooks.Split
