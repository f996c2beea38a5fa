import Verif.Hooks.Split

/-!
# Signal masks on ucontext

With `fiber_ucontext.hpp`/`continuation_ucontext.hpp` a switch is `swapcontext`, which (POSIX) saves the calling thread's signal mask in the record left and
installs the one saved in the record continued; `getcontext` in `create_fiber1/2` saves the mask of the creating thread, which `makecontext` leaves alone.  A new thread inherits the
mask of the thread that creates it (POSIX).  User code changes the mask of its thread by `pthread_sigmask` (`use`).  What a mask consists of does not matter: type `α`.
-/

namespace Verif.Hooks.Mask
open Verif.Fiber (CtxId Var Tid Event CreateOutcome upd upd_apply)
open Verif.Hooks

structure State (α : Type) where
  /-- the signal mask of the thread (kernel) -/
  thr : Tid → Option α
  /-- `uctx.uc_sigmask` of a record (`fiber_ucontext.hpp` 85, `continuation_ucontext.hpp` 80) -/
  uc : CtxId → Option α

variable {α : Type}

def ev (h : State α) : Ev α → State α
  -- `getcontext( & record->uctx)` (`fiber_ucontext.hpp` 322, 373; `continuation_ucontext.hpp` 297, 340): `a` is the mask of the calling thread, see `Trace`
  | .create n a => { h with uc := upd h.uc n (some a) }
  -- a thread begins with mask `a`; `getcontext( & uctx)` in the constructor of its record (`fiber_ucontext.hpp` 107-119)
  | .thread t n a => { h with thr := upd h.thr t (some a), uc := upd h.uc n (some a) }
  -- `swapcontext( & from->uctx, & uctx)` (160, 222; `continuation_ucontext.hpp` 138, 197)
  | .switch t c w _ _ =>
    let h := { h with uc := upd h.uc c (h.thr t) }
    { h with thr := upd h.thr t (h.uc w) }
  | .free _ => h
  | .exit _ _ => h
  -- `pthread_sigmask`
  | .use t _ a => { h with thr := upd h.thr t (some a) }

def run : List (Ev α) → State α
  | [] => ⟨fun _ => none, fun _ => none⟩
  | e :: tr => ev (run tr) e

/-- As `Verif.Hooks.Trace`, but records and threads are created with the mask of the creating thread. -/
inductive FTrace : UFiber.State → List (Ev α) → Prop
  | init (a : α) : FTrace UFiber.init [.thread 0 0 a]
  | step {s s' : UFiber.State} {tr : List (Ev α)} {t : Tid} {op : Fiber.Op} {a : α} : FTrace s tr → UFiber.step s t op = .ok s' → s'.early = false →
      (run tr).thr t = some a → FTrace s' (events s s' t (isWith op) a ++ tr)
  | use {s : UFiber.State} {tr : List (Ev α)} {t : Tid} {c : CtxId} (a : α) : FTrace s tr → s.cur t = some c → FTrace s (.use t c a :: tr)

/-- the same for `continuation` -/
inductive CTrace : UCont.State → List (Ev α) → Prop
  | init (a : α) : CTrace UCont.init [.thread 0 0 a]
  | step {s s' : UCont.State} {tr : List (Ev α)} {t : Tid} {op : UCont.Op} {a : α} : CTrace s tr → UCont.step s t op = .ok s' →
      (run tr).thr t = some a → CTrace s' (events s.abs s'.abs t (isWithC op) a ++ tr)
  | use {s : UCont.State} {tr : List (Ev α)} {t : Tid} {c : CtxId} (a : α) : CTrace s tr → s.cur t = some c → CTrace s (.use t c a :: tr)

/-! ## Specification -/

/-- a program using `fiber` (and destroying no never-started one), or one using `continuation`, has gone through events `tr`, latest first, and now thread `t` executes
context `cur t` -/
def Hist (cur : Tid → Option CtxId) (tr : List (Ev α)) : Prop := (∃ s, FTrace s tr ∧ s.cur = cur) ∨ ∃ s, CTrace s tr ∧ s.cur = cur

/-- The mask of context `c`: the one its own code installed last, or the one it began with. -/
def own (c : CtxId) : List (Ev α) → Option α
  | [] => none
  | .create n a :: tr => if n = c then some a else own c tr
  | .thread _ n a :: tr => if n = c then some a else own c tr
  | .use _ n a :: tr => if n = c then some a else own c tr
  | _ :: tr => own c tr

/-! ## Proofs -/

theorem FTrace.trace {s : UFiber.State} {tr : List (Ev α)} (h : FTrace s tr) : Trace s tr := by
  induction h with
  | init a => exact .init a
  | step _ hs he _ ih => exact .step _ ih hs he
  | use a _ hc ih => exact .use a ih hc

theorem CTrace.trace {s : UCont.State} {tr : List (Ev α)} (h : CTrace s tr) : Hooks.CTrace s tr := by
  induction h with
  | init a => exact .init a
  | step _ hs _ ih => exact .step _ ih hs
  | use a _ hc ih => exact .use a ih hc

theorem Hist.hist {cur : Tid → Option CtxId} {tr : List (Ev α)} (h : Hist cur tr) : Hooks.Hist cur tr := by
  rcases h with ⟨s, h, hc⟩ | ⟨s, h, hc⟩
  · exact .inl ⟨s, h.trace, hc⟩
  · exact .inr ⟨s, h.trace, hc⟩

structure Inv (k : Trk) (tr : List (Ev α)) (h : State α) : Prop where
  run : ∀ t c, k.run t = some c → h.thr t = own c tr ∧ own c tr ≠ none
  idle : ∀ c, k.st c = .idle ∨ k.st c = .done → h.uc c = own c tr ∧ own c tr ≠ none

theorem inv {k : Trk} {tr : List (Ev α)} (h : Legal k tr) : Inv k tr (run tr) := by
  induction h with
  | nil => exact ⟨by simp, by simp⟩
  | @create k tr n a h hn ih =>
    have hk := h.ok
    refine ⟨fun t c hc => ?_, fun c hc => ?_⟩
    · have hne : n ≠ c := by rintro rfl; rw [hk.busy t _ hc] at hn; cases hn
      simp only [run, ev, own, if_neg hne]; exact ih.run t c hc
    · simp only [run, ev, own, upd_apply] at hc ⊢
      by_cases e : c = n
      · subst e; simp
      · rw [if_neg e] at hc ⊢; rw [if_neg (Ne.symm e)]; exact ih.idle c hc
  | @thread k tr t n a h ht hn ih =>
    have hk := h.ok
    refine ⟨fun t' c hc => ?_, fun c hc => ?_⟩
    · simp only [run, ev, own, upd_apply] at hc ⊢
      by_cases e : t' = t
      · subst e; simp only [if_true, Option.some.injEq] at hc ⊢; subst hc; simp
      · rw [if_neg e] at hc ⊢
        have hne : n ≠ c := by rintro rfl; rw [hk.busy t' _ hc] at hn; cases hn
        rw [if_neg hne]; exact ih.run t' c hc
    · simp only [run, ev, own, upd_apply] at hc ⊢
      by_cases e : c = n
      · subst e; simp at hc
      · rw [if_neg e] at hc ⊢; rw [if_neg (Ne.symm e)]; exact ih.idle c hc
  | @switch k tr t c w fin fn h ht hw hf ih =>
    have hk := h.ok
    have hcw : c ≠ w := by rintro rfl; rw [hk.busy t _ ht] at hw; cases hw
    refine ⟨fun t' c' hc => ?_, fun c' hc => ?_⟩
    · simp only [run, ev, own, upd_apply] at hc ⊢
      by_cases e : t' = t
      · subst e; simp only [if_true, Option.some.injEq] at hc ⊢; subst hc
        rw [if_neg (Ne.symm hcw)]; exact ih.idle _ (.inl hw)
      · rw [if_neg e] at hc ⊢; exact ih.run t' c' hc
    · simp only [run, ev, own, upd_apply] at hc ⊢
      by_cases e : c' = c
      · subst e; rw [if_pos rfl]; exact ih.run t _ ht
      · rw [if_neg e]
        by_cases e' : c' = w
        · subst e'; simp at hc
        · rw [if_neg e', if_neg e] at hc; exact ih.idle c' hc
  | @free k tr n h hn hr ih =>
    refine ⟨fun t c hc => ?_, fun c hc => ?_⟩
    · exact ih.run t c hc
    · simp only [run, ev, own, upd_apply] at hc ⊢
      by_cases e : c = n
      · subst e; simp at hc
      · rw [if_neg e] at hc; exact ih.idle c hc
  | @exit k tr t c h ht hr ih =>
    refine ⟨fun t' c' hc => ?_, fun c' hc => ?_⟩
    · simp only [run, ev, own, upd_apply] at hc ⊢
      by_cases e : t' = t
      · subst e; simp at hc
      · rw [if_neg e] at hc; exact ih.run t' c' hc
    · simp only [run, ev, own, upd_apply] at hc ⊢
      by_cases e : c' = c
      · subst e; simp at hc
      · rw [if_neg e] at hc; exact ih.idle c' hc
  | @use k tr t c a h ht ih =>
    have hk := h.ok
    refine ⟨fun t' c' hc => ?_, fun c' hc => ?_⟩
    · simp only [run, ev, own, upd_apply]
      by_cases e : t' = t
      · subst e; rw [ht] at hc; cases hc; simp
      · have hne : c ≠ c' := by rintro rfl; exact e (hk.one _ _ _ hc ht)
        rw [if_neg e, if_neg hne]; exact ih.run t' c' hc
    · have hne : c ≠ c' := by
        rintro rfl; rw [hk.busy t _ ht] at hc; simp at hc
      simp only [run, ev, own, if_neg hne]; exact ih.idle c' hc

/-! ## Theorems -/

/-- **C87**: while a thread executes a context, the thread's signal mask is the one of that context: what the context's own code installed last, or what it began with, however often it
was suspended and on whatever threads it and others have run in between. -/
theorem C87_runs_own {cur : Tid → Option CtxId} {tr : List (Ev α)} (h : Hist cur tr) {t : Tid} {c : CtxId} (hc : cur t = some c) :
    ∃ v, own c tr = some v ∧ (run tr).thr t = some v := by
  obtain ⟨k, hl, rfl⟩ := h.hist.legal
  have := (inv hl).run t c hc
  cases ho : own c tr with
  | none => exact absurd ho this.2
  | some v => exact ⟨v, rfl, by rw [this.1, ho]⟩

theorem create_events {s s' : UFiber.State} {t : Tid} {xs : List Var} {fn : Bool} {a : α} (hs : UFiber.step s t (.create xs .success) = .ok s') :
    events s s' t fn a = [.create s.nextCtx a] := by
  obtain ⟨c, hc, he⟩ := UFiber.step_eff hs
  cases he with
  | @create k ls rest xs hf ha s2 h2 =>
    have hsame := UFiber.capture_same ({ s with nextCtx := s.nextCtx + 1 }.addLog (.alloc s.nextCtx)) s.nextCtx xs
    rw [← h2] at hsame
    obtain ⟨e3, e4, _, _, e6, _, _, e5, e2, _⟩ := hsame
    have hl : ∀ s3 : UFiber.State, s3.cur = s.cur → s3.nextTid = s.nextTid → s3.log = [.alloc s.nextCtx] ++ s.log → events s s3 t fn a = [.create s.nextCtx a] := by
      intro s3 g1 g2 g3
      simp [events, newLog_of g3, g1, g2, hc, logEv]
    exact hl _ e3 e6 e5
  | destroy h1 _ => cases h1

/-- **C87**: a new fiber begins with the mask of the context that created it, at the time of its creation. -/
theorem C87_fiber_inherits {s s' : UFiber.State} {tr : List (Ev α)} {t : Tid} {d : CtxId} {xs : List Var} {a : α} (h : FTrace s tr) (hd : UFiber.RunsOn s t d)
    (hs : UFiber.step s t (.create xs .success) = .ok s') (ha : (run tr).thr t = some a) :
    own s.nextCtx (events s s' t (isWith (.create xs .success)) a ++ tr) = own d tr ∧ own d tr ≠ none := by
  obtain ⟨v, h1, h2⟩ := C87_runs_own (.inl ⟨s, h, rfl⟩) hd
  rw [h2] at ha; cases ha
  rw [create_events hs, h1]
  exact ⟨by simp [own], by simp⟩

/-- **C87**: so does the context of a `callcc`; it is entered at once, so the mask of the thread does not change. -/
theorem C87_callcc_inherits {s : UCont.State} {tr : List (Ev α)} {t : Tid} {d : CtxId} {k : Verif.Fiber.UKind} {ls : List Var} {rest : List UCont.Frame} {xs : List Var} {a : α}
    (h : CTrace s tr) (hu : UCont.UserCode s t d k ls rest) (hx : ∀ x ∈ xs, UCont.Handle s x) (ha : (run tr).thr t = some a) :
    ∃ s' n, UCont.step s t (.callcc xs .success) = .ok s' ∧ UCont.RunsOn s' t n ∧ CTrace s' (events s.abs s'.abs t false a ++ tr) ∧
      own n (events s.abs s'.abs t false a ++ tr) = own d tr ∧ (run (events s.abs s'.abs t false a ++ tr)).thr t = (run tr).thr t := by
  have hr := h.trace.reachable
  obtain ⟨s', p, x, n, hs, habs, -, hrun, -, -, hsus, -, hlog, -, -⟩ := UCont.C68_callcc hr hu hx
  have ht : CTrace s' (events s.abs s'.abs t false a ++ tr) := .step h hs ha
  have hnt : s'.abs.nextTid = s.abs.nextTid := by
    have hr' := UCont.step_run_ok hr hs
    simp only [UCont.fiberOps, UFiber.run] at hr'
    split at hr'
    · rename_i s1 hs1
      split at hr'
      · rename_i s2 hs2
        simp only [UFiber.Res.ok.injEq] at hr'
        subst hr'
        obtain ⟨c1, c2, l, c3⟩ := create_log hs1
        obtain ⟨d1, l', d2⟩ := resume_log hs2
        rw [d1, c2]
      · exact absurd hr' (by rename_i r hr2; intro h; exact hr2 _ h)
    · exact absurd hr' (by rename_i r hr2; intro h; exact hr2 _ h)
  have hdn : d ≠ n := by
    rintro rfl
    have h1 : stOf (s.abs.status d) = .busy := (Trace.legal h.trace.trace).ok.busy t d hu.1
    rw [show s.abs.status d = .absent from habs] at h1
    cases h1
  have hev : events s.abs s'.abs t false a = [.switch t d n (decide (s'.abs.status d = .terminated)) false, .create n a] := by
    have hc : s.abs.cur t = some d := hu.1
    have hc' : s'.abs.cur t = some n := hrun
    have hl : s'.abs.log = [.enter n, .alloc n] ++ s.abs.log := hlog
    rw [events, newLog_of hl, hc, hc', hnt]
    simp only [if_neg hdn, if_true, List.append_nil]
    rfl
  obtain ⟨v, h1, h2⟩ := C87_runs_own (.inr ⟨s, h, rfl⟩) hu.1
  rw [h2] at ha; cases ha
  obtain ⟨w, h3, h4⟩ := C87_runs_own (.inr ⟨s', ht, rfl⟩) hrun
  refine ⟨s', n, hs, hrun, ht, ?_, ?_⟩
  · rw [hev, h1]; simp [own]
  · rw [h4, h2, ← h3, hev]; simp [own]

/-! ## A concrete history -/

/-- as `go`, but the mask is the thread's; a program gives masks only when user code changes its own -/
def go : UFiber.State → List (Ev α) → List (Tid × (Verif.Fiber.Op ⊕ α)) → UFiber.State × List (Ev α)
  | s, tr, [] => (s, tr)
  | s, tr, (t, .inl op) :: h => match UFiber.step s t op, (run tr).thr t with
    | .ok s', some a => if s'.early then (s, tr) else go s' (events s s' t (isWith op) a ++ tr) h
    | _, _ => (s, tr)
  | s, tr, (t, .inr a) :: h => match s.cur t with
    | some c => go s (.use t c a :: tr) h
    | none => (s, tr)

theorem go_trace (h : List (Tid × (Verif.Fiber.Op ⊕ α))) : ∀ {s : UFiber.State} {tr : List (Ev α)}, FTrace s tr → FTrace (go s tr h).1 (go s tr h).2 := by
  induction h with
  | nil => intro s tr ht; exact ht
  | cons x h ih =>
    obtain ⟨t, o⟩ := x
    intro s tr ht
    cases o with
    | inl op =>
      simp only [go]
      split
      · rename_i s' a hs ha
        split
        · exact ht
        · rename_i he; exact ih (.step ht hs (by simpa using he) ha)
      · exact ht
    | inr a =>
      simp only [go]
      split
      · rename_i c hc; exact ih (.use a ht hc)
      · exact ht

/-- main (mask 5) creates a fiber, then sets mask 7 and starts thread 1, which sets mask 8 and resumes the fiber: the thread now has mask 5; the fiber sets 9 and resumes thread 1's
context: 8 again -/
def ex : List (Tid × (Verif.Fiber.Op ⊕ Nat)) :=
  [(0, .inl (.create [] .success)), (0, .inr 7), (0, .inl .spawn), (1, .inr 8), (1, .inl (.resume 0))]
def ex2 : List (Tid × (Verif.Fiber.Op ⊕ Nat)) := ex ++ [(1, .inr 9), (1, .inl (.resume 1))]

def end_ (p : List (Tid × (Verif.Fiber.Op ⊕ Nat))) : UFiber.State × List (Ev Nat) := go UFiber.init [.thread 0 0 5] p
theorem end_hist (p : List (Tid × (Verif.Fiber.Op ⊕ Nat))) : Hist (end_ p).1.cur (end_ p).2 := .inl ⟨_, go_trace p (.init 5), rfl⟩

example : (end_ ex).1.cur 1 = some 1 ∧ (run (end_ ex).2).thr 1 = some 5 ∧ (run (end_ ex).2).thr 0 = some 7 := by decide
example : (end_ ex2).1.cur 1 = some 2 ∧ (run (end_ ex2).2).thr 1 = some 8 ∧ own 1 (end_ ex2).2 = some 9 := by decide
example : FTrace (α := Nat) UFiber.init [.thread 0 0 5] ∧ UFiber.RunsOn UFiber.init 0 0 ∧ (∃ s', UFiber.step UFiber.init 0 (.create [] .success) = .ok s') ∧
    (run [.thread 0 0 5]).thr 0 = some 5 := ⟨.init 5, rfl, ⟨_, rfl⟩, rfl⟩
example : CTrace (α := Nat) UCont.init [.thread 0 0 5] ∧ UCont.UserCode UCont.init 0 0 .main [] [] ∧ (run [.thread 0 0 5]).thr 0 = some 5 :=
  ⟨.init 5, ⟨rfl, rfl⟩, rfl⟩

end Verif.Hooks.Mask
