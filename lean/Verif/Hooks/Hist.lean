import Verif.Hooks.Trace
import Verif.UCont.Props

/-! # Histories of programs that use `fiber` or `continuation` on ucontext/winfib, with their switch events -/

namespace Verif.Hooks
open Verif.Fiber (CtxId Var Tid Kind Exc Mode UKind Frame Status Event CreateOutcome upd upd_apply)
open Verif.UFiber (Eff Arr sw)

def isWithC : UCont.Op → Bool
  | .resumeWith _ => true
  | _ => false

/-- As `Trace`, for `continuation` (`continuation_ucontext.hpp`): `callcc` creates a record (281-323) and switches to it. -/
inductive CTrace {α : Type} : UCont.State → List (Ev α) → Prop
  | init (a : α) : CTrace UCont.init [.thread 0 0 a]
  | step {s s' : UCont.State} {tr : List (Ev α)} {t : Tid} {op : UCont.Op} (a : α) :
      CTrace s tr → UCont.step s t op = .ok s' → CTrace s' (events s.abs s'.abs t (isWithC op) a ++ tr)
  | use {s : UCont.State} {tr : List (Ev α)} {t : Tid} {c : CtxId} (a : α) : CTrace s tr → s.cur t = some c → CTrace s (.use t c a :: tr)

theorem CTrace.reachable {α : Type} {s : UCont.State} {tr : List (Ev α)} (h : CTrace s tr) : UCont.Reachable s := by
  induction h with
  | init => exact .init
  | step _ _ hs ih => exact .step ih hs
  | use _ _ _ ih => exact ih

theorem events_append {α : Type} {a : α} {s s1 s' : UFiber.State} {t : Tid} {fn fn' : Bool} {l l' : List Event} (hc : s1.cur t = s.cur t)
    (hn : s'.nextTid = s1.nextTid) (hn' : s1.nextTid = s.nextTid) (h1 : s1.log = l ++ s.log) (h2 : s'.log = l' ++ s1.log) :
    events s s' t fn a = events s1 s' t fn a ++ events s s1 t fn' a := by
  have h3 : s'.log = (l' ++ l) ++ s.log := by rw [h2, h1, List.append_assoc]
  simp only [events, newLog_of h1, newLog_of h2, newLog_of h3, hc, hn, hn']
  cases hcc : s.cur t with
  | none => simp
  | some c => simp

theorem create_log {s s' : UFiber.State} {t : Tid} {xs : List Var} (hs : UFiber.step s t (.create xs .success) = .ok s') :
    s'.cur = s.cur ∧ s'.nextTid = s.nextTid ∧ ∃ l, s'.log = l ++ s.log := by
  obtain ⟨c, hc, he⟩ := UFiber.step_eff hs
  cases he with
  | @create k ls rest xs hf ha s2 h2 =>
    have hsame := UFiber.capture_same ({ s with nextCtx := s.nextCtx + 1 }.addLog (.alloc s.nextCtx)) s.nextCtx xs
    rw [← h2] at hsame
    obtain ⟨e3, e4, _, _, e6, _, _, e5, e2, _⟩ := hsame
    exact ⟨e3, e6, [.alloc s.nextCtx], e5⟩
  | destroy h1 _ => cases h1

theorem resume_log {s s' : UFiber.State} {t : Tid} {x : Var} (hs : UFiber.step s t (.resume x) = .ok s') :
    s'.nextTid = s.nextTid ∧ ∃ l, s'.log = l ++ s.log := by
  obtain ⟨c, hc, he⟩ := UFiber.step_eff hs
  cases he with
  | resume hf ha hv hs hd =>
    obtain ⟨_, _, _, h4, _, l, h6, _⟩ := quiet_arr hd
    exact ⟨h4, l, h6⟩
  | destroy h1 _ => cases h1

theorem CTrace.trace {α : Type} {s : UCont.State} {tr : List (Ev α)} (h : CTrace s tr) : Trace s.abs tr := by
  induction h with
  | init a =>
    have : UCont.init.abs = UFiber.init := by
      simp only [UCont.State.abs, UCont.init, UFiber.init]; congr; funext c; split <;> rfl
    rw [this]; exact .init a
  | @step s s' tr t op a h hs ih =>
    have hr := UCont.step_run_ok h.reachable hs
    have he : s'.abs.early = false := (UCont.reachable_facts (.step h.reachable hs)).good.early
    have one : ∀ op', UCont.fiberOps s t op = [(t, op')] → isWith op' = isWithC op →
        Trace s'.abs (events s.abs s'.abs t (isWithC op) a ++ tr) := by
      intro op' ho hw
      rw [ho, UCont.run_single] at hr
      rw [← hw]; exact .step a ih hr he
    cases op with
    | callcc xs o =>
      cases o with
      | success =>
        simp only [UCont.fiberOps, UFiber.run] at hr
        split at hr
        · rename_i s1 hs1
          split at hr
          · rename_i s2 hs2
            simp only [UFiber.Res.ok.injEq] at hr
            subst hr
            obtain ⟨c1, c2, l, c3⟩ := create_log hs1
            obtain ⟨d1, l', d2⟩ := resume_log hs2
            have t1 := Trace.step a ih hs1 (UFiber.step_early hs2 he)
            have t2 := Trace.step a t1 hs2 he
            rw [← List.append_assoc] at t2
            rw [events_append (s1 := s1) (fn' := isWith (.create xs .success)) (by rw [c1]) d1 c2 c3 d2]
            exact t2
          · exact absurd hr (by rename_i r hr2; intro h; exact hr2 _ h)
        · exact absurd hr (by rename_i r hr2; intro h; exact hr2 _ h)
      | allocThrows n => exact one _ rfl rfl
      | fnThrows => exact one _ rfl rfl
    | tick =>
      simp only [UCont.fiberOps] at one
      split at one
      · exact one _ rfl rfl
      · exact one _ rfl rfl
    | _ => exact one _ rfl rfl
  | use a _ hc ih => exact .use a ih hc

/-- `Hist cur tr`: a program using `fiber` (and destroying no never-started one), or one using `continuation`, has gone through events `tr`, latest first, and
now thread `t` executes context `cur t`. -/
def Hist {α : Type} (cur : Tid → Option CtxId) (tr : List (Ev α)) : Prop :=
  (∃ s, Trace s tr ∧ s.cur = cur) ∨ ∃ s, CTrace s tr ∧ s.cur = cur

theorem Hist.legal {α : Type} {cur : Tid → Option CtxId} {tr : List (Ev α)} (h : Hist cur tr) : ∃ k : Trk, Legal k tr ∧ k.run = cur := by
  rcases h with ⟨s, h, rfl⟩ | ⟨s, h, rfl⟩
  · exact ⟨_, h.legal, rfl⟩
  · exact ⟨_, h.trace.legal, rfl⟩

/-! ## Running concrete histories -/

/-- a program: operations and executions of user code, each with the answer of the environment -/
def go {α : Type} : UFiber.State → List (Ev α) → List (Tid × Option Verif.Fiber.Op × α) → UFiber.State × List (Ev α)
  | s, tr, [] => (s, tr)
  | s, tr, (t, some op, a) :: h => match UFiber.step s t op with
    | .ok s' => if s'.early then (s, tr) else go s' (events s s' t (isWith op) a ++ tr) h
    | _ => (s, tr)
  | s, tr, (t, none, a) :: h => match s.cur t with
    | some c => go s (.use t c a :: tr) h
    | none => (s, tr)

theorem go_trace {α : Type} (h : List (Tid × Option Verif.Fiber.Op × α)) : ∀ {s : UFiber.State} {tr : List (Ev α)}, Trace s tr →
    Trace (go s tr h).1 (go s tr h).2 := by
  induction h with
  | nil => intro s tr ht; exact ht
  | cons x h ih =>
    obtain ⟨t, o, a⟩ := x
    intro s tr ht
    cases o with
    | some op =>
      simp only [go]
      split
      · rename_i s' hs
        split
        · exact ht
        · rename_i he; exact ih (.step a ht hs (by simpa using he))
      · exact ht
    | none =>
      simp only [go]
      split
      · rename_i c hc; exact ih (.use a ht hc)
      · exact ht

/-- the events of a program that starts in the main function of thread 0 -/
def trOf {α : Type} (a0 : α) (h : List (Tid × Option Verif.Fiber.Op × α)) : List (Ev α) := (go UFiber.init [.thread 0 0 a0] h).2
def curOf {α : Type} (a0 : α) (h : List (Tid × Option Verif.Fiber.Op × α)) : Tid → Option CtxId := (go UFiber.init [.thread 0 0 a0] h).1.cur

theorem hist_of {α : Type} (a0 : α) (h : List (Tid × Option Verif.Fiber.Op × α)) : Hist (curOf a0 h) (trOf a0 h) :=
  .inl ⟨_, go_trace h (.init a0), rfl⟩

end Verif.Hooks
