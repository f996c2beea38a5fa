import Verif.Hooks.Proto
import Verif.UFiber.Log

/-!
# The implementations emit legal sequences of switch events

`events` reads off a step of the `fiber` machine on ucontext/winfib (`Verif.UFiber.Model`) which of the instrumented places of the source it passes; `Trace`
collects them over a history.  The instrumentation itself has no influence on the machine.
-/

namespace Verif.Hooks
open Verif.Fiber (CtxId Var Tid Kind Exc Mode UKind Frame Status Event Op CreateOutcome upd upd_apply)
open Verif.UFiber

/-- a record is created (`fiber_ucontext.hpp` 306-407) or destroyed (258-265) -/
def logEv {α : Type} (a : α) : Event → Option (Ev α)
  | .alloc n => some (.create n a)
  | .dealloc n => some (.free n)
  | _ => none

/-- The events of a step of thread `t` from `s` to `s'`, latest first: `current()` changed (`fiber_ucontext.hpp` 140-145, 174-179) or the thread ended; records
created or destroyed; a thread was started.  `fn`: the step is a call of `resume_with()`. -/
def events {α : Type} (s s' : State) (t : Tid) (fn : Bool) (a : α) : List (Ev α) :=
  (match s.cur t, s'.cur t with
    | some c, some w => if c = w then [] else [.switch t c w (decide (s'.status c = .terminated)) fn]
    | some c, none => [.exit t c]
    | none, _ => []) ++
  (s'.log.take (s'.log.length - s.log.length)).filterMap (logEv a) ++
  (if s'.nextTid = s.nextTid then [] else [.thread s.nextTid s.nextCtx a])

def isWith : Op → Bool
  | .resumeWith _ => true
  | _ => false

/-- `Trace s tr`: some history, in which no never-started fiber was destroyed, leads to `s`, and events `tr` (latest first) have occurred; user code executes
in between, and the environment answers what it likes. -/
inductive Trace {α : Type} : State → List (Ev α) → Prop
  | init (a : α) : Trace init [.thread 0 0 a]
  | step {s s' : State} {tr : List (Ev α)} {t : Tid} {op : Op} (a : α) :
      Trace s tr → step s t op = .ok s' → s'.early = false → Trace s' (events s s' t (isWith op) a ++ tr)
  | use {s : State} {tr : List (Ev α)} {t : Tid} {c : CtxId} (a : α) : Trace s tr → s.cur t = some c → Trace s (.use t c a :: tr)

theorem Trace.early {α : Type} {s : State} {tr : List (Ev α)} (h : Trace s tr) : s.early = false := by
  induction h with
  | init => rfl
  | step _ _ _ he => exact he
  | use _ _ _ ih => exact ih

theorem Trace.reachable {α : Type} {s : State} {tr : List (Ev α)} (h : Trace s tr) : Reachable s := by
  induction h with
  | init => exact .init
  | step _ _ hs _ ih => exact .step ih hs
  | use _ _ _ ih => exact ih

/-! ## The protocol state of a machine state -/

def stOf : Status → St
  | .absent => .fresh
  | .raw => .fresh
  | .suspended => .idle
  | .running _ => .busy
  | .terminated => .done
  | .freed => .gone
  | .ended => .gone

def trk (s : State) : Trk := ⟨s.cur, fun c => stOf (s.status c), s.root⟩

/-- what lies at the bottom of a stack: a thread's main function, or `run` -/
def bot : List Frame → Option Bool
  | [] => none
  | f :: [] => match f with
    | .user .main _ _ => some true
    | .entryRun => some false
    | .entryJump => some false
    | .exitJump => some false
    | _ => none
  | _ :: f :: fs => bot (f :: fs)

theorem bot_cons {f : Frame} {fs : List Frame} (h : fs ≠ []) : bot (f :: fs) = bot fs := by
  cases fs with
  | nil => exact absurd rfl h
  | cons => rfl

theorem bot_user {k : UKind} {ls ls' : List Var} {m m' : Mode} (rest : List Frame) : bot (.user k ls m :: rest) = bot (.user k ls' m' :: rest) := by
  cases rest with
  | nil => cases k <;> rfl
  | cons => rfl

theorem bot_under {g : Frame} {k : UKind} {ls ls' : List Var} {m m' : Mode} (rest : List Frame) :
    bot (.user k ls m :: rest) = bot (g :: .user k ls' m' :: rest) := (bot_user rest).trans (bot_cons (by simp)).symm

/-- the records of threads' main contexts are those with a main function at the bottom -/
def RI (s : State) : Prop := ∀ c, s.frames c ≠ [] → bot (s.frames c) = some (s.root c)

theorem ri_set {s s' : State} (h : RI s) {c : CtxId} {fs : List Frame} (hf : s'.frames = upd s.frames c fs) (hr : s'.root = s.root)
    (hb : fs ≠ [] → bot fs = some (s.root c)) : RI s' := by
  intro d hd
  rw [hf, hr] at *
  simp only [upd_apply] at hd ⊢
  split at hd
  · next e => subst e; simpa using hb hd
  · next e => rw [if_neg e]; exact h d hd

theorem ri_same {s s' : State} (h : RI s) (hf : s'.frames = s.frames) (hr : s'.root = s.root) : RI s' := by
  intro d hd; rw [hf, hr] at *; exact h d hd

theorem ri_arr {s s' : State} {w : CtxId} (h : RI s) (ha : Arr s w s') : RI s' := by
  cases ha with
  | @entry rest hf =>
    refine ri_set h (c := w) rfl rfl (fun _ => ?_)
    rw [← h w (by simp [hf]), hf]
    cases rest <;> rfl
  | unwind hf _ =>
    refine ri_set h (c := w) rfl rfl (fun _ => ?_)
    rw [← h w (by simp [hf]), hf]; exact bot_under _
  | ontop hf _ _ =>
    refine ri_set h (c := w) rfl rfl (fun _ => ?_)
    rw [← h w (by simp [hf]), hf]; rfl
  | ret hf _ _ =>
    refine ri_set h (c := w) rfl rfl (fun _ => ?_)
    rw [← h w (by simp [hf]), hf]; exact bot_under _
  | dtor hf _ _ =>
    refine ri_set h (c := w) rfl rfl (fun _ => ?_)
    rw [← h w (by simp [hf]), hf]; rfl

theorem ri_sw {s s1 : State} {t : Tid} {c w : CtxId} {lv : Status} (h : RI s1) (hs : s = sw s1 t c w lv) : RI s :=
  ri_same h (by rw [hs]; rfl) (by rw [hs]; rfl)

/-- what `PreDst` leaves alone -/
structure Quiet (s s' : State) : Prop where
  cur : s'.cur = s.cur
  status : s'.status = s.status
  root : s'.root = s.root
  nextTid : s'.nextTid = s.nextTid
  nextCtx : s'.nextCtx = s.nextCtx
  log : ∃ l, s'.log = l ++ s.log ∧ ∀ e ∈ l, (∀ n, e ≠ .alloc n) ∧ ∀ n, e ≠ .dealloc n

theorem quiet_of {s s' : State} (h1 : s'.cur = s.cur) (h2 : s'.status = s.status) (h3 : s'.root = s.root) (h4 : s'.nextTid = s.nextTid)
    (h5 : s'.nextCtx = s.nextCtx) (h6 : s'.log = s.log) : Quiet s s' := ⟨h1, h2, h3, h4, h5, [], by simp [h6], by simp⟩

theorem quiet_arr {s s' : State} {w : CtxId} (ha : Arr s w s') : Quiet s s' := by
  cases ha with
  | entry => exact ⟨rfl, rfl, rfl, rfl, rfl, [.enter w], rfl, by simp⟩
  | unwind => exact quiet_of rfl rfl rfl rfl rfl rfl
  | @ontop _ _ _ _ i => exact ⟨rfl, rfl, rfl, rfl, rfl, [.ontop i w], rfl, by simp⟩
  | ret => exact quiet_of rfl rfl rfl rfl rfl rfl
  | dtor => exact quiet_of rfl rfl rfl rfl rfl rfl

theorem quiet_pre {s s' : State} {c v : CtxId} {op : Op} (ha : PreDst s c v op s') : Quiet s s' := by
  cases ha <;> exact quiet_of rfl rfl rfl rfl rfl rfl

theorem ri_pre {s s' : State} {c v : CtxId} {op : Op} (h : RI s) (ha : PreDst s c v op s') : RI s' := by
  cases ha with
  | moveAssign => exact ri_same h rfl rfl
  | dropLoc hf => exact ri_set h (c := c) rfl rfl (fun _ => by rw [← h c (by simp [hf]), hf]; exact bot_user _)
  | dropHeap => exact ri_same h rfl rfl
  | tick hf => exact ri_set h (c := c) rfl rfl (fun _ => by rw [← h c (by simp [hf]), hf]; exact bot_user _)
  | exit => exact ri_same h rfl rfl

theorem newLog_of {α : Type} {a : α} {s s' : State} {l : List Event} (h : s'.log = l ++ s.log) :
    (s'.log.take (s'.log.length - s.log.length)).filterMap (logEv a) = l.filterMap (logEv a) := by
  rw [h]; simp

theorem logEv_nil {α : Type} {a : α} {l : List Event} (h : ∀ e ∈ l, (∀ n, e ≠ .alloc n) ∧ ∀ n, e ≠ .dealloc n) :
    l.filterMap (logEv a) = [] := by
  rw [List.filterMap_eq_nil_iff]
  intro e he
  have := h e he
  cases e <;> simp only [logEv]
  · exact absurd rfl (this.1 _)
  · exact absurd rfl (this.2 _)

/-- a step without events -/
theorem quiet_events {α : Type} {a : α} {s s' : State} {t : Tid} {fn : Bool} (h : Quiet s s') : events s s' t fn a = [] ∧ trk s' = trk s := by
  obtain ⟨h1, h2, h3, h4, h5, l, h6, h7⟩ := h
  constructor
  · simp only [events, newLog_of h6, logEv_nil h7, h1, h4]
    cases s.cur t <;> simp
  · simp only [trk, h1, h2, h3]

/-- a step that ends with a switch -/
theorem switch_events {α : Type} {a : α} {s s1 s' : State} {t : Tid} {c w : CtxId} {lv : Status} {fn : Bool} (hc : s.cur t = some c)
    (hs : s.status w = .suspended) (hr : s.status c = .running t) (hq : Quiet s s1) (hq' : Quiet (sw s1 t c w lv) s') :
    events s s' t fn a = [.switch t c w (decide (lv = .terminated)) fn] ∧
      trk s' = ⟨upd s.cur t (some w), upd (upd (fun c => stOf (s.status c)) c (stOf lv)) w .busy, s.root⟩ := by
  obtain ⟨h1, h2, h3, h4, h5, l, h6, h7⟩ := hq
  obtain ⟨g1, g2, g3, g4, g5, m, g6, g7⟩ := hq'
  have hne : c ≠ w := by intro e; subst e; rw [hr] at hs; cases hs
  have hlog : s'.log = (m ++ l) ++ s.log := by rw [g6]; simp only [sw]; rw [h6, List.append_assoc]
  have hno : ∀ e ∈ m ++ l, (∀ n, e ≠ .alloc n) ∧ ∀ n, e ≠ .dealloc n := by
    intro e he; rcases List.mem_append.1 he with he | he
    · exact g7 e he
    · exact h7 e he
  constructor
  · simp only [events, newLog_of hlog, logEv_nil hno, g1, g2, g4, sw, hc, h4]
    simp [upd_apply, hne]
  · simp only [trk, g1, g2, g3, sw, h1, h2, h3]
    congr 1
    funext d
    simp only [upd_apply]
    split
    · rfl
    · split <;> rfl

/-! ## Legality -/

theorem ri_init : RI init := by
  intro c hc
  simp only [init] at hc ⊢
  split at hc
  · next e => subst e; rfl
  · exact absurd rfl hc

theorem ri_step {s s' : State} {t : Tid} {op : Op} (hi : Inv s) (h : RI s) (hs : step s t op = .ok s') : RI s' := by
  obtain ⟨c, hc, he⟩ := step_eff hs
  have hrun : s.status c = .running t := (hi.ci.curRun t c).1 hc
  have push : ∀ {f : Frame} {rest : List Frame} {g : Frame}, s.frames c = f :: rest → bot (g :: f :: rest) = some (s.root c) := by
    intro f rest g hf; rw [bot_cons (by simp), ← hf]; exact h c (by simp [hf])
  have user : ∀ {k : UKind} {ls ls' : List Var} {m m' : Mode} {rest : List Frame}, s.frames c = .user k ls m :: rest →
      bot (.user k ls' m' :: rest) = some (s.root c) := by
    intro k ls ls' m m' rest hf; rw [← h c (by simp [hf]), hf]; exact bot_user _
  have pop : ∀ {f : Frame} {rest : List Frame}, s.frames c = f :: rest → rest ≠ [] → bot rest = some (s.root c) := by
    intro f rest hf hn; rw [← h c (by simp [hf]), hf, bot_cons hn]
  have hnc : c ≠ s.nextCtx := by
    intro e; have := (hi.ci.absent c).2 (Nat.le_of_eq e.symm); rw [hrun] at this; cases this
  have fin : ∀ {p : Option CtxId} {x : Var} {s'}, s.root c = false → Fin (s.kill x) t c p s' → RI s' := by
    intro p x s' hrt hF
    cases hF with
    | mk hp hs ha =>
      refine ri_arr (ri_sw (s1 := _) ?_ rfl) ha
      exact ri_set h (c := c) rfl rfl (fun _ => by rw [hrt]; rfl)
  have fnroot : ∀ {ls m rest}, s.frames c = .user .fn ls m :: rest → s.root c = false := by
    intro ls m rest hf
    have h1 := h c (by simp [hf])
    have hwf := hi.ci.wf c (by rw [hrun]; simp)
    rw [hf] at hwf
    have := UFiber.adj_fn hwf.1
    rw [hf, this] at h1
    simpa [bot] using h1.symm
  cases he with
  | newHeap => exact ri_same h rfl rfl
  | newLocal hf => exact ri_set h (c := c) rfl rfl (fun _ => user hf)
  | moveHeap => exact ri_same h rfl rfl
  | moveLocal hf => exact ri_set h (c := c) rfl rfl (fun _ => user hf)
  | moveSelf => exact h
  | moveAssign => exact ri_same h rfl rfl
  | swap => exact ri_same h rfl rfl
  | dropLoc hf => exact ri_set h (c := c) rfl rfl (fun _ => user hf)
  | dropHeap => exact ri_same h rfl rfl
  | @create k ls rest xs hf ha s2 h2 =>
    have hsame := capture_same ({ s with nextCtx := s.nextCtx + 1 }.addLog (.alloc s.nextCtx)) s.nextCtx xs
    rw [← h2] at hsame
    obtain ⟨_, _, e1, _, _, _, _, _, e2, _⟩ := hsame
    simp only [State.addLog] at e1 e2
    intro d hd
    simp only [upd_apply] at hd ⊢
    rw [e1, e2] at *
    split at hd
    · next e => subst e; rw [if_pos rfl, if_neg hnc]; exact user hf
    · next e =>
      rw [if_neg e]
      split at hd
      · next e' => rw [if_pos e', if_pos e']; rfl
      · next e' => rw [if_neg e', if_neg e']; exact h d hd
  | createThrows hf => exact ri_set h (c := c) rfl rfl (fun _ => user hf)
  | resume hf _ _ _ hd =>
    refine ri_arr (ri_sw (s1 := _) ?_ rfl) hd
    exact ri_set h (c := c) rfl rfl (fun _ => by rw [hf]; exact push hf)
  | resumeWith hf _ _ _ hd =>
    refine ri_arr (ri_sw (s1 := _) ?_ rfl) hd
    exact ri_set h (c := c) rfl rfl (fun _ => by rw [hf]; exact push hf)
  | call hf => exact ri_set h (c := c) rfl rfl (fun _ => by exact push hf)
  | cleanup hf => exact ri_set h (c := c) rfl rfl (fun _ => by exact push hf)
  | ret hf => exact ri_set h (c := c) rfl rfl (fun _ => user hf)
  | retHandle hf => exact ri_set h (c := c) rfl rfl (fun _ => user hf)
  | throw hf => exact ri_set h (c := c) rfl rfl (fun _ => user hf)
  | spawn hf =>
    intro d hd
    simp only [upd_apply] at hd ⊢
    split at hd
    · next e => rw [if_pos e, if_pos e]; rfl
    · next e => rw [if_neg e, if_neg e]; exact h d hd
  | destroy h1 h2 =>
    have h' := ri_pre h h1
    cases h2 with
    | root => exact ri_same h' rfl rfl
    | term =>
      rename_i s1 v _ _ _
      refine ri_set h' (c := c) rfl rfl (fun _ => ?_)
      have : s1.frames c ≠ [] := by cases h1 <;> simp_all [upd_apply]
      rw [bot_cons this]; exact h' c this
    | unwind _ _ _ ha =>
      rename_i s1 v _ _ _
      refine ri_arr (ri_sw (s1 := _) ?_ rfl) ha
      have : s1.frames c ≠ [] := by cases h1 <;> simp_all [upd_apply]
      exact ri_set h' (c := c) rfl rfl (fun _ => by rw [bot_cons this]; exact h' c this)
  | tickLocal hf => exact ri_set h (c := c) rfl rfl (fun _ => user hf)
  | exitCap => exact ri_same h rfl rfl
  | catchUser hf => exact ri_set h (c := c) rfl rfl (fun hn => pop hf hn)
  | swallow hf => exact ri_set h (c := c) rfl rfl (fun hn => pop hf hn)
  | swallowNone hf => exact ri_set h (c := c) rfl rfl (fun hn => pop hf hn)
  | propCall hf =>
    exact ri_set h (c := c) rfl rfl (fun _ => by rw [← pop hf (by simp)]; exact bot_user _)
  | propFn hf hd => exact fin (fnroot hf) hd
  | propOntop hf =>
    exact ri_set h (c := c) rfl rfl (fun _ => by rw [← pop hf (by simp)]; exact bot_under _)
  | leaveMain => exact ri_set h (c := c) rfl rfl (fun hn => absurd rfl hn)
  | leaveCall hf => exact ri_set h (c := c) rfl rfl (fun hn => pop hf hn)
  | leaveFn hf hd => exact fin (fnroot hf) hd
  | leaveOntop hf =>
    exact ri_set h (c := c) rfl rfl (fun _ => by rw [← pop hf (by simp)]; exact bot_under _)
  | @exitDtor n v rest hf _ hs =>
    have h1 : RI { s with frames := upd s.frames n [] } := ri_set h (c := n) rfl rfl (fun hn => absurd rfl hn)
    refine ri_set h1 (c := c) rfl rfl (fun hn => ?_)
    rw [← pop hf (by simp), bot_cons hn]
  | @exitDone n rest hf _ hs _ =>
    have h1 : RI { s with frames := upd s.frames n [] } := ri_set h (c := n) rfl rfl (fun hn => absurd rfl hn)
    exact ri_set h1 (c := c) rfl rfl (fun hn => pop hf hn)

theorem Trace.ri {α : Type} {s : State} {tr : List (Ev α)} (h : Trace s tr) : RI s := by
  induction h with
  | init => exact ri_init
  | step a h hs _ ih => exact ri_step (reachable_inv h.reachable h.early) ih hs
  | use _ _ _ ih => exact ih

/-- One step is legal. -/
theorem legal_step {α : Type} {s s' : State} {t : Tid} {op : Op} {a : α} {fn : Bool} {tr : List (Ev α)} (hi : Inv s) (hri : RI s)
    (hs : step s t op = .ok s') (hl : Legal (trk s) tr) : Legal (trk s') (events s s' t fn a ++ tr) := by
  obtain ⟨c, hc, he⟩ := step_eff hs
  have hrun : s.status c = .running t := (hi.ci.curRun t c).1 hc
  have quiet : Quiet s s' → Legal (trk s') (events s s' t fn a ++ tr) := by
    intro hq
    rw [(quiet_events (a := a) (t := t) (fn := fn) hq).1, (quiet_events (a := a) (t := t) (fn := fn) hq).2]; exact hl
  have switch : ∀ {w : CtxId} {lv : Status} {s1 : State}, s.status w = .suspended → lv = .suspended ∨ (lv = .terminated ∧ s.root c = false) → Quiet s s1 →
      Quiet (sw s1 t c w lv) s' → Legal (trk s') (events s s' t fn a ++ tr) := by
    intro w lv s1 hw hlv hq hq'
    obtain ⟨e1, e2⟩ := switch_events (a := a) (fn := fn) hc hw hrun hq hq'
    rw [e1, e2]
    have hst : stOf lv = (if decide (lv = .terminated) = true then St.done else St.idle) := by
      rcases hlv with rfl | ⟨rfl, _⟩ <;> rfl
    rw [hst]
    refine Legal.switch hl hc (by simp only [trk, hw]; rfl) ?_
    intro hf
    rcases hlv with rfl | ⟨_, h⟩
    · simp at hf
    · exact h
  have fnroot : ∀ {ls m rest}, s.frames c = .user .fn ls m :: rest → s.root c = false := by
    intro ls m rest hf
    have h1 := hri c (by simp [hf])
    have hwf := hi.ci.wf c (by rw [hrun]; simp)
    rw [hf] at hwf
    have := UFiber.adj_fn hwf.1
    rw [hf, this] at h1
    simpa [bot] using h1.symm
  have fin : ∀ {p : Option CtxId} {x : Var}, s.root c = false → Fin (s.kill x) t c p s' → Legal (trk s') (events s s' t fn a ++ tr) := by
    intro p x hrt hF
    cases hF with
    | mk hp hs ha => exact switch (s1 := _) hs (.inr ⟨rfl, hrt⟩) (quiet_of (s' := { s.kill x with frm := upd (s.kill x).frm c none, ontop := upd (s.kill x).ontop c none, term := upd (s.kill x).term c true, unw := upd (s.kill x).unw c false, frames := upd (s.kill x).frames c [.exitJump] }) rfl rfl rfl rfl rfl rfl) (quiet_arr ha)
  have exits : ∀ {n : CtxId} {l : List Event}, s.status n = .terminated → s'.cur = s.cur → s'.status = upd s.status n .freed → s'.root = s.root →
      s'.nextTid = s.nextTid → s'.log = l ++ s.log → l.filterMap (logEv a) = [.free n] → Legal (trk s') (events s s' t fn a ++ tr) := by
    intro n l hn h1 h2 h3 h4 h5 h6
    have he : events s s' t fn a = [.free n] := by
      simp only [events, newLog_of h5, h6, h1, h4, hc]; simp
    have ht : trk s' = ⟨(trk s).run, upd (trk s).st n .gone, (trk s).root⟩ := by
      simp only [trk, h1, h2, h3]; congr 1; funext d; simp only [upd_apply]; split <;> rfl
    rw [he, ht]
    refine Legal.free hl (by simp only [trk, hn]; rfl) ?_
    have hf := hi.ci.fTerm n hn
    have := hri n (by simp [hf])
    rw [hf] at this
    simpa [bot, trk] using this.symm
  cases he with
  | newHeap => exact quiet (quiet_of rfl rfl rfl rfl rfl rfl)
  | newLocal => exact quiet (quiet_of rfl rfl rfl rfl rfl rfl)
  | moveHeap => exact quiet (quiet_of rfl rfl rfl rfl rfl rfl)
  | moveLocal => exact quiet (quiet_of rfl rfl rfl rfl rfl rfl)
  | moveSelf => exact quiet (quiet_of rfl rfl rfl rfl rfl rfl)
  | moveAssign => exact quiet (quiet_of rfl rfl rfl rfl rfl rfl)
  | swap => exact quiet (quiet_of rfl rfl rfl rfl rfl rfl)
  | dropLoc => exact quiet (quiet_of rfl rfl rfl rfl rfl rfl)
  | dropHeap => exact quiet (quiet_of rfl rfl rfl rfl rfl rfl)
  | @create k ls rest xs hf ha s2 h2 =>
    have hsame := capture_same ({ s with nextCtx := s.nextCtx + 1 }.addLog (.alloc s.nextCtx)) s.nextCtx xs
    rw [← h2] at hsame
    obtain ⟨e3, e4, _, _, e6, _, _, e5, e2, _⟩ := hsame
    simp only [State.addLog] at e2 e3 e4 e5 e6
    replace e5 : s2.log = [.alloc s.nextCtx] ++ s.log := e5
    have he : ∀ s' : State, s'.cur = s2.cur → s'.nextTid = s2.nextTid → s'.log = s2.log → events s s' t fn a = [.create s.nextCtx a] := by
      intro s' h1 h2 h3
      simp only [events, newLog_of (h3.trans e5), h1, h2, e3, e6, hc]; simp [logEv]
    have ht : ∀ s' : State, s'.cur = s.cur → s'.status = upd s.status s.nextCtx .suspended → s'.root = upd s.root s.nextCtx false →
        trk s' = ⟨(trk s).run, upd (trk s).st s.nextCtx .idle, upd (trk s).root s.nextCtx false⟩ := by
      intro s' h1 h2 h3
      simp only [trk, h1, h2, h3]; congr 1; funext d; simp only [upd_apply]; split <;> rfl
    have key : ∀ s' : State, s'.cur = s2.cur → s'.nextTid = s2.nextTid → s'.log = s2.log → s'.status = upd s.status s.nextCtx .suspended →
        s'.root = upd s.root s.nextCtx false → Legal (trk s') (events s s' t fn a ++ tr) := by
      intro s' h1 h2 h3 h4 h5
      rw [he s' h1 h2 h3, ht s' (h1.trans e3) h4 h5]
      refine Legal.create hl ?_
      simp only [trk, (hi.ci.absent s.nextCtx).2 (Nat.le_refl _)]; rfl
    exact key _ rfl rfl rfl (by rw [e4]) (by rw [e2])
  | createThrows => exact quiet (quiet_of rfl rfl rfl rfl rfl rfl)
  | resume hf _ _ hw hd =>
    refine switch hw (.inl rfl) ?_ (quiet_arr hd)
    exact quiet_of rfl rfl rfl rfl rfl rfl
  | resumeWith hf _ _ hw hd =>
    refine switch hw (.inl rfl) ?_ (quiet_arr hd)
    exact quiet_of rfl rfl rfl rfl rfl rfl
  | call => exact quiet (quiet_of rfl rfl rfl rfl rfl rfl)
  | cleanup => exact quiet (quiet_of rfl rfl rfl rfl rfl rfl)
  | ret => exact quiet (quiet_of rfl rfl rfl rfl rfl rfl)
  | retHandle => exact quiet (quiet_of rfl rfl rfl rfl rfl rfl)
  | throw => exact quiet (quiet_of rfl rfl rfl rfl rfl rfl)
  | spawn hf =>
    have htn : s.cur s.nextTid = none := hi.ci.tids _ (Nat.le_refl _)
    have hne : t ≠ s.nextTid := by intro e; rw [← e, hc] at htn; cases htn
    have he : ∀ s' : State, s'.cur = upd s.cur s.nextTid (some s.nextCtx) → s'.nextTid = s.nextTid + 1 → s'.log = s.log →
        events s s' t fn a = [.thread s.nextTid s.nextCtx a] := by
      intro s' h1 h2 h3
      have e4 : upd s.cur s.nextTid (some s.nextCtx) t = some c := by rw [upd_apply, if_neg hne]; exact hc
      simp only [events, newLog_of (l := []) (show s'.log = [] ++ s.log by rw [h3]; rfl), h1, h2, e4, hc]
      simp
    have ht : ∀ s' : State, s'.cur = upd s.cur s.nextTid (some s.nextCtx) → s'.status = upd s.status s.nextCtx (.running s.nextTid) →
        s'.root = upd s.root s.nextCtx true →
        trk s' = ⟨upd (trk s).run s.nextTid (some s.nextCtx), upd (trk s).st s.nextCtx .busy, upd (trk s).root s.nextCtx true⟩ := by
      intro s' h1 h2 h3
      simp only [trk, h1, h2, h3]; congr 1; funext d; simp only [upd_apply]; split <;> rfl
    have key : ∀ s' : State, s'.cur = upd s.cur s.nextTid (some s.nextCtx) → s'.nextTid = s.nextTid + 1 → s'.log = s.log →
        s'.status = upd s.status s.nextCtx (.running s.nextTid) → s'.root = upd s.root s.nextCtx true → Legal (trk s') (events s s' t fn a ++ tr) := by
      intro s' h1 h2 h3 h4 h5
      rw [he s' h1 h2 h3, ht s' h1 h4 h5]
      refine Legal.thread hl htn ?_
      simp only [trk, (hi.ci.absent s.nextCtx).2 (Nat.le_refl _)]; rfl
    exact key _ rfl rfl rfl rfl rfl
  | destroy h1 h2 =>
    have hq := quiet_pre h1
    cases h2 with
    | root => exact quiet ⟨hq.1, hq.2, hq.3, hq.4, hq.5, hq.6⟩
    | term => exact quiet ⟨hq.1, hq.2, hq.3, hq.4, hq.5, hq.6⟩
    | unwind _ _ hw ha =>
      refine switch (by rw [← hq.status]; exact hw) (.inl rfl) ?_ (quiet_arr ha)
      exact ⟨hq.1, hq.2, hq.3, hq.4, hq.5, hq.6⟩
  | tickLocal => exact quiet (quiet_of rfl rfl rfl rfl rfl rfl)
  | exitCap => exact quiet (quiet_of rfl rfl rfl rfl rfl rfl)
  | catchUser => exact quiet (quiet_of rfl rfl rfl rfl rfl rfl)
  | swallow => exact quiet (quiet_of rfl rfl rfl rfl rfl rfl)
  | swallowNone => exact quiet (quiet_of rfl rfl rfl rfl rfl rfl)
  | propCall => exact quiet (quiet_of rfl rfl rfl rfl rfl rfl)
  | propFn hf hd => exact fin (fnroot hf) hd
  | propOntop => exact quiet (quiet_of rfl rfl rfl rfl rfl rfl)
  | leaveMain hf =>
    have he : ∀ s' : State, s'.cur = upd s.cur t none → s'.nextTid = s.nextTid → s'.log = s.log →
        events s s' t fn a = [.exit t c] := by
      intro s' h1 h2 h3
      have e4 : upd s.cur t none t = none := by rw [upd_apply, if_pos rfl]
      simp only [events, newLog_of (l := []) (show s'.log = [] ++ s.log by rw [h3]; rfl), h1, h2, e4, hc]
      simp
    have ht : ∀ s' : State, s'.cur = upd s.cur t none → s'.status = upd s.status c .ended → s'.root = s.root →
        trk s' = ⟨upd (trk s).run t none, upd (trk s).st c .gone, (trk s).root⟩ := by
      intro s' h1 h2 h3
      simp only [trk, h1, h2, h3]; congr 1; funext d; simp only [upd_apply]; split <;> rfl
    have key : ∀ s' : State, s'.cur = upd s.cur t none → s'.nextTid = s.nextTid → s'.log = s.log →
        s'.status = upd s.status c .ended → s'.root = s.root → Legal (trk s') (events s s' t fn a ++ tr) := by
      intro s' h1 h2 h3 h4 h5
      rw [he s' h1 h2 h3, ht s' h1 h4 h5]
      refine Legal.exit hl hc ?_
      have h1 := hri c (by simp [hf])
      have hwf := hi.ci.wf c (by rw [hrun]; simp)
      rw [hf] at hwf
      have : _ ∧ _ = [] := hwf.1
      rw [hf, this.2] at h1
      simpa [bot, trk] using h1.symm
    exact key _ rfl rfl rfl rfl rfl
  | leaveCall => exact quiet (quiet_of rfl rfl rfl rfl rfl rfl)
  | leaveFn hf hd => exact fin (fnroot hf) hd
  | leaveOntop => exact quiet (quiet_of rfl rfl rfl rfl rfl rfl)
  | @exitDtor n v rest hf _ hst => exact exits hst rfl rfl rfl rfl (l := [.destroyed v c, .dealloc n]) rfl rfl
  | @exitDone n rest hf _ hst _ => exact exits hst rfl rfl rfl rfl (l := [.dealloc n]) rfl rfl

/-- The implementation emits legal sequences only. -/
theorem Trace.legal {α : Type} {s : State} {tr : List (Ev α)} (h : Trace s tr) : Legal (trk s) tr := by
  induction h with
  | init a =>
    have : trk UFiber.init = ⟨upd (fun _ => none) 0 (some 0), upd (fun _ => .fresh) 0 .busy, upd (fun _ => false) 0 true⟩ := by
      simp only [trk, UFiber.init]
      congr 1
      · funext c; simp only [upd_apply]; split <;> rfl
    rw [this]
    exact Legal.thread .nil rfl rfl
  | step a h hs _ ih => exact legal_step (reachable_inv h.reachable h.early) h.ri hs ih
  | use a _ hc ih => exact .use ih hc

end Verif.Hooks
