import Verif.Commute.UContLog
import Verif.Commute.UFiber

/-! # C99: switches of different threads commute, `continuation` on ucontext -/

namespace Verif.UCont
open Verif.Names (name exc mode)
open Verif.Fiber (CtxId Var Tid Kind Exc Mode UKind Status Event CreateOutcome upd upd_apply map_id_of)

/-- the states differ at most in the order in which events were recorded -/
structure Agree (a b : State) : Prop where
  state : { a with
    log := [] } = { b with
    log := [] }
  log : a.log.Perm b.log

/-- call stack of a context that is switched to by `resume()`: `n` is the object it receives, `u` whether it is to be unwound, `o` the function left in its record -/
def arriveF (u : Bool) (o : Option Nat) (n : Var) : List Frame → List Frame
  | .entryJump :: r => .user .fn [n] .normal :: .entryRun :: r
  | .resume :: .user k ls m :: r =>
    if u = true then .user k ls (.unwinding (.forced n)) :: r
    else match o with
      | some i => .user (.ontop i) [n] .normal :: .resume :: .user k ls m :: r
      | none => .user k (n :: ls) m :: r
  | .resume :: .callcc x cm k ls :: r =>
    if u = true then .callcc x (.unwinding (.forced n)) k ls :: r
    else match o with
      | some i => .user (.ontop i) [n] .normal :: .resume :: .callcc x cm k ls :: r
      | none => .callcc x (.returning n) k ls :: r
  | fs => fs

def arriveLog (d : CtxId) (u : Bool) (o : Option Nat) : List Frame → List Event
  | .entryJump :: _ => [.enter d]
  | .resume :: _ =>
    if u = true then []
    else match o with
      | some i => [.ontop i d]
      | none => []
  | _ => []

def arriveKind (d : CtxId) (u : Bool) : List Frame → Kind
  | .entryJump :: _ => .loc d
  | _ => if u = true then .exc d else .loc d

def arriveFrm (c : CtxId) : List Frame → Option CtxId
  | .entryJump :: _ => some c
  | _ => none

/-- closed form of a successful `resume()` -/
def resumed (s : State) (t : Tid) (c d : CtxId) (x : Var) : State :=
  { s with
    cur := upd s.cur t (some d)
    status := upd (upd s.status c .suspended) d (.running t)
    frm := upd s.frm d (arriveFrm c (s.frames d))
    val := upd (upd s.val x none) s.nextVar (some c)
    kind := upd s.kind s.nextVar (arriveKind d (s.unw d) (s.frames d))
    nextVar := s.nextVar + 1
    frames := upd (upd s.frames c (.resume :: s.frames c)) d (arriveF (s.unw d) (s.ontop d) s.nextVar (s.frames d))
    log := arriveLog d (s.unw d) (s.ontop d) (s.frames d) ++ s.log }

/-- what a suspended context designated by a handle is doing: it has not been started or waits in `resume()` or `callcc()` -/
theorem target_shape {s : State} {x : Var} {d : CtxId} (h : Reachable s) (ha : Handle s x) (hv : s.val x = some d) (hst : s.status d = .suspended) :
    (∃ r, s.frames d = .entryJump :: r) ∨ (∃ k ls m r, s.frames d = .resume :: .user k ls m :: r) ∨ ∃ x k ls r, s.frames d = .resume :: .callcc x .waiting k ls :: r := by
  have hw := (reachable_facts h).cwf d
  have hsh := UFiber.target_shape (reachable_facts h).inv ha.1 hv hst
  replace hsh : (∃ r, absL (s.frames d) = .entryJump :: r) ∨ ∃ k ls m r, absL (s.frames d) = .resume :: .user k ls m :: r := hsh
  rcases hf : s.frames d with _ | ⟨g, r⟩
  · simp [absL, hf] at hsh
  · rw [hf] at hw
    cases g with
    | entryJump => exact .inl ⟨r, rfl⟩
    | resume =>
      rcases r with _ | ⟨g, r⟩
      · simp [absL, hf, Frame.abs] at hsh
      · cases g with
        | user k ls m => exact .inr (.inl ⟨k, ls, m, r, rfl⟩)
        | callcc x cm k ls =>
          cases cm with
          | waiting => exact .inr (.inr ⟨x, k, ls, r, rfl⟩)
          | _ => simp [CWF, OkUnder] at hw
        | _ => simp [absL, hf, Frame.abs] at hsh
    | callcc x cm k ls => cases cm <;> simp [absL, hf, Frame.abs] at hsh
    | _ => simp [absL, hf, Frame.abs] at hsh

theorem susp_ne' {s : State} {t c d} (h : Reachable s) (hc : s.cur t = some c) (hs : Suspended s d) : d ≠ c := by
  intro e
  have := ((reachable_facts h).inv.ci.curRun t c).1 hc
  rw [← e, show s.abs.status d = s.status d from rfl, show s.status d = .suspended from hs] at this
  cases this

theorem resume_form {s : State} {t c k ls rest x d} (h : Reachable s) (hu : UserCode s t c k ls rest) (ha : Handle s x) (hv : Designates s x d) (hst : Suspended s d) :
    step s t (.resume x) = .ok (resumed s t c d x) := by
  have hfc := susp_ne' h hu.1 hst
  have q1 : s.status d = .suspended := hst
  have hv' : s.val x = some d := hv
  have e0 : step s t (.resume x) = s.doResume t c x := by simp only [step, hu.1, hu.2, userStep, handle_accessible ha, if_true]
  rw [e0]
  have uu : ∀ {α β : Type} [DecidableEq α] (f : α → β) (a : α) (x y : β), upd (upd f a x) a y = upd f a y := fun f a x y => UFiber.upd_upd f a x y
  rcases target_shape h ha hv hst with ⟨r, hf⟩ | ⟨k', ls', m, r, hf⟩ | ⟨z, k', ls', r, hf⟩
  · simp [State.doResume, hv', State.switchTo, hu.1, q1, State.arrive, hfc, State.setVal, State.newVar, State.setFrames, State.addLog, hf, resumed, arriveF, arriveLog, arriveKind, arriveFrm, uu]
  · cases hb : s.unw d with
    | true => simp [State.doResume, hv', State.switchTo, hu.1, q1, State.arrive, hfc, State.setVal, State.newVar, State.setFrames, State.addLog, hf, resumed, arriveF, arriveLog, arriveKind, arriveFrm, uu, hb]
    | false =>
      cases ho : s.ontop d <;> simp [State.doResume, hv', State.switchTo, hu.1, q1, State.arrive, hfc, State.setVal, State.newVar, State.setFrames, State.addLog, hf, resumed, arriveF, arriveLog, arriveKind, arriveFrm, uu, hb, ho]
  · cases hb : s.unw d with
    | true => simp [State.doResume, hv', State.switchTo, hu.1, q1, State.arrive, hfc, State.setVal, State.newVar, State.setFrames, State.addLog, hf, resumed, arriveF, arriveLog, arriveKind, arriveFrm, uu, hb]
    | false =>
      cases ho : s.ontop d <;> simp [State.doResume, hv', State.switchTo, hu.1, q1, State.arrive, hfc, State.setVal, State.newVar, State.setFrames, State.addLog, hf, resumed, arriveF, arriveLog, arriveKind, arriveFrm, uu, hb, ho]

/-- fresh names do not occur in call stacks -/
theorem frames_fresh {s : State} (hi : UFiber.Inv s.abs) {x y : Var} (hx : s.nextVar ≤ x) (hy : s.nextVar ≤ y) (c : CtxId) : (s.frames c).map (Frame.rename x y) = s.frames c := by
  have hk : ∀ z, s.kind z ≠ .dead → name x y z = z := by
    intro z hz
    have h1 : z ≠ x := fun e => hz (e ▸ (show s.kind x = .dead from hi.oi.fresh x hx))
    have h2 : z ≠ y := fun e => hz (e ▸ (show s.kind y = .dead from hi.oi.fresh y hy))
    simp [name, Migrate.other, h1, h2]
  have hloc : ∀ z, z ∈ Fiber.lvars (absL (s.frames c)) → name x y z = z := fun z hz => hk z (by rw [show s.kind z = _ from (hi.oi.locs c z).1 hz]; simp)
  have hexc : ∀ z, z ∈ Fiber.evars (absL (s.frames c)) → name x y z = z := fun z hz => hk z (by rw [show s.kind z = _ from (hi.oi.excs c z).1 hz]; simp)
  have hret : ∀ z, z ∈ Fiber.rvars (absL (s.frames c)) → name x y z = z := fun z hz => hk z (by rw [show s.kind z = _ from (hi.oi.rets c z).1 hz]; simp)
  exact frames_unnamed _ hloc hexc hret

theorem caps_fresh {s : State} (hi : UFiber.Inv s.abs) {x y : Var} (hx : s.nextVar ≤ x) (hy : s.nextVar ≤ y) (c : CtxId) : (s.caps c).map (name x y) = s.caps c := by
  refine map_id_of fun z hz => ?_
  have hk : s.kind z = .cap c := (hi.oi.capv c z).1 hz
  have h1 : z ≠ x := fun e => by rw [e, show s.kind x = .dead from hi.oi.fresh x hx] at hk; cases hk
  have h2 : z ≠ y := fun e => by rw [e, show s.kind y = .dead from hi.oi.fresh y hy] at hk; cases hk
  simp [name, Migrate.other, h1, h2]

theorem arrive_rename {x y n : Var} {u : Bool} {o : Option Nat} {fs : List Frame} (h : fs.map (Frame.rename x y) = fs) : (arriveF u o n fs).map (Frame.rename x y) = arriveF u o (name x y n) fs := by
  rcases fs with _ | ⟨f, r⟩
  · rfl
  · cases f with
    | entryJump => simp only [List.map_cons, List.cons.injEq] at h; simp [arriveF, Frame.rename, mode, h.2]
    | resume =>
      rcases r with _ | ⟨g, r⟩
      · rfl
      · cases g with
        | callcc z cm k ls =>
          simp only [List.map_cons, List.cons.injEq, Frame.rename, Frame.callcc.injEq] at h
          have mn : mode x y .normal = .normal := rfl
          have mu : CcMode.rename x y (.unwinding (.forced n)) = .unwinding (.forced (name x y n)) := rfl
          have mr : CcMode.rename x y (.returning n) = .returning (name x y n) := rfl
          cases u <;> cases o <;> simp [arriveF, Frame.rename, h, mn, mu, mr]
        | user k ls m =>
          simp only [List.map_cons, List.cons.injEq, Frame.rename, Frame.user.injEq] at h
          have mn : mode x y .normal = .normal := rfl
          have mu : mode x y (.unwinding (.forced n)) = .unwinding (.forced (name x y n)) := rfl
          cases u <;> cases o <;> simp [arriveF, Frame.rename, h, mn, mu]
        | _ => exact h
    | _ => exact h

theorem commute_aux {s : State} (h : Reachable s) {t u : Tid} {c c' : CtxId} {k k' : UKind} {ls ls' : List Var} {rest rest' : List Frame} {x y : Var} {d d' : CtxId}
    (hu : UserCode s t c k ls rest) (hu' : UserCode s u c' k' ls' rest') (htu : t ≠ u) (hx : Handle s x) (hy : Handle s y) (hxd : Designates s x d) (hyd : Designates s y d') (hxy : x ≠ y) (hs : Suspended s d) (hs' : Suspended s d') :
    ∃ a b, run s [(t, .resume x), (u, .resume y)] = .ok a ∧ run s [(u, .resume y), (t, .resume x)] = .ok b ∧ Agree (a.rename s.nextVar (s.nextVar + 1)) b ∧ Reachable a ∧ a.nextVar = s.nextVar + 2 := by
  have hi := (reachable_facts h).inv
  have hr : s.status c = .running t := (hi.ci.curRun t c).1 hu.1
  have hr' : s.status c' = .running u := (hi.ci.curRun u c').1 hu'.1
  have hcc : c ≠ c' := fun e => by rw [e, hr'] at hr; cases hr; exact htu rfl
  have hfc := susp_ne' h hu.1 hs
  have hgc := susp_ne' h hu.1 hs'
  have hfc' := susp_ne' h hu'.1 hs
  have hgc' := susp_ne' h hu'.1 hs'
  have hf : s.val x = some d := hxd
  have hg : s.val y = some d' := hyd
  have hfg : d ≠ d' := fun e => hxy (hi.vi.inj x y d hf (e ▸ hg))
  have lt : ∀ z, Handle s z → z ≠ s.nextVar := by
    intro z hz e
    have hd : s.kind z = .dead := hi.oi.fresh z (by rw [e]; exact Nat.le_refl _)
    replace hz := hz.1
    rcases hz with hz | ⟨_, hz⟩ | ⟨_, hz⟩ <;> rw [hd] at hz <;> cases hz
  have hxn := lt x hx
  have hyn := lt y hy
  have e1 := resume_form h hu hx hxd hs
  have e2 := resume_form h hu' hy hyd hs'
  have ea : step (resumed s t c d x) u (.resume y) = .ok (resumed (resumed s t c d x) u c' d' y) := by
    refine resume_form (k := k') (ls := ls') (rest := rest') (.step h e1) ⟨?_, ?_⟩ ?_ ?_ ?_
    · simp [resumed, upd_apply, htu.symm, hu'.1]
    · simp [resumed, upd_apply, Ne.symm hfc', Ne.symm hcc, hu'.2]
    · simpa [Handle, resumed, upd_apply, hyn] using hy
    · simp [Designates, resumed, upd_apply, hyn, Ne.symm hxy, hg]
    · simpa [Suspended, resumed, upd_apply, Ne.symm hfg, hgc] using hs'
  have eb : step (resumed s u c' d' y) t (.resume x) = .ok (resumed (resumed s u c' d' y) t c d x) := by
    refine resume_form (k := k) (ls := ls) (rest := rest) (.step h e2) ⟨?_, ?_⟩ ?_ ?_ ?_
    · simp [resumed, upd_apply, htu, hu.1]
    · simp [resumed, upd_apply, Ne.symm hgc, hcc, hu.2]
    · simpa [Handle, resumed, upd_apply, hxn] using hx
    · simp [Designates, resumed, upd_apply, hxn, hxy, hf]
    · simpa [Suspended, resumed, upd_apply, hfg, hfc'] using hs
  refine ⟨resumed (resumed s t c d x) u c' d' y, resumed (resumed s u c' d' y) t c d x, by simp only [run, e1, ea], by simp only [run, e2, eb], ⟨?_, ?_⟩, .step (.step h e1) ea, rfl⟩
  · have hn : s.nextVar ≠ s.nextVar + 1 := (Nat.succ_ne_self _).symm
    have F := fun z => frames_fresh hi (Nat.le_refl s.nextVar) (Nat.le_succ s.nextVar) z
    have C := fun z => caps_fresh hi (Nat.le_refl s.nextVar) (Nat.le_succ s.nextVar) z
    have n1 : name s.nextVar (s.nextVar + 1) s.nextVar = s.nextVar + 1 := by simp [name, Migrate.other]
    have n2 : name s.nextVar (s.nextVar + 1) (s.nextVar + 1) = s.nextVar := by simp [name, Migrate.other]
    simp only [State.rename, resumed, State.mk.injEq, and_true, true_and]
    refine ⟨?_, ?_, ?_, ?_, ?_, ?_, ?_, ?_⟩
    · funext z; simp only [upd_apply]; grind
    · funext z; simp only [upd_apply]; grind
    · funext z
      have A1 := arrive_rename (n := s.nextVar) (u := s.unw d) (o := s.ontop d) (F d)
      have A2 := arrive_rename (n := s.nextVar + 1) (u := s.unw d') (o := s.ontop d') (F d')
      rw [n1] at A1; rw [n2] at A2
      have R1 : ((Frame.resume :: s.frames c).map (Frame.rename s.nextVar (s.nextVar + 1))) = .resume :: s.frames c := by rw [List.map_cons, F c]; rfl
      have R2 : ((Frame.resume :: s.frames c').map (Frame.rename s.nextVar (s.nextVar + 1))) = .resume :: s.frames c' := by rw [List.map_cons, F c']; rfl
      have F' := F z
      simp only [upd_apply]
      grind
    · funext z; exact C z
    · funext z; simp only [upd_apply, name, Migrate.other]; grind
    · funext z; simp only [upd_apply, name, Migrate.other]; grind
    · funext z; simp only [upd_apply]; grind
    · have hh : ∀ v, s.nextVar ≤ v → s.hidden v = false := by
        intro v hv
        cases e : s.hidden v with
        | false => rfl
        | true => exact absurd (hidden_empty h _ e).1 (Nat.not_lt.2 hv)
      have h1 := hh s.nextVar (Nat.le_refl _)
      have h2 := hh (s.nextVar + 1) (Nat.le_succ _)
      funext z; simp only [name, Migrate.other]; grind
  · simp only [State.rename, resumed, upd_apply, Ne.symm hfg, hfg, hfc', hgc, if_false]
    rw [← List.append_assoc, ← List.append_assoc]
    exact List.Perm.append_right _ List.perm_append_comm

/-- **C99.** In every reachable state, for any two threads that are about to resume (different) suspended contexts through different handles: both orders succeed, and lead to the same state, up to the
exchange of the names of the two objects that are created and the order in which events were recorded. -/
theorem C99_ucontext_continuation_resumes_commute {s : State} (h : Reachable s) {t u : Tid} {c c' : CtxId} {k k' : UKind} {ls ls' : List Var} {rest rest' : List Frame} {x y : Var} {d d' : CtxId}
    (hu : UserCode s t c k ls rest) (hu' : UserCode s u c' k' ls' rest') (htu : t ≠ u) (hx : Handle s x) (hy : Handle s y) (hxd : Designates s x d) (hyd : Designates s y d') (hxy : x ≠ y) (hs : Suspended s d) (hs' : Suspended s d') :
    ∃ a b, run s [(t, .resume x), (u, .resume y)] = .ok a ∧ run s [(u, .resume y), (t, .resume x)] = .ok b ∧ Agree (a.rename s.nextVar (s.nextVar + 1)) b := by
  obtain ⟨a, b, ea, eb, hab, -⟩ := commute_aux h hu hu' htu hx hy hxd hyd hxy hs hs'
  exact ⟨a, b, ea, eb, hab⟩

/-- the outcomes are the same: both histories fail in the same way or lead to states that agree -/
def AgreeRes : Res → Res → Prop
  | .ok a, .ok b => Agree a b
  | .rejected, .rejected => True
  | .terminate, .terminate => True
  | .assertion, .assertion => True
  | .ub, .ub => True
  | _, _ => False

/-- states that agree have the same future -/
theorem agree_run {a b : State} (h : Agree a b) (l : List (Tid × Op)) : AgreeRes (run a l) (run b l) := by
  obtain ⟨s, hs⟩ : ∃ s : State, s = { a with
    log := [] } := ⟨_, rfl⟩
  have ha : a = s.older a.log := by rw [hs]; rfl
  have hb : b = s.older b.log := by rw [hs, h.state]; rfl
  have ea : run a l = (run s l).older a.log := by rw [← run_old, ← ha]
  have eb : run b l = (run s l).older b.log := by rw [← run_old, ← hb]
  rw [ea, eb]
  cases run s l with
  | ok r => exact ⟨rfl, h.log.append_left _⟩
  | _ => trivial

/-- **C99, whole histories.** Whatever happens after the two switches has the same outcome for both orders, with the two new objects exchanged: no program can find out which thread switched first. -/
theorem C99_ucontext_continuation_history {s : State} (h : Reachable s) {t u : Tid} {c c' : CtxId} {k k' : UKind} {ls ls' : List Var} {rest rest' : List Frame} {x y : Var} {d d' : CtxId}
    (hu : UserCode s t c k ls rest) (hu' : UserCode s u c' k' ls' rest') (htu : t ≠ u) (hx : Handle s x) (hy : Handle s y) (hxd : Designates s x d) (hyd : Designates s y d') (hxy : x ≠ y) (hs : Suspended s d) (hs' : Suspended s d')
    (l : List (Tid × Op)) :
    AgreeRes ((run s ((t, .resume x) :: (u, .resume y) :: l)).rename s.nextVar (s.nextVar + 1))
      (run s ((u, .resume y) :: (t, .resume x) :: renamed s.nextVar (s.nextVar + 1) l)) := by
  obtain ⟨a, b, ea, eb, hab, ra, hn⟩ := commute_aux h hu hu' htu hx hy hxd hyd hxy hs hs'
  have e1 : run s ((t, .resume x) :: (u, .resume y) :: l) = run a l := run_append' (h' := l) ea
  have e2 : run s ((u, .resume y) :: (t, .resume x) :: renamed s.nextVar (s.nextVar + 1) l) = run b (renamed s.nextVar (s.nextVar + 1) l) := run_append' (h' := renamed s.nextVar (s.nextVar + 1) l) eb
  have n1 : s.nextVar < a.nextVar := by rw [hn]; exact Nat.lt_succ_of_lt (Nat.lt_succ_self _)
  have n2 : s.nextVar + 1 < a.nextVar := by rw [hn]; exact Nat.lt_succ_self _
  rw [e1, e2, ← C98_ucontext_continuation_history ra n1 n2 l]
  exact agree_run hab _

/-- threads 0 and 1 have called `callcc()`; the functions (contexts 1 and 3) are about to resume the contexts they were called from, which wait in `callcc()` -/
def hCommute : List (Tid × Op) := [(0, .spawn), (0, .callcc [] .success), (1, .callcc [] .success)]

example : Reachable (exec hCommute) := reachable_exec (by decide)
example : UserCode (exec hCommute) 0 2 .fn [1] [.entryRun] ∧ UserCode (exec hCommute) 1 3 .fn [3] [.entryRun] ∧ Handle (exec hCommute) 1 ∧ Handle (exec hCommute) 3 ∧ Designates (exec hCommute) 1 0 ∧ Designates (exec hCommute) 3 1 ∧
    Suspended (exec hCommute) 0 ∧ Suspended (exec hCommute) 1 :=
  ⟨⟨by decide, by decide⟩, ⟨by decide, by decide⟩, ⟨.inr (.inl ⟨2, by decide⟩), by decide⟩, ⟨.inr (.inl ⟨3, by decide⟩), by decide⟩, (by decide : (exec hCommute).val 1 = _), (by decide : (exec hCommute).val 3 = _),
    (by decide : (exec hCommute).status 0 = _), (by decide : (exec hCommute).status 1 = _)⟩
/-- both contexts continue -/
example : (match run (exec hCommute) [(0, .resume 1), (1, .resume 3)], run (exec hCommute) [(1, .resume 3), (0, .resume 1)] with
    | .ok a, .ok b => a.cur 0 == some 0 && a.cur 1 == some 1 && b.cur 0 == some 0 && b.cur 1 == some 1 && a.val 4 == some 2 && b.val 4 == some 3
    | _, _ => false) = true := by decide

end Verif.UCont
