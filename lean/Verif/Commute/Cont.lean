import Verif.Commute.ContLog
import Verif.Commute.Fiber

/-! # C99: switches of different threads commute, `continuation` on fcontext -/

namespace Verif.Cont
open Verif.Names (name exc mode)
open Verif.Fiber (CtxId Var Tid Fctx Kind Exc Mode UKind Status Event CreateOutcome upd upd_apply map_id_of)

/-- the states differ at most in the order in which events were recorded -/
structure Agree (a b : State) : Prop where
  state : { a with
    log := [] } = { b with
    log := [] }
  log : a.log.Perm b.log

/-- call stack of a context that is switched to by `resume()`: `n` is the object it receives, or that `callcc()` is about to return -/
def arrive (n : Var) : List Frame → List Frame
  | .entryJump :: r => .user .fn none [n] .normal :: .entryRun :: r
  | .resume :: .user k lib ls m :: r => .user k lib (n :: ls) m :: r
  | .resume :: .callcc x _ k lib ls :: r => .callcc x (.returning n) k lib ls :: r
  | fs => fs

def arriveLog (d : CtxId) : List Frame → List Event
  | .entryJump :: _ => [.enter d]
  | _ => []

/-- closed form of a successful `resume()` -/
def resumed (s : State) (t : Tid) (c d : CtxId) (x : Var) : State :=
  { s with
    cur := upd s.cur t (some d)
    status := upd (upd s.status c .suspended) d (.running t)
    seq := upd s.seq c (s.seq c + 1)
    val := upd (upd s.val x none) s.nextVar (some ⟨c, s.seq c + 1⟩)
    kind := upd s.kind s.nextVar (.loc d)
    nextVar := s.nextVar + 1
    frames := upd (upd s.frames c (.resume :: s.frames c)) d (arrive s.nextVar (s.frames d))
    log := arriveLog d (s.frames d) ++ s.log }

/-- what a context designated by a handle is doing: it has not been started or waits in `resume()` or `callcc()` -/
theorem target_shape {s : State} {x : Var} {f : Fctx} (h : Reachable s) (ha : Handle s x) (hv : s.val x = some f) :
    (∃ r, s.frames f.ctx = .entryJump :: r) ∨ (∃ k lib ls m r, s.frames f.ctx = .resume :: .user k lib ls m :: r) ∨ ∃ x k lib ls r, s.frames f.ctx = .resume :: .callcc x .waiting k lib ls :: r := by
  have hw := (reachable_spec h).1 f.ctx
  have hsh := Fiber.target_shape (Fiber.reachable_inv (reachable_spec h).2) ha.1 hv
  rcases hf : s.frames f.ctx with _ | ⟨g, r⟩
  · simp [State.abs, hf] at hsh
  · rw [hf] at hw
    cases g with
    | entryJump => exact .inl ⟨r, rfl⟩
    | resume =>
      rcases r with _ | ⟨g, r⟩
      · simp [State.abs, hf, Frame.abs] at hsh
      · cases g with
        | user k lib ls m => exact .inr (.inl ⟨k, lib, ls, m, r, rfl⟩)
        | callcc x cm k lib ls =>
          cases cm with
          | waiting => exact .inr (.inr ⟨x, k, lib, ls, r, rfl⟩)
          | _ => simp [CWF, OkUnder] at hw
        | _ => simp [State.abs, hf, Frame.abs] at hsh
    | callcc x cm k lib ls => cases cm <;> simp [State.abs, hf, Frame.abs] at hsh
    | _ => simp [State.abs, hf, Frame.abs] at hsh

theorem resume_form {s : State} {t c k ls rest x f} (h : Reachable s) (hu : UserCode s t c k ls rest) (ha : Handle s x) (hv : s.val x = some f) :
    step s t (.resume x) = .ok (resumed s t c f.ctx x) := by
  have hi := Fiber.reachable_inv (reachable_spec h).2
  have hfc : f.ctx ≠ c := ((Fiber.facts hi hu.1).2.2.2 x f hv).2.2
  obtain ⟨q1, q2⟩ := hi.vi.valid x f hv
  replace q1 : s.status f.ctx = .suspended := q1
  replace q2 : s.seq f.ctx = f.seq := q2
  have e0 : step s t (.resume x) = s.doResume t c x := by simp only [step, hu.1, hu.2, userStep, handle_accessible ha, if_true]
  rw [e0]
  rcases target_shape h ha hv with ⟨r, hf⟩ | ⟨k', lib, ls', m, r, hf⟩ | ⟨z, k', lib, ls', r, hf⟩
  · simp [State.doResume, hv, State.jump, State.switch, hu.1, q1, q2, State.deliver, hfc, State.setVal, State.newVar, State.setFrames, State.addLog, hf, resumed, arrive, arriveLog]
  · simp [State.doResume, hv, State.jump, State.switch, hu.1, q1, q2, State.deliver, hfc, State.setVal, State.newVar, State.setFrames, hf, resumed, arrive, arriveLog]
  · simp [State.doResume, hv, State.jump, State.switch, hu.1, q1, q2, State.deliver, hfc, State.setVal, State.newVar, State.setFrames, hf, resumed, arrive, arriveLog]

/-- fresh names do not occur in call stacks -/
theorem frames_fresh {s : State} (hi : Fiber.Inv s.abs) {x y : Var} (hx : s.nextVar ≤ x) (hy : s.nextVar ≤ y) (c : CtxId) : (s.frames c).map (Frame.rename x y) = s.frames c := by
  have hk : ∀ z, s.kind z ≠ .dead → name x y z = z := by
    intro z hz
    have h1 : z ≠ x := fun e => hz (e ▸ (show s.kind x = .dead from hi.oi.fresh x hx))
    have h2 : z ≠ y := fun e => hz (e ▸ (show s.kind y = .dead from hi.oi.fresh y hy))
    simp [name, Migrate.other, h1, h2]
  have hloc : ∀ z, z ∈ Fiber.lvars (absL (s.frames c)) → name x y z = z := fun z hz => hk z (by rw [show s.kind z = _ from (hi.oi.locs c z).1 hz]; simp)
  have hexc : ∀ z, z ∈ Fiber.evars (absL (s.frames c)) → name x y z = z := fun z hz => hk z (by rw [show s.kind z = _ from (hi.oi.excs c z).1 hz]; simp)
  have hret : ∀ z, z ∈ Fiber.rvars (absL (s.frames c)) → name x y z = z := fun z hz => hk z (by rw [show s.kind z = _ from (hi.oi.rets c z).1 hz]; simp)
  exact frames_unnamed _ hloc hexc hret

theorem caps_fresh {s : State} (hi : Fiber.Inv s.abs) {x y : Var} (hx : s.nextVar ≤ x) (hy : s.nextVar ≤ y) (c : CtxId) : (s.caps c).map (name x y) = s.caps c := by
  refine map_id_of fun z hz => ?_
  have hk : s.kind z = .cap c := (hi.oi.capv c z).1 hz
  have h1 : z ≠ x := fun e => by rw [e, show s.kind x = .dead from hi.oi.fresh x hx] at hk; cases hk
  have h2 : z ≠ y := fun e => by rw [e, show s.kind y = .dead from hi.oi.fresh y hy] at hk; cases hk
  simp [name, Migrate.other, h1, h2]

theorem arrive_rename {x y n : Var} {fs : List Frame} (h : fs.map (Frame.rename x y) = fs) : (arrive n fs).map (Frame.rename x y) = arrive (name x y n) fs := by
  rcases fs with _ | ⟨f, r⟩
  · rfl
  · cases f with
    | entryJump => simp only [List.map_cons, List.cons.injEq] at h; simp [arrive, Frame.rename, mode, h.2]
    | resume =>
      rcases r with _ | ⟨g, r⟩
      · rfl
      · cases g with
        | callcc z cm k lib ls => simp only [List.map_cons, List.cons.injEq, Frame.rename, Frame.callcc.injEq] at h; simp [arrive, Frame.rename, CcMode.rename, h]
        | user k lib ls m => simp only [List.map_cons, List.cons.injEq, Frame.rename, Frame.user.injEq] at h; simp [arrive, Frame.rename, h]
        | _ => exact h
    | _ => exact h

theorem commute_aux {s : State} (h : Reachable s) {t u : Tid} {c c' : CtxId} {k k' : UKind} {ls ls' : List Var} {rest rest' : List Frame} {x y : Var} {d e : CtxId}
    (hu : UserCode s t c k ls rest) (hu' : UserCode s u c' k' ls' rest') (htu : t ≠ u) (hx : Handle s x) (hy : Handle s y) (hxd : Designates s x d) (hyd : Designates s y e) (hxy : x ≠ y) :
    ∃ a b, run s [(t, .resume x), (u, .resume y)] = .ok a ∧ run s [(u, .resume y), (t, .resume x)] = .ok b ∧ Agree (a.rename s.nextVar (s.nextVar + 1)) b ∧ Reachable a ∧ a.nextVar = s.nextVar + 2 := by
  have hi := Fiber.reachable_inv (reachable_spec h).2
  obtain ⟨f, hf, rfl⟩ := hxd
  obtain ⟨g, hg, rfl⟩ := hyd
  obtain ⟨hr, -, -, hvs⟩ := Fiber.facts hi hu.1
  obtain ⟨hr', -, -, hvs'⟩ := Fiber.facts hi hu'.1
  have hcc : c ≠ c' := fun e => by rw [e] at hr; exact htu (by have := hr.symm.trans hr'; cases this; rfl)
  have hfc := (hvs x f hf).2.2
  have hgc := (hvs y g hg).2.2
  have hfc' := (hvs' x f hf).2.2
  have hgc' := (hvs' y g hg).2.2
  have hfg : f.ctx ≠ g.ctx := fun e => hxy (hi.vi.inj x y f g hf hg e)
  have lt : ∀ z, Handle s z → z ≠ s.nextVar := by
    intro z hz e
    have hd : s.kind z = .dead := hi.oi.fresh z (by rw [e]; exact Nat.le_refl _)
    replace hz := hz.1
    rcases hz with hz | ⟨_, hz⟩ | ⟨_, hz⟩ <;> rw [hd] at hz <;> cases hz
  have hxn := lt x hx
  have hyn := lt y hy
  have e1 := resume_form h hu hx hf
  have e2 := resume_form h hu' hy hg
  have ea : step (resumed s t c f.ctx x) u (.resume y) = .ok (resumed (resumed s t c f.ctx x) u c' g.ctx y) := by
    refine resume_form (k := k') (ls := ls') (rest := rest') (.step h e1) ⟨?_, ?_⟩ ?_ ?_
    · simp [resumed, upd_apply, htu.symm, hu'.1]
    · simp [resumed, upd_apply, Ne.symm hfc', Ne.symm hcc, hu'.2]
    · simpa [Handle, resumed, upd_apply, hyn] using hy
    · simp [resumed, upd_apply, hyn, Ne.symm hxy, hg]
  have eb : step (resumed s u c' g.ctx y) t (.resume x) = .ok (resumed (resumed s u c' g.ctx y) t c f.ctx x) := by
    refine resume_form (k := k) (ls := ls) (rest := rest) (.step h e2) ⟨?_, ?_⟩ ?_ ?_
    · simp [resumed, upd_apply, htu, hu.1]
    · simp [resumed, upd_apply, Ne.symm hgc, hcc, hu.2]
    · simpa [Handle, resumed, upd_apply, hxn] using hx
    · simp [resumed, upd_apply, hxn, hxy, hf]
  refine ⟨resumed (resumed s t c f.ctx x) u c' g.ctx y, resumed (resumed s u c' g.ctx y) t c f.ctx x, by simp only [run, e1, ea], by simp only [run, e2, eb], ⟨?_, ?_⟩, .step (.step h e1) ea, rfl⟩
  · have hn : s.nextVar ≠ s.nextVar + 1 := (Nat.succ_ne_self _).symm
    have F := fun z => frames_fresh hi (Nat.le_refl s.nextVar) (Nat.le_succ s.nextVar) z
    have C := fun z => caps_fresh hi (Nat.le_refl s.nextVar) (Nat.le_succ s.nextVar) z
    have n1 : name s.nextVar (s.nextVar + 1) s.nextVar = s.nextVar + 1 := by simp [name, Migrate.other]
    have n2 : name s.nextVar (s.nextVar + 1) (s.nextVar + 1) = s.nextVar := by simp [name, Migrate.other]
    simp only [State.rename, resumed, State.mk.injEq, and_true, true_and]
    refine ⟨?_, ?_, ?_, ?_, ?_, ?_, ?_, ?_⟩
    · funext z; simp only [upd_apply]; grind
    · funext z; simp only [upd_apply]; grind
    · funext z; simp only [upd_apply]; grind
    · funext z
      have A1 := arrive_rename (n := s.nextVar) (F f.ctx)
      have A2 := arrive_rename (n := s.nextVar + 1) (F g.ctx)
      rw [n1] at A1; rw [n2] at A2
      have R1 : ((Frame.resume :: s.frames c).map (Frame.rename s.nextVar (s.nextVar + 1))) = .resume :: s.frames c := by rw [List.map_cons, F c]; rfl
      have R2 : ((Frame.resume :: s.frames c').map (Frame.rename s.nextVar (s.nextVar + 1))) = .resume :: s.frames c' := by rw [List.map_cons, F c']; rfl
      have F' := F z
      simp only [upd_apply]
      grind
    · funext z; exact C z
    · funext z; simp only [upd_apply, name, Migrate.other]; grind
    · funext z; simp only [upd_apply, name, Migrate.other]; grind
    · have hh : ∀ v, s.nextVar ≤ v → s.hidden v = false := by
        intro v hv
        cases e : s.hidden v with
        | false => rfl
        | true => exact absurd (hidden_empty h _ e).1 (Nat.not_lt.2 hv)
      have h1 := hh s.nextVar (Nat.le_refl _)
      have h2 := hh (s.nextVar + 1) (Nat.le_succ _)
      funext z; simp only [name, Migrate.other]; grind
  · simp only [State.rename, resumed, upd_apply, Ne.symm hfg, hfg, hfc', hgc, if_false]
    rw [← List.append_assoc, ← List.append_assoc]
    exact List.Perm.append_right _ List.perm_append_comm

/-- **C99.** In every reachable state, for any two threads that are about to resume (different) contexts through different handles: both orders succeed, and lead to the same state, up to the
exchange of the names of the two objects that are created and the order in which events were recorded. -/
theorem C99_continuation_resumes_commute {s : State} (h : Reachable s) {t u : Tid} {c c' : CtxId} {k k' : UKind} {ls ls' : List Var} {rest rest' : List Frame} {x y : Var} {d e : CtxId}
    (hu : UserCode s t c k ls rest) (hu' : UserCode s u c' k' ls' rest') (htu : t ≠ u) (hx : Handle s x) (hy : Handle s y) (hxd : Designates s x d) (hyd : Designates s y e) (hxy : x ≠ y) :
    ∃ a b, run s [(t, .resume x), (u, .resume y)] = .ok a ∧ run s [(u, .resume y), (t, .resume x)] = .ok b ∧ Agree (a.rename s.nextVar (s.nextVar + 1)) b := by
  obtain ⟨a, b, ea, eb, hab, -⟩ := commute_aux h hu hu' htu hx hy hxd hyd hxy
  exact ⟨a, b, ea, eb, hab⟩

/-- the outcomes are the same: both histories fail in the same way or lead to states that agree -/
def AgreeRes : Res → Res → Prop
  | .ok a, .ok b => Agree a b
  | .rejected, .rejected => True
  | .terminate, .terminate => True
  | .assertion, .assertion => True
  | .ub, .ub => True
  | _, _ => False

/-- states that agree have the same future -/
theorem agree_run {a b : State} (h : Agree a b) (l : List (Tid × Op)) : AgreeRes (run a l) (run b l) := by
  obtain ⟨s, hs⟩ : ∃ s : State, s = { a with
    log := [] } := ⟨_, rfl⟩
  have ha : a = s.older a.log := by rw [hs]; rfl
  have hb : b = s.older b.log := by rw [hs, h.state]; rfl
  have ea : run a l = (run s l).older a.log := by rw [← run_old, ← ha]
  have eb : run b l = (run s l).older b.log := by rw [← run_old, ← hb]
  rw [ea, eb]
  cases run s l with
  | ok r => exact ⟨rfl, h.log.append_left _⟩
  | _ => trivial

/-- **C99, whole histories.** Whatever happens after the two switches has the same outcome for both orders, with the two new objects exchanged: no program can find out which thread switched first. -/
theorem C99_continuation_history {s : State} (h : Reachable s) {t u : Tid} {c c' : CtxId} {k k' : UKind} {ls ls' : List Var} {rest rest' : List Frame} {x y : Var} {d e : CtxId}
    (hu : UserCode s t c k ls rest) (hu' : UserCode s u c' k' ls' rest') (htu : t ≠ u) (hx : Handle s x) (hy : Handle s y) (hxd : Designates s x d) (hyd : Designates s y e) (hxy : x ≠ y)
    (l : List (Tid × Op)) :
    AgreeRes ((run s ((t, .resume x) :: (u, .resume y) :: l)).rename s.nextVar (s.nextVar + 1))
      (run s ((u, .resume y) :: (t, .resume x) :: renamed s.nextVar (s.nextVar + 1) l)) := by
  obtain ⟨a, b, ea, eb, hab, ra, hn⟩ := commute_aux h hu hu' htu hx hy hxd hyd hxy
  have e1 : run s ((t, .resume x) :: (u, .resume y) :: l) = run a l := run_append' (h' := l) ea
  have e2 : run s ((u, .resume y) :: (t, .resume x) :: renamed s.nextVar (s.nextVar + 1) l) = run b (renamed s.nextVar (s.nextVar + 1) l) := run_append' (h' := renamed s.nextVar (s.nextVar + 1) l) eb
  have n1 : s.nextVar < a.nextVar := by rw [hn]; exact Nat.lt_succ_of_lt (Nat.lt_succ_self _)
  have n2 : s.nextVar + 1 < a.nextVar := by rw [hn]; exact Nat.lt_succ_self _
  rw [e1, e2, ← C98_continuation_history ra n1 n2 l]
  exact agree_run hab _

/-- threads 0 and 1 have called `callcc()`; the functions (contexts 1 and 3) are about to resume the contexts they were called from, which wait in `callcc()` -/
def hCommute : List (Tid × Op) := [(0, .spawn), (0, .callcc [] .success), (1, .callcc [] .success)]

example : Reachable (exec hCommute) := reachable_exec (by decide)
example : UserCode (exec hCommute) 0 2 .fn [1] [.entryRun] ∧ UserCode (exec hCommute) 1 3 .fn [3] [.entryRun] ∧ Handle (exec hCommute) 1 ∧ Handle (exec hCommute) 3 ∧ Designates (exec hCommute) 1 0 ∧ Designates (exec hCommute) 3 1 :=
  ⟨⟨by decide, by decide⟩, ⟨by decide, by decide⟩, ⟨.inr (.inl ⟨2, by decide⟩), by decide⟩, ⟨.inr (.inl ⟨3, by decide⟩), by decide⟩, ⟨⟨0, 2⟩, by decide, rfl⟩, ⟨⟨1, 2⟩, by decide, rfl⟩⟩
/-- both contexts continue -/
example : (match run (exec hCommute) [(0, .resume 1), (1, .resume 3)], run (exec hCommute) [(1, .resume 3), (0, .resume 1)] with
    | .ok a, .ok b => a.cur 0 == some 0 && a.cur 1 == some 1 && b.cur 0 == some 0 && b.cur 1 == some 1 && a.val 4 == some ⟨2, 2⟩ && b.val 4 == some ⟨3, 2⟩
    | _, _ => false) = true := by decide

end Verif.Cont
