import Verif.Commute.UFiberLog
import Verif.Commute.Fiber

/-! # C99: switches of different threads commute, `fiber` on ucontext -/

namespace Verif.UFiber
open Verif.Names
open Verif.Fiber (CtxId Var Tid Kind Exc Mode UKind Frame Status Op CreateOutcome Event upd upd_apply lvars evars rvars renamed map_id_of frames_unnamed)

/-- the states differ at most in the order in which events were recorded -/
structure Agree (a b : State) : Prop where
  state : { a with
    log := [] } = { b with
    log := [] }
  log : a.log.Perm b.log

/-- call stack of a context that is switched to by `resume()`: `n` is the object it receives, `u` whether it is to be unwound, `o` the function left in its record -/
def arriveF (u : Bool) (o : Option Nat) (n : Var) : List Frame → List Frame
  | .entryJump :: r => .user .fn [n] .normal :: .entryRun :: r
  | .resume :: .user k ls m :: r =>
    if u = true then .user k ls (.unwinding (.forced n)) :: r
    else match o with
      | some i => .user (.ontop i) [n] .normal :: .resume :: .user k ls m :: r
      | none => .user k (n :: ls) m :: r
  | fs => fs

def arriveLog (d : CtxId) (u : Bool) (o : Option Nat) : List Frame → List Event
  | .entryJump :: _ => [.enter d]
  | .resume :: .user _ _ _ :: _ =>
    if u = true then []
    else match o with
      | some i => [.ontop i d]
      | none => []
  | _ => []

def arriveKind (d : CtxId) (u : Bool) : List Frame → Kind
  | .entryJump :: _ => .loc d
  | _ => if u = true then .exc d else .loc d

def arriveFrm (c : CtxId) : List Frame → Option CtxId
  | .entryJump :: _ => some c
  | _ => none

/-- closed form of a successful `resume()` -/
def resumed (s : State) (t : Tid) (c d : CtxId) (x : Var) : State :=
  { s with
    cur := upd s.cur t (some d)
    status := upd (upd s.status c .suspended) d (.running t)
    frm := upd s.frm d (arriveFrm c (s.frames d))
    val := upd (upd s.val x none) s.nextVar (some c)
    kind := upd s.kind s.nextVar (arriveKind d (s.unw d) (s.frames d))
    nextVar := s.nextVar + 1
    frames := upd (upd s.frames c (.resume :: s.frames c)) d (arriveF (s.unw d) (s.ontop d) s.nextVar (s.frames d))
    log := arriveLog d (s.unw d) (s.ontop d) (s.frames d) ++ s.log }

theorem handle_not_exc {s : State} {x : Var} (h : Handle s x) : ∀ c, s.kind x ≠ .exc c := by
  intro c e
  rcases h with h | ⟨_, h⟩ | ⟨_, h⟩ <;> rw [e] at h <;> cases h

theorem upd_upd {α β : Type} [DecidableEq α] (f : α → β) (a : α) (x y : β) : upd (upd f a x) a y = upd f a y := by
  funext z; simp only [upd_apply]; split <;> rfl

/-- what a suspended context designated by a handle is doing: it has not been started or waits in `resume()` -/
theorem target_shape {s : State} {x : Var} {d : CtxId} (hi : Inv s) (ha : Handle s x) (hv : s.val x = some d) (hst : s.status d = .suspended) :
    (∃ r, s.frames d = .entryJump :: r) ∨ ∃ k ls m r, s.frames d = .resume :: .user k ls m :: r := by
  have hwf := hi.ci.wf d (by simp [hst])
  have hs := hi.ci.susp d hst
  have hnd := hi.vi.nonExc x d (handle_not_exc ha) hv
  rcases hf : s.frames d with _ | ⟨g, r⟩
  · rw [hf] at hs; exact hs.elim
  · rw [hf] at hs hwf
    cases g with
    | entryJump => exact .inl ⟨r, rfl⟩
    | resume =>
      rcases r with _ | ⟨g, r⟩
      · simp [WF, Adj] at hwf
      · cases g <;> simp_all [WF, Adj]
    | dtor w => exact absurd (by rw [hf]; rfl) (hnd w)
    | _ => exact hs.elim

theorem resume_form {s : State} {t c k ls rest x d} (hi : Inv s) (hu : UserCode s t c k ls rest) (ha : Handle s x) (hv : Designates s x d) (hst : Suspended s d) :
    step s t (.resume x) = .ok (resumed s t c d x) := by
  have hfc := susp_ne hi hu.1 hst
  rw [resume_eq hu ha hv hst]
  have hfr : (preResume s t c d x).frames d = s.frames d := by simp [preResume, sw, State.setFrames, State.setVal, upd_apply, hfc]
  have hp : (preResume s t c d x).frm d = some c := by simp [preResume, sw, State.setFrames, State.setVal]
  have hw : (preResume s t c d x).unw = s.unw := rfl
  have ho : (preResume s t c d x).ontop = s.ontop := rfl
  simp only [State.arrive, hfr, hp, hw, ho]
  rcases target_shape hi ha hv hst with ⟨r, hf⟩ | ⟨k', ls', m, r, hf⟩
  · simp only [hf, resumed, arriveF, arriveLog, arriveKind, arriveFrm, preResume, sw, State.setFrames, State.setVal, State.newVar, State.addLog]; rfl
  · cases hb : s.unw d with
    | true => simp only [hf, hb, resumed, arriveF, arriveLog, arriveKind, arriveFrm, preResume, sw, State.setFrames, State.setVal, State.newVar, upd_upd, if_true]; rfl
    | false =>
      cases hc : s.ontop d with
      | none => simp [hf, hb, hc, resumed, arriveF, arriveLog, arriveKind, arriveFrm, preResume, sw, State.setFrames, State.setVal, State.newVar, upd_upd]
      | some i => simp [hf, hb, hc, resumed, arriveF, arriveLog, arriveKind, arriveFrm, preResume, sw, State.setFrames, State.setVal, State.newVar, State.addLog, upd_upd]

/-- fresh names do not occur in call stacks -/
theorem frames_fresh {s : State} (hi : Inv s) {x y : Var} (hx : s.nextVar ≤ x) (hy : s.nextVar ≤ y) (c : CtxId) : (s.frames c).map (Frame.rename x y) = s.frames c := by
  have hk : ∀ z, s.kind z ≠ .dead → name x y z = z := by
    intro z hz
    have h1 : z ≠ x := fun e => hz (e ▸ hi.oi.fresh x hx)
    have h2 : z ≠ y := fun e => hz (e ▸ hi.oi.fresh y hy)
    simp [name, Migrate.other, h1, h2]
  have hloc : ∀ z, z ∈ lvars (s.frames c) → name x y z = z := fun z hz => hk z (by rw [(hi.oi.locs c z).1 hz]; simp)
  have hexc : ∀ z, z ∈ evars (s.frames c) → name x y z = z := fun z hz => hk z (by rw [(hi.oi.excs c z).1 hz]; simp)
  have hret : ∀ z, z ∈ rvars (s.frames c) → name x y z = z := fun z hz => hk z (by rw [(hi.oi.rets c z).1 hz]; simp)
  exact frames_unnamed _ hloc hexc hret

theorem caps_fresh {s : State} (hi : Inv s) {x y : Var} (hx : s.nextVar ≤ x) (hy : s.nextVar ≤ y) (c : CtxId) : (s.caps c).map (name x y) = s.caps c := by
  refine map_id_of fun z hz => ?_
  have hk := (hi.oi.capv c z).1 hz
  have h1 : z ≠ x := fun e => by rw [e, hi.oi.fresh x hx] at hk; cases hk
  have h2 : z ≠ y := fun e => by rw [e, hi.oi.fresh y hy] at hk; cases hk
  simp [name, Migrate.other, h1, h2]

theorem arrive_rename {x y n : Var} {u : Bool} {o : Option Nat} {fs : List Frame} (h : fs.map (Frame.rename x y) = fs) : (arriveF u o n fs).map (Frame.rename x y) = arriveF u o (name x y n) fs := by
  rcases fs with _ | ⟨f, r⟩
  · rfl
  · cases f with
    | entryJump => simp only [List.map_cons, List.cons.injEq] at h; simp [arriveF, Frame.rename, mode, h.2]
    | resume =>
      rcases r with _ | ⟨g, r⟩
      · rfl
      · cases g with
        | user k ls m =>
          simp only [List.map_cons, List.cons.injEq, Frame.rename, Frame.user.injEq] at h
          have mn : mode x y .normal = .normal := rfl
          have mu : mode x y (.unwinding (.forced n)) = .unwinding (.forced (name x y n)) := rfl
          cases u <;> cases o <;> simp [arriveF, Frame.rename, h, mn, mu]
        | _ => exact h
    | _ => exact h

theorem commute_aux {s : State} (h : Reachable s) (he : NoEarlyDestroy s) {t u : Tid} {c c' : CtxId} {k k' : UKind} {ls ls' : List Var} {rest rest' : List Frame} {x y : Var} {d d' : CtxId}
    (hu : UserCode s t c k ls rest) (hu' : UserCode s u c' k' ls' rest') (htu : t ≠ u) (hx : Handle s x) (hy : Handle s y) (hxd : Designates s x d) (hyd : Designates s y d') (hxy : x ≠ y) (hs : Suspended s d) (hs' : Suspended s d') :
    ∃ a b, run s [(t, .resume x), (u, .resume y)] = .ok a ∧ run s [(u, .resume y), (t, .resume x)] = .ok b ∧ Agree (a.rename s.nextVar (s.nextVar + 1)) b ∧ Reachable a ∧ a.nextVar = s.nextVar + 2 := by
  have hi := reachable_inv h he
  have hr : s.status c = .running t := (hi.ci.curRun t c).1 hu.1
  have hr' : s.status c' = .running u := (hi.ci.curRun u c').1 hu'.1
  have hcc : c ≠ c' := fun e => by rw [e, hr'] at hr; cases hr; exact htu rfl
  have hfc := susp_ne hi hu.1 hs
  have hgc := susp_ne hi hu.1 hs'
  have hfc' := susp_ne hi hu'.1 hs
  have hgc' := susp_ne hi hu'.1 hs'
  have hf : s.val x = some d := hxd
  have hg : s.val y = some d' := hyd
  have hfg : d ≠ d' := fun e => hxy (hi.vi.inj x y d hf (e ▸ hg))
  have lt : ∀ z, Handle s z → z ≠ s.nextVar := by
    intro z hz e
    have hd := hi.oi.fresh z (by rw [e]; exact Nat.le_refl _)
    rcases hz with hz | ⟨_, hz⟩ | ⟨_, hz⟩ <;> rw [hd] at hz <;> cases hz
  have hxn := lt x hx
  have hyn := lt y hy
  have e1 := resume_form hi hu hx hxd hs
  have e2 := resume_form hi hu' hy hyd hs'
  have ea : step (resumed s t c d x) u (.resume y) = .ok (resumed (resumed s t c d x) u c' d' y) := by
    refine resume_form (k := k') (ls := ls') (rest := rest') (reachable_inv (.step h e1) he) ⟨?_, ?_⟩ ?_ ?_ ?_
    · simp [resumed, upd_apply, htu.symm, hu'.1]
    · simp [resumed, upd_apply, Ne.symm hfc', Ne.symm hcc, hu'.2]
    · simpa [Handle, resumed, upd_apply, hyn] using hy
    · simp [Designates, resumed, upd_apply, hyn, Ne.symm hxy, hg]
    · simpa [Suspended, resumed, upd_apply, Ne.symm hfg, hgc] using hs'
  have eb : step (resumed s u c' d' y) t (.resume x) = .ok (resumed (resumed s u c' d' y) t c d x) := by
    refine resume_form (k := k) (ls := ls) (rest := rest) (reachable_inv (.step h e2) he) ⟨?_, ?_⟩ ?_ ?_ ?_
    · simp [resumed, upd_apply, htu, hu.1]
    · simp [resumed, upd_apply, Ne.symm hgc, hcc, hu.2]
    · simpa [Handle, resumed, upd_apply, hxn] using hx
    · simp [Designates, resumed, upd_apply, hxn, hxy, hf]
    · simpa [Suspended, resumed, upd_apply, hfg, hfc'] using hs
  refine ⟨resumed (resumed s t c d x) u c' d' y, resumed (resumed s u c' d' y) t c d x, by simp only [run, e1, ea], by simp only [run, e2, eb], ⟨?_, ?_⟩, .step (.step h e1) ea, rfl⟩
  · have hn : s.nextVar ≠ s.nextVar + 1 := (Nat.succ_ne_self _).symm
    have F := fun z => frames_fresh hi (Nat.le_refl s.nextVar) (Nat.le_succ s.nextVar) z
    have C := fun z => caps_fresh hi (Nat.le_refl s.nextVar) (Nat.le_succ s.nextVar) z
    have n1 : name s.nextVar (s.nextVar + 1) s.nextVar = s.nextVar + 1 := by simp [name, Migrate.other]
    have n2 : name s.nextVar (s.nextVar + 1) (s.nextVar + 1) = s.nextVar := by simp [name, Migrate.other]
    simp only [State.rename, resumed, State.mk.injEq, and_true, true_and]
    refine ⟨?_, ?_, ?_, ?_, ?_, ?_, ?_⟩
    · funext z; simp only [upd_apply]; grind
    · funext z; simp only [upd_apply]; grind
    · funext z
      have A1 := arrive_rename (n := s.nextVar) (u := s.unw d) (o := s.ontop d) (F d)
      have A2 := arrive_rename (n := s.nextVar + 1) (u := s.unw d') (o := s.ontop d') (F d')
      rw [n1] at A1; rw [n2] at A2
      have R1 : ((Frame.resume :: s.frames c).map (Frame.rename s.nextVar (s.nextVar + 1))) = .resume :: s.frames c := by rw [List.map_cons, F c]; rfl
      have R2 : ((Frame.resume :: s.frames c').map (Frame.rename s.nextVar (s.nextVar + 1))) = .resume :: s.frames c' := by rw [List.map_cons, F c']; rfl
      have F' := F z
      simp only [upd_apply]
      grind
    · funext z; exact C z
    · funext z; simp only [upd_apply, name, Migrate.other]; grind
    · funext z; simp only [upd_apply, name, Migrate.other]; grind
    · funext z; simp only [upd_apply]; grind
  · simp only [State.rename, resumed, upd_apply, Ne.symm hfg, hfg, hfc', hgc, if_false]
    rw [← List.append_assoc, ← List.append_assoc]
    exact List.Perm.append_right _ List.perm_append_comm

/-- **C99.** In every reachable state, for any two threads that are about to resume (different) suspended contexts through different handles: both orders succeed, and lead to the same state, up to the
exchange of the names of the two objects that are created and the order in which events were recorded. -/
theorem C99_ucontext_resumes_commute {s : State} (h : Reachable s) (he : NoEarlyDestroy s) {t u : Tid} {c c' : CtxId} {k k' : UKind} {ls ls' : List Var} {rest rest' : List Frame} {x y : Var} {d d' : CtxId}
    (hu : UserCode s t c k ls rest) (hu' : UserCode s u c' k' ls' rest') (htu : t ≠ u) (hx : Handle s x) (hy : Handle s y) (hxd : Designates s x d) (hyd : Designates s y d') (hxy : x ≠ y) (hs : Suspended s d) (hs' : Suspended s d') :
    ∃ a b, run s [(t, .resume x), (u, .resume y)] = .ok a ∧ run s [(u, .resume y), (t, .resume x)] = .ok b ∧ Agree (a.rename s.nextVar (s.nextVar + 1)) b := by
  obtain ⟨a, b, ea, eb, hab, -⟩ := commute_aux h he hu hu' htu hx hy hxd hyd hxy hs hs'
  exact ⟨a, b, ea, eb, hab⟩

/-- the outcomes are the same: both histories fail in the same way or lead to states that agree -/
def AgreeRes : Res → Res → Prop
  | .ok a, .ok b => Agree a b
  | .rejected, .rejected => True
  | .terminate, .terminate => True
  | .assertion, .assertion => True
  | .ub, .ub => True
  | _, _ => False

/-- states that agree have the same future -/
theorem agree_run {a b : State} (h : Agree a b) (l : List (Tid × Op)) : AgreeRes (run a l) (run b l) := by
  obtain ⟨s, hs⟩ : ∃ s : State, s = { a with
    log := [] } := ⟨_, rfl⟩
  have ha : a = s.older a.log := by rw [hs]; rfl
  have hb : b = s.older b.log := by rw [hs, h.state]; rfl
  have ea : run a l = (run s l).older a.log := by rw [← run_old, ← ha]
  have eb : run b l = (run s l).older b.log := by rw [← run_old, ← hb]
  rw [ea, eb]
  cases run s l with
  | ok r => exact ⟨rfl, h.log.append_left _⟩
  | _ => trivial

/-- **C99, whole histories.** Whatever happens after the two switches has the same outcome for both orders, with the two new objects exchanged: no program can find out which thread switched first. -/
theorem C99_ucontext_history {s : State} (h : Reachable s) (he : NoEarlyDestroy s) {t u : Tid} {c c' : CtxId} {k k' : UKind} {ls ls' : List Var} {rest rest' : List Frame} {x y : Var} {d d' : CtxId}
    (hu : UserCode s t c k ls rest) (hu' : UserCode s u c' k' ls' rest') (htu : t ≠ u) (hx : Handle s x) (hy : Handle s y) (hxd : Designates s x d) (hyd : Designates s y d') (hxy : x ≠ y) (hs : Suspended s d) (hs' : Suspended s d')
    (l : List (Tid × Op)) :
    AgreeRes ((run s ((t, .resume x) :: (u, .resume y) :: l)).rename s.nextVar (s.nextVar + 1))
      (run s ((u, .resume y) :: (t, .resume x) :: renamed s.nextVar (s.nextVar + 1) l)) := by
  obtain ⟨a, b, ea, eb, hab, ra, hn⟩ := commute_aux h he hu hu' htu hx hy hxd hyd hxy hs hs'
  have e1 : run s ((t, .resume x) :: (u, .resume y) :: l) = run a l := run_append' (h' := l) ea
  have e2 : run s ((u, .resume y) :: (t, .resume x) :: renamed s.nextVar (s.nextVar + 1) l) = run b (renamed s.nextVar (s.nextVar + 1) l) := run_append' (h' := renamed s.nextVar (s.nextVar + 1) l) eb
  have n1 : s.nextVar < a.nextVar := by rw [hn]; exact Nat.lt_succ_of_lt (Nat.lt_succ_self _)
  have n2 : s.nextVar + 1 < a.nextVar := by rw [hn]; exact Nat.lt_succ_self _
  rw [e1, e2, ← C98_ucontext_history ra n1 n2 l]
  exact agree_run hab _

/-- threads 0 and 1 are about to resume fibers 1 (in object 0) and 3 (in object 1), neither of which has been started -/
def hCommute : List (Tid × Op) := [(0, .create [] .success), (0, .spawn), (1, .create [] .success)]

example : Reachable (exec hCommute) ∧ NoEarlyDestroy (exec hCommute) := ⟨reachable_exec (by decide), (by decide : (exec hCommute).early = false)⟩
example : UserCode (exec hCommute) 0 0 .main [0] [] ∧ UserCode (exec hCommute) 1 2 .main [1] [] ∧ Handle (exec hCommute) 0 ∧ Handle (exec hCommute) 1 ∧ Designates (exec hCommute) 0 1 ∧ Designates (exec hCommute) 1 3 ∧
    Suspended (exec hCommute) 1 ∧ Suspended (exec hCommute) 3 :=
  ⟨⟨by decide, by decide⟩, ⟨by decide, by decide⟩, .inr (.inl ⟨0, by decide⟩), .inr (.inl ⟨2, by decide⟩), (by decide : (exec hCommute).val 0 = _), (by decide : (exec hCommute).val 1 = _),
    (by decide : (exec hCommute).status 1 = _), (by decide : (exec hCommute).status 3 = _)⟩
/-- both fibers start; the orders of the events differ -/
example : (match run (exec hCommute) [(0, .resume 0), (1, .resume 1)], run (exec hCommute) [(1, .resume 1), (0, .resume 0)] with
    | .ok a, .ok b => a.cur 0 == some 1 && a.cur 1 == some 3 && b.cur 0 == some 1 && b.cur 1 == some 3 && a.log.take 2 == [.enter 3, .enter 1] && b.log.take 2 == [.enter 1, .enter 3]
    | _, _ => false) = true := by decide

end Verif.UFiber
