import Verif.Fiber.Log2
import Verif.Fiber.Spec

/-! # Successful steps as a list of rules

`Eff s t c op s'` lists, rule by rule, what a successful step of thread `t` (running context `c`) does.  It is derived
from `step` (`step_eff`), so it adds nothing to the model; it only makes case analysis over steps short. -/

namespace Verif.Fiber
open State

/-- result of `State.switch` when it is defined -/
def sw (s : State) (t : Tid) (c : CtxId) (d : CtxId) (lv : Status) : State :=
  { s with
    cur := upd s.cur t (some d)
    status := upd (upd s.status c lv) d (.running t)
    seq := upd s.seq c (s.seq c + 1) }

theorem switch_some {s s' : State} {t c f lv ar b} (hc : s.cur t = some c) (h : s.switch t f lv ar = some (s', b)) :
    s' = sw s t c f.ctx lv ∧ b = ⟨c, s.seq c + 1⟩ ∧ s.seq f.ctx = f.seq ∧ (s.status f.ctx = .suspended ∨ s.status f.ctx = .raw) := by
  simp only [State.switch, hc] at h
  split at h
  · rename_i hg; simp only [Option.some.injEq, Prod.mk.injEq] at h; exact ⟨h.1.symm, h.2.symm, hg.2, by grind⟩
  · simp at h

/-- result of `State.finish` -/
def fin (s : State) (t : Tid) (c d : CtxId) : State :=
  { s with
    cur := upd s.cur t (some d)
    status := upd (upd s.status c .terminated) d (.running t)
    seq := upd s.seq c (s.seq c + 1)
    frames := upd (upd s.frames c [.exitJump]) d (.exiting c :: upd s.frames c [.exitJump] d) }

theorem finish_ok {s s' : State} {t c f} (hc : s.cur t = some c) (h : s.finish t c f = .ok s') :
    s' = fin s t c f.ctx := by
  simp only [State.finish, State.ontopSwitch] at h
  split at h
  · simp at h
  · rename_i s1 b hs
    obtain ⟨rfl, _, _⟩ := switch_some (c := c) (by exact hc) hs
    simp only [Res.ok.injEq] at h
    exact h.symm

/-- `deliver` succeeded -/
inductive Dlv (s : State) (c : CtxId) (v : Option Fctx) : State → Prop
  | entry {rest} (hf : s.frames c = .entryJump :: rest) :
      Dlv s c v { s with kind := upd s.kind s.nextVar (.loc c), val := upd s.val s.nextVar v, nextVar := s.nextVar + 1,
                         frames := upd s.frames c (.user .fn [s.nextVar] .normal :: .entryRun :: rest),
                         log := .enter c :: s.log }
  | resume {k ls m rest} (hf : s.frames c = .resume :: .user k ls m :: rest) :
      Dlv s c v { s with kind := upd s.kind s.nextVar (.loc c), val := upd s.val s.nextVar v, nextVar := s.nextVar + 1,
                         frames := upd s.frames c (.user k (s.nextVar :: ls) m :: rest) }
  | dtor {w rest} (hf : s.frames c = .dtor w :: rest) :
      Dlv s c v { s with frames := upd s.frames c rest, log := .destroyed w c :: s.log }

theorem deliver_ok {s s' : State} {c v} (h : s.deliver c v = .ok s') : Dlv s c v s' := by
  simp only [State.deliver] at h
  split at h
  · rename_i hf; simp only [Res.ok.injEq] at h; subst h; exact .entry hf
  · rename_i hf; simp only [Res.ok.injEq] at h; subst h; exact .resume hf
  · rename_i hf; simp only [Res.ok.injEq] at h; subst h; exact .dtor hf
  · simp at h

/-- `raiseForced` succeeded -/
inductive Rsd (s : State) (t : Tid) (c : CtxId) (f : Fctx) : State → Prop
  | entry {rest} (hf : s.frames c = .entryJump :: rest) : Rsd s t c f (fin s t c f.ctx)
  | resume {k ls m rest} (hf : s.frames c = .resume :: .user k ls m :: rest) :
      Rsd s t c f { s with kind := upd s.kind s.nextVar (.exc c), val := upd s.val s.nextVar (some f), nextVar := s.nextVar + 1,
                           frames := upd s.frames c (.user k ls (.unwinding (.forced s.nextVar)) :: rest) }

theorem raiseForced_ok {s s' : State} {t c f} (hc : s.cur t = some c) (h : s.raiseForced t c f = .ok s') : Rsd s t c f s' := by
  simp only [State.raiseForced] at h
  split at h
  · rename_i hf; rw [finish_ok hc h]; exact .entry hf
  · rename_i hf; simp only [Res.ok.injEq] at h; subst h; exact .resume hf
  · simp at h
  · simp at h

/-- `destroyFctx` succeeded -/
structure Dst (s : State) (t : Tid) (c : CtxId) (f : Fctx) (s' : State) : Prop where
  intro ::
  r : Rsd (sw (s.setFrames c (.dtor f.ctx :: s.frames c)) t c f.ctx .suspended) t f.ctx ⟨c, s.seq c + 1⟩ s'

theorem destroyFctx_ok {s s' : State} {t c f} (hc : s.cur t = some c) (h : s.destroyFctx t c f = .ok s') : Dst s t c f s' := by
  simp only [State.destroyFctx, State.ontopSwitch] at h
  split at h
  · simp at h
  · rename_i s1 b hs
    obtain ⟨rfl, rfl, _⟩ := switch_some (c := c) (by exact hc) hs
    exact ⟨raiseForced_ok (by simp [sw]) h⟩

/-- the state in which `~fiber` of a non-empty object (former value `f`) starts to unwind -/
inductive PreDst (s : State) (t : Tid) (c : CtxId) (f : Fctx) : Op → State → Prop
  | moveAssign {k ls rest x y} (hf : s.frames c = .user k ls .normal :: rest) (ha : s.accessible x = true)
      (hb : s.accessible y = true) (hn : y ≠ x) (hv : s.val y = some f) :
      PreDst s t c f (.moveAssign y x) { s with val := upd (upd s.val y (s.val x)) x none }
  | dropLoc {k ls rest x} (hf : s.frames c = .user k ls .normal :: rest) (hx : x ∈ ls) (hv : s.val x = some f) :
      PreDst s t c f (.drop x) { s with val := upd s.val x none, kind := upd s.kind x .dead,
                                        frames := upd s.frames c (.user k (ls.erase x) .normal :: rest) }
  | dropHeap {k ls rest x} (hf : s.frames c = .user k ls .normal :: rest) (hx : s.kind x = .heap) (hv : s.val x = some f) :
      PreDst s t c f (.drop x) { s with val := upd s.val x none, kind := upd s.kind x .dead }
  | tick {k ls m rest x} (hf : s.frames c = .user k (x :: ls) m :: rest) (hm : m ≠ .normal) (hv : s.val x = some f) :
      PreDst s t c f .tick { s with val := upd s.val x none, kind := upd s.kind x .dead,
                                    frames := upd s.frames c (.user k ls m :: rest) }
  | exit {n rest x xs} (hf : s.frames c = .exiting n :: rest) (hc : s.caps n = x :: xs) (hv : s.val x = some f) :
      PreDst s t c f .tick { s with val := upd s.val x none, kind := upd s.kind x .dead, caps := upd s.caps n xs }

/-- the rules -/
inductive Eff (s : State) (t : Tid) (c : CtxId) : Op → State → Prop
  | newHeap {k ls rest} (hf : s.frames c = .user k ls .normal :: rest) : Eff s t c .newHeap (s.newVar .heap none)
  | newLocal {k ls rest} (hf : s.frames c = .user k ls .normal :: rest) :
      Eff s t c .newLocal ((s.newVar (.loc c) none).setFrames c (.user k (s.nextVar :: ls) .normal :: rest))
  | moveHeap {k ls rest x} (hf : s.frames c = .user k ls .normal :: rest) (ha : s.accessible x = true) :
      Eff s t c (.moveHeap x) ((s.setVal x none).newVar .heap (s.val x))
  | moveLocal {k ls rest x} (hf : s.frames c = .user k ls .normal :: rest) (ha : s.accessible x = true) :
      Eff s t c (.moveLocal x) (((s.setVal x none).newVar (.loc c) (s.val x)).setFrames c (.user k (s.nextVar :: ls) .normal :: rest))
  | moveSelf {k ls rest x} (hf : s.frames c = .user k ls .normal :: rest) (ha : s.accessible x = true) :
      Eff s t c (.moveAssign x x) s
  | moveAssign {k ls rest x y} (hf : s.frames c = .user k ls .normal :: rest) (ha : s.accessible x = true)
      (hb : s.accessible y = true) (hn : y ≠ x) (hv : s.val y = none) :
      Eff s t c (.moveAssign y x) ((s.setVal y (s.val x)).setVal x none)
  | swap {k ls rest x y} (hf : s.frames c = .user k ls .normal :: rest) (ha : s.accessible x = true)
      (hb : s.accessible y = true) : Eff s t c (.swap x y) ((s.setVal x (s.val y)).setVal y (s.val x))
  | dropLoc {k ls rest x} (hf : s.frames c = .user k ls .normal :: rest) (hx : x ∈ ls) (hv : s.val x = none) :
      Eff s t c (.drop x) ((s.setFrames c (.user k (ls.erase x) .normal :: rest)).kill x)
  | dropHeap {k ls rest x} (hf : s.frames c = .user k ls .normal :: rest) (hx : s.kind x = .heap) (hv : s.val x = none) :
      Eff s t c (.drop x) (s.kill x)
  | create {k ls rest xs} (hf : s.frames c = .user k ls .normal :: rest) (ha : ∀ x ∈ xs, s.accessible x = true) {s2 : State}
      (h2 : s2 = ({ s with nextCtx := s.nextCtx + 1 }.addLog (.alloc s.nextCtx)).capture s.nextCtx xs) :
      Eff s t c (.create xs .success)
        { s2 with status := upd s2.status s.nextCtx .suspended,
                  frames := upd (upd s2.frames s.nextCtx [.entryJump]) c (.user k (s2.nextVar :: ls) .normal :: rest),
                  seq := upd (upd s2.seq s.nextCtx 1) c (s2.seq c + 1),
                  kind := upd s2.kind s2.nextVar (.loc c), val := upd s2.val s2.nextVar (some ⟨s.nextCtx, 1⟩),
                  nextVar := s2.nextVar + 1 }
  | createThrows {k ls rest xs n} (hf : s.frames c = .user k ls .normal :: rest) (ha : ∀ x ∈ xs, s.accessible x = true) :
      Eff s t c (.create xs (.allocThrows n)) (s.setFrames c (.user k ls (.unwinding (.user n)) :: rest))
  | resume {k ls rest x f s'} (hf : s.frames c = .user k ls .normal :: rest) (ha : s.accessible x = true)
      (hv : s.val x = some f)
      (hd : Dlv (sw ((s.setVal x none).setFrames c (.resume :: s.frames c)) t c f.ctx .suspended) f.ctx
        (some ⟨c, s.seq c + 1⟩) s') : Eff s t c (.resume x) s'
  | resumeWith {k ls rest x f} (hf : s.frames c = .user k ls .normal :: rest) (ha : s.accessible x = true)
      (hv : s.val x = some f) :
      Eff s t c (.resumeWith x)
        { s with cur := upd s.cur t (some f.ctx), status := upd (upd s.status c .suspended) f.ctx (.running t),
                 seq := upd s.seq c (s.seq c + 1), nextId := s.nextId + 1, kind := upd s.kind s.nextVar (.loc f.ctx),
                 val := upd (upd s.val x none) s.nextVar (some ⟨c, s.seq c + 1⟩), nextVar := s.nextVar + 1,
                 frames := upd (upd s.frames c (.resume :: s.frames c)) f.ctx
                   (.user (.ontop s.nextId) [s.nextVar] .normal :: upd s.frames c (.resume :: s.frames c) f.ctx),
                 log := .ontop s.nextId f.ctx :: s.log }
  | withThrowsHere {k ls rest x n} (hf : s.frames c = .user k ls .normal :: rest) (ha : s.accessible x = true) (hv : s.val x ≠ none) :
      Eff s t c (.withThrows x n false) (s.setFrames c (.user k ls (.unwinding (.user n)) :: rest))
  | withThrows {k ls rest x n f k' ls' m' rest'} (hf : s.frames c = .user k ls .normal :: rest) (ha : s.accessible x = true)
      (hv : s.val x = some f) (hf' : upd s.frames c (.resume :: s.frames c) f.ctx = .resume :: .user k' ls' m' :: rest') :
      Eff s t c (.withThrows x n true)
        { s with cur := upd s.cur t (some f.ctx), status := upd (upd s.status c .suspended) f.ctx (.running t),
                 seq := upd s.seq c (s.seq c + 1), val := upd s.val x none, lost := upd s.lost c true,
                 frames := upd (upd s.frames c (.resume :: s.frames c)) f.ctx (.user k' ls' (.unwinding (.user n)) :: rest') }
  | call {k ls rest} (hf : s.frames c = .user k ls .normal :: rest) :
      Eff s t c .call (s.setFrames c (.user .call [] .normal :: .user k ls .normal :: rest))
  | cleanup {fr rest} (hf : s.frames c = fr :: rest) (hr : RunTop (fr :: rest)) :
      Eff s t c .cleanup (s.setFrames c (.user .cleanup [] .normal :: fr :: rest))
  | ret {k ls rest} (hf : s.frames c = .user k ls .normal :: rest) (hk : k = .main ∨ k = .call ∨ k = .cleanup) :
      Eff s t c .ret (s.setFrames c (.user k ls (.returning none) :: rest))
  | retHandle {k ls rest x} (hf : s.frames c = .user k ls .normal :: rest) (ha : s.accessible x = true)
      (hk : k = .fn ∨ ∃ i, k = .ontop i) :
      Eff s t c (.retHandle x)
        (((s.setVal x none).newVar (.ret c) (s.val x)).setFrames c (.user k ls (.returning (some s.nextVar)) :: rest))
  | throw {k ls rest n} (hf : s.frames c = .user k ls .normal :: rest) :
      Eff s t c (.throw n) (s.setFrames c (.user k ls (.unwinding (.user n)) :: rest))
  | spawn {k ls rest} (hf : s.frames c = .user k ls .normal :: rest) :
      Eff s t c .spawn { s with
        cur := upd s.cur s.nextTid (some s.nextCtx), status := upd s.status s.nextCtx (.running s.nextTid),
        seq := upd s.seq s.nextCtx 0, frames := upd s.frames s.nextCtx [.user .main [] .normal],
        nextCtx := s.nextCtx + 1, nextTid := s.nextTid + 1 }
  | destroy {op s1 f s'} (h1 : PreDst s t c f op s1) (h2 : Dst s1 t c f s') : Eff s t c op s'
  | tickLocal {k ls m rest x} (hf : s.frames c = .user k (x :: ls) m :: rest) (hm : m ≠ .normal) (hv : s.val x = none) :
      Eff s t c .tick ((s.setFrames c (.user k ls m :: rest)).kill x)
  | exitCap {n rest x xs} (hf : s.frames c = .exiting n :: rest) (hc : s.caps n = x :: xs) (hv : s.val x = none) :
      Eff s t c .tick ({ s with caps := upd s.caps n xs }.kill x)
  | catchUser {rest n} (hf : s.frames c = .user .call [] (.unwinding (.user n)) :: rest) :
      Eff s t c .catchUser (s.setFrames c rest)
  | swallow {rest x f} (hf : s.frames c = .user .call [] (.unwinding (.forced x)) :: rest) (hv : s.val x = some f) :
      Eff s t c .swallow { (s.setFrames c rest).kill x with lost := upd s.lost f.ctx true }
  | propCall {e k' ls' m' rest} (hf : s.frames c = .user .call [] (.unwinding e) :: .user k' ls' m' :: rest) :
      Eff s t c .tick (s.setFrames c (.user k' ls' (.unwinding e) :: rest))
  | propFn {x f rest} (hf : s.frames c = .user .fn [] (.unwinding (.forced x)) :: rest) (hv : s.val x = some f) :
      Eff s t c .tick (fin (s.kill x) t c f.ctx)
  | propOntopUser {i n k ls m rest} (hf : s.frames c = .user (.ontop i) [] (.unwinding (.user n)) :: .resume :: .user k ls m :: rest) :
      Eff s t c .tick (s.setFrames c (.user k ls (.unwinding (.user n)) :: rest))
  | propOntopForced {i x f rest s'} (hf : s.frames c = .user (.ontop i) [] (.unwinding (.forced x)) :: rest) (hv : s.val x = some f)
      (hr : Rsd ((s.setFrames c rest).kill x) t c f s') : Eff s t c .tick s'
  | leaveMain {rest} (hf : s.frames c = .user .main [] (.returning none) :: rest) :
      Eff s t c .tick { s with cur := upd s.cur t none, status := upd s.status c .ended, frames := upd s.frames c [] }
  | leaveCall {k rest} (hf : s.frames c = .user k [] (.returning none) :: rest) (hk : k = .call ∨ k = .cleanup) :
      Eff s t c .tick (s.setFrames c rest)
  | leaveFn {x f rest} (hf : s.frames c = .user .fn [] (.returning (some x)) :: rest) (hv : s.val x = some f) :
      Eff s t c .tick (fin (s.kill x) t c f.ctx)
  | leaveOntop {i x rest s'} (hf : s.frames c = .user (.ontop i) [] (.returning (some x)) :: rest)
      (hd : Dlv ((s.setFrames c rest).kill x) c (s.val x) s') : Eff s t c .tick s'
  | exitDone {n rest s'} (hf : s.frames c = .exiting n :: rest) (hc : s.caps n = []) (hs : s.status n = .terminated)
      (hd : Dlv { s with status := upd s.status n .freed, frames := upd (upd s.frames n []) c rest, log := .dealloc n :: s.log }
        c none s') : Eff s t c .tick s'

theorem setFrames_setFrames {s : State} {c fs gs} : (s.setFrames c fs).setFrames c gs = s.setFrames c gs := by
  simp only [State.setFrames]
  congr 1
  funext d; simp only [upd_apply]; grind

theorem step_eff {s s' : State} {t op} (hi : Inv s) (h : step s t op = .ok s') : ∃ c, s.cur t = some c ∧ Eff s t c op s' := by
  unfold step at h
  split at h
  · simp at h
  rename_i c hcur
  refine ⟨c, hcur, ?_⟩
  split at h
  · rename_i k ls rest hf
    cases op with
    | newHeap => simp only [userStep, Res.ok.injEq] at h; subst h; exact .newHeap hf
    | newLocal => simp only [userStep, Res.ok.injEq] at h; subst h; exact .newLocal hf
    | moveHeap x =>
      simp only [userStep] at h
      split at h
      · simp only [Res.ok.injEq] at h; subst h; exact .moveHeap hf (by assumption)
      · simp at h
    | moveLocal x =>
      simp only [userStep] at h
      split at h
      · simp only [Res.ok.injEq] at h; subst h; exact .moveLocal hf (by assumption)
      · simp at h
    | moveAssign y x =>
      simp only [userStep] at h
      split at h
      · rename_i ha
        split at h
        · rename_i hyx; simp only [Res.ok.injEq] at h; subst h; subst hyx; exact .moveSelf hf ha.1
        · rename_i hyx
          split at h
          · simp only [Res.ok.injEq] at h; subst h; exact .moveAssign hf ha.1 ha.2 hyx (by assumption)
          · exact .destroy (.moveAssign hf ha.1 ha.2 hyx (by assumption)) (destroyFctx_ok (by exact hcur) h)
      · simp at h
    | swap x y =>
      simp only [userStep] at h
      split at h
      · rename_i ha; simp only [Res.ok.injEq] at h; subst h; exact .swap hf ha.1 ha.2
      · simp at h
    | drop x =>
      simp only [userStep] at h
      split at h
      · rename_i hx
        simp only [State.destroyVar] at h
        split at h
        · simp only [Res.ok.injEq] at h; subst h; exact .dropLoc hf hx (by assumption)
        · exact .destroy (.dropLoc hf hx (by assumption)) (destroyFctx_ok (by exact hcur) h)
      · split at h
        · rename_i hx
          simp only [State.destroyVar] at h
          split at h
          · simp only [Res.ok.injEq] at h; subst h; exact .dropHeap hf hx (by assumption)
          · exact .destroy (.dropHeap hf hx (by assumption)) (destroyFctx_ok (by exact hcur) h)
        · simp at h
    | create xs o =>
      simp only [userStep] at h
      split at h
      · rename_i ha
        have ha' : ∀ x ∈ xs, s.accessible x = true := by simpa using ha
        cases o with
        | success =>
          simp only at h
          rw [doCreate_eq hi hcur] at h
          simp only [Res.ok.injEq] at h
          subst h
          exact .create hf ha' rfl
        | allocThrows n => simp only [Res.ok.injEq] at h; subst h; exact .createThrows hf ha'
        | fnThrows => simp at h
      · simp at h
    | resume x =>
      simp only [userStep] at h
      split at h
      · rename_i ha
        simp only [State.doResume, State.jump] at h
        split at h
        · simp at h
        · rename_i f hv
          split at h
          · simp at h
          · rename_i s1 b hs
            obtain ⟨rfl, rfl, _⟩ := switch_some (c := c) (by exact hcur) hs
            exact .resume hf ha hv (deliver_ok h)
      · simp at h
    | resumeWith x =>
      simp only [userStep] at h
      split at h
      · rename_i ha
        simp only [State.doResumeWith, State.ontopSwitch] at h
        split at h
        · simp at h
        · rename_i f hv
          split at h
          · simp at h
          · rename_i s1 b hs
            obtain ⟨rfl, rfl, _⟩ := switch_some (c := c) (by exact hcur) hs
            simp only [Res.ok.injEq] at h
            subst h
            exact .resumeWith hf ha hv
      · simp at h
    | withThrows x n b =>
      simp only [userStep] at h
      split at h
      · rename_i ha
        simp only [State.doWithThrows, State.ontopSwitch] at h
        split at h
        · simp at h
        · rename_i f hv
          cases b with
          | false =>
            simp only [Bool.false_eq_true, if_false, Res.ok.injEq] at h
            subst h
            exact .withThrowsHere hf ha (by simp [hv])
          | true =>
            simp only [if_true] at h
            split at h
            · simp at h
            · rename_i s1 b hs
              obtain ⟨rfl, rfl, _⟩ := switch_some (c := c) (by exact hcur) hs
              simp only [State.raiseUser] at h
              split at h
              · simp at h
              · rename_i k' ls' m' rest' hfr'
                simp only [Res.ok.injEq] at h
                subst h
                exact .withThrows hf ha hv hfr'
              · simp at h
              · simp at h
      · simp at h
    | call => simp only [userStep, Res.ok.injEq] at h; subst h; exact .call hf
    | cleanup => simp only [userStep, Res.ok.injEq] at h; subst h; exact .cleanup hf (by simp [RunTop])
    | ret =>
      simp only [userStep] at h
      split at h
      case h_4 => simp at h
      all_goals simp only [Res.ok.injEq] at h; subst h; exact .ret hf (by simp)
    | retHandle x =>
      simp only [userStep] at h
      split at h
      · split at h
        case h_3 => simp at h
        all_goals simp only [Res.ok.injEq] at h; subst h; exact .retHandle hf (by assumption) (by simp)
      · simp at h
    | throw n => simp only [userStep, Res.ok.injEq] at h; subst h; exact .throw hf
    | catchUser => simp [userStep] at h
    | swallow => simp [userStep] at h
    | tick => simp [userStep] at h
    | spawn => simp only [userStep, Res.ok.injEq] at h; subst h; exact .spawn hf
  · rename_i k x ls m rest hm hf
    have hm' : m ≠ .normal := by intro hh; subst hh; exact hm rfl
    split at h
    · simp only [State.destroyVar] at h
      split at h
      · simp only [Res.ok.injEq] at h; subst h; exact .tickLocal hf hm' (by assumption)
      · exact .destroy (.tick hf hm' (by assumption)) (destroyFctx_ok (by exact hcur) h)
    · simp only [Res.ok.injEq] at h; subst h; exact .cleanup hf (by simp [RunTop])
    · simp at h
  · rename_i k e rest hf
    have hx : ∀ x, e = .forced x → s.val x ≠ none := by
      rintro x rfl
      exact hi.vi.excSome x c ((hi.oi.excs c x).1 (by simp [hf, evars, Frame.evars]))
    split at h
    · unfold propagate at h
      split at h
      · simp at h
      · simp at h
      · simp only [Res.ok.injEq] at h; subst h; exact .propCall hf
      · split at h
        · simp at h
        · split at h
          · simp at h
          · have := finish_ok (s := s.kill _) (c := c) (by exact hcur) h
            subst this; exact .propFn hf (by assumption)
      · split at h
        · simp only [State.raiseUser] at h
          split at h
          · simp at h
          · rename_i hh; simp only [Res.ok.injEq] at h; subst h
            simp [State.setFrames] at hh
            subst hh
            rw [setFrames_setFrames]
            exact Eff.propOntopUser hf
          · simp at h
          · simp at h
        · split at h
          · simp at h
          · exact .propOntopForced hf (by assumption) (raiseForced_ok (by exact hcur) h)
      · simp at h
    · simp only [Res.ok.injEq] at h; subst h; exact .cleanup hf (by simp [RunTop])
    · split at h
      · simp only [Res.ok.injEq] at h; subst h; exact .catchUser hf
      · simp at h
    · split at h
      · split at h
        · simp only [Res.ok.injEq] at h; subst h; exact .swallow hf (by assumption)
        · rename_i hn; exact absurd hn (hx _ rfl)
      · simp at h
    · simp at h
  · rename_i k x rest hf
    split at h
    · unfold leave at h
      split at h
      · simp only [Res.ok.injEq] at h; subst h; exact .leaveMain hf
      · simp only [Res.ok.injEq] at h; subst h; exact .leaveCall hf (by simp)
      · simp only [Res.ok.injEq] at h; subst h; exact .leaveCall hf (by simp)
      · split at h
        · simp at h
        · have := finish_ok (s := s.kill _) (c := c) (by exact hcur) h
          subst this; exact .leaveFn hf (by assumption)
      · exact .leaveOntop hf (deliver_ok h)
      · simp at h
    · simp only [Res.ok.injEq] at h; subst h; exact .cleanup hf (by simp [RunTop])
    · simp at h
  · rename_i n rest hf
    split at h
    · unfold exitStep at h
      split at h
      · simp only [State.destroyVar] at h
        split at h
        · simp only [Res.ok.injEq] at h; subst h; exact .exitCap hf (by assumption) (by assumption)
        · exact .destroy (.exit hf (by assumption) (by assumption)) (destroyFctx_ok (by exact hcur) h)
      · split at h
        · exact .exitDone hf (by assumption) (by assumption) (deliver_ok h)
        · simp at h
    · simp only [Res.ok.injEq] at h; subst h; exact .cleanup hf (by simp [RunTop])
    · simp at h
  · simp at h

end Verif.Fiber
