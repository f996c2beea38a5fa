import Verif.UFiber.Steps3

/-! # Successful steps of the ucontext machine as a list of rules

`Eff s t c op s'` lists, rule by rule, what a successful step of thread `t` (running context `c`) does.  It is derived
from `step` (`step_eff`), so it adds nothing to the model; it only makes case analysis over steps short. -/

namespace Verif.UFiber
open Verif.Fiber (CtxId Var Tid Kind Exc Mode UKind Frame Status Event Op CreateOutcome upd upd_apply RunTop)
open State

/-- result of `State.switchTo` when it is defined -/
def sw (s : State) (t : Tid) (c w : CtxId) (lv : Status) : State :=
  { s with frm := upd s.frm w (some c), cur := upd s.cur t (some w), status := upd (upd s.status c lv) w (.running t) }

theorem switchTo_some {s s' : State} {t c w lv} (hc : s.cur t = some c) (h : s.switchTo t w lv = some s') :
    s' = sw s t c w lv ∧ s.status w = .suspended := by
  simp only [State.switchTo, hc] at h
  split at h
  · rename_i hg; simp only [Option.some.injEq] at h; exact ⟨h.symm, hg⟩
  · simp at h

/-- `arrive` succeeded -/
inductive Arr (s : State) (w : CtxId) : State → Prop
  | entry {rest} (hf : s.frames w = .entryJump :: rest) :
      Arr s w { s with kind := upd s.kind s.nextVar (.loc w), val := upd s.val s.nextVar (s.frm w), nextVar := s.nextVar + 1,
                       frames := upd s.frames w (.user .fn [s.nextVar] .normal :: .entryRun :: rest),
                       log := .enter w :: s.log }
  | unwind {k ls m rest} (hf : s.frames w = .resume :: .user k ls m :: rest) (hu : s.unw w = true) :
      Arr s w { s with kind := upd s.kind s.nextVar (.exc w), val := upd s.val s.nextVar (s.frm w), nextVar := s.nextVar + 1,
                       frm := upd s.frm w none,
                       frames := upd s.frames w (.user k ls (.unwinding (.forced s.nextVar)) :: rest) }
  | ontop {k ls m rest i} (hf : s.frames w = .resume :: .user k ls m :: rest) (hu : s.unw w = false) (ho : s.ontop w = some i) :
      Arr s w { s with kind := upd s.kind s.nextVar (.loc w), val := upd s.val s.nextVar (s.frm w), nextVar := s.nextVar + 1,
                       frm := upd s.frm w none,
                       frames := upd s.frames w (.user (.ontop i) [s.nextVar] .normal :: .resume :: .user k ls m :: rest),
                       log := .ontop i w :: s.log }
  | ret {k ls m rest} (hf : s.frames w = .resume :: .user k ls m :: rest) (hu : s.unw w = false) (ho : s.ontop w = none) :
      Arr s w { s with kind := upd s.kind s.nextVar (.loc w), val := upd s.val s.nextVar (s.frm w), nextVar := s.nextVar + 1,
                       frm := upd s.frm w none,
                       frames := upd s.frames w (.user k (s.nextVar :: ls) m :: rest) }
  | dtor {v rest} (hf : s.frames w = .dtor v :: rest) (hs : s.status v ≠ .freed) (ht : s.term v = true) :
      Arr s w { s with frm := upd s.frm w none,
                       lost := fun z => s.lost z || (decide (s.frm w = some z) && decide (z ≠ v)),
                       frames := upd s.frames w (.exiting v :: .dtor v :: rest) }

theorem arrive_ok {s s' : State} {w} (h : s.arrive w = .ok s') : Arr s w s' := by
  simp only [State.arrive] at h
  split at h
  · rename_i hf; simp only [Res.ok.injEq] at h; subst h; exact .entry hf
  · rename_i hf
    split at h
    · rename_i hu; simp only [Res.ok.injEq] at h; subst h; exact .unwind hf (by simpa using hu)
    · rename_i hu
      split at h
      · rename_i ho; simp only [Res.ok.injEq] at h; subst h; exact .ontop hf (by simpa using hu) ho
      · rename_i ho; simp only [Res.ok.injEq] at h; subst h; exact .ret hf (by simpa using hu) ho
  · rename_i hf
    split at h
    · simp at h
    · split at h
      · simp only [Res.ok.injEq] at h; subst h; exact .dtor hf (by assumption) (by assumption)
      · simp at h
  · simp at h

/-- `destroyPtr` succeeded -/
inductive Dst (s : State) (t : Tid) (c v : CtxId) : State → Prop
  | root (hr : s.root v = true) : Dst s t c v { s with lost := upd s.lost v true }
  | term (hr : s.root v = false) (ht : s.term v = true) (hs : s.status v ≠ .freed) : Dst s t c v (s.setFrames c (.exiting v :: s.frames c))
  | unwind {s'} (hr : s.root v = false) (ht : s.term v = false) (hs : s.status v = .suspended)
      (ha : Arr (sw { s with unw := upd s.unw v true, early := s.early || decide (s.frames v = [Frame.entryJump]),
                             frames := upd s.frames c (.dtor v :: s.frames c) } t c v .suspended) v s') : Dst s t c v s'

theorem destroyPtr_ok {s s' : State} {t c v} (hc : s.cur t = some c) (h : s.destroyPtr t c v = .ok s') : Dst s t c v s' := by
  simp only [State.destroyPtr] at h
  split at h
  · simp at h
  split at h
  · rename_i hr; simp only [Res.ok.injEq] at h; subst h; exact .root hr
  split at h
  · rename_i ht; simp only [Res.ok.injEq] at h; subst h; exact .term (by grind) ht (by grind)
  split at h
  · simp at h
  · rename_i hr ht _ s1 hs
    obtain ⟨rfl, hs2⟩ := switchTo_some (c := c) (by exact hc) hs
    exact .unwind (by simpa using hr) (by simpa using ht) hs2 (arrive_ok h)

/-- `finish` succeeded -/
inductive Fin (s : State) (t : Tid) (c : CtxId) (p : Option CtxId) : State → Prop
  | mk {w s'} (hp : p = some w) (hs : s.status w = .suspended)
      (ha : Arr (sw { s with frm := upd s.frm c none, ontop := upd s.ontop c none,
                             term := upd s.term c true, unw := upd s.unw c false,
                             frames := upd s.frames c [.exitJump] } t c w .terminated) w s') : Fin s t c p s'

theorem finish_ok {s s' : State} {t c p} (hc : s.cur t = some c) (h : s.finish t c p = .ok s') : Fin s t c p s' := by
  simp only [State.finish] at h
  split at h
  · simp at h
  split at h
  · simp at h
  split at h
  · simp at h
  · rename_i s1 hs
    obtain ⟨rfl, hs2⟩ := switchTo_some (c := c) (by exact hc) hs
    exact .mk rfl hs2 (arrive_ok h)

/-- the state in which `~fiber` of a non-empty object (former value `v`) starts -/
inductive PreDst (s : State) (c : CtxId) (v : CtxId) : Op → State → Prop
  | moveAssign {k ls rest x y} (hf : s.frames c = .user k ls .normal :: rest) (ha : s.accessible x = true)
      (hb : s.accessible y = true) (hn : y ≠ x) (hv : s.val y = some v) :
      PreDst s c v (.moveAssign y x) { s with val := upd (upd s.val y (s.val x)) x none }
  | dropLoc {k ls rest x} (hf : s.frames c = .user k ls .normal :: rest) (hx : x ∈ ls) (hv : s.val x = some v) :
      PreDst s c v (.drop x) { s with val := upd s.val x none, kind := upd s.kind x .dead,
                                      frames := upd s.frames c (.user k (ls.erase x) .normal :: rest) }
  | dropHeap {k ls rest x} (hf : s.frames c = .user k ls .normal :: rest) (hx : s.kind x = .heap) (hv : s.val x = some v) :
      PreDst s c v (.drop x) { s with val := upd s.val x none, kind := upd s.kind x .dead }
  | tick {k ls m rest x} (hf : s.frames c = .user k (x :: ls) m :: rest) (hm : m ≠ .normal) (hv : s.val x = some v) :
      PreDst s c v .tick { s with val := upd s.val x none, kind := upd s.kind x .dead,
                                  frames := upd s.frames c (.user k ls m :: rest) }
  | exit {n rest x xs} (hf : s.frames c = .exiting n :: rest) (hc : s.caps n = x :: xs) (hv : s.val x = some v) :
      PreDst s c v .tick { s with val := upd s.val x none, kind := upd s.kind x .dead, caps := upd s.caps n xs }

/-- the rules -/
inductive Eff (s : State) (t : Tid) (c : CtxId) : Op → State → Prop
  | newHeap {k ls rest} (hf : s.frames c = .user k ls .normal :: rest) : Eff s t c .newHeap (s.newVar .heap none)
  | newLocal {k ls rest} (hf : s.frames c = .user k ls .normal :: rest) :
      Eff s t c .newLocal ((s.newVar (.loc c) none).setFrames c (.user k (s.nextVar :: ls) .normal :: rest))
  | moveHeap {k ls rest x} (hf : s.frames c = .user k ls .normal :: rest) (ha : s.accessible x = true) :
      Eff s t c (.moveHeap x) ((s.setVal x none).newVar .heap (s.val x))
  | moveLocal {k ls rest x} (hf : s.frames c = .user k ls .normal :: rest) (ha : s.accessible x = true) :
      Eff s t c (.moveLocal x) (((s.setVal x none).newVar (.loc c) (s.val x)).setFrames c (.user k (s.nextVar :: ls) .normal :: rest))
  | moveSelf {k ls rest x} (hf : s.frames c = .user k ls .normal :: rest) (ha : s.accessible x = true) :
      Eff s t c (.moveAssign x x) s
  | moveAssign {k ls rest x y} (hf : s.frames c = .user k ls .normal :: rest) (ha : s.accessible x = true)
      (hb : s.accessible y = true) (hn : y ≠ x) (hv : s.val y = none) :
      Eff s t c (.moveAssign y x) ((s.setVal y (s.val x)).setVal x none)
  | swap {k ls rest x y} (hf : s.frames c = .user k ls .normal :: rest) (ha : s.accessible x = true)
      (hb : s.accessible y = true) : Eff s t c (.swap x y) ((s.setVal x (s.val y)).setVal y (s.val x))
  | dropLoc {k ls rest x} (hf : s.frames c = .user k ls .normal :: rest) (hx : x ∈ ls) (hv : s.val x = none) :
      Eff s t c (.drop x) ((s.setFrames c (.user k (ls.erase x) .normal :: rest)).kill x)
  | dropHeap {k ls rest x} (hf : s.frames c = .user k ls .normal :: rest) (hx : s.kind x = .heap) (hv : s.val x = none) :
      Eff s t c (.drop x) (s.kill x)
  | create {k ls rest xs} (hf : s.frames c = .user k ls .normal :: rest) (ha : ∀ x ∈ xs, s.accessible x = true) {s2 : State}
      (h2 : s2 = ({ s with nextCtx := s.nextCtx + 1 }.addLog (.alloc s.nextCtx)).capture s.nextCtx xs) :
      Eff s t c (.create xs .success)
        { s2 with status := upd s2.status s.nextCtx .suspended,
                  frames := upd (upd s2.frames s.nextCtx [.entryJump]) c (.user k (s2.nextVar :: ls) .normal :: rest),
                  root := upd s2.root s.nextCtx false, frm := upd s2.frm s.nextCtx none,
                  ontop := upd s2.ontop s.nextCtx none,
                  term := upd s2.term s.nextCtx false, unw := upd s2.unw s.nextCtx false,
                  kind := upd s2.kind s2.nextVar (.loc c), val := upd s2.val s2.nextVar (some s.nextCtx),
                  nextVar := s2.nextVar + 1 }
  | createThrows {k ls rest xs n} (hf : s.frames c = .user k ls .normal :: rest) (ha : ∀ x ∈ xs, s.accessible x = true) :
      Eff s t c (.create xs (.allocThrows n)) (s.setFrames c (.user k ls (.unwinding (.user n)) :: rest))
  | resume {k ls rest x w s'} (hf : s.frames c = .user k ls .normal :: rest) (ha : s.accessible x = true)
      (hv : s.val x = some w) (hs : s.status w = .suspended)
      (hd : Arr (sw ((s.setVal x none).setFrames c (.resume :: s.frames c)) t c w .suspended) w s') : Eff s t c (.resume x) s'
  | resumeWith {k ls rest x w s'} (hf : s.frames c = .user k ls .normal :: rest) (ha : s.accessible x = true)
      (hv : s.val x = some w) (hs : s.status w = .suspended)
      (hd : Arr (sw { s with ontop := upd s.ontop w (some s.nextId), nextId := s.nextId + 1, val := upd s.val x none,
                             frames := upd s.frames c (.resume :: s.frames c) } t c w .suspended) w s') :
      Eff s t c (.resumeWith x) s'
  | call {k ls rest} (hf : s.frames c = .user k ls .normal :: rest) :
      Eff s t c .call (s.setFrames c (.user .call [] .normal :: .user k ls .normal :: rest))
  | cleanup {fr rest} (hf : s.frames c = fr :: rest) (hr : RunTop (fr :: rest)) :
      Eff s t c .cleanup (s.setFrames c (.user .cleanup [] .normal :: fr :: rest))
  | ret {k ls rest} (hf : s.frames c = .user k ls .normal :: rest) (hk : k = .main ∨ k = .call ∨ k = .cleanup) :
      Eff s t c .ret (s.setFrames c (.user k ls (.returning none) :: rest))
  | retHandle {k ls rest x} (hf : s.frames c = .user k ls .normal :: rest) (ha : s.accessible x = true)
      (hk : k = .fn ∨ ∃ i, k = .ontop i) :
      Eff s t c (.retHandle x)
        (((s.setVal x none).newVar (.ret c) (s.val x)).setFrames c (.user k ls (.returning (some s.nextVar)) :: rest))
  | throw {k ls rest n} (hf : s.frames c = .user k ls .normal :: rest) :
      Eff s t c (.throw n) (s.setFrames c (.user k ls (.unwinding (.user n)) :: rest))
  | spawn {k ls rest} (hf : s.frames c = .user k ls .normal :: rest) :
      Eff s t c .spawn { s with
        cur := upd s.cur s.nextTid (some s.nextCtx), status := upd s.status s.nextCtx (.running s.nextTid),
        frames := upd s.frames s.nextCtx [.user .main [] .normal], root := upd s.root s.nextCtx true,
        frm := upd s.frm s.nextCtx none, ontop := upd s.ontop s.nextCtx none, term := upd s.term s.nextCtx false,
        unw := upd s.unw s.nextCtx false, nextCtx := s.nextCtx + 1, nextTid := s.nextTid + 1 }
  | destroy {op s1 v s'} (h1 : PreDst s c v op s1) (h2 : Dst s1 t c v s') : Eff s t c op s'
  | tickLocal {k ls m rest x} (hf : s.frames c = .user k (x :: ls) m :: rest) (hm : m ≠ .normal) (hv : s.val x = none) :
      Eff s t c .tick ((s.setFrames c (.user k ls m :: rest)).kill x)
  | exitCap {n rest x xs} (hf : s.frames c = .exiting n :: rest) (hc : s.caps n = x :: xs) (hv : s.val x = none) :
      Eff s t c .tick ({ s with caps := upd s.caps n xs }.kill x)
  | catchUser {rest n} (hf : s.frames c = .user .call [] (.unwinding (.user n)) :: rest) :
      Eff s t c .catchUser (s.setFrames c rest)
  | swallow {rest x v} (hf : s.frames c = .user .call [] (.unwinding (.forced x)) :: rest) (hv : s.val x = some v) :
      Eff s t c .swallow { (s.setFrames c rest).kill x with lost := upd s.lost v true }
  | swallowNone {rest x} (hf : s.frames c = .user .call [] (.unwinding (.forced x)) :: rest) (hv : s.val x = none) :
      Eff s t c .swallow ((s.setFrames c rest).kill x)
  | propCall {e k' ls' m' rest} (hf : s.frames c = .user .call [] (.unwinding e) :: .user k' ls' m' :: rest) :
      Eff s t c .tick (s.setFrames c (.user k' ls' (.unwinding e) :: rest))
  | propFn {x rest s'} (hf : s.frames c = .user .fn [] (.unwinding (.forced x)) :: rest)
      (hd : Fin (s.kill x) t c (s.val x) s') : Eff s t c .tick s'
  | propOntop {i e k ls m rest} (hf : s.frames c = .user (.ontop i) [] (.unwinding e) :: .resume :: .user k ls m :: rest) :
      Eff s t c .tick (s.setFrames c (.user k ls (.unwinding e) :: rest))
  | leaveMain {rest} (hf : s.frames c = .user .main [] (.returning none) :: rest) :
      Eff s t c .tick { s with cur := upd s.cur t none, status := upd s.status c .ended, frames := upd s.frames c [] }
  | leaveCall {k rest} (hf : s.frames c = .user k [] (.returning none) :: rest) (hk : k = .call ∨ k = .cleanup) :
      Eff s t c .tick (s.setFrames c rest)
  | leaveFn {x rest s'} (hf : s.frames c = .user .fn [] (.returning (some x)) :: rest)
      (hd : Fin (s.kill x) t c (s.val x) s') : Eff s t c .tick s'
  | leaveOntop {i x k ls m rest} (hf : s.frames c = .user (.ontop i) [] (.returning (some x)) :: .resume :: .user k ls m :: rest) :
      Eff s t c .tick { s with ontop := upd s.ontop c none, kind := upd (upd s.kind x .dead) s.nextVar (.loc c),
                               val := upd (upd s.val x none) s.nextVar (s.val x), nextVar := s.nextVar + 1,
                               frames := upd s.frames c (.user k (s.nextVar :: ls) m :: rest) }
  | exitDtor {n v rest} (hf : s.frames c = .exiting n :: .dtor v :: rest) (hc : s.caps n = []) (hs : s.status n = .terminated) :
      Eff s t c .tick { s with status := upd s.status n .freed, frames := upd (upd s.frames n []) c rest,
                               log := .destroyed v c :: .dealloc n :: s.log }
  | exitDone {n rest} (hf : s.frames c = .exiting n :: rest) (hc : s.caps n = []) (hs : s.status n = .terminated)
      (hn : ∀ v r, rest ≠ .dtor v :: r) :
      Eff s t c .tick { s with status := upd s.status n .freed, frames := upd (upd s.frames n []) c rest,
                               log := .dealloc n :: s.log }

theorem step_eff {s s' : State} {t op} (h : step s t op = .ok s') : ∃ c, s.cur t = some c ∧ Eff s t c op s' := by
  unfold step at h
  split at h
  · simp at h
  rename_i c hcur
  refine ⟨c, hcur, ?_⟩
  split at h
  · rename_i k ls rest hf
    cases op with
    | newHeap => simp only [userStep, Res.ok.injEq] at h; subst h; exact .newHeap hf
    | newLocal => simp only [userStep, Res.ok.injEq] at h; subst h; exact .newLocal hf
    | moveHeap x =>
      simp only [userStep] at h
      split at h
      · simp only [Res.ok.injEq] at h; subst h; exact .moveHeap hf (by assumption)
      · simp at h
    | moveLocal x =>
      simp only [userStep] at h
      split at h
      · simp only [Res.ok.injEq] at h; subst h; exact .moveLocal hf (by assumption)
      · simp at h
    | moveAssign y x =>
      simp only [userStep] at h
      split at h
      · rename_i ha
        split at h
        · rename_i hyx; simp only [Res.ok.injEq] at h; subst h; subst hyx; exact .moveSelf hf ha.1
        · rename_i hyx
          split at h
          · simp only [Res.ok.injEq] at h; subst h; exact .moveAssign hf ha.1 ha.2 hyx (by assumption)
          · exact .destroy (.moveAssign hf ha.1 ha.2 hyx (by assumption)) (destroyPtr_ok (by exact hcur) h)
      · simp at h
    | swap x y =>
      simp only [userStep] at h
      split at h
      · rename_i ha; simp only [Res.ok.injEq] at h; subst h; exact .swap hf ha.1 ha.2
      · simp at h
    | drop x =>
      simp only [userStep] at h
      split at h
      · rename_i hx
        simp only [State.destroyVar] at h
        split at h
        · simp only [Res.ok.injEq] at h; subst h; exact .dropLoc hf hx (by assumption)
        · exact .destroy (.dropLoc hf hx (by assumption)) (destroyPtr_ok (by exact hcur) h)
      · split at h
        · rename_i hx
          simp only [State.destroyVar] at h
          split at h
          · simp only [Res.ok.injEq] at h; subst h; exact .dropHeap hf hx (by assumption)
          · exact .destroy (.dropHeap hf hx (by assumption)) (destroyPtr_ok (by exact hcur) h)
        · simp at h
    | create xs o =>
      simp only [userStep] at h
      split at h
      · rename_i ha
        have ha' : ∀ x ∈ xs, s.accessible x = true := by simpa using ha
        cases o with
        | success =>
          simp only [State.doCreate, Res.ok.injEq] at h
          subst h
          exact .create hf ha' rfl
        | allocThrows n => simp only [Res.ok.injEq] at h; subst h; exact .createThrows hf ha'
        | fnThrows => simp at h
      · simp at h
    | resume x =>
      simp only [userStep] at h
      split at h
      · rename_i ha
        simp only [State.doResume] at h
        split at h
        · simp at h
        · rename_i w hv
          split at h
          · simp at h
          split at h
          · simp at h
          · rename_i s1 hs
            obtain ⟨rfl, hs2⟩ := switchTo_some (c := c) (by exact hcur) hs
            exact .resume hf ha hv hs2 (arrive_ok h)
      · simp at h
    | resumeWith x =>
      simp only [userStep] at h
      split at h
      · rename_i ha
        simp only [State.doResumeWith] at h
        split at h
        · simp at h
        · rename_i w hv
          split at h
          · simp at h
          split at h
          · simp at h
          · rename_i s1 hs
            obtain ⟨rfl, hs2⟩ := switchTo_some (c := c) (by exact hcur) hs
            exact .resumeWith hf ha hv hs2 (arrive_ok h)
      · simp at h
    | call => simp only [userStep, Res.ok.injEq] at h; subst h; exact .call hf
    | cleanup => simp only [userStep, Res.ok.injEq] at h; subst h; exact .cleanup hf (by simp [RunTop])
    | ret =>
      simp only [userStep] at h
      split at h
      case h_4 => simp at h
      all_goals simp only [Res.ok.injEq] at h; subst h; exact .ret hf (by simp)
    | retHandle x =>
      simp only [userStep] at h
      split at h
      · split at h
        case h_3 => simp at h
        all_goals simp only [Res.ok.injEq] at h; subst h; exact .retHandle hf (by assumption) (by simp)
      · simp at h
    | throw n => simp only [userStep, Res.ok.injEq] at h; subst h; exact .throw hf
    | catchUser => simp [userStep] at h
    | swallow => simp [userStep] at h
    | withThrows => simp [userStep] at h
    | tick => simp [userStep] at h
    | spawn => simp only [userStep, Res.ok.injEq] at h; subst h; exact .spawn hf
  · rename_i k x ls m rest hm hf
    have hm' : m ≠ .normal := by intro hh; subst hh; exact hm rfl
    split at h
    · simp only [State.destroyVar] at h
      split at h
      · simp only [Res.ok.injEq] at h; subst h; exact .tickLocal hf hm' (by assumption)
      · exact .destroy (.tick hf hm' (by assumption)) (destroyPtr_ok (by exact hcur) h)
    · simp only [Res.ok.injEq] at h; subst h; exact .cleanup hf (by simp [RunTop])
    · simp at h
  · rename_i k e rest hf
    split at h
    · unfold propagate at h
      split at h
      · simp at h
      · simp at h
      · simp only [Res.ok.injEq] at h; subst h; exact .propCall hf
      · split at h
        · simp at h
        · exact .propFn hf (finish_ok (by exact hcur) h)
      · simp only [Res.ok.injEq] at h; subst h; exact .propOntop hf
      · simp at h
    · simp only [Res.ok.injEq] at h; subst h; exact .cleanup hf (by simp [RunTop])
    · split at h
      · simp only [Res.ok.injEq] at h; subst h; exact .catchUser hf
      · simp at h
    · split at h
      · split at h
        · simp only [Res.ok.injEq] at h; subst h; exact .swallow hf (by assumption)
        · simp only [Res.ok.injEq] at h; subst h; exact .swallowNone hf (by assumption)
      · simp at h
    · simp at h
  · rename_i k x rest hf
    split at h
    · unfold leave at h
      split at h
      · simp only [Res.ok.injEq] at h; subst h; exact .leaveMain hf
      · simp only [Res.ok.injEq] at h; subst h; exact .leaveCall hf (by simp)
      · simp only [Res.ok.injEq] at h; subst h; exact .leaveCall hf (by simp)
      · exact .leaveFn hf (finish_ok (by exact hcur) h)
      · split at h
        · simp only [Res.ok.injEq] at h; subst h; exact .leaveOntop hf
        · simp at h
      · simp at h
    · simp only [Res.ok.injEq] at h; subst h; exact .cleanup hf (by simp [RunTop])
    · simp at h
  · rename_i n rest hf
    split at h
    · unfold exitStep at h
      split at h
      · simp only [State.destroyVar] at h
        split at h
        · simp only [Res.ok.injEq] at h; subst h; exact .exitCap hf (by assumption) (by assumption)
        · exact .destroy (.exit hf (by assumption) (by assumption)) (destroyPtr_ok (by exact hcur) h)
      · split at h
        · split at h
          · simp only [Res.ok.injEq] at h; subst h; exact .exitDtor hf (by assumption) (by assumption)
          · rename_i hn; simp only [Res.ok.injEq] at h; subst h
            exact .exitDone hf (by assumption) (by assumption) (fun v r hh => hn v r hh)
        · simp at h
    · simp only [Res.ok.injEq] at h; subst h; exact .cleanup hf (by simp [RunTop])
    · simp at h
  · simp at h

end Verif.UFiber
