import Verif.UFiber.Props2
import Verif.Fiber.Loop

/-!
# C95 for the ucontext implementation

How deep stacks get, and loops of the form `f = std::move(f).resume()`.
-/

namespace Verif.UFiber
open Verif.Fiber (CtxId Var Tid Kind Exc Mode UKind Frame Status Event Op upd upd_apply half loop)
open State

/-! ## Depth -/

theorem wf_depth : ∀ fs : List Frame, WF fs → fs.length ≤ 2 * (fs.countP Frame.isUser + fs.countP Frame.isRelease) + 1 ∧
    (∀ f rest, fs = f :: rest → f.isUser = true ∨ f.isRelease = true → fs.length ≤ 2 * (fs.countP Frame.isUser + fs.countP Frame.isRelease))
  | [], _ => ⟨by simp, by simp⟩
  | [f], h => by
    refine ⟨by simp, fun g rest e h' => ?_⟩
    cases e
    rcases h' with h' | h' <;> simp [h'] <;> omega
  | f :: g :: rest, h => by
    obtain ⟨i1, i2⟩ := wf_depth (g :: rest) h.2
    have i2 := i2 g rest rfl
    have ha := h.1
    constructor
    · by_cases hf : f.isUser = true ∨ f.isRelease = true
      · rw [List.length_cons, List.countP_cons (l := g :: rest), List.countP_cons (l := g :: rest)]
        rcases hf with hf | hf <;> rw [if_pos hf] <;> omega
      · have hg : g.isUser = true ∨ g.isRelease = true := by
          cases f <;> simp [Frame.isUser, Frame.isRelease] at hf <;> cases g <;> simp [Adj] at ha <;> simp [Frame.isUser, Frame.isRelease]
        have := i2 hg
        simp only [not_or, Bool.not_eq_true] at hf
        simp [hf.1, hf.2] at this ⊢
        omega
    · intro f' rest' e hf
      cases e
      rw [List.length_cons, List.countP_cons (l := g :: rest), List.countP_cons (l := g :: rest)]
      rcases hf with hf | hf <;> rw [if_pos hf] <;> omega

/-- **C95** In every reachable state, the stack of a context is at most twice as deep, plus one, as the activations of user code on it and the releases of finished fibers under way on it: below each
of them there is at most one activation of the library. -/
theorem C95_ucontext_depth {s : State} (h : Reachable s) (he : NoEarlyDestroy s) (c : CtxId) :
    (s.frames c).length ≤ 2 * ((s.frames c).countP Frame.isUser + (s.frames c).countP Frame.isRelease) + 1 := by
  have hi := reachable_inv h he
  by_cases ht : s.status c = .terminated
  · rw [hi.ci.fTerm c ht]; simp
  · exact (wf_depth _ (hi.ci.wf c ht)).1

/-! ## Loops -/

/-- the state after one half of a round -/
def turned (s : State) (t : Tid) (c d : CtxId) (x y : Var) (fs : List Frame) : State :=
  { s with
    cur := upd s.cur t (some d)
    status := upd (upd s.status c .suspended) d (.running t)
    frm := upd s.frm d none
    frames := upd (upd s.frames c (.resume :: s.frames c)) d fs
    val := upd (upd s.val x none) y (some c)
    nextVar := s.nextVar + 1 }

/-- what the two contexts need for a round -/
structure Ready (s : State) (t : Tid) (c d : CtxId) (x y : Var) (k k' : UKind) (ls ls' : List Var) (rest rest' : List Frame) : Prop where
  here : UserCode s t c k ls rest
  obj : Handle s x
  to : Designates s x d
  there : InResume s d k' ls' rest'
  obj' : Handle s y
  empty : s.val y = none
  /-- neither context is being unwound or has a function of `resume_with()` stored -/
  unw : s.unw c = false ∧ s.unw d = false
  fn : s.ontop c = none ∧ s.ontop d = none

theorem Ready.susp {s : State} {t : Tid} {c d : CtxId} {x y : Var} {k k' : UKind} {ls ls' : List Var} {rest rest' : List Frame} (hi : Inv s)
    (hr : Ready s t c d x y k k' ls ls' rest rest') : s.status d = .suspended ∧ d ≠ c := by
  have h1 : s.status d = .suspended := by
    rcases (hi.vi.valid x d hr.to).1 with h | h
    · exact h
    · have := hi.ci.fTerm d h
      rw [show s.frames d = _ from hr.there] at this; cases this
  exact ⟨h1, susp_ne hi hr.here.1 h1⟩

theorem half_run {s : State} {t : Tid} {c d : CtxId} {x y : Var} {k k' : UKind} {ls ls' : List Var} {rest rest' : List Frame} (h : Reachable s) (he : NoEarlyDestroy s)
    (hr : Ready s t c d x y k k' ls ls' rest rest') : run s (half t x y s.nextVar) = .ok (turned s t c d x y (.user k' ls' .normal :: rest')) := by
  have hi := reachable_inv h he
  obtain ⟨hds, hcf⟩ := hr.susp hi
  obtain ⟨hu, hx, hf, hr, hy, hv, ⟨-, hw⟩, -, ho⟩ := hr
  have fk : s.kind s.nextVar = .dead := hi.oi.fresh _ (Nat.le_refl _)
  have fv : s.val s.nextVar = none := hi.vi.deadNone _ fk
  have ax := handle_acc hx
  have ay := handle_acc hy
  have nx : x ≠ s.nextVar := fun e => by rw [e] at ax; simp [State.accessible, fk] at ax
  have ny : y ≠ s.nextVar := fun e => by rw [e] at ay; simp [State.accessible, fk] at ay
  have hxy : y ≠ x := fun e => by rw [e, show s.val x = some d from hf] at hv; cases hv
  simp only [half, run]
  rw [resume_eq hu hx hf hds]
  simp only [InResume] at hr
  simp only [State.accessible] at ay
  simp only [State.arrive, preResume, sw, State.setFrames, State.setVal, upd_apply, hcf, if_false, hr, hw, ho]
  simp [step, State.newVar, userStep, State.accessible, State.setFrames, State.setVal, State.destroyVar, State.kill, upd_apply, ny, hxy, hv, ay, hcf]
  simp only [turned, State.mk.injEq, true_and]
  refine ⟨?_, ?_, ?_, ?_, trivial⟩
  · funext e; simp only [upd_apply]; split <;> rfl
  · funext e; simp only [upd_apply]; split
    · next h => rw [h, fk]
    · rfl
  · funext e; simp only [upd_apply]
    by_cases h : e = s.nextVar
    · have h1 : e ≠ y := fun h1 => ny (h1.symm.trans h)
      have h2 : e ≠ x := fun h1 => nx (h1.symm.trans h)
      simp only [if_pos h, if_neg h1, if_neg h2]; rw [h, fv]
    · simp only [if_neg h]
  · funext e; simp only [upd_apply]; split <;> rfl

theorem Ready.turn {s : State} {t : Tid} {c d : CtxId} {x y : Var} {k k' : UKind} {ls ls' : List Var} {rest rest' : List Frame} (hi : Inv s)
    (hr : Ready s t c d x y k k' ls ls' rest rest') : Ready (turned s t c d x y (.user k' ls' .normal :: rest')) t d c y x k' k ls' ls rest' rest := by
  have hdc := (hr.susp hi).2
  have hxy : x ≠ y := fun e => by
    have hf : s.val x = some d := hr.to
    rw [e, hr.empty] at hf; cases hf
  refine ⟨⟨by simp [turned], by simp [turned]⟩, hr.obj', by simp [turned, Designates], ?_, hr.obj, ?_, hr.unw.symm, hr.fn.symm⟩
  · simp [InResume, turned, Ne.symm hdc, hr.here.2]
  · simp [turned, hxy]

theorem run_append' {s s' : State} {h h' : List (Tid × Op)} (hr : run s h = .ok s') : run s (h ++ h') = run s' h' := by
  induction h generalizing s with
  | nil => cases hr; rfl
  | cons a h ih =>
    simp only [List.cons_append, run] at hr ⊢
    cases hs : step s a.1 a.2 <;> simp only [hs] at hr ⊢ <;> first | exact ih hr | cases hr

/-- **C95**, ucontext implementation: a context in control executes `x = std::move(x).resume()` `n` times, the other one, suspended in `y = std::move(y).resume()`, executes this each time. For
every `n` this goes through, and at the end all stacks are what they were at the beginning, the same contexts run and wait, and every object of the program is as before; nothing else has happened. (Neither
context is being unwound or has a function of `resume_with()` stored.) -/
theorem C95_ucontext_loop {s : State} {t : Tid} {c d : CtxId} {x y : Var} {k k' : UKind} {ls ls' : List Var} {rest rest' : List Frame} (h : Reachable s) (he : NoEarlyDestroy s) (hu : UserCode s t c k ls rest)
    (hx : Handle s x) (hd : Designates s x d) (hr : InResume s d k' ls' rest') (hy : Handle s y) (hv : s.val y = none) (hw : s.unw c = false ∧ s.unw d = false) (ho : s.ontop c = none ∧ s.ontop d = none)
    (n : Nat) : ∃ s', run s (loop t x y s.nextVar n) = .ok s' ∧ s'.frames = s.frames ∧ s'.cur = s.cur ∧ s'.status = s.status ∧ s'.val = s.val ∧ s'.kind = s.kind ∧ s'.caps = s.caps ∧ s'.log = s.log ∧ s'.unw = s.unw ∧ s'.ontop = s.ontop ∧ s'.early = s.early ∧ s'.nextVar = s.nextVar + 2 * n := by
  induction n generalizing s with
  | zero => exact ⟨s, rfl, rfl, rfl, rfl, rfl, rfl, rfl, rfl, rfl, rfl, rfl, rfl⟩
  | succ n ih =>
    have hi := reachable_inv h he
    have r0 : Ready s t c d x y k k' ls ls' rest rest' := ⟨hu, hx, hd, hr, hy, hv, hw, ho⟩
    obtain ⟨hds, hdc⟩ := r0.susp hi
    have e1 := half_run h he r0
    obtain ⟨s1, hs1⟩ : ∃ s1, s1 = turned s t c d x y (.user k' ls' .normal :: rest') := ⟨_, rfl⟩
    have r1 := r0.turn hi
    rw [← hs1] at e1 r1
    have h1 : Reachable s1 := (steps_run e1).reachable h
    have he1 : NoEarlyDestroy s1 := by rw [hs1]; exact he
    have e2 := half_run h1 he1 r1
    obtain ⟨s2, hs2⟩ : ∃ s2, s2 = turned s1 t d c y x (.user k ls .normal :: rest) := ⟨_, rfl⟩
    have r2 := r1.turn (reachable_inv h1 he1)
    rw [← hs2] at e2 r2
    have h2 : Reachable s2 := (steps_run e2).reachable h1
    have he2 : NoEarlyDestroy s2 := by rw [hs2]; exact he1
    obtain ⟨s', e3, f1, f2, f3, f5, f6, f7, f8, g0, g1, g2, g3⟩ := ih h2 he2 r2.here r2.obj r2.to r2.there r2.obj' r2.empty r2.unw r2.fn
    have nv : s1.nextVar = s.nextVar + 1 := by rw [hs1]; rfl
    have nv2 : s2.nextVar = s.nextVar + 2 := by rw [hs2]; show s1.nextVar + 1 = _; rw [nv]
    refine ⟨s', ?_, ?_, ?_, ?_, ?_, ?_, ?_, ?_, ?_, ?_, ?_, ?_⟩
    · simp only [loop, List.append_assoc]
      rw [run_append' e1, ← nv, run_append' e2, ← nv2]; exact e3
    · rw [f1, hs2, hs1]
      funext e; simp only [turned, upd_apply]
      by_cases hc : e = c
      · subst hc; simp [hu.2]
      · by_cases hd' : e = d
        · subst hd'; simp only [if_neg hc, if_true]; exact hr.symm
        · simp [hc, hd']
    · rw [f2, hs2, hs1]
      funext e; simp only [turned, upd_apply]
      split
      · next he => rw [he]; exact hu.1.symm
      · rfl
    · rw [f3, hs2, hs1]
      funext e; simp only [turned, upd_apply]
      by_cases hc : e = c
      · subst hc; simp only [if_true]; exact ((hi.ci.curRun _ _).1 hu.1).symm
      · by_cases hd' : e = d
        · subst hd'; simp only [if_neg hc, if_true]; exact hds.symm
        · simp [hc, hd']
    · rw [f5, hs2, hs1]
      have hd : s.val x = some d := hd
      funext z; simp only [turned, upd_apply]
      split
      · next hz => rw [hz, hd]
      · split
        · next hz => rw [hz, hv]
        · rfl
    · rw [f6, hs2, hs1]; rfl
    · rw [f7, hs2, hs1]; rfl
    · rw [f8, hs2, hs1]; rfl
    · rw [g0, hs2, hs1]; rfl
    · rw [g1, hs2, hs1]; rfl
    · rw [g2, hs2, hs1]; rfl
    · rw [g3, nv2]; omega

/-- as `Verif.Fiber.hLoop` -/
def hLoop : List (Tid × Op) := h1 ++ [(0, .moveLocal 2)]

/-- the hypotheses can be met, e.g. for 1000 rounds -/
example : ∃ s', run (exec hLoop) (loop 0 3 1 (exec hLoop).nextVar 1000) = .ok s' ∧ s'.frames = (exec hLoop).frames := by
  obtain ⟨s', h1, h2, -⟩ := C95_ucontext_loop (s := exec hLoop) (c := 0) (d := 1) (x := 3) (y := 1) (t := 0) (reachable_exec (by decide)) (by unfold NoEarlyDestroy; decide) (k := .main) (ls := [3, 2, 0])
    (rest := []) ⟨by decide, by decide⟩
    (.inr (.inl ⟨0, by decide⟩)) (by unfold Designates; decide) (k' := .fn) (ls' := [1]) (rest' := [.entryRun]) (by unfold InResume; decide) (.inr (.inl ⟨1, by decide⟩)) (by decide) (by decide) (by decide) 1000
  exact ⟨s', h1, h2⟩

end Verif.UFiber
