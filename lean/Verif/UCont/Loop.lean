import Verif.UCont.Props
import Verif.UCont.Empty
import Verif.UFiber.Loop

/-!
# C95 for `continuation` on ucontext

How deep stacks get, and loops of the form `f = std::move(f).resume()`.
-/

namespace Verif.UCont
open Verif.Fiber (CtxId Var Tid Kind Exc Mode UKind Status Event upd upd_apply)
open State

/-! ## Depth -/

/-- an activation of user code, possibly inside a call of `callcc` -/
def Frame.isUser : Frame → Bool
  | .user .. => true
  | .callcc .. => true
  | _ => false

/-- an activation of the function that releases a finished context -/
def Frame.isRelease : Frame → Bool
  | .exiting _ => true
  | _ => false

theorem isUser_abs : ∀ f : Frame, f.abs.isUser = f.isUser
  | .callcc _ cm _ _ => by cases cm <;> rfl
  | .user .. => rfl
  | .entryJump => rfl
  | .entryRun => rfl
  | .resume => rfl
  | .dtor _ => rfl
  | .exiting _ => rfl
  | .exitJump => rfl

theorem isRelease_abs : ∀ f : Frame, f.abs.isRelease = f.isRelease
  | .callcc _ cm _ _ => by cases cm <;> rfl
  | .user .. => rfl
  | .entryJump => rfl
  | .entryRun => rfl
  | .resume => rfl
  | .dtor _ => rfl
  | .exiting _ => rfl
  | .exitJump => rfl


/-- **C95** In every reachable state, the stack of a context is at most twice as deep, plus one, as the activations of user code on it and the releases of finished fibers under way on it: below each
of them there is at most one activation of the library. -/
theorem C95_ucontinuation_depth {s : State} (h : Reachable s) (c : CtxId) :
    (s.frames c).length ≤ 2 * ((s.frames c).countP Frame.isUser + (s.frames c).countP Frame.isRelease) + 1 := by
  have := UFiber.C95_ucontext_depth (reachable_facts h).reach (reachable_facts h).early c
  rw [abs_frames] at this
  simp only [absL, List.length_map, List.countP_map] at this
  rw [show (Fiber.Frame.isUser ∘ Frame.abs) = Frame.isUser from funext isUser_abs, show (Fiber.Frame.isRelease ∘ Frame.abs) = Frame.isRelease from funext isRelease_abs] at this
  exact this

/-! ## Loops -/

/-- `x = x.resume()` as seen from one context to the other: the caller resumes `x`; in the context resumed, the object `v` returned by `resume()` is move assigned to `y` and destroyed. -/
def half (t : Tid) (x y v : Var) : List (Tid × Op) := [(t, .resume x), (t, .moveAssign y v), (t, .drop v)]

/-- `n` rounds of a context that executes `x = x.resume()` and another one that executes `y = y.resume()`; the temporaries are `v`, `v + 1`, … -/
def loop (t : Tid) (x y v : Var) : Nat → List (Tid × Op)
  | 0 => []
  | n + 1 => half t x y v ++ half t y x (v + 1) ++ loop t x y (v + 2) n

/-- the state after one half of a round -/
def turned (s : State) (t : Tid) (c d : CtxId) (x y : Var) (fs : List Frame) : State :=
  { s with
    cur := upd s.cur t (some d)
    status := upd (upd s.status c .suspended) d (.running t)
    frm := upd s.frm d none
    frames := upd (upd s.frames c (.resume :: s.frames c)) d fs
    val := upd (upd s.val x none) y (some c)
    nextVar := s.nextVar + 1 }

/-- what the two contexts need for a round -/
structure Ready (s : State) (t : Tid) (c d : CtxId) (x y : Var) (k k' : UKind) (ls ls' : List Var) (rest rest' : List Frame) : Prop where
  here : UserCode s t c k ls rest
  obj : Handle s x
  to : Designates s x d
  there : InResume s d k' ls' rest'
  obj' : Handle s y
  empty : s.val y = none
  /-- neither context is being unwound or has a function of `resume_with()` stored -/
  unw : s.unw c = false ∧ s.unw d = false
  fn : s.ontop c = none ∧ s.ontop d = none

theorem Ready.susp {s : State} {t : Tid} {c d : CtxId} {x y : Var} {k k' : UKind} {ls ls' : List Var} {rest rest' : List Frame} (hi : UFiber.Inv s.abs)
    (hr : Ready s t c d x y k k' ls ls' rest rest') : s.status d = .suspended ∧ d ≠ c := by
  have h1 : s.status d = .suspended := by
    rcases (hi.vi.valid x d hr.to).1 with h | h
    · exact h
    · have := hi.ci.fTerm d h
      rw [abs_frames, show s.frames d = _ from hr.there] at this; simp [Frame.abs] at this
  exact ⟨h1, UFiber.susp_ne hi hr.here.1 h1⟩

theorem half_run {s : State} {t : Tid} {c d : CtxId} {x y : Var} {k k' : UKind} {ls ls' : List Var} {rest rest' : List Frame} (h : Reachable s)
    (hr : Ready s t c d x y k k' ls ls' rest rest') : run s (half t x y s.nextVar) = .ok (turned s t c d x y (.user k' ls' .normal :: rest')) := by
  have hi := (reachable_facts h).inv
  obtain ⟨hds, hcf⟩ := hr.susp hi
  obtain ⟨hu, hx, hf, hr, hy, hv, ⟨-, hw⟩, -, ho⟩ := hr
  have fk : s.kind s.nextVar = .dead := hi.oi.fresh _ (Nat.le_refl _)
  have fv : s.val s.nextVar = none := hi.vi.deadNone _ fk
  have ax := handle_accessible hx
  have ay := handle_accessible hy
  have nx : x ≠ s.nextVar := fun e => by rw [e] at ax; simp [State.accessible, fk] at ax
  have ny : y ≠ s.nextVar := fun e => by rw [e] at ay; simp [State.accessible, fk] at ay
  have hxy : y ≠ x := fun e => by rw [e, show s.val x = some d from hf] at hv; cases hv
  simp only [half, run]
  have e0 : step s t (.resume x) = s.doResume t c x := by simp only [step, hu.1, hu.2, userStep, ax, if_true]
  have hf' : s.val x = some d := hf
  have hhn : s.hidden s.nextVar = false := by
    cases e : s.hidden s.nextVar with
    | false => rfl
    | true => exact absurd (hidden_empty h _ e).1 (Nat.lt_irrefl _)
  rw [e0]
  simp only [State.doResume, hf', State.switchTo, State.setFrames, State.setVal, hu.1, hds, reduceCtorEq, if_false, if_true]
  simp only [InResume] at hr
  simp only [State.accessible] at ay
  simp only [State.arrive, State.setFrames, State.setVal, upd_apply, hcf, if_false, hr, hw, ho]
  simp [step, State.newVar, userStep, State.accessible, State.setFrames, State.setVal, State.destroyVar, State.kill, upd_apply, ny, hxy, hv, ay, hcf, hhn]
  simp only [turned, State.mk.injEq, true_and]
  refine ⟨?_, ?_, ?_, ?_, trivial⟩
  · funext e; simp only [upd_apply]; split <;> rfl
  · funext e; simp only [upd_apply]; split
    · next h => rw [h, fk]
    · rfl
  · funext e; simp only [upd_apply]
    by_cases h : e = s.nextVar
    · have h1 : e ≠ y := fun h1 => ny (h1.symm.trans h)
      have h2 : e ≠ x := fun h1 => nx (h1.symm.trans h)
      simp only [if_pos h, if_neg h1, if_neg h2]; rw [h, fv]
    · simp only [if_neg h]
  · funext e; simp only [upd_apply]; split <;> rfl

theorem Ready.turn {s : State} {t : Tid} {c d : CtxId} {x y : Var} {k k' : UKind} {ls ls' : List Var} {rest rest' : List Frame} (hi : UFiber.Inv s.abs)
    (hr : Ready s t c d x y k k' ls ls' rest rest') : Ready (turned s t c d x y (.user k' ls' .normal :: rest')) t d c y x k' k ls' ls rest' rest := by
  have hdc := (hr.susp hi).2
  have hxy : x ≠ y := fun e => by
    have hf : s.val x = some d := hr.to
    rw [e, hr.empty] at hf; cases hf
  refine ⟨⟨by simp [turned], by simp [turned]⟩, hr.obj', by simp [turned, Designates], ?_, hr.obj, ?_, hr.unw.symm, hr.fn.symm⟩
  · simp [InResume, turned, Ne.symm hdc, hr.here.2]
  · simp [turned, hxy]

theorem run_append' {s s' : State} {h h' : List (Tid × Op)} (hr : run s h = .ok s') : run s (h ++ h') = run s' h' := by
  induction h generalizing s with
  | nil => cases hr; rfl
  | cons a h ih =>
    simp only [List.cons_append, run] at hr ⊢
    cases hs : step s a.1 a.2 <;> simp only [hs] at hr ⊢ <;> first | exact ih hr | cases hr

/-- **C95**, `continuation` on ucontext: a context in control executes `x = x.resume()` `n` times, the other one, suspended in `y = y.resume()`, executes this each time. For
every `n` this goes through, and at the end all stacks are what they were at the beginning, the same contexts run and wait, and every object of the program is as before; nothing else has happened. (Neither
context is being unwound or has a function of `resume_with()` stored.) -/
theorem C95_ucontinuation_loop {s : State} {t : Tid} {c d : CtxId} {x y : Var} {k k' : UKind} {ls ls' : List Var} {rest rest' : List Frame} (h : Reachable s) (hu : UserCode s t c k ls rest)
    (hx : Handle s x) (hd : Designates s x d) (hr : InResume s d k' ls' rest') (hy : Handle s y) (hv : s.val y = none) (hw : s.unw c = false ∧ s.unw d = false) (ho : s.ontop c = none ∧ s.ontop d = none)
    (n : Nat) : ∃ s', run s (loop t x y s.nextVar n) = .ok s' ∧ s'.frames = s.frames ∧ s'.cur = s.cur ∧ s'.status = s.status ∧ s'.val = s.val ∧ s'.kind = s.kind ∧ s'.caps = s.caps ∧ s'.log = s.log ∧ s'.unw = s.unw ∧ s'.ontop = s.ontop ∧ s'.hidden = s.hidden ∧ s'.nextVar = s.nextVar + 2 * n := by
  induction n generalizing s with
  | zero => exact ⟨s, rfl, rfl, rfl, rfl, rfl, rfl, rfl, rfl, rfl, rfl, rfl, rfl⟩
  | succ n ih =>
    have hi := (reachable_facts h).inv
    have r0 : Ready s t c d x y k k' ls ls' rest rest' := ⟨hu, hx, hd, hr, hy, hv, hw, ho⟩
    obtain ⟨hds, hdc⟩ := r0.susp hi
    have e1 := half_run h r0
    obtain ⟨s1, hs1⟩ : ∃ s1, s1 = turned s t c d x y (.user k' ls' .normal :: rest') := ⟨_, rfl⟩
    have r1 := r0.turn hi
    rw [← hs1] at e1 r1
    have h1 : Reachable s1 := (steps_run e1).reachable h
    have e2 := half_run h1 r1
    obtain ⟨s2, hs2⟩ : ∃ s2, s2 = turned s1 t d c y x (.user k ls .normal :: rest) := ⟨_, rfl⟩
    have r2 := r1.turn (reachable_facts h1).inv
    rw [← hs2] at e2 r2
    have h2 : Reachable s2 := (steps_run e2).reachable h1
    obtain ⟨s', e3, f1, f2, f3, f5, f6, f7, f8, g0, g1, g2, g3⟩ := ih h2 r2.here r2.obj r2.to r2.there r2.obj' r2.empty r2.unw r2.fn
    have nv : s1.nextVar = s.nextVar + 1 := by rw [hs1]; rfl
    have nv2 : s2.nextVar = s.nextVar + 2 := by rw [hs2]; show s1.nextVar + 1 = _; rw [nv]
    refine ⟨s', ?_, ?_, ?_, ?_, ?_, ?_, ?_, ?_, ?_, ?_, ?_, ?_⟩
    · simp only [loop, List.append_assoc]
      rw [run_append' e1, ← nv, run_append' e2, ← nv2]; exact e3
    · rw [f1, hs2, hs1]
      funext e; simp only [turned, upd_apply]
      by_cases hc : e = c
      · subst hc; simp [hu.2]
      · by_cases hd' : e = d
        · subst hd'; simp only [if_neg hc, if_true]; exact hr.symm
        · simp [hc, hd']
    · rw [f2, hs2, hs1]
      funext e; simp only [turned, upd_apply]
      split
      · next he => rw [he]; exact hu.1.symm
      · rfl
    · rw [f3, hs2, hs1]
      funext e; simp only [turned, upd_apply]
      by_cases hc : e = c
      · subst hc; simp only [if_true]; exact ((hi.ci.curRun _ _).1 hu.1).symm
      · by_cases hd' : e = d
        · subst hd'; simp only [if_neg hc, if_true]; exact hds.symm
        · simp [hc, hd']
    · rw [f5, hs2, hs1]
      have hd : s.val x = some d := hd
      funext z; simp only [turned, upd_apply]
      split
      · next hz => rw [hz, hd]
      · split
        · next hz => rw [hz, hv]
        · rfl
    · rw [f6, hs2, hs1]; rfl
    · rw [f7, hs2, hs1]; rfl
    · rw [f8, hs2, hs1]; rfl
    · rw [g0, hs2, hs1]; rfl
    · rw [g1, hs2, hs1]; rfl
    · rw [g2, hs2, hs1]; rfl
    · rw [g3, nv2]; omega

/-- as `h2` (main has called `callcc`, the context has resumed main), and main has moved the result into a new local object (3) -/
def hLoop : List (Tid × Op) := h2 ++ [(0, .moveLocal 2)]

/-- the hypotheses can be met, e.g. for 1000 rounds -/
example : ∃ s', run (exec hLoop) (loop 0 3 1 (exec hLoop).nextVar 1000) = .ok s' ∧ s'.frames = (exec hLoop).frames := by
  obtain ⟨s', h1, h2, -⟩ := C95_ucontinuation_loop (s := exec hLoop) (c := 0) (d := 1) (x := 3) (y := 1) (t := 0) (reachable_exec (by decide)) (k := .main) (ls := [3, 2])
    (rest := []) ⟨by decide, by decide⟩
    ⟨.inr (.inl ⟨0, by decide⟩), by decide⟩ (by unfold Designates; decide) (k' := .fn) (ls' := [1]) (rest' := [.entryRun]) (by unfold InResume; decide) ⟨.inr (.inl ⟨1, by decide⟩), by decide⟩ (by decide) (by decide) (by decide) 1000
  exact ⟨s', h1, h2⟩

end Verif.UCont
