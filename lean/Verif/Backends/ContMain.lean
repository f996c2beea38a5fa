import Verif.Backends.ContDecode

/-! # The fcontext and the ucontext/winfib implementation of `continuation` agree (C88) -/

set_option linter.unusedSimpArgs false

namespace Verif.Backends.Cc
open Verif.Fiber (CtxId Var Tid Kind Exc Mode UKind Status Event CreateOutcome Fctx upd upd_apply)

variable {a : Cont.State} {b : UCont.State}

/-! ## Restrictions -/

theorem forced_abs (f : Cont.Frame) : Backends.isForced f.abs = isForced f := by
  rcases f with ⟨_, _, _, (_ | (_ | _) | _)⟩ | ⟨_, (_ | _ | (_ | _)), _, _, _⟩ | _ | _ | _ | ⟨_⟩ | ⟨_⟩ | _ <;> rfl
theorem ontop_abs (f : Cont.Frame) : Backends.isOntopFrame f.abs = isOntopFrame f := by
  rcases f with ⟨(_ | _ | _ | _ | _), _, _, _⟩ | ⟨_, (_ | _ | _), (_ | _ | _ | _ | _), _, _⟩ | _ | _ | _ | ⟨_⟩ | ⟨_⟩ | _ <;> rfl

theorem unwound_abs (fs : List Cont.Frame) : Backends.BeingUnwound (Cont.absL fs) ↔ BeingUnwound fs := by
  simp only [Backends.BeingUnwound, BeingUnwound, Cont.absL, List.any_map]
  have : (Backends.isForced ∘ Cont.Frame.abs) = isForced := funext forced_abs
  rw [this]
theorem inOntop_abs (fs : List Cont.Frame) : Backends.InOntop (Cont.absL fs) ↔ InOntop fs := by
  simp only [Backends.InOntop, InOntop, Cont.absL, List.any_map]
  have : (Backends.isOntopFrame ∘ Cont.Frame.abs) = isOntopFrame := funext ontop_abs
  rw [this]

theorem maySwitch_abs {t : Tid} (h : MaySwitch a t) : Backends.MaySwitch a.abs t := by
  unfold MaySwitch at h
  unfold Backends.MaySwitch
  simp only [Cont.State.abs]
  cases hc : a.cur t with
  | none => trivial
  | some c => rw [hc] at h; simp only [unwound_abs, inOntop_abs]; exact h

/-- `callcc` starts its context at once, so that every context has been started -/
theorem RC.started (h : RC a b) {x : Var} {f : Fctx} (hx : a.val x = some f) : a.abs.frames f.ctx ≠ [.entryJump] := by
  have hv := h.r.val x
  simp only [Cont.State.abs, UCont.State.abs, hx, Option.map_some] at hv
  have hl := live_some hv.symm
  have hfr := h.frames hl.2
  intro he
  have g := (UCont.reachable_facts h.rb).good.fr f.ctx
  rw [hfr] at g
  simp only [Cont.State.abs] at he
  cases hf : a.frames f.ctx with
  | nil => rw [hf] at he; simp at he
  | cons p r =>
    rw [hf] at he g
    simp only [Cont.absL_cons, List.cons.injEq] at he
    rcases p with ⟨_, _, _, _⟩ | ⟨_, (_ | _ | _), _, _, _⟩ | _ | _ | _ | ⟨_⟩ | ⟨_⟩ | _ <;> simp [Cont.Frame.abs, strip] at he g

theorem RC.mayDestroy (h : RC a b) {x : Var} (hd : MayDestroy a x) : Backends.MayDestroy a.abs x := by
  unfold MayDestroy at hd
  unfold Backends.MayDestroy
  have hv : a.abs.val x = a.val x := rfl
  rw [hv]
  cases hx : a.val x with
  | none => trivial
  | some f => rw [hx] at hd; exact ⟨hd, h.started hx⟩

theorem RC.mayDestroyHidden (h : RC a b) {x : Var} (hx : a.hidden x = true) : Backends.MayDestroy a.abs x := by
  have := (Cont.hidden_empty h.ra x hx).2
  unfold Backends.MayDestroy
  have hv : a.abs.val x = a.val x := rfl
  rw [hv, this]; trivial

/-- the operation of the fiber API an operation other than a successful `callcc` corresponds to -/
theorem RC.single (h : RC a b) {t : Tid} {op : UCont.Op} (hop : ∀ xs, op ≠ .callcc xs .success) (hal : Allowed a t op) :
    ∃ op', Cont.fiberOps a t (toC op) = [(t, op')] ∧ UCont.fiberOps b t op = [(t, op')] ∧ Backends.Allowed a.abs t op' := by
  cases op
  case tick =>
    cases hc : a.cur t with
    | none =>
      have hb : b.cur t = none := by rw [h.cur]; exact hc
      refine ⟨.tick, by simp [toC, Cont.fiberOps, hc], by simp [UCont.fiberOps, hb], ?_⟩
      have hcc : a.abs.cur t = none := hc
      simp [Backends.Allowed, hcc]
    | some c =>
      have hb : b.cur t = some c := by rw [h.cur]; exact hc
      have hfr := h.top hc
      have hcc : a.abs.cur t = some c := hc
      have hfa : a.abs.frames c = Cont.absL (a.frames c) := rfl
      have hid := (Cont.Vars.reachable_vars h.ra).fr c
      have hw := (Cont.reachable_spec h.ra).1 c
      cases hf : a.frames c with
      | nil =>
        rw [hf] at hfr hfa
        refine ⟨.tick, by simp [toC, Cont.fiberOps, hc, hf], by simp [UCont.fiberOps, hb, hfr], ?_⟩
        simp only [Backends.Allowed, hcc, hfa, Cont.absL_nil]
      | cons f rest =>
        rw [hf] at hfr hfa hid hw
        rw [Cont.Vars.fok_cons] at hid
        simp only [List.map_cons] at hfr
        simp only [Allowed, hc, hf] at hal
        rcases f with ⟨k, lib, ls, m⟩ | ⟨x, (_ | _ | _), k, lib, ls⟩ | _ | _ | _ | ⟨_⟩ | ⟨_⟩ | _
        case callcc.waiting => exact absurd hw.1 (by simp [Cont.OkUnder])
        case callcc.returning =>
          refine ⟨.drop x, by simp [toC, Cont.fiberOps, hc, hf], by simp [UCont.fiberOps, hb, hfr, strip, stripM], ?_⟩
          exact h.mayDestroyHidden hid.1.1
        case callcc.unwinding e =>
          refine ⟨.tick, by simp [toC, Cont.fiberOps, hc, hf], by simp [UCont.fiberOps, hb, hfr, strip, stripM], ?_⟩
          simp only [Backends.Allowed, hcc, hfa, Cont.absL_cons, Cont.Frame.abs]
          exact h.mayDestroyHidden hid.1.1
        case user =>
          refine ⟨.tick, by simp [toC, Cont.fiberOps, hc, hf], by simp [UCont.fiberOps, hb, hfr, strip], ?_⟩
          simp only [Backends.Allowed, hcc, hfa, Cont.absL_cons, Cont.Frame.abs]
          cases ls with
          | cons x ls => cases k <;> cases m <;> exact h.mayDestroy hal
          | nil => cases k <;> cases m <;> first | trivial | exact hal
        all_goals
          refine ⟨.tick, by simp [toC, Cont.fiberOps, hc, hf], by simp [UCont.fiberOps, hb, hfr, strip], ?_⟩
          simp only [Backends.Allowed, hcc, hfa, Cont.absL_cons, Cont.Frame.abs]
  case callcc xs o =>
    cases o with
    | success => exact absurd rfl (hop xs)
    | allocThrows n => exact ⟨_, rfl, rfl, hal.1⟩
    | fnThrows => exact ⟨_, rfl, rfl, hal.1⟩
  case resume x => exact ⟨_, rfl, rfl, maySwitch_abs hal⟩
  case resumeWith x =>
    refine ⟨_, rfl, rfl, maySwitch_abs hal, ?_⟩
    unfold Backends.Started
    have hv : a.abs.val x = a.val x := rfl
    rw [hv]
    cases hx : a.val x with
    | none => trivial
    | some f => exact h.started hx
  case drop x => exact ⟨_, rfl, rfl, h.mayDestroy hal⟩
  case moveAssign y x =>
    refine ⟨_, rfl, rfl, ?_⟩
    rcases hal with hal | hal
    · exact .inl hal
    · exact .inr (h.mayDestroy hal)
  case swallow => exact absurd hal id
  all_goals exact ⟨_, rfl, rfl, trivial⟩

/-! ## The release of a finished context -/

theorem fRel_abs (s : Cont.State) (t : Tid) : Backends.fReleasing s.abs t = fReleasing s t := by
  unfold Backends.fReleasing fReleasing
  simp only [Cont.State.abs]
  cases s.cur t with
  | none => rfl
  | some c =>
    simp only
    cases s.frames c with
    | nil => rfl
    | cons f r => rcases f with ⟨_, _, _, _⟩ | ⟨_, (_ | _ | _), _, _, _⟩ | _ | _ | _ | ⟨_⟩ | ⟨_⟩ | _ <;> rfl

theorem uRel_abs (s : UCont.State) (t : Tid) : Backends.uReleasing s.abs t = uReleasing s t := by
  unfold Backends.uReleasing uReleasing
  simp only [UCont.State.abs]
  cases s.cur t with
  | none => rfl
  | some c =>
    simp only
    cases s.frames c with
    | nil => rfl
    | cons f r => rcases f with ⟨_, _, _⟩ | ⟨_, (_ | _ | _), _, _⟩ | _ | _ | _ | ⟨_⟩ | ⟨_⟩ | _ <;> rfl

theorem fRel_frames {s : Cont.State} {t : Tid} (h : fReleasing s t = true) : ∃ c n rest, s.cur t = some c ∧ s.frames c = .exiting n :: rest := by
  unfold fReleasing at h
  split at h
  · rename_i c hc
    split at h
    · rename_i n rest hf; exact ⟨c, n, rest, hc, hf⟩
    · simp at h
  · simp at h

theorem uRel_frames {s : UCont.State} {t : Tid} (h : uReleasing s t = true) : ∃ c n rest, s.cur t = some c ∧ s.frames c = .exiting n :: rest := by
  unfold uReleasing at h
  split at h
  · rename_i c hc
    split at h
    · rename_i n rest hf; exact ⟨c, n, rest, hc, hf⟩
    · simp at h
  · simp at h

/-- what is known about a result of the fcontext machine: reachable if a state, with the temporaries `h0` -/
structure FOut (h0 : Var → Bool) (r : Cont.Res) (r' : Fiber.Res) : Prop where
  eq : r' = r.abs
  nr : r ≠ .rejected
  reach : ∀ s, r = .ok s → Cont.Reachable s ∧ s.hidden = h0

structure UOut (h0 : Var → Bool) (q : UCont.Res) (q' : UFiber.Res) : Prop where
  sim : UCont.Sim q q'
  nr : q ≠ .rejected
  reach : ∀ s, q = .ok s → UCont.Reachable s ∧ s.hidden = h0

theorem FOut.settle {h0 r r'} (h : FOut h0 r r') (t : Tid) : FOut h0 (fSettle t r) (Backends.fSettle t r') := by
  obtain ⟨rfl, hn, hr⟩ := h
  cases r with
  | rejected => exact absurd rfl hn
  | terminate => exact ⟨rfl, by simp [fSettle], by simp [fSettle]⟩
  | assertion => exact ⟨rfl, by simp [fSettle], by simp [fSettle]⟩
  | ub => exact ⟨rfl, by simp [fSettle], by simp [fSettle]⟩
  | ok s =>
    obtain ⟨hs, hh⟩ := hr s rfl
    simp only [fSettle, Backends.fSettle, Cont.Res.abs, fRel_abs]
    cases hrel : fReleasing s t with
    | false => exact ⟨rfl, by simp, by simp; exact ⟨hs, hh⟩⟩
    | true =>
      simp only [if_true]
      obtain ⟨c, n, rest, hc, hf⟩ := fRel_frames hrel
      have hnr : Cont.step s t .tick ≠ .rejected := by simp only [Cont.step, hc, hf]; exact nf_exitStep _ _ _ _ _
      have hsp := (Cont.step_spec (t := t) (op := .tick) (Cont.reachable_spec hs).1 (Fiber.reachable_inv (Cont.reachable_spec hs).2) rfl).1 hnr
      have hops : Cont.fiberOps s t .tick = [(t, .tick)] := by simp [Cont.fiberOps, hc, hf]
      rw [hops, Cont.run_single] at hsp
      refine ⟨hsp, hnr, fun s' hs' => ⟨.step hs hs', ?_⟩⟩
      rcases Cont.step_hidden (Cont.reachable_good hs) hs' with h | ⟨xs, hx, _⟩
      · rw [h.1.1, hh]
      · simp at hx

theorem UOut.settle {h0 q q'} (h : UOut h0 q q') (t : Tid) : UOut h0 (uSettle t q) (Backends.uSettle t q') := by
  obtain ⟨hsim, hn, hr⟩ := h
  cases q with
  | rejected => exact absurd rfl hn
  | terminate => simp only [UCont.Sim] at hsim; subst hsim; exact ⟨rfl, by simp [uSettle], by simp [uSettle]⟩
  | assertion => simp only [UCont.Sim] at hsim; subst hsim; exact ⟨rfl, by simp [uSettle], by simp [uSettle]⟩
  | ub =>
    simp only [UCont.Sim] at hsim
    rcases hsim with rfl | rfl
    · exact ⟨.inl rfl, by simp [uSettle], by simp [uSettle]⟩
    · exact ⟨.inr rfl, by simp [uSettle], by simp [uSettle]⟩
  | ok s =>
    obtain ⟨hs, hh⟩ := hr s rfl
    simp only [UCont.Sim] at hsim
    subst hsim
    simp only [uSettle, Backends.uSettle, uRel_abs]
    cases hrel : uReleasing s t with
    | false => exact ⟨rfl, by simp, by simp; exact ⟨hs, hh⟩⟩
    | true =>
      simp only [if_true]
      obtain ⟨c, n, rest, hc, hf⟩ := uRel_frames hrel
      have hnr : UCont.step s t .tick ≠ .rejected := by simp only [UCont.step, hc, hf]; exact nu_exitStep _ _ _ _ _
      have hsp := UCont.C68_step_refines (t := t) (op := .tick) hs
      have hops : UCont.fiberOps s t .tick = [(t, .tick)] := by simp [UCont.fiberOps, hc, hf]
      rw [hops, UCont.run_single] at hsp
      refine ⟨hsp, hnr, fun s' hs' => ⟨.step hs hs', ?_⟩⟩
      have fs := UCont.reachable_facts hs
      rcases UCont.step_hidden fs.good (fun c hc => fs.fresh hc) hs' with h | ⟨xs, hx, _⟩
      · rw [h.1.hid, hh]
      · simp at hx

/-! ## One step -/

inductive MatchC : Cont.Res → UCont.Res → Prop
  | ok {x : Cont.State} {y : UCont.State} : RC x y → MatchC (.ok x) (.ok y)
  | rejected : MatchC .rejected .rejected
  | terminate : MatchC .terminate .terminate
  | assertion : MatchC .assertion .assertion
  | null : MatchC .assertion .ub

theorem combine {h0 r r' q q'} (hf : FOut h0 r r') (hu : UOut h0 q q') (hm : Match r' q') : MatchC r q := by
  obtain ⟨rfl, hn, hr⟩ := hf
  obtain ⟨hs, hn', hr'⟩ := hu
  cases r with
  | rejected => exact absurd rfl hn
  | ub => simp only [Cont.Res.abs] at hm; cases hm
  | terminate =>
    simp only [Cont.Res.abs] at hm; cases hm
    cases q <;> simp [UCont.Sim] at hs hn'
    exact .terminate
  | assertion =>
    simp only [Cont.Res.abs] at hm; cases hm
    cases q <;> simp [UCont.Sim] at hs hn'
    · exact .assertion
    · exact .null
  | ok s =>
    simp only [Cont.Res.abs] at hm
    cases hm with
    | ok hR =>
      cases q <;> simp [UCont.Sim] at hs hn'
      subst hs
      obtain ⟨h1, h2⟩ := hr _ rfl
      obtain ⟨h3, h4⟩ := hr' _ rfl
      exact .ok ⟨hR, by rw [h2, h4], h1, h3⟩

theorem toC_lvalue (op : UCont.Op) : (toC op).lvalueFn = false := by cases op <;> rfl
theorem toC_callcc {op : UCont.Op} {xs o} : toC op = .callcc xs o ↔ op = .callcc xs o := by cases op <;> simp [toC]

/-- the temporaries after the step -/
def hidAfter (a : Cont.State) : UCont.Op → Var → Bool
  | .callcc xs .success => upd a.hidden (a.nextVar + xs.length) true
  | _ => a.hidden

theorem hidAfter_other {op : UCont.Op} (h : ∀ xs, op ≠ .callcc xs .success) : hidAfter a op = a.hidden := by
  cases op
  case callcc xs o => cases o <;> first | rfl | exact absurd rfl (h xs)
  all_goals rfl

theorem RC.fout (h : RC a b) {t : Tid} {op : UCont.Op} (hn : Cont.step a t (toC op) ≠ .rejected) :
    FOut (hidAfter a op) (Cont.step a t (toC op)) (Fiber.run a.abs (Cont.fiberOps a t (toC op))) := by
  have sp := Cont.reachable_spec h.ra
  refine ⟨(Cont.step_spec (t := t) (op := toC op) sp.1 (Fiber.reachable_inv sp.2) (toC_lvalue op)).1 hn, hn, fun s hs => ⟨.step h.ra hs, ?_⟩⟩
  rcases Cont.step_hidden (Cont.reachable_good h.ra) hs with hh | ⟨xs, hx, hh⟩
  · rw [hh.1.1, hidAfter_other]
    rintro xs rfl; exact hh.2 xs rfl
  · rw [hh.1]
    rw [toC_callcc] at hx
    subst hx; rfl

theorem RC.uout (h : RC a b) {t : Tid} {op : UCont.Op} (hn : UCont.step b t op ≠ .rejected) :
    UOut (hidAfter a op) (UCont.step b t op) (UFiber.run b.abs (UCont.fiberOps b t op)) := by
  have fs := UCont.reachable_facts h.rb
  refine ⟨UCont.C68_step_refines h.rb, hn, fun s hs => ⟨.step h.rb hs, ?_⟩⟩
  rcases UCont.step_hidden fs.good (fun c hc => fs.fresh hc) hs with hh | ⟨xs, rfl, hh⟩
  · rw [hh.1.hid, hidAfter_other hh.2, h.hid]
  · rw [hh.hid, h.hid]
    have : b.nextVar = a.nextVar := h.r.nV
    rw [this]; rfl

/-! ### `callcc` -/

theorem fCreate {s s1 : Fiber.State} {t : Tid} (h : Fiber.step s t (.create [] .success) = .ok s1) :
    ∃ c k ls rest, s.cur t = some c ∧ s.frames c = .user k ls .normal :: rest ∧ s1.cur t = some c ∧
      s1.frames c = .user k (s.nextVar :: ls) .normal :: rest := by
  simp only [Fiber.step] at h
  split at h
  · simp at h
  · rename_i c hc
    split at h
    case h_1 k ls rest hf =>
      refine ⟨c, k, ls, rest, hc, hf, ?_⟩
      simp only [Fiber.userStep, List.all_nil, if_true, Fiber.State.doCreate, Fiber.State.capture] at h
      split at h
      · simp at h
      · rename_i s2 back h2
        split at h
        · simp at h
        · rename_i s3 f h3
          simp only [Fiber.Res.ok.injEq] at h
          subst h
          simp only [Fiber.State.jump, Fiber.State.switch] at h2 h3
          have hb : back.ctx = c ∧ s2.nextVar = s.nextVar := by
            simp [Fiber.State.addLog, hc, upd_apply] at h2
            obtain ⟨rfl, rfl⟩ := h2
            exact ⟨rfl, rfl⟩
          split at h3
          · simp at h3
          · split at h3
            · simp only [Option.some.injEq, Prod.mk.injEq] at h3
              obtain ⟨rfl, _⟩ := h3
              simp [Fiber.State.newVar, Fiber.State.setFrames, upd_apply, hb.1, hb.2]
            · simp at h3
    all_goals simp at h

theorem uCreate {s s1 : UFiber.State} {t : Tid} (h : UFiber.step s t (.create [] .success) = .ok s1) :
    ∃ c k ls rest, s1.cur t = some c ∧ s1.frames c = .user k ls .normal :: rest := by
  simp only [UFiber.step] at h
  split at h
  · simp at h
  · rename_i c hc
    split at h
    case h_1 k ls rest hf =>
      simp only [UFiber.userStep, List.all_nil, if_true, UFiber.State.doCreate, UFiber.State.capture, UFiber.Res.ok.injEq] at h
      subst h
      refine ⟨c, k, s.nextVar :: ls, rest, ?_, ?_⟩
      · simpa [UFiber.State.newVar, UFiber.State.setFrames, UFiber.State.addLog] using hc
      · simp only [UFiber.State.setFrames, upd_apply, if_true]
        rfl
    all_goals simp at h

theorem fRun_create {s : Fiber.State} {t : Tid} {x : Var} :
    Backends.fRun s [(t, .create [] .success), (t, .resume x)] = Backends.fSettle t (Fiber.run s [(t, .create [] .success), (t, .resume x)]) := by
  simp only [Backends.fRun, Backends.fStep, Fiber.run]
  cases h : Fiber.step s t (.create [] .success) with
  | ok s1 =>
    obtain ⟨c, k, ls, rest, _, _, h1, h2⟩ := fCreate h
    have : Backends.fReleasing s1 t = false := by simp [Backends.fReleasing, h1, h2, releasing]
    simp only [Backends.fSettle, this]
    simp only [Bool.false_eq_true, if_false]
    cases Fiber.step s1 t (.resume x) with
    | ok s2 =>
      simp only
      cases Backends.fReleasing s2 t with
      | false => rfl
      | true => simp only [if_true]; cases Fiber.step s2 t .tick <;> rfl
    | _ => rfl
  | _ => rfl

theorem uRun_create {s : UFiber.State} {t : Tid} {x : Var} :
    Backends.uRun s [(t, .create [] .success), (t, .resume x)] = Backends.uSettle t (UFiber.run s [(t, .create [] .success), (t, .resume x)]) := by
  simp only [Backends.uRun, Backends.uStep, UFiber.run]
  cases h : UFiber.step s t (.create [] .success) with
  | ok s1 =>
    obtain ⟨c, k, ls, rest, h1, h2⟩ := uCreate h
    have : Backends.uReleasing s1 t = false := by simp [Backends.uReleasing, h1, h2, releasing]
    simp only [Backends.uSettle, this]
    simp only [Bool.false_eq_true, if_false]
    cases UFiber.step s1 t (.resume x) with
    | ok s2 =>
      simp only
      cases Backends.uReleasing s2 t with
      | false => rfl
      | true => simp only [if_true]; cases UFiber.step s2 t .tick <;> rfl
    | _ => rfl
  | _ => rfl

theorem RC.callcc (h : RC a b) {t : Tid} (hs : MaySwitch a t) (x : Var) :
    Backends.AllowedHist a.abs [(t, .create [] .success), (t, .resume x)] := by
  refine ⟨rfl, ?_⟩
  simp only [Backends.fStep]
  cases hc : Fiber.step a.abs t (.create [] .success) with
  | ok s1 =>
    obtain ⟨c, k, ls, rest, h0, h1, h2, h3⟩ := fCreate hc
    have : Backends.fReleasing s1 t = false := by simp [Backends.fReleasing, h2, h3, releasing]
    simp only [Backends.fSettle, this]
    refine ⟨?_, ?_⟩
    · have hm := maySwitch_abs hs
      unfold Backends.MaySwitch at hm
      show Backends.MaySwitch s1 t
      unfold Backends.MaySwitch
      rw [h0] at hm
      rw [h2]
      simp only [h1, h3, beingUnwound_cons, inOntop_cons, isForced_iff, isOntop_iff] at hm ⊢
      exact hm
    · cases Backends.fStep s1 t (.resume x) <;> trivial
  | _ => trivial

theorem step_matchC (h : RC a b) (t : Tid) (op : UCont.Op) (hal : Allowed a t op) : MatchC (fStep a t op) (uStep b t op) := by
  unfold fStep uStep
  by_cases hr : Cont.step a t (toC op) = .rejected
  · have hq := (reject_iff h t op).1 hr
    rw [hr, hq]; exact .rejected
  · have hq : UCont.step b t op ≠ .rejected := fun hh => hr ((reject_iff h t op).2 hh)
    have hf := (h.fout hr).settle t
    have hu := (h.uout hq).settle t
    refine combine hf hu ?_
    by_cases hop : ∃ xs, op = .callcc xs .success
    · obtain ⟨xs, rfl⟩ := hop
      obtain ⟨rfl, hs⟩ := hal
      have ho : Cont.fiberOps a t (toC (.callcc [] .success)) = [(t, .create [] .success), (t, .resume a.nextVar)] := rfl
      have hnv : b.nextVar = a.nextVar := h.r.nV
      have ho' : UCont.fiberOps b t (.callcc [] .success) = [(t, .create [] .success), (t, .resume a.nextVar)] := by
        rw [← hnv]; rfl
      rw [ho, ho', ← fRun_create, ← uRun_create]
      obtain ⟨r, q, e1, e2, hm, _⟩ := run_match _ h.r (Cont.reachable_spec h.ra).2 (UCont.reachable_facts h.rb).reach (h.callcc hs a.nextVar)
      rw [e1, e2]; exact hm
    · obtain ⟨op', ho, ho', hal'⟩ := h.single (fun xs hx => hop ⟨xs, hx⟩) hal
      rw [ho, ho', Cont.run_single, UCont.run_single]
      exact step_match h.r (Cont.reachable_spec h.ra).2 (UCont.reachable_facts h.rb).reach t op' hal'

/-! ## Histories -/

theorem run_matchC (h : List (Tid × UCont.Op)) : ∀ {a b}, RC a b → AllowedHist a h → MatchC (fRun a h) (uRun b h) := by
  induction h with
  | nil => intro a b hR _; exact .ok hR
  | cons p h ih =>
    obtain ⟨t, op⟩ := p
    intro a b hR hal
    obtain ⟨h1, h2⟩ := hal
    have hm := step_matchC hR t op h1
    simp only [fRun, uRun]
    generalize fStep a t op = r at *
    generalize uStep b t op = q at *
    cases hm with
    | ok hR' => exact ih hR' h2
    | rejected => exact .rejected
    | terminate => exact .terminate
    | assertion => exact .assertion
    | null => exact .null

theorem RC_init : RC Cont.init UCont.init := by
  refine ⟨?_, rfl, .init, .init⟩
  have h1 : Cont.init.abs = Fiber.init := by
    simp only [Cont.init, Cont.State.abs, Fiber.init]
    congr
    funext c
    split <;> rfl
  have h2 : UCont.init.abs = UFiber.init := by
    simp only [UCont.init, UCont.State.abs, UFiber.init]
    congr
    funext c
    split <;> rfl
  rw [h1, h2]; exact R_init

theorem RC.same (h : RC a b) : Same a b := by
  have hs := h.r.same (UCont.reachable_facts h.rb).reach
  exact ⟨hs.threads, hs.status, hs.finished, fun c hc => h.frames hc, hs.objects, fun x => by rw [h.hid], hs.handles, hs.events⟩

/-- **C88**: a program (any number of threads, any schedule) that keeps to the operations of `Allowed` is executed by the fcontext and
the ucontext/winfib implementation of `continuation` with the same outcome; after every prefix all contexts have the same call stacks, the
same objects exist and designate the same contexts, and the same functions were started in the same order. -/
theorem C88_continuations_agree (h : List (Tid × UCont.Op)) (hal : AllowedHist Cont.init h) :
    SameOutcome (fRun Cont.init h) (uRun UCont.init h) := by
  have hm := run_matchC h RC_init hal
  generalize fRun Cont.init h = r at *
  generalize uRun UCont.init h = q at *
  cases hm with
  | ok hR => exact hR.same
  | rejected => trivial
  | terminate => trivial
  | assertion => trivial
  | null => trivial

/-- Two contexts; the second is continued by `resume_with` (its on-top function returns), resumes and is destroyed (forced unwinding); the first one
finishes. -/
def hSample : List (Tid × UCont.Op) :=
  [(0, .callcc [] .success), (0, .resume 1), (0, .tick),
   (0, .callcc [] .success), (0, .call), (0, .resume 4), (0, .tick),
   (0, .resumeWith 5), (0, .retHandle 6), (0, .tick), (0, .tick), (0, .resume 8), (0, .drop 9), (0, .tick), (0, .tick), (0, .tick), (0, .tick),
   (0, .resume 2), (0, .retHandle 11), (0, .tick), (0, .tick), (0, .tick)]

/-- the hypothesis is met by a program with two contexts, `resume_with`, a context that finishes and one that is unwound; its run is long -/
example : AllowedHist Cont.init hSample := by decide
example : ∃ a b, fRun Cont.init hSample = .ok a ∧ uRun UCont.init hSample = .ok b ∧ a.log.length = 8 ∧ b.log.length = 7 := by
  refine ⟨_, _, rfl, rfl, by decide, by decide⟩

/-! ## Why the restrictions are needed

For each clause of `Allowed` a history whose last forbidden operation breaks only this clause, and on which the implementations disagree. -/

/-- the outcomes visibly differ: different kinds of outcome, different events, or different call stacks of contexts 0 and 1 -/
def differ (h : List (Tid × UCont.Op)) : Bool :=
  match fRun Cont.init h, uRun UCont.init h with
  | .ok a, .ok b => a.log.filter notRelease != b.log.filter notRelease ||
      [0, 1].any fun c => decide (b.status c ≠ .terminated) && decide (b.frames c ≠ (a.frames c).map strip)
  | .rejected, .rejected => false
  | .terminate, .terminate => false
  | .assertion, .assertion => false
  | .assertion, .ub => false
  | _, _ => true

theorem differ_not_same {h : List (Tid × UCont.Op)} (hd : differ h = true) : ¬ SameOutcome (fRun Cont.init h) (uRun UCont.init h) := by
  unfold differ at hd
  intro hs
  split at hd
  · rename_i a b h1 h2
    simp only [h1, h2, SameOutcome] at hs
    have h3 := hs.events
    have h4 := hs.stacks 0
    have h5 := hs.stacks 1
    simp only [h3, bne_self_eq_false, Bool.false_or, List.any_cons, List.any_nil, Bool.or_false, Bool.or_eq_true, Bool.and_eq_true,
      decide_eq_true_eq] at hd
    rcases hd with hd | hd
    · exact hd.2 (h4 hd.1)
    · exact hd.2 (h5 hd.1)
  · simp at hd
  · simp at hd
  · simp at hd
  · simp at hd
  · rename_i n1 n2 n3 n4 n5
    generalize fRun Cont.init h = r at *
    generalize uRun UCont.init h = q at *
    cases r <;> cases q <;> simp_all [SameOutcome]

/-- destruction of the handle of a thread's main context -/
def hDestroyMain : List (Tid × UCont.Op) := [(0, .callcc [] .success), (0, .drop 1)]
/-- two contexts, both suspended in `resume()`, the first one inside a nested call; objects 2 and 5 of `main` designate them -/
def hTwo : List (Tid × UCont.Op) :=
  [(0, .callcc [] .success), (0, .call), (0, .resume 1), (0, .tick), (0, .callcc [] .success), (0, .resume 4), (0, .tick)]
/-- a destructor run by the unwinding of a context resumes another context -/
def hResumeUnwinding : List (Tid × UCont.Op) := hTwo ++ [(0, .drop 2), (0, .cleanup), (0, .resume 5), (0, .resume 7)]
/-- an on-top function calls `resume()` -/
def hResumeInOntop : List (Tid × UCont.Op) := hTwo ++ [(0, .resumeWith 2), (0, .resume 6), (0, .resume 7)]
/-- a destructor run by the unwinding of a context calls `callcc()` -/
def hCallccUnwinding : List (Tid × UCont.Op) := hTwo ++ [(0, .drop 2), (0, .cleanup), (0, .callcc [] .success), (0, .resume 8)]
/-- an on-top function throws -/
def hOntopThrows : List (Tid × UCont.Op) :=
  hTwo ++ [(0, .resumeWith 2), (0, .moveHeap 6), (0, .throw 1), (0, .tick), (0, .tick), (0, .catchUser), (0, .resume 7), (0, .resume 8)]
/-- `forced_unwind` is swallowed -/
def hSwallows : List (Tid × UCont.Op) := hTwo ++ [(0, .drop 2), (0, .swallow), (0, .resume 5), (0, .resume 7)]
/-- the function passed to `callcc()` owns another context -/
def hCaptures : List (Tid × UCont.Op) :=
  [(0, .callcc [] .success), (0, .resume 1), (0, .tick), (0, .callcc [2] .success), (0, .retHandle 5), (0, .tick), (0, .tick)]

/-- Without any one of the restrictions the implementations differ. -/
theorem C88_restrictions_needed :
    ∀ h ∈ [hDestroyMain, hResumeUnwinding, hResumeInOntop, hCallccUnwinding, hOntopThrows, hSwallows, hCaptures],
      ¬ SameOutcome (fRun Cont.init h) (uRun UCont.init h) := by
  intro h hh
  apply differ_not_same
  revert h
  decide

end Verif.Backends.Cc
