import Verif.Backends.Step
import Verif.Fiber.Props1

/-! # C27: the two implementations of `fiber` agree -/

namespace Verif.Backends
open Verif.Fiber (CtxId Var Tid Kind Exc Mode UKind Frame Status Event Op CreateOutcome Fctx upd upd_apply RunTop runTop_iff DtorTop
  dtorTop_iff suspTop_iff hasMain isMain)

variable {a : Fiber.State} {b : UFiber.State} {t : Tid} {c : CtxId}

theorem Env.user (h : Env a b t c) {k ls rest op} (hf : b.frames c = .user k ls .normal :: rest) (hal : Allowed a t op) :
    Match (fSettle t (Fiber.userStep a t c k ls rest op)) (uSettle t (UFiber.userStep b t c k ls rest op)) := by
  have hn := h.r.nV
  have hnt := h.nt
  have sw : ∀ s : Fiber.State, s = a → MaySwitch s t → ¬ BeingUnwound (a.frames c) ∧ ¬ InOntop (a.frames c) := by
    rintro s rfl hs; simpa [MaySwitch, h.cur] using hs
  cases op with
  | newHeap => exact (Match.ok (h.r.newVar rfl)).settle
  | newLocal =>
    simp only [Fiber.userStep, UFiber.userStep, ← hn]
    exact (Match.ok ((h.r.newVar (k := .loc c) (v := none) (w := none) rfl).top hnt hf (by simp))).settle
  | moveHeap x =>
    simp only [Fiber.userStep, UFiber.userStep, h.accEq]
    split
    · exact (Match.ok ((h.r.setVal (x := x) (v := none) (w := none) rfl).newVar (h.r.val x))).settle
    · exact Match.rejected
  | moveLocal x =>
    simp only [Fiber.userStep, UFiber.userStep, h.accEq, ← hn]
    split
    · exact (Match.ok (((h.r.setVal (x := x) (v := none) (w := none) rfl).newVar (k := .loc c) (h.r.val x)).top hnt hf (by simp))).settle
    · exact Match.rejected
  | moveAssign y x =>
    simp only [Fiber.userStep, UFiber.userStep, h.accEq]
    split
    · rename_i hacc
      split
      · exact (Match.ok h.r).settle
      · rename_i hyx
        have hd : MayDestroy a y := by rcases hal with hal | hal; exact absurd hal hyx; exact hal
        have r1 := (h.r.setVal (x := y) (h.r.val x)).setVal (x := x) (v := none) (w := none) rfl
        exact h.destroy (x := y) r1 (Env.accK hacc.2) hd rfl rfl rfl (fun _ _ => rfl) rfl (fun _ _ => rfl) ⟨k, ls, .normal, rest, hf⟩ rfl rfl
          (fun w z hw => by
            simp only [UFiber.State.setVal, upd_apply]
            have i1 := h.ib.vi.inj x y w
            have i2 := h.ib.vi.inj z y w
            grind)
    · exact Match.rejected
  | swap x y =>
    simp only [Fiber.userStep, UFiber.userStep, h.accEq]
    split
    · exact (Match.ok ((h.r.setVal (x := x) (h.r.val y)).setVal (x := y) (h.r.val x))).settle
    · exact Match.rejected
  | drop x =>
    simp only [Fiber.userStep, UFiber.userStep, h.r.kind]
    split
    · rename_i hx
      refine h.destroyVar hf ?_ hal
      intro d hd
      have : a.kind x = .loc c := (h.ia.oi.locs c x).1 (by rw [h.fr, hf]; simp [Fiber.lvars, Fiber.Frame.lvars, hx])
      simp [this] at hd
    · split
      · rename_i hk
        have := h.destroyVar (x := x) (ls' := ls) hf (by simp [hk]) hal
        rw [← hf] at this
        have e1 : a.setFrames c (b.frames c) = a := by
          unfold Fiber.State.setFrames; rw [← h.fr]
          have : upd a.frames c (a.frames c) = a.frames := by funext d; simp only [upd_apply]; split <;> simp_all
          rw [this]
        have e2 : b.setFrames c (b.frames c) = b := by
          unfold UFiber.State.setFrames
          have : upd b.frames c (b.frames c) = b.frames := by funext d; simp only [upd_apply]; split <;> simp_all
          rw [this]
        rw [e1, e2] at this
        exact this
      · exact Match.rejected
  | create xs o =>
    have hxs : xs = [] := hal
    subst hxs
    simp only [Fiber.userStep, UFiber.userStep, List.all_nil, if_true]
    cases o with
    | success =>
      rw [Fiber.doCreate_eq h.ia h.cur]
      simp only [UFiber.State.doCreate, Fiber.State.capture, UFiber.State.capture, Fiber.State.addLog, UFiber.State.addLog]
      have habs : b.status b.nextCtx = .absent := (h.ib.ci.absent _).2 (Nat.le_refl _)
      have r1 := h.r.create (sq := upd (upd a.seq a.nextCtx 1) c (a.seq c + 1)) (rt := upd b.root b.nextCtx false)
        (fm := upd b.frm b.nextCtx none) (tm := upd b.term b.nextCtx false) (e := .alloc a.nextCtx) habs
      have hcn : c ≠ b.nextCtx := by intro hc; rw [← hc, h.runB] at habs; simp at habs
      have r2 := r1.newVar (k := .loc c) (v := some ⟨a.nextCtx, 1⟩) (w := some b.nextCtx) (by simp [live, h.r.nC])
      have r3 := r2.top (c := c) (ls' := a.nextVar :: ls) (m' := .normal) (k := k) (ls := ls) (m := .normal) (rest := rest)
        (by simp [UFiber.State.newVar, hcn, hnt]) (by simp [UFiber.State.newVar, hcn, hf]) (by simp)
      have := (Match.ok r3).settle (t := t)
      rw [← h.r.nC, ← hn] at this ⊢
      exact this
    | allocThrows n => exact (Match.ok (h.r.top hnt hf (by simp))).settle
    | fnThrows => exact Match.terminate
  | resume x =>
    simp only [Fiber.userStep, UFiber.userStep, h.accEq]
    split
    · rename_i hacc
      obtain ⟨h1, h2⟩ := sw a rfl hal
      exact resume_match h.r h.cur h.runB h1 h2 (fun f hf => h.shape hf (Env.accK hacc)) (fun w hw => h.ptr hw)
    · exact Match.rejected
  | resumeWith x =>
    simp only [Fiber.userStep, UFiber.userStep, h.accEq]
    split
    · rename_i hacc
      obtain ⟨h1, h2⟩ := sw a rfl hal.1
      refine resumeWith_match h.r h.cur h.runB h1 h2 ?_ (fun w hw => h.ptr hw)
      intro f hv
      obtain ⟨g1, g2, g3⟩ := h.shape hv (Env.accK hacc)
      refine ⟨g1, g2, ?_⟩
      have := hal.2
      simp only [Started, hv] at this
      rcases g3 with g3 | g3
      · exact absurd g3 this
      · exact g3
    · exact Match.rejected
  | call => 
    simp only [Fiber.userStep, UFiber.userStep]; rw [← hf]; exact (Match.ok (h.r.push hnt)).settle
  | cleanup => 
    simp only [Fiber.userStep, UFiber.userStep]; rw [← hf]; exact (Match.ok (h.r.push hnt)).settle
  | ret =>
    cases k <;> simp only [Fiber.userStep, UFiber.userStep]
    case fn => exact Match.rejected
    case ontop => exact Match.rejected
    all_goals exact (Match.ok (h.r.top hnt hf (by simp))).settle
  | retHandle x =>
    simp only [Fiber.userStep, UFiber.userStep, h.accEq, ← hn]
    split
    · cases k
      case fn => exact (Match.ok (((h.r.setVal (x := x) (v := none) (w := none) rfl).newVar (k := .ret c) (h.r.val x)).top hnt hf (by simp))).settle
      case ontop => exact (Match.ok (((h.r.setVal (x := x) (v := none) (w := none) rfl).newVar (k := .ret c) (h.r.val x)).top hnt hf (by simp))).settle
      all_goals exact Match.rejected
    · exact Match.rejected
  | throw n => exact (Match.ok (h.r.top hnt hf (by simp))).settle
  | catchUser => exact Match.rejected
  | swallow => exact Match.rejected
  | withThrows => exact absurd hal (by simp [Allowed])
  | tick => exact Match.rejected
  | spawn =>
    have habs : b.status b.nextCtx = .absent := (h.ib.ci.absent _).2 (Nat.le_refl _)
    exact (Match.ok (h.r.spawn habs)).settle

/-- the function of a fiber is left with the given object -/
theorem Env.finishes (h : Env a b t c) {x} (hk : (∀ d, a.kind x ≠ .exc d) ∨ a.kind x = .exc c) :
    Match (fSettle t (match a.val x with | none => .assertion | some f => (a.kill x).finish t c f)) (uSettle t ((b.kill x).finish t c (b.val x))) := by
  refine finish_match h.r.kill h.cur h.runB (h.r.val x) ?_ ?_ ?_
  · intro y
    simp only [UFiber.State.kill, upd_apply]
    split
    · simp
    · intro hy
      have := h.ptr hy
      simp [h.runB] at this
  · intro f hf
    rcases hk with hk | hk
    · obtain ⟨g1, g2, g3⟩ := h.shape hf hk
      refine ⟨g1, g2, ?_⟩
      rcases g3 with g3 | g3
      · exact .inl g3
      · exact .inr (.inl g3)
    · obtain ⟨g1, g2⟩ := h.ia.vi.valid x f hf
      refine ⟨g1, g2, .inr (.inr ?_)⟩
      obtain ⟨rest, hr⟩ := dtorTop_iff.1 (h.ia.vi.excTop x c f hk hf)
      have hw := h.ia.ci.wf f.ctx (by simp [g1])
      rw [hr] at hw
      show ∃ k ls m rest, a.frames f.ctx = _
      cases rest with
      | nil => simp [Fiber.WF, Fiber.Adj] at hw
      | cons g gs =>
        cases g
        case user k ls m => exact ⟨k, ls, m, gs, hr⟩
        case exiting n => exact absurd (by simp [hr]) (h.r.noExitA f.ctx n)
        all_goals simp [Fiber.WF, Fiber.Adj] at hw
  · intro w hw; exact h.ptr hw

theorem Env.propagates (h : Env a b t c) {k e rest} (hf : b.frames c = .user k [] (.unwinding e) :: rest) (ho : ∀ i, k ≠ .ontop i) :
    Match (fSettle t (Fiber.propagate a t c k e rest)) (uSettle t (UFiber.propagate b t c k e rest)) := by
  have hw := h.wf
  rw [hf] at hw
  cases k with
  | main => exact Match.terminate
  | cleanup => exact Match.terminate
  | ontop i => exact absurd rfl (ho i)
  | fn =>
    cases e with
    | user n => exact Match.terminate
    | forced x =>
      simp only [Fiber.propagate, UFiber.propagate]
      refine h.finishes (.inr ?_)
      exact (h.ia.oi.excs c x).1 (by rw [h.fr, hf]; simp [Fiber.evars, Fiber.Frame.evars])
  | call =>
    cases rest with
    | nil => simp [UFiber.WF, UFiber.Adj] at hw
    | cons g gs =>
      cases g
      case user k' ls' m' =>
        simp only [Fiber.propagate, UFiber.propagate]
        refine (Match.ok (h.r.setFrames h.nt ?_ ?_ ?_ (by simp))).settle
        · have := h.r.noExit c; simp only [hf] at this; simpa using this
        · intro i hi; have := h.r.ont c i hi; simp only [hf] at this; simpa using this
        · intro hi
          have := h.r.unw c hi
          cases m' <;> simp_all [UFiber.WF, UFiber.Adj]
      all_goals simp [UFiber.WF, UFiber.Adj] at hw

theorem Env.leaves (h : Env a b t c) {k x rest} (hf : b.frames c = .user k [] (.returning x) :: rest) :
    Match (fSettle t (Fiber.leave a t c k x rest)) (uSettle t (UFiber.leave b t c k x rest)) := by
  have hw := h.wf
  rw [hf] at hw
  cases k with
  | main =>
    cases x with
    | some x => simp [UFiber.WF, UFiber.Adj, Fiber.ModeOK] at hw
    | none =>
      have : rest = [] := by simp [UFiber.WF, UFiber.Adj] at hw; exact hw.1.2
      subst this
      exact (Match.ok (h.r.endThread h.runB (by simp [hf]) (by simp [hf]))).settle
  | call =>
    cases x with
    | some x => cases rest with
      | nil => simp [UFiber.WF, UFiber.Adj] at hw
      | cons g gs => cases g <;> simp [UFiber.WF, UFiber.Adj] at hw
                     rename_i m; cases m <;> simp [Fiber.ModeOK] at hw
    | none =>
      refine (Match.ok (h.r.pop h.nt hf (by simp) (by simp) ?_)).settle
      rintro r rfl; simp [UFiber.WF, UFiber.Adj] at hw
  | cleanup =>
    cases x with
    | some x => cases rest with
      | nil => simp [UFiber.WF, UFiber.Adj] at hw
      | cons g gs => cases g <;> simp [UFiber.WF, UFiber.Adj, Fiber.ModeOK] at hw
    | none =>
      refine (Match.ok (h.r.pop h.nt hf (by simp) (by simp) ?_)).settle
      rintro r rfl; simp [UFiber.WF, UFiber.Adj] at hw
  | fn =>
    cases x with
    | none => simp [UFiber.WF, UFiber.Adj, Fiber.ModeOK] at hw
    | some x =>
      simp only [Fiber.leave, UFiber.leave]
      refine h.finishes (.inl ?_)
      have : a.kind x = .ret c := (h.ia.oi.rets c x).1 (by rw [h.fr, hf]; simp [Fiber.rvars, Fiber.Frame.rvars])
      simp [this]
  | ontop i =>
    cases rest with
    | nil => simp [UFiber.WF, UFiber.Adj] at hw
    | cons g gs =>
      cases g
      case resume =>
        cases gs with
        | nil => simp [UFiber.WF, UFiber.Adj] at hw
        | cons g' gs' =>
          cases g'
          case user k' ls' m' =>
            cases x with
            | none => simp [UFiber.WF, UFiber.Adj, Fiber.ModeOK] at hw
            | some x =>
              simp only [Fiber.leave, UFiber.leave]
              have r1 := (((h.r.setOntop (w := c) (v := none) (by simp)).kill (x := x)).newVar (k := .loc c) (h.r.val x)).setFrames (c := c)
                (fs := .user k' (b.nextVar :: ls') m' :: gs') h.nt
                (by have := h.r.noExit c; simp only [hf] at this; simpa using this)
                (by intro i hi; simp [UFiber.State.newVar, UFiber.State.kill] at hi)
                (by intro hi; have := h.r.unw c hi; simp only [hf] at this; simpa using this) (by simp)
              have hF : (((a.setFrames c (.resume :: .user k' ls' m' :: gs')).kill x).deliver c (a.val x)) =
                  .ok ((((a.setFrames c (.resume :: .user k' ls' m' :: gs')).kill x).newVar (.loc c) (a.val x)).setFrames c (.user k' (a.nextVar :: ls') m' :: gs')) := by
                have : ((a.setFrames c (.resume :: .user k' ls' m' :: gs')).kill x).frames c = .resume :: .user k' ls' m' :: gs' := by
                  simp [Fiber.State.kill, Fiber.State.setFrames]
                simp only [Fiber.State.deliver, this]
                rfl
              rw [hF]
              have := r1.congrA (a' := (((a.setFrames c (.resume :: .user k' ls' m' :: gs')).kill x).newVar (.loc c) (a.val x)).setFrames c (.user k' (b.nextVar :: ls') m' :: gs'))
                rfl rfl rfl rfl rfl rfl rfl (by funext d; simp only [Fiber.State.setFrames, Fiber.State.kill, Fiber.State.newVar, upd_apply]; by_cases hd : d = c <;> simp [hd]) rfl rfl rfl
              rw [← h.r.nV]
              exact (Match.ok this).settle
          all_goals simp [UFiber.WF, UFiber.Adj] at hw
      all_goals simp [UFiber.WF, UFiber.Adj] at hw

theorem step_match (h : R a b) (ha : Fiber.Reachable a) (hb : UFiber.Reachable b) (t : Tid) (op : Op) (hal : Allowed a t op) :
    Match (fStep a t op) (uStep b t op) := by
  have ia := Fiber.reachable_inv ha
  have ib := UFiber.reachable_inv hb h.early
  have il := UFiber.reachable_linv hb h.early
  unfold fStep uStep
  cases hcur : a.cur t with
  | none =>
    have : b.cur t = none := by rw [h.cur]; exact hcur
    simp only [Fiber.step, UFiber.step, hcur, this]
    exact Match.rejected
  | some c =>
    have e : Env a b t c := ⟨h, ia, ib, il, hcur⟩
    obtain ⟨k, ls, m, rest, hf⟩ := e.top
    have hfa := e.fr
    rw [hf] at hfa
    have hcb := e.curB
    have hnt := e.nt
    have hpush : ∀ k, Match (fSettle t (.ok (a.setFrames c (.user k [] .normal :: b.frames c)))) (uSettle t (.ok (b.setFrames c (.user k [] .normal :: b.frames c)))) :=
      fun k => (Match.ok (h.push hnt)).settle
    cases m with
    | normal =>
      simp only [Fiber.step, UFiber.step, hcur, hcb, hf, hfa]
      exact e.user hf hal
    | unwinding ex =>
      cases ls with
      | cons x ls =>
        simp only [Fiber.step, UFiber.step, hcur, hcb, hf, hfa]
        cases op
        case tick =>
          refine e.destroyVar hf ?_ ?_
          · have : a.kind x = .loc c := (ia.oi.locs c x).1 (by rw [hfa]; simp [Fiber.lvars, Fiber.Frame.lvars])
            simp [this]
          · simp only [Allowed, hcur, hfa] at hal; exact hal
        case cleanup => have := hpush .cleanup; rw [hf] at this; exact this
        all_goals exact Match.rejected
      | nil =>
        simp only [Fiber.step, UFiber.step, hcur, hcb, hf, hfa]
        cases op
        case tick =>
          refine e.propagates hf ?_
          rintro i rfl
          simp [Allowed, hcur, hfa] at hal
        case cleanup => have := hpush .cleanup; rw [hf] at this; exact this
        case catchUser =>
          cases k
          case call =>
            cases ex with
            | user n =>
              refine (Match.ok (h.pop hnt hf (by simp) (by simp) ?_)).settle
              rintro r rfl
              have hw := e.wf
              rw [hf] at hw
              simp [UFiber.WF, UFiber.Adj] at hw
            | forced x => exact Match.rejected
          all_goals exact Match.rejected
        case swallow => simp [Allowed] at hal
        all_goals exact Match.rejected
    | returning r =>
      cases ls with
      | cons x ls =>
        simp only [Fiber.step, UFiber.step, hcur, hcb, hf, hfa]
        cases op
        case tick =>
          refine e.destroyVar hf ?_ ?_
          · have : a.kind x = .loc c := (ia.oi.locs c x).1 (by rw [hfa]; simp [Fiber.lvars, Fiber.Frame.lvars])
            simp [this]
          · simp only [Allowed, hcur, hfa] at hal; exact hal
        case cleanup => have := hpush .cleanup; rw [hf] at this; exact this
        all_goals exact Match.rejected
      | nil =>
        simp only [Fiber.step, UFiber.step, hcur, hcb, hf, hfa]
        cases op
        case tick => exact e.leaves hf
        case cleanup => have := hpush .cleanup; rw [hf] at this; exact this
        all_goals exact Match.rejected

/-! ## Histories -/

theorem fStep_reachable {s s' : Fiber.State} {t op} (h : Fiber.Reachable s) (hs : fStep s t op = .ok s') : Fiber.Reachable s' := by
  unfold fStep fSettle at hs
  split at hs
  · rename_i s1 h1
    split at hs
    · exact .step (.step h h1) hs
    · simp only [Fiber.Res.ok.injEq] at hs; exact hs ▸ .step h h1
  · rename_i hne; exact absurd hs (hne _)

theorem uStep_reachable {s s' : UFiber.State} {t op} (h : UFiber.Reachable s) (hs : uStep s t op = .ok s') : UFiber.Reachable s' := by
  unfold uStep uSettle at hs
  split at hs
  · rename_i s1 h1
    split at hs
    · exact .step (.step h h1) hs
    · simp only [UFiber.Res.ok.injEq] at hs; exact hs ▸ .step h h1
  · rename_i hne; exact absurd hs (hne _)

theorem run_match (h : List (Tid × Op)) : ∀ {a b}, R a b → Fiber.Reachable a → UFiber.Reachable b → AllowedHist a h →
    ∃ r q, fRun a h = r ∧ uRun b h = q ∧ Match r q ∧ (∀ a', r = .ok a' → Fiber.Reachable a') ∧ ∀ b', q = .ok b' → UFiber.Reachable b' := by
  induction h with
  | nil =>
    intro a b hR ha hb _
    exact ⟨_, _, rfl, rfl, .ok hR, by rintro _ ⟨⟩; exact ha, by rintro _ ⟨⟩; exact hb⟩
  | cons p h ih =>
    obtain ⟨t, op⟩ := p
    intro a b hR ha hb hal
    obtain ⟨h1, h2⟩ := hal
    have hm := step_match hR ha hb t op h1
    simp only [fRun, uRun]
    generalize hf : fStep a t op = r at *
    generalize hu : uStep b t op = q at *
    cases hm with
    | ok hR' => exact ih hR' (fStep_reachable ha hf) (uStep_reachable hb hu) h2
    | rejected => exact ⟨_, _, rfl, rfl, .rejected, by simp, by simp⟩
    | terminate => exact ⟨_, _, rfl, rfl, .terminate, by simp, by simp⟩
    | assertion => exact ⟨_, _, rfl, rfl, .assertion, by simp, by simp⟩

theorem R_init : R Fiber.init UFiber.init := by
  constructor <;> simp [Fiber.init, UFiber.init, fin]
  · intro c; split <;> simp
  · intro c; split <;> split <;> simp_all
  · intro c n; split <;> simp

theorem R.same (h : R a b) (hb : UFiber.Reachable b) : Same a b := by
  have ib := UFiber.reachable_inv hb h.early
  refine ⟨fun t => by rw [h.cur], fun c hc => h.status_eq hc, fun c hc => by rw [h.st c, hc]; rfl, fun c hc => (h.frames_eq hc).symm,
    fun x => by rw [h.kind], ?_, ?_, h.log⟩
  · intro x w
    have hv := h.val x
    constructor
    · rintro ⟨f, hf, rfl⟩
      rw [hf] at hv
      exact live_some hv.symm
    · rintro ⟨hw, hs⟩
      rw [show b.val x = some w from hw] at hv
      simp only [live, if_neg hs] at hv
      cases ha : a.val x with
      | none => simp [ha] at hv
      | some f => exact ⟨f, ha, by simpa [ha] using hv⟩
  · intro x
    have hv := h.val x
    unfold UFiber.Valid
    cases hb : b.val x with
    | none => simp [hb] at hv; simp [hv]
    | some w =>
      have hp := (ib.vi.valid x w hb).1
      have ht := ib.ci.termI w
      rw [hb] at hv
      rcases hp with hp | hp
      · have : b.term w = false := by
          cases h' : b.term w with
          | false => rfl
          | true => have := ht.1 h'; simp [hp] at this
        simp only [live, hp] at hv
        cases ha : a.val x with
        | none => simp [ha] at hv
        | some f => simp [this]
      · have : b.term w = true := ht.2 (.inl hp)
        simp only [live, hp, if_true] at hv
        cases ha : a.val x with
        | none => simp [this]
        | some f => simp [ha] at hv

/-- **C27**: a program (any number of threads, any schedule) that keeps to the operations of `Allowed` is executed by the fcontext and
the ucontext/winfib implementation of `fiber` with the same outcome; after every prefix all contexts have the same call stacks, the
same objects exist and designate the same contexts, and the same functions were started in the same order. -/
theorem C27_backends_agree (h : List (Tid × Op)) (hal : AllowedHist Fiber.init h) :
    SameOutcome (fRun Fiber.init h) (uRun UFiber.init h) := by
  obtain ⟨r, q, h1, h2, hm, _, hq⟩ := run_match h R_init .init .init hal
  rw [h1, h2]
  cases hm with
  | ok hR => exact hR.same (hq _ rfl)
  | rejected => trivial
  | terminate => trivial
  | assertion => trivial

/-- the hypothesis is met by a program with two fibers, `resume_with`, a fiber that finishes and one that is unwound; its run is long -/
example : AllowedHist Fiber.init hSample := by decide
example : ∃ a b, fRun Fiber.init hSample = .ok a ∧ uRun UFiber.init hSample = .ok b ∧ a.log.length = 8 ∧ b.log.length = 8 := by
  refine ⟨_, _, rfl, rfl, by decide, by decide⟩

/-! ## Why the restrictions are needed

For each clause of `Allowed` a history whose last forbidden operation breaks only this clause, and on which the implementations disagree. -/

/-- the outcomes visibly differ: different kinds of outcome, different events, or different call stacks of contexts 0 and 1 -/
def differ (h : List (Tid × Op)) : Bool :=
  match fRun Fiber.init h, uRun UFiber.init h with
  | .ok a, .ok b => a.log.filter notRelease != b.log.filter notRelease ||
      [0, 1].any fun c => decide (b.status c ≠ .terminated) && decide (b.frames c ≠ a.frames c)
  | .rejected, .rejected => false
  | .terminate, .terminate => false
  | .assertion, .assertion => false
  | _, _ => true

theorem differ_not_same {h : List (Tid × Op)} (hd : differ h = true) : ¬ SameOutcome (fRun Fiber.init h) (uRun UFiber.init h) := by
  unfold differ at hd
  intro hs
  split at hd
  · rename_i a b h1 h2
    simp only [h1, h2, SameOutcome] at hs
    have h3 := hs.events
    have h4 := hs.stacks 0
    have h5 := hs.stacks 1
    simp only [h3, bne_self_eq_false, Bool.false_or, List.any_cons, List.any_nil, Bool.or_false, Bool.or_eq_true, Bool.and_eq_true,
      decide_eq_true_eq] at hd
    rcases hd with hd | hd
    · exact hd.2 (h4 hd.1)
    · exact hd.2 (h5 hd.1)
  · simp at hd
  · simp at hd
  · simp at hd
  · rename_i n1 n2 n3 n4
    generalize fRun Fiber.init h = r at *
    generalize uRun UFiber.init h = q at *
    cases r <;> cases q <;> simp_all [SameOutcome]

/-- destruction of a never started fiber -/
def hDestroyFresh : List (Tid × Op) := [(0, .create [] .success), (0, .drop 0)]
/-- `resume_with()` on a never started fiber -/
def hOntopFresh : List (Tid × Op) := [(0, .create [] .success), (0, .resumeWith 0)]
/-- destruction of the handle of a thread's main context -/
def hDestroyMain : List (Tid × Op) := [(0, .create [] .success), (0, .resume 0), (0, .drop 1)]
/-- a destructor run by the unwinding of a fiber resumes another fiber -/
def hResumeUnwinding : List (Tid × Op) :=
  [(0, .create [] .success), (0, .create [] .success), (0, .resume 0), (0, .resume 2), (0, .drop 3), (0, .cleanup), (0, .resume 1), (0, .resume 5)]
/-- an on-top function calls `resume()` -/
def hResumeInOntop : List (Tid × Op) :=
  [(0, .create [] .success), (0, .resume 0), (0, .resume 1), (0, .resumeWith 2), (0, .resume 3), (0, .resume 4)]
/-- an on-top function throws -/
def hOntopThrows : List (Tid × Op) :=
  [(0, .create [] .success), (0, .resume 0), (0, .call), (0, .resume 1), (0, .resumeWith 2), (0, .moveHeap 3), (0, .throw 1), (0, .tick),
   (0, .tick), (0, .catchUser), (0, .resume 4), (0, .resume 5)]
/-- `forced_unwind` is swallowed -/
def hSwallows : List (Tid × Op) :=
  [(0, .create [] .success), (0, .create [] .success), (0, .resume 0), (0, .call), (0, .resume 2), (0, .drop 3), (0, .swallow),
   (0, .resume 1), (0, .resume 5)]
/-- the function of a fiber owns another fiber -/
def hCaptures : List (Tid × Op) :=
  [(0, .create [] .success), (0, .resume 0), (0, .resume 1), (0, .create [2] .success), (0, .resume 4), (0, .retHandle 5), (0, .tick), (0, .tick)]

/-- Without any one of the restrictions the implementations differ. -/
theorem C27_restrictions_needed :
    ∀ h ∈ [hDestroyFresh, hOntopFresh, hDestroyMain, hResumeUnwinding, hResumeInOntop, hOntopThrows, hSwallows, hCaptures],
      ¬ SameOutcome (fRun Fiber.init h) (uRun UFiber.init h) := by
  intro h hh
  apply differ_not_same
  revert h
  decide

end Verif.Backends
