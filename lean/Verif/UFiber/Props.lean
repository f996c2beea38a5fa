import Verif.UFiber.Log

/-! # Properties of the ucontext/winfib implementation (C22-C26) -/

namespace Verif.UFiber
open Verif.Fiber (CtxId Var Tid Kind Exc Mode UKind Frame Status Event Op CreateOutcome upd upd_apply RunTop SuspTop
  DestroyedAfterDealloc DeallocAfterAlloc isMain hasMain hasMain_nil hasMain_cons exits exits_cons exits_nil DtorTop dtorTop_iff)
open State

/-- context `c` is suspended: in `resume()`, in `~fiber`, or never started -/
def Suspended (s : State) (c : CtxId) : Prop := s.status c = .suspended
/-- the function of fiber `c` has ended and its stack has not been released -/
def Finished (s : State) (c : CtxId) : Prop := s.status c = .terminated
/-- some thread executes `deallocate()` for fiber `c` on the stack of context `d` -/
def BeingReleased (s : State) (c d : CtxId) : Prop := .exiting c ∈ s.frames d

/-! ## C22 -/

/-- No two objects designate the same context. -/
theorem C22_exclusive {s : State} (h : Reachable s) (he : NoEarlyDestroy s) {x y : Var} {c : CtxId}
    (hx : Designates s x c) (hy : Designates s y c) : x = y :=
  (reachable_inv h he).vi.inj x y c hx hy

example : Reachable (exec h1) ∧ NoEarlyDestroy (exec h1) ∧ Designates (exec h1) 2 1 :=
  ⟨reachable_exec (by decide), (by decide : (exec h1).early = false), (by decide : (exec h1).val 2 = some 1)⟩

/-- An object never designates a running context or a released stack. -/
theorem C22_no_dangling {s : State} (h : Reachable s) (he : NoEarlyDestroy s) {x : Var} {c : CtxId} (hx : Designates s x c) :
    (Suspended s c ∨ Finished s c) ∧ ¬ Released s c ∧ (∀ t, ¬ RunsOn s t c) ∧ ∀ d, ¬ BeingReleased s c d := by
  have hi := reachable_inv h he
  have hl := reachable_linv h he
  obtain ⟨h1, h2⟩ := hi.vi.valid x c hx
  refine ⟨h1, ?_, ?_, ?_⟩
  · intro hr
    have := (hl.freed c).1 hr
    rw [this] at h1; simp at h1
  · intro t ht
    have := (hi.ci.curRun t c).1 ht
    rw [this] at h1; simp at h1
  · intro d hd
    have := h2 d
    have h3 : 0 < exits c (s.frames d) := List.count_pos_iff.2 hd
    omega

/-- `operator bool` tells whether the designated fiber has not finished: a valid object can be resumed. -/
theorem C22_bool {s : State} (h : Reachable s) (he : NoEarlyDestroy s) {x : Var} :
    Valid s x ↔ ∃ c, Designates s x c ∧ Suspended s c := by
  have hi := reachable_inv h he
  constructor
  · rintro ⟨c, hc, ht⟩
    refine ⟨c, hc, ?_⟩
    rcases (hi.vi.valid x c hc).1 with h1 | h1
    · exact h1
    · have := (hi.ci.termI c).2 (.inl h1); simp [ht] at this
  · rintro ⟨c, hc, hs⟩
    refine ⟨c, hc, ?_⟩
    cases ht : s.term c with
    | false => rfl
    | true =>
      have := (hi.ci.termI c).1 ht
      rw [show s.status c = .suspended from hs] at this; simp at this

/-- As long as no never started fiber was destroyed, no operation has undefined behaviour: no record is used after its
release, no stack is released twice, no running context is switched to. -/
theorem C22_no_ub {s : State} (h : Reachable s) (he : NoEarlyDestroy s) (t : Tid) (op : Op) : step s t op ≠ .ub := by
  have := step_safe (t := t) (op := op) (reachable_inv h he)
  intro hh
  rw [hh] at this
  exact this

/-- The same for whole histories: undefined behaviour is preceded by the destruction of a never started fiber. -/
theorem C22_run_no_ub (h : List (Tid × Op)) (hu : run init h = .ub) :
    ∃ h1 h2 s, h = h1 ++ h2 ∧ run init h1 = .ok s ∧ ¬ NoEarlyDestroy s := by
  suffices ∀ (h h0 : List (Tid × Op)) s, run init h0 = .ok s → Reachable s → run s h = .ub →
      ∃ h1 h2 s', h0 ++ h = h1 ++ h2 ∧ run init h1 = .ok s' ∧ ¬ NoEarlyDestroy s' from
    this h [] init rfl .init hu
  intro h
  induction h with
  | nil => intro h0 s _ _ hr; simp [run] at hr
  | cons a h ih =>
    obtain ⟨t, op⟩ := a
    intro h0 s h0s hs hr
    by_cases he : s.early = false
    · simp only [run] at hr
      split at hr
      · rename_i s1 hs1
        have happ : run init (h0 ++ [(t, op)]) = .ok s1 := by
          have key : ∀ (l : List (Tid × Op)) (s0 : State), run s0 l = .ok s → run s0 (l ++ [(t, op)]) = .ok s1 := by
            intro l
            induction l with
            | nil => intro s0 h; simp only [run, Res.ok.injEq] at h; subst h; simp [run, hs1]
            | cons b l ih2 =>
              obtain ⟨t', op'⟩ := b
              intro s0 h
              simp only [run, List.cons_append] at h ⊢
              split at h
              · exact ih2 _ h
              · rename_i r hr2; exact absurd h (hr2 _)
          exact key h0 init h0s
        obtain ⟨h1, h2, s', e1, e2, e3⟩ := ih (h0 ++ [(t, op)]) s1 happ (.step hs hs1) hr
        exact ⟨h1, h2, s', by simpa using e1, e2, e3⟩
      · rename_i r hr2
        exact absurd hr (by
          intro hh
          exact C22_no_ub hs he t op hh)
    · exact ⟨h0, (t, op) :: h, s, rfl, h0s, he⟩

/-- A stack is released at most once. -/
theorem C22_released_once {s : State} (h : Reachable s) (he : NoEarlyDestroy s) (c : CtxId) : s.log.count (.dealloc c) ≤ 1 :=
  (reachable_linv h he).freed1 c

/-- Only stacks that were allocated are released. -/
theorem C22_released_was_created {s : State} (h : Reachable s) (he : NoEarlyDestroy s) {c : CtxId} (hr : Released s c) : Created s c := by
  have hl := reachable_linv h he
  have h1 := (hl.freed c).1 hr
  refine (hl.alloc c).2 ⟨by simp [h1], ?_⟩
  have := hl.main c
  rw [(reachable_inv h he).ci.fFreed c h1, h1] at this
  simpa using this

theorem Arr.status {s s' : State} {w} (h : Arr s w s') : s'.status = s.status := by cases h <;> rfl

theorem eff_freed {s s' : State} {t c op} (hi : Inv s) (hcur : s.cur t = some c) (h : Eff s t c op s') {d : CtxId}
    (hd : s.status d = .freed) : s'.status d = .freed := by
  have hrun := (hi.ci.curRun t c).1 hcur
  have hnc : d ≠ c := by rintro rfl; simp [hrun] at hd
  have hnn : d ≠ s.nextCtx := by rintro rfl; have := (hi.ci.absent s.nextCtx).2 (Nat.le_refl _); simp [hd] at this
  cases h with
  | resume _ _ _ hs ha => rw [ha.status]; simp only [sw, upd_apply, setFrames_status, setVal_status]; grind
  | resumeWith _ _ _ hs ha => rw [ha.status]; simp only [sw, upd_apply]; grind
  | propFn _ hd2 => obtain ⟨_, hs, ha⟩ := hd2; rw [ha.status]; simp only [sw, upd_apply, kill_status] at *; grind
  | leaveFn _ hd2 => obtain ⟨_, hs, ha⟩ := hd2; rw [ha.status]; simp only [sw, upd_apply, kill_status] at *; grind
  | create _ _ h2 =>
    have hc := capture_keep ({ s with nextCtx := s.nextCtx + 1 }.addLog (.alloc s.nextCtx)) s.nextCtx
    simp only [upd_apply, h2, (hc _).1, addLog_status]; grind
  | destroy h1 h2 =>
    obtain ⟨e1, _⟩ := h1.wf hi
    cases h2 with
    | root => simp [e1, hd]
    | term => simp [e1, hd]
    | unwind _ _ hs ha => rw [ha.status]; simp only [sw, upd_apply]; rw [e1] at *; grind
  | spawn => simp only [upd_apply]; grind
  | leaveMain => simp only [upd_apply]; grind
  | exitDtor => simp only [upd_apply]; grind
  | exitDone => simp only [upd_apply]; grind
  | _ => exact hd

theorem Steps.early {s s' : State} (h : Steps s s') (he : s'.early = false) : s.early = false := by
  induction h with
  | refl => exact he
  | tail _ hs ih => exact ih (step_early hs he)

/-- Once released, at all later times: released, exactly once, no thread executes on the stack, nothing lives on it and no
object designates it. -/
theorem C22_after_release {s s' : State} (h : Reachable s) {c : CtxId} (hr : Released s c) (hs : Steps s s') (he : NoEarlyDestroy s') :
    Released s' c ∧ s'.log.count (.dealloc c) = 1 ∧ (∀ t, ¬ RunsOn s' t c) ∧ s'.frames c = [] ∧
      (∀ x, s'.kind x ≠ .loc c ∧ s'.kind x ≠ .cap c ∧ s'.kind x ≠ .ret c ∧ s'.kind x ≠ .exc c) ∧ ∀ x, ¬ Designates s' x c := by
  have h0 := ((reachable_linv h (hs.early he)).freed c).1 hr
  have hr' : s'.status c = .freed := by
    induction hs with
    | refl => exact h0
    | tail hs1 hst ih =>
      have he1 := step_early hst he
      obtain ⟨d, hcur, heff⟩ := step_eff hst
      exact eff_freed (reachable_inv (hs1.reachable h) he1) hcur heff (ih he1)
  have h2 := hs.reachable h
  have hi := reachable_inv h2 he
  have hl := reachable_linv h2 he
  have hre := (hl.freed c).2 hr'
  have hf := hi.ci.fFreed c hr'
  refine ⟨hre, ?_, ?_, hf, ?_, ?_⟩
  · have := hl.freed1 c
    have : 0 < s'.log.count (.dealloc c) := List.count_pos_iff.2 hre
    omega
  · intro t ht; have := (hi.ci.curRun t c).1 ht; simp [hr'] at this
  · intro x
    refine ⟨fun hk => ?_, fun hk => ?_, fun hk => ?_, fun hk => ?_⟩
    · have := (hi.oi.locs c x).2 hk; simp [hf] at this
    · have := (hi.oi.capv c x).2 hk; simp [hi.oi.capsF c hr'] at this
    · have := (hi.oi.rets c x).2 hk; simp [hf] at this
    · have := (hi.oi.excs c x).2 hk; simp [hf] at this
  · intro x hx
    have := (hi.vi.valid x c hx).1
    simp [hr'] at this

theorem Arr.log {s s' : State} {w} (h : Arr s w s') : s'.log = s.log ∨ s'.log = .enter w :: s.log ∨ ∃ i, s'.log = .ontop i w :: s.log := by
  cases h
  · exact .inr (.inl rfl)
  · exact .inl rfl
  · exact .inr (.inr ⟨_, rfl⟩)
  · exact .inl rfl
  · exact .inl rfl

/-- A stack is released only after the fiber's function has ended; at that moment no thread executes on it, no object
designates it, and no local variable, temporary, captured object or exception lives on it. -/
theorem C22_at_release {s s' : State} {t : Tid} {op : Op} {c : CtxId} (h : Reachable s) (he : NoEarlyDestroy s)
    (hs : step s t op = .ok s') (hn : ¬ Released s c) (hr : Released s' c) :
    Finished s c ∧ s.frames c = [.exitJump] ∧ (∀ t, ¬ RunsOn s t c) ∧ (∀ x, ¬ Designates s x c) ∧
      ∀ x, s.kind x ≠ .loc c ∧ s.kind x ≠ .cap c ∧ s.kind x ≠ .ret c ∧ s.kind x ≠ .exc c := by
  have hi := reachable_inv h he
  obtain ⟨d, hcur, heff⟩ := step_eff hs
  have hrun := (hi.ci.curRun t d).1 hcur
  have key : Finished s c ∧ s.caps c = [] ∧ 0 < exits c (s.frames d) := by
    simp only [Released] at hn hr
    cases heff with
    | resume _ _ _ hs ha =>
      have := ha.log; simp only [sw, setFrames_log, setVal_log] at this; grind
    | resumeWith _ _ _ hs ha => have := ha.log; simp only [sw] at this; grind
    | propFn _ hd2 => obtain ⟨_, hs, ha⟩ := hd2; have := ha.log; simp only [sw, kill_log] at this; grind
    | leaveFn _ hd2 => obtain ⟨_, hs, ha⟩ := hd2; have := ha.log; simp only [sw, kill_log] at this; grind
    | create _ _ h2 =>
      have hc := capture_keep ({ s with nextCtx := s.nextCtx + 1 }.addLog (.alloc s.nextCtx)) s.nextCtx
      simp only [h2, (hc _).2.2.1, addLog_log] at hr; grind
    | destroy h1 h2 =>
      obtain ⟨_, _, _, _, _, _, _, _, _, e1, _⟩ := h1.wf hi
      cases h2 with
      | root => exact absurd (e1 ▸ hr) hn
      | term => exact absurd (e1 ▸ hr) hn
      | unwind _ _ hs ha => have := ha.log; simp only [sw, e1] at this; grind
    | @exitDtor n v rest hf hc hst =>
      have : c = n := by simp only [List.mem_cons, reduceCtorEq, Event.dealloc.injEq, false_or] at hr; grind
      subst this
      exact ⟨hst, hc, by simp [hf]⟩
    | @exitDone n rest hf hc hst =>
      have : c = n := by simp only [List.mem_cons, Event.dealloc.injEq] at hr; grind
      subst this
      exact ⟨hst, hc, by simp [hf]⟩
    | _ => exact absurd hr hn
  obtain ⟨k1, k2, k3⟩ := key
  have hf := hi.ci.fTerm c k1
  have k1' : s.status c = .terminated := k1
  refine ⟨k1, hf, ?_, ?_, ?_⟩
  · intro t ht; have := (hi.ci.curRun t c).1 ht; simp [k1'] at this
  · intro x hx; have := (hi.vi.valid x c hx).2 d; omega
  · intro x
    refine ⟨fun hk => ?_, fun hk => ?_, fun hk => ?_, fun hk => ?_⟩
    · have := (hi.oi.locs c x).2 hk; simp [hf, Verif.Fiber.lvars, Verif.Fiber.Frame.lvars] at this
    · have := (hi.oi.capv c x).2 hk; simp [k2] at this
    · have := (hi.oi.rets c x).2 hk; simp [hf, Verif.Fiber.rvars, Verif.Fiber.Frame.rvars] at this
    · have := (hi.oi.excs c x).2 hk; simp [hf, Verif.Fiber.evars, Verif.Fiber.Frame.evars] at this

/-- A thread executes at most one context and a context is executed by at most one thread. -/
theorem C22_one_thread {s : State} (h : Reachable s) (he : NoEarlyDestroy s) {t t' : Tid} {c c' : CtxId} (h1 : RunsOn s t c) :
    (RunsOn s t' c → t = t') ∧ (RunsOn s t c' → c = c') := by
  have hi := (reachable_inv h he).ci
  refine ⟨fun h2 => ?_, fun h2 => ?_⟩
  · have a := (hi.curRun t c).1 h1
    have b := (hi.curRun t' c).1 h2
    rw [a] at b; simpa using b
  · rw [RunsOn] at h1 h2; rw [h1] at h2; simpa using h2

/-- histories without swallowed `forced_unwind` -/
inductive ReachableNS : State → Prop
  | init : ReachableNS init
  | step {s s' : State} {t : Tid} {op : Op} : ReachableNS s → op ≠ .swallow → step s t op = .ok s' → ReachableNS s'

theorem ReachableNS.reachable {s : State} (h : ReachableNS s) : Reachable s := by
  induction h with
  | init => exact .init
  | step _ _ hs ih => exact .step ih hs

theorem reachableNS_exec {h : List (Tid × Op)} (_ : runsOk h = true) (hn : h.all (fun a => a.2 != .swallow) = true) :
    ReachableNS (exec h) := by
  have key : ∀ (h : List (Tid × Op)) (s s' : State), ReachableNS s → h.all (fun a => a.2 != .swallow) = true →
      run s h = .ok s' → ReachableNS s' := by
    intro h
    induction h with
    | nil => intro s s' hs _ hr; simp only [run, Res.ok.injEq] at hr; exact hr ▸ hs
    | cons a h ih =>
      obtain ⟨t, op⟩ := a
      intro s s' hs hn hr
      simp only [List.all_cons, Bool.and_eq_true, bne_iff_ne] at hn
      simp only [run] at hr
      split at hr
      · rename_i s1 hs1; exact ih s1 s' (.step hs hn.1 hs1) hn.2 hr
      · rename_i r hr2; exact absurd hr (hr2 _)
  unfold exec
  split
  · rename_i s hs; exact key h init s .init hn hs
  · exact .init

theorem Arr.lost {s s' : State} {w} (h : Arr s w s') (hd : ∀ v, DtorTop v (s.frames w) → s.frm w = some v) : s'.lost = s.lost := by
  cases h with
  | dtor hf hs ht =>
    have := hd _ (dtorTop_iff.2 ⟨_, hf⟩)
    funext z
    simp only [this]
    cases s.lost z <;> simp
    intro h; exact h.symm
  | _ => rfl

theorem acc_not_dtor {s : State} (hi : Inv s) {x w} (ha : s.accessible x = true) (hx : s.val x = some w) :
    ∀ v, ¬ DtorTop v (s.frames w) := hi.vi.nonExc x w (accessible_ne_exc ha) hx

theorem preDst_not_dtor {s s1 : State} {c v op} (hi : Inv s) (h : PreDst s c v op s1) : ∀ z, ¬ DtorTop z (s.frames v) := by
  cases h with
  | moveAssign _ _ hb _ hv => exact acc_not_dtor hi hb hv
  | @dropLoc k ls rest x hf hx hv =>
    exact hi.vi.nonExc x v (by rw [(hi.oi.locs c x).1 (by simp [hf, Verif.Fiber.lvars, Verif.Fiber.Frame.lvars, hx])]; simp) hv
  | dropHeap _ hx hv => exact hi.vi.nonExc _ v (by simp [hx]) hv
  | @tick k ls m rest x hf hm hv =>
    exact hi.vi.nonExc x v (by rw [(hi.oi.locs c x).1 (by simp [hf, Verif.Fiber.lvars, Verif.Fiber.Frame.lvars])]; simp) hv
  | @exit n rest x xs hf hc hv =>
    exact hi.vi.nonExc x v (by rw [(hi.oi.capv n x).1 (by simp [hc])]; simp) hv

/-- which contexts get lost in a step -/
theorem eff_lost {s s' : State} {t c op} (hi : Inv s) (hcur : s.cur t = some c) (h : Eff s t c op s') (hn : op ≠ .swallow) {d : CtxId}
    (hd : s'.lost d = true) : s.lost d = true ∨ s.root d = true := by
  have hrun := (hi.ci.curRun t c).1 hcur
  cases h with
  | resume hf hacc hv hs ha =>
    rename_i w
    have hwc : w ≠ c := by rintro rfl; rw [hrun] at hs; simp at hs
    rw [ha.lost] at hd
    · exact .inl hd
    · intro v hv2; simp [sw, upd_apply, hwc] at hv2
      exact absurd hv2 (acc_not_dtor hi hacc hv v)
  | resumeWith hf hacc hv hs ha =>
    rename_i w
    have hwc : w ≠ c := by rintro rfl; rw [hrun] at hs; simp at hs
    rw [ha.lost] at hd
    · exact .inl hd
    · intro v hv2; simp [sw, upd_apply, hwc] at hv2
      exact absurd hv2 (acc_not_dtor hi hacc hv v)
  | propFn hf hd2 =>
    obtain ⟨hp, hs, ha⟩ := hd2
    rename_i x _ w
    have hwc : w ≠ c := by rintro rfl; simp [hrun] at hs
    rw [ha.lost] at hd
    · exact .inl hd
    · intro v hv2; simp [sw, upd_apply, hwc] at hv2
      have hk : s.kind x = .exc c := (hi.oi.excs c x).1 (by simp [hf, Verif.Fiber.evars, Verif.Fiber.Frame.evars])
      have := hi.vi.excTop x c w v hk hp hv2
      simp [sw, this]
  | leaveFn hf hd2 =>
    obtain ⟨hp, hs, ha⟩ := hd2
    rename_i x _ w
    have hwc : w ≠ c := by rintro rfl; simp [hrun] at hs
    rw [ha.lost] at hd
    · exact .inl hd
    · intro v hv2; simp [sw, upd_apply, hwc] at hv2
      have hk : s.kind x = .ret c := (hi.oi.rets c x).1 (by simp [hf, Verif.Fiber.rvars, Verif.Fiber.Frame.rvars])
      exact absurd hv2 (hi.vi.nonExc x w (by simp [hk]) hp v)
  | create _ _ h2 =>
    have hc := capture_keep ({ s with nextCtx := s.nextCtx + 1 }.addLog (.alloc s.nextCtx)) s.nextCtx
    simp only [h2, (hc _).2.2.2.2.2.2.2.2.2.2.2, addLog_lost] at hd
    exact .inl hd
  | @destroy _ s1 v _ h1 h2 =>
    have hnd := preDst_not_dtor hi h1
    obtain ⟨e1, e2, _, _, _, e6, _⟩ := h1.wf hi
    have hl : ∀ z, s1.lost z = s.lost z := fun z => by cases h1 <;> rfl
    cases h2 with
    | root hr =>
      simp only [upd_apply] at hd
      split at hd
      · rename_i hdv; subst hdv; exact .inr (e2 ▸ hr)
      · exact .inl ((hl d).symm.trans hd)
    | term => exact .inl ((hl d).symm.trans hd)
    | unwind _ _ hs ha =>
      have hvc : v ≠ c := by rintro rfl; rw [e1, hrun] at hs; simp at hs
      rw [ha.lost] at hd
      · exact .inl ((hl d).symm.trans hd)
      · intro z hz; simp [sw, upd_apply, hvc] at hz
        rw [e6 v hvc] at hz
        exact absurd hz (hnd z)
  | swallow => exact absurd rfl hn
  | swallowNone => exact absurd rfl hn
  | _ => exact .inl hd

theorem Arr.root {s s' : State} {w} (h : Arr s w s') : s'.root = s.root := by cases h <;> rfl

theorem eff_root {s s' : State} {t c op} (hi : Inv s) (h : Eff s t c op s') {d : CtxId} (hd : s.status d ≠ .absent) : s'.root d = s.root d := by
  have hnn : d ≠ s.nextCtx := by rintro rfl; exact hd ((hi.ci.absent s.nextCtx).2 (Nat.le_refl _))
  cases h with
  | resume _ _ _ hs ha => rw [ha.root]; rfl
  | resumeWith _ _ _ hs ha => rw [ha.root]; rfl
  | propFn _ hd2 => obtain ⟨_, hs, ha⟩ := hd2; rw [ha.root]; rfl
  | leaveFn _ hd2 => obtain ⟨_, hs, ha⟩ := hd2; rw [ha.root]; rfl
  | create _ _ h2 =>
    have hc := capture_keep ({ s with nextCtx := s.nextCtx + 1 }.addLog (.alloc s.nextCtx)) s.nextCtx
    simp only [upd_apply, h2, (hc _).2.2.2.2.2.2.1, addLog_root, hnn, if_false]
  | destroy h1 h2 =>
    obtain ⟨_, e2, _⟩ := h1.wf hi
    cases h2 with
    | root => simp [e2]
    | term => simp [e2]
    | unwind _ _ hs ha => rw [ha.root]; simp [sw, e2]
  | spawn => simp only [upd_apply, hnn, if_false]
  | _ => rfl

/-- Without swallowing, only main contexts of threads get lost. -/
theorem lost_root {s : State} (h : ReachableNS s) (he : s.early = false) {c : CtxId} (hl : s.lost c = true) : s.root c = true := by
  induction h with
  | init => simp [init] at hl
  | @step s s' t op hs hn hst ih =>
    have he1 := step_early hst he
    obtain ⟨d, hcur, heff⟩ := step_eff hst
    have hi := reachable_inv hs.reachable he1
    have hi' := reachable_inv (Reachable.step hs.reachable hst) he
    have hr : s.root c = true := by
      rcases eff_lost hi hcur heff hn hl with h1 | h1
      · exact ih he1 h1
      · exact h1
    rw [eff_root hi heff ((reachable_linv hs.reachable he1).rootA c hr)]
    exact hr

/-- Every fiber that is suspended or finished is owned: some object designates it, or its release is under way; unless a
`forced_unwind` was swallowed. (A main context can also become unowned: destroying its handle does nothing.) -/
theorem C22_no_lost_fiber {s : State} (h : ReachableNS s) (he : NoEarlyDestroy s) {c : CtxId} (hc : Created s c)
    (hs : Suspended s c ∨ Finished s c) : (∃ x, Designates s x c) ∨ ∃ d, BeingReleased s c d := by
  have hi := reachable_inv h.reachable he
  have hl := reachable_linv h.reachable he
  rcases hi.vi.held c hs with h1 | ⟨x, hx⟩ | h1 | ⟨d, hd⟩
  · have h2 := lost_root h he h1
    rw [((hl.alloc c).1 hc).2] at h2; simp at h2
  · exact .inl ⟨x, hx⟩
  · simp at h1
  · exact .inr ⟨d, List.count_pos_iff.1 hd⟩

/-- Nothing leaks: when no object designates anything, threads execute only their main contexts, and no release is under
way, every fiber ever created has been released. -/
theorem C22_balance {s : State} (h : ReachableNS s) (he : NoEarlyDestroy s) (hv : ∀ x, s.val x = none)
    (ht : ∀ t c, RunsOn s t c → ¬ Created s c) (hr : ∀ c d, ¬ BeingReleased s c d) {c : CtxId} (hc : Created s c) :
    Released s c := by
  have hi := reachable_inv h.reachable he
  have hl := reachable_linv h.reachable he
  have hno : ¬ (Suspended s c ∨ Finished s c) := by
    intro hs
    rcases C22_no_lost_fiber h he hc hs with ⟨x, hx⟩ | ⟨d, hd⟩
    · rw [Designates, hv] at hx; simp at hx
    · exact hr c d hd
  have ha := (hl.alloc c).1 hc
  refine (hl.freed c).2 ?_
  cases hst : s.status c with
  | suspended => exact absurd (.inl hst) hno
  | terminated => exact absurd (.inr hst) hno
  | running t => exact absurd hc (ht t c ((hi.ci.curRun t c).2 hst))
  | absent => exact absurd hst ha.1
  | raw => exact absurd hst (hi.ci.noRaw c)
  | freed => rfl
  | ended => have := hl.ended c hst; simp [ha.2] at this

/-- The proviso "no never started fiber was destroyed" is needed: in `hEarly` a live object designates a released stack,
and destroying this object is undefined behaviour. -/
theorem C22_violation : Reachable (exec hEarly) ∧ Released (exec hEarly) 1 ∧ Handle (exec hEarly) 9 ∧ Designates (exec hEarly) 9 1 ∧
    step (exec hEarly) 0 (.drop 9) = .ub := by
  refine ⟨reachable_exec (by decide), (by decide : Event.dealloc 1 ∈ (exec hEarly).log), .inl (by decide),
    (by decide : (exec hEarly).val 9 = some 1), ?_⟩
  have : (match step (exec hEarly) 0 (.drop 9) with | .ub => true | _ => false) = true := by decide
  split at this
  · assumption
  · simp at this

end Verif.UFiber
