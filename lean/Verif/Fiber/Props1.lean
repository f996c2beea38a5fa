import Verif.Fiber.Eqs

/-! # Ownership, release and threads: C01-C04, C06-C08, C17, C19 -/

namespace Verif.Fiber
open State

/-! ## C01 -/

/-- In every reachable state at most one object designates a context. -/
theorem C01_exclusive {s : State} (h : Reachable s) {x y : Var} {c : CtxId} (hx : Designates s x c) (hy : Designates s y c) :
    x = y := by
  obtain ⟨f, hf, rfl⟩ := hx
  obtain ⟨g, hg, hfg⟩ := hy
  exact (reachable_inv h).vi.inj x y f g hf hg hfg.symm

example : Reachable (exec h1) ∧ Designates (exec h1) 2 1 := ⟨reachable_exec (by decide), ⟨1, 2⟩, by decide, rfl⟩

/-! ## C02 -/

/-- A non-empty object designates a context that is suspended now, at exactly the suspension the object refers to, that no
thread executes and whose stack has not been released. -/
theorem C02_no_dangling {s : State} (h : Reachable s) {x : Var} {f : Fctx} (hx : s.val x = some f) :
    Suspended s f.ctx ∧ s.seq f.ctx = f.seq ∧ ¬ Released s f.ctx ∧ ∀ t, ¬ RunsOn s t f.ctx := by
  have hi := reachable_inv h
  obtain ⟨h1, h2⟩ := hi.vi.valid x f hx
  refine ⟨h1, h2, ?_, ?_⟩
  · intro hr
    have := ((reachable_linv h).freed f.ctx).1 hr
    rw [h1] at this; simp at this
  · intro t ht
    have := (hi.ci.curRun t f.ctx).1 ht
    rw [h1] at this; simp at this

/-- No step of any thread in a reachable state uses an outdated, running, finished or released context, releases a stack in
use or runs an on-top function on a raw context. -/
theorem C02_no_ub {s : State} (h : Reachable s) (t : Tid) (op : Op) : step s t op ≠ .ub := by
  have := step_safe (t := t) (op := op) (reachable_inv h)
  intro hh
  rw [hh] at this
  exact this

/-- The same for whole histories. -/
theorem C02_run_no_ub (h : List (Tid × Op)) : run init h ≠ .ub := by
  suffices ∀ s, Reachable s → run s h ≠ .ub from this _ .init
  induction h with
  | nil => intro s _; simp [run]
  | cons a h ih =>
    intro s hs
    obtain ⟨t, op⟩ := a
    simp only [run]
    split
    · rename_i s' hs'; exact ih s' (.step hs hs')
    · exact C02_no_ub hs t op

example : Reachable (exec h1) ∧ (exec h1).val 2 = some ⟨1, 2⟩ := ⟨reachable_exec (by decide), by decide⟩
/-- the check is not vacuous: in an unreachable state with an outdated handle the step is undefined behaviour -/
example : (match step ((exec h1).setVal 2 (some ⟨1, 1⟩)) 0 (.resume 2) with | .ub => true | _ => false) = true := by decide

/-! ## C03 -/

theorem lost_false {s : State} (h : ReachableNS s) (c : CtxId) : s.lost c = false := by
  induction h with
  | init => rfl
  | step hs hn hst ih => rw [step_lost (reachable_inv hs.reachable) hst hn]; exact ih

/-- Unless `forced_unwind` is swallowed or copying a function object throws inside `resume_with()`, every suspended context is designated by a `fiber` of user code, by the object an
on-top or context function is returning, or it waits in `~fiber` for a context in which the corresponding `forced_unwind`
is in flight and carries the way back. -/
theorem C03_no_lost_context {s : State} (h : ReachableNS s) {c : CtxId} (hc : Suspended s c) :
    ∃ x, Designates s x c ∧ (Handle s x ∨ (∃ d, s.kind x = .ret d) ∨ ∃ v, s.kind x = .exc v ∧ WaitsInDtor s c v) := by
  have hi := reachable_inv h.reachable
  rcases hi.vi.held c hc with h1 | ⟨x, f, hx, hf⟩ | ⟨f, hf, _⟩
  · rw [lost_false h c] at h1; simp at h1
  · refine ⟨x, ⟨f, hx, hf⟩, ?_⟩
    cases hk : s.kind x with
    | dead => have := hi.vi.deadNone x hk; rw [hx] at this; simp at this
    | heap => exact .inl (.inl hk)
    | loc d => exact .inl (.inr (.inl ⟨d, hk⟩))
    | cap d => exact .inl (.inr (.inr ⟨d, hk⟩))
    | ret d => exact .inr (.inl ⟨d, rfl⟩)
    | exc d =>
      refine .inr (.inr ⟨d, rfl, ?_⟩)
      have := hi.vi.excTop x d f hk hx
      rw [hf] at this
      exact dtorTop_iff.1 this
  · simp at hf

/-- history in which the fiber function catches and swallows `forced_unwind` -/
def hSwallow : List (Tid × Op) :=
  [(0, .create [] .success), (0, .resume 0), (0, .call), (0, .resume 1), (0, .drop 2), (0, .swallow)]

/-- The proviso is needed: after swallowing, main is suspended and nothing designates it any more. -/
theorem C03_swallow_loses : Reachable (exec hSwallow) ∧ Suspended (exec hSwallow) 0 ∧ ∀ x, ¬ Designates (exec hSwallow) x 0 := by
  have hr : Reachable (exec hSwallow) := reachable_exec (by decide)
  refine ⟨hr, ?_⟩
  have hl := (reachable_inv hr).vi.lostS 0 (by decide)
  exact ⟨hl.1, fun x ⟨f, hx, hf⟩ => hl.2.1 x f hx hf⟩

/-- history in which main calls `resume_with` with a function object whose copy throws in the target -/
def hCopyThrow : List (Tid × Op) := h1 ++ [(0, .withThrows 2 7 true)]

/-- The other proviso is needed too: after the copy of the function object has thrown in the target (which handles or propagates
the exception), the caller of `resume_with()` is suspended and nothing designates it any more. -/
theorem C03_copyThrow_loses : Reachable (exec hCopyThrow) ∧ Suspended (exec hCopyThrow) 0 ∧ ∀ x, ¬ Designates (exec hCopyThrow) x 0 := by
  have hr : Reachable (exec hCopyThrow) := reachable_exec (by decide)
  refine ⟨hr, ?_⟩
  have hl := (reachable_inv hr).vi.lostS 0 (by decide)
  exact ⟨hl.1, fun x ⟨f, hx, hf⟩ => hl.2.1 x f hx hf⟩

example : ReachableNS (exec h2) ∧ Suspended (exec h2) 0 ∧ WaitsInDtor (exec h2) 0 1 :=
  ⟨reachableNS_exec (by decide) (by decide), (show (exec h2).status 0 = .suspended by decide), _, (by decide : (exec h2).frames 0 = [.dtor 1, .user .main [0] .normal])⟩

/-! ## C04 -/

/-- the object an operation takes the context out of -/
def Consumes : Op → Var → Prop
  | .resume y, x => x = y
  | .resumeWith y, x => x = y
  | .withThrows y _ b, x => x = y ∧ b = true
  | .moveHeap y, x => x = y
  | .moveLocal y, x => x = y
  | .retHandle y, x => x = y
  | .moveAssign z y, x => x = y ∧ z ≠ y
  | .create ys .success, x => x ∈ ys
  | _, _ => False

/-- The object on which `resume`/`resume_with` is called, and the source of any move, is empty after the step. -/
theorem C04_consumed {s s' : State} {t : Tid} {op : Op} {x : Var} (h : Reachable s) (hc : Consumes op x)
    (hs : step s t op = .ok s') : s'.val x = none := by
  have hi := reachable_inv h
  obtain ⟨c, hcur, he⟩ := step_eff hi hs
  have hn : ∀ y, s.accessible y = true → y < s.nextVar := fun y hy => lt_nextVar hi (accessible_ne_dead hy)
  clear hs
  cases he
  case create k ls rest xs hf ha s2 h2 =>
    have hcap := capture_val ({ s with nextCtx := s.nextCtx + 1 }.addLog (.alloc s.nextCtx)) s.nextCtx xs
      (fun x hx => hn x (ha x hx))
    rw [← h2] at hcap
    simp only [State.addLog] at hcap
    simp only [Consumes] at hc
    have h1 := hn x (ha x hc)
    have := hcap.2.1 x h1
    simp only [upd_apply]
    have h3 : x ≠ s2.nextVar := by intro h; subst h; exact absurd h1 (Nat.not_lt.2 hcap.1)
    simp [h3, this, hc]
  case destroy s1 f h1 h2 =>
    have h3 : s1.nextVar = s.nextVar ∧ s1.val x = none ∧ x < s.nextVar := by
      cases h1 <;> simp only [Consumes] at hc
      rename_i ha _ _ _
      obtain ⟨rfl, hne⟩ := hc
      exact ⟨rfl, by simp, hn _ ha⟩
    obtain ⟨h2⟩ := h2
    cases h2 <;> simp only [fin, sw, State.setFrames, upd_apply] <;> grind
  case resume ha _ hd =>
    have := hn _ ha
    cases hd <;> simp only [sw, State.setFrames, State.setVal, upd_apply, Consumes] at * <;> grind
  all_goals simp only [Consumes] at hc
  all_goals
    try simp only [State.newVar, State.setFrames, State.setVal, upd_apply]
    grind

/-- An empty object that exists stays empty, whatever any thread does, unless it is assigned to or swapped. -/
theorem C04_stays_empty {s s' : State} {t : Tid} {op : Op} {x : Var} (h : Reachable s) (hx : s.kind x ≠ .dead)
    (he : s.val x = none) (hs : step s t op = .ok s') (ha : ¬ Assigns op x) : s'.val x = none := by
  have hi := reachable_inv h
  have := (step_val hi hs).2 x (lt_nextVar hi hx) ha
  rw [he] at this
  simpa using this

example : Reachable (exec h1) ∧ Consumes (.resume 2) 2 ∧ ∃ s', step (exec h1) 0 (.resume 2) = .ok s' :=
  ⟨reachable_exec (by decide), rfl, exec (h1 ++ [(0, .resume 2)]), by rfl⟩
example : Reachable (exec h1) ∧ (exec h1).kind 0 = .loc 0 ∧ (exec h1).val 0 = none := ⟨reachable_exec (by decide), by decide, by decide⟩

/-! ## C06 -/

/-- The context function of a fiber is entered at most once. -/
theorem C06_at_most_once {s : State} (h : Reachable s) (c : CtxId) : s.log.count (.enter c) ≤ 1 := (reachable_linv h).enter1 c

/-- Construction does not enter the function. -/
theorem C06_not_by_construction {s s' : State} {t : Tid} {xs : List Var} {o : CreateOutcome} (h : Reachable s)
    (hs : step s t (.create xs o) = .ok s') (c : CtxId) : .enter c ∈ s'.log → .enter c ∈ s.log := by
  have hi := reachable_inv h
  obtain ⟨d, hcur, he⟩ := step_eff hi hs
  cases he
  case create k ls rest hf ha s2 h2 =>
    have hcap := capture_same ({ s with nextCtx := s.nextCtx + 1 }.addLog (.alloc s.nextCtx)) s.nextCtx xs
    rw [← h2] at hcap
    simp only [State.addLog] at hcap
    simp [hcap]
  case createThrows => simp [State.setFrames]
  case destroy h1 _ => cases h1

/-- The first `resume` of a not yet started fiber enters its function, with one parameter that designates the context
which called `resume`. -/
theorem C06_first_resume {s : State} {t : Tid} {c d : CtxId} {k : UKind} {ls : List Var} {rest : List Frame} {x : Var}
    (h : Reachable s) (hu : UserCode s t c k ls rest) (ha : Handle s x) (hd : Designates s x d) (hn : NotStarted s d) :
    ∃ s' p, step s t (.resume x) = .ok s' ∧ RunsOn s' t d ∧ s'.log = .enter d :: s.log ∧
      s'.frames d = [.user .fn [p] .normal, .entryRun] ∧ Designates s' p c ∧ Suspended s' c := by
  have hi := reachable_inv h
  obtain ⟨f, hv, rfl⟩ := hd
  have hcf : f.ctx ≠ c := ((facts hi hu.1).2.2.2 x f hv).2.2
  simp only [NotStarted] at hn
  rw [resume_eq hi hu ha hv]
  simp only [State.deliver, sw, State.setFrames, State.setVal, upd_apply, hcf, if_false, hn]
  refine ⟨_, s.nextVar, rfl, ?_⟩
  simp [State.newVar, State.addLog, RunsOn, Suspended, Designates, Ne.symm hcf]

/-- The function is entered only when the fiber has not been started before, and never again after it was left. -/
theorem C06_only_if_not_started {s s' : State} {t : Tid} {op : Op} {d : CtxId} (h : Reachable s)
    (hs : step s t op = .ok s') (hn : .enter d ∉ s.log) (he : .enter d ∈ s'.log) :
    .entryJump ∈ s.frames d ∧ (Suspended s d ∨ ∃ t, RunsOn s t d) := by
  have hi := reachable_inv h
  obtain ⟨l, hl, h1, _⟩ := step_logAdd hi hs
  rw [hl] at he
  have hm := h1 d (by simpa [hn] using he)
  refine ⟨hm, ?_⟩
  have := hi.ci
  cases hst : s.status d with
  | suspended => exact .inl hst
  | running t' => exact .inr ⟨t', (this.curRun t' d).2 hst⟩
  | absent => simp [this.fAbsent d hst] at hm
  | raw => exact absurd hst (this.noRaw d)
  | terminated => simp [this.fTerm d hst] at hm
  | freed => simp [this.fFreed d hst] at hm
  | ended => simp [this.fEnded d hst] at hm

/-- main creates a fiber (object 0, context 1) -/
def h0 : List (Tid × Op) := [(0, .create [] .success)]

example : Reachable (exec h0) ∧ UserCode (exec h0) 0 0 .main [0] [] ∧ Handle (exec h0) 0 ∧ Designates (exec h0) 0 1 ∧
    NotStarted (exec h0) 1 :=
  ⟨reachable_exec (by decide), ⟨by decide, by decide⟩, .inr (.inl ⟨0, by decide⟩), ⟨⟨1, 1⟩, by decide, rfl⟩, (by decide : (exec h0).frames 1 = [.entryJump])⟩

/-! ## C07 -/

/-- A stack is released at most once. -/
theorem C07_released_once {s : State} (h : Reachable s) (c : CtxId) : s.log.count (.dealloc c) ≤ 1 := (reachable_linv h).freed1 c

/-- Once released, at all later times: still released (and not again), no thread executes on the stack, no frame and no
object lives on it, and no object designates it. -/
theorem C07_after_release {s s' : State} (h : Reachable s) {c : CtxId} (hr : Released s c) (hs : Steps s s') :
    Released s' c ∧ s'.log.count (.dealloc c) = 1 ∧ (∀ t, ¬ RunsOn s' t c) ∧ s'.frames c = [] ∧
      (∀ x, s'.kind x ≠ .loc c ∧ s'.kind x ≠ .cap c ∧ s'.kind x ≠ .ret c ∧ s'.kind x ≠ .exc c) ∧ ∀ x, ¬ Designates s' x c := by
  have hr' : s'.status c = .freed := by
    have h0 := ((reachable_linv h).freed c).1 hr
    induction hs with
    | refl => exact h0
    | tail hs1 hst ih => exact (step_status (reachable_inv (hs1.reachable h)) hst c).1 ih
  have hre := hs.reachable h
  have hi := reachable_inv hre
  have hl := reachable_linv hre
  have hm := (hl.freed c).2 hr'
  have hfr := hi.ci.fFreed c hr'
  refine ⟨hm, ?_, ?_, hfr, ?_, ?_⟩
  · have := hl.freed1 c
    have := List.count_pos_iff.2 hm
    omega
  · intro t ht
    have := (hi.ci.curRun t c).1 ht
    rw [hr'] at this; simp at this
  · intro x
    have h1 := hi.oi.locs c x
    have h2 := hi.oi.excs c x
    have h3 := hi.oi.rets c x
    have h4 := hi.oi.capv c x
    rw [hi.oi.capsF c hr'] at h4
    rw [hfr] at h1 h2 h3
    simp [lvars, evars, rvars] at h1 h2 h3 h4
    exact ⟨h1, h4, h3, h2⟩
  · rintro x ⟨f, hf, rfl⟩
    have := (hi.vi.valid x f hf).1
    rw [hr'] at this; simp at this

/-- At the moment of release: the context has terminated (its function, if started, has ended), no user frame is left on
the stack, and no object lives in it. -/
theorem C07_at_release {s s' : State} {t : Tid} {op : Op} {c : CtxId} (h : Reachable s) (hs : step s t op = .ok s')
    (hn : ¬ Released s c) (hr : Released s' c) :
    s.frames c = [.exitJump] ∧ (∀ t, ¬ RunsOn s t c) ∧ (∀ x, ¬ Designates s x c) ∧
      ∀ x, s.kind x ≠ .loc c ∧ s.kind x ≠ .cap c ∧ s.kind x ≠ .ret c ∧ s.kind x ≠ .exc c := by
  have hi := reachable_inv h
  obtain ⟨l, hl, _, h2, _⟩ := step_logAdd hi hs
  simp only [Released] at hn hr
  rw [hl] at hr
  obtain ⟨_, hst, hcp, _⟩ := h2 c (by simpa [hn] using hr)
  have hfr := hi.ci.fTerm c hst
  refine ⟨hfr, ?_, ?_, ?_⟩
  · intro t ht
    have := (hi.ci.curRun t c).1 ht
    rw [hst] at this; simp at this
  · rintro x ⟨f, hf, rfl⟩
    have := (hi.vi.valid x f hf).1
    rw [hst] at this; simp at this
  · intro x
    have h1 := hi.oi.locs c x
    have h2 := hi.oi.excs c x
    have h3 := hi.oi.rets c x
    have h4 := hi.oi.capv c x
    rw [hcp] at h4
    rw [hfr] at h1 h2 h3
    simp [lvars, evars, rvars, Frame.lvars, Frame.evars, Frame.rvars] at h1 h2 h3 h4
    exact ⟨h1, h4, h3, h2⟩

/-- Only allocated stacks are released. -/
theorem C07_released_was_created {s : State} (h : Reachable s) {c : CtxId} (hr : Released s c) : Created s c := by
  by_cases hc : Created s c
  · exact hc
  · have hl := reachable_linv h
    have h1 := (hl.freed c).1 hr
    have h2 := (reachable_inv h).ci.fFreed c h1
    rcases hl.noAlloc c hc with h3 | h3 | h3
    · rw [h1] at h3; simp at h3
    · rw [h1] at h3; simp at h3
    · rw [h2] at h3; simp at h3

example : Reachable (exec h3) ∧ Released (exec h3) 1 := ⟨reachable_exec (by decide), (by decide : Event.dealloc 1 ∈ (exec h3).log)⟩

/-! ## C08 -/

/-- A created fiber is released, or running on a thread, or suspended, or being released right now. -/
theorem C08_created_cases {s : State} (h : Reachable s) {c : CtxId} (hc : Created s c) :
    Released s c ∨ (∃ t, RunsOn s t c) ∨ Suspended s c ∨ ∃ d, .exiting c ∈ s.frames d ∧ (Suspended s d ∨ ∃ t, RunsOn s t d) := by
  have hi := reachable_inv h
  have hl := reachable_linv h
  have hci := hi.ci
  cases hst : s.status c with
  | suspended => exact .inr (.inr (.inl hst))
  | running t => exact .inr (.inl ⟨t, (hci.curRun t c).2 hst⟩)
  | absent => exact absurd hc (hl.absentA c hst).1
  | raw => exact absurd hst (hci.noRaw c)
  | freed => exact .inl ((hl.freed c).2 hst)
  | ended => exact absurd hst (hl.allocS c hc).1
  | terminated =>
    obtain ⟨d, hd⟩ := hci.exitE c hst
    have hm : Frame.exiting c ∈ s.frames d := List.count_pos_iff.1 hd
    refine .inr (.inr (.inr ⟨d, hm, ?_⟩))
    cases hsd : s.status d with
    | suspended => exact .inl hsd
    | running t => exact .inr ⟨t, (hci.curRun t d).2 hsd⟩
    | absent => simp [hci.fAbsent d hsd] at hm
    | raw => exact absurd hsd (hci.noRaw d)
    | terminated => simp [hci.fTerm d hsd] at hm
    | freed => simp [hci.fFreed d hsd] at hm
    | ended => simp [hci.fEnded d hsd] at hm

/-- If no object designates anything and threads execute only their root contexts, every fiber ever created has been
released, or is being released right now by one of these threads. -/
theorem C08_balance {s : State} (h : ReachableNS s) (hv : ∀ x, s.val x = none) (ht : ∀ t c, RunsOn s t c → ¬ Created s c)
    {c : CtxId} (hc : Created s c) : Released s c ∨ ∃ t d, RunsOn s t d ∧ .exiting c ∈ s.frames d := by
  have hno : ∀ d, ¬ Suspended s d := by
    intro d hd
    obtain ⟨x, ⟨f, hx, _⟩, _⟩ := C03_no_lost_context h hd
    rw [hv] at hx; simp at hx
  rcases C08_created_cases h.reachable hc with h1 | ⟨t, h1⟩ | h1 | ⟨d, h1, h2 | ⟨t, h2⟩⟩
  · exact .inl h1
  · exact absurd hc (ht t c h1)
  · exact absurd h1 (hno c)
  · exact absurd h2 (hno d)
  · exact .inr ⟨t, d, h2, h1⟩

/-- At the end of the program (no thread runs) with no non-empty object left, allocations and releases balance: the list of
released stacks is a permutation of the list of allocated ones. -/
theorem C08_no_leak {s : State} (h : ReachableNS s) (hq : AllQuiet s) :
    (s.log.filterMap fun e => match e with | .dealloc c => some c | _ => none).Perm
      (s.log.filterMap fun e => match e with | .alloc c => some c | _ => none) := by
  have hl := reachable_linv h.reachable
  have key : ∀ (ev : CtxId → Event) (p : Event → Option CtxId) (hp : ∀ e c, p e = some c ↔ e = ev c)
      (l : List Event) (_ : ∀ c, l.count (ev c) ≤ 1), (l.filterMap p).Nodup ∧ ∀ c, c ∈ l.filterMap p ↔ ev c ∈ l := by
    intro ev p hp l h1
    have hmem : ∀ (l : List Event) c, c ∈ l.filterMap p ↔ ev c ∈ l := by
      intro l c; simp only [List.mem_filterMap, hp]; grind
    refine ⟨?_, hmem l⟩
    induction l with
    | nil => simp
    | cons e l ih =>
      have ih' := ih (fun c => Nat.le_trans (by simp [List.count_cons]) (h1 c))
      cases he : p e with
      | none => simpa [List.filterMap_cons, he] using ih'
      | some c =>
        have := (hp e c).1 he
        subst this
        simp only [List.filterMap_cons, he, List.nodup_cons]
        refine ⟨?_, ih'⟩
        rw [hmem]
        intro hm
        have := h1 c
        rw [List.count_cons_self] at this
        have := List.count_pos_iff.2 hm
        omega
  obtain ⟨n1, m1⟩ := key .dealloc (fun e => match e with | .dealloc c => some c | _ => none)
    (by intro e c; cases e <;> simp) s.log hl.freed1
  obtain ⟨n2, m2⟩ := key .alloc (fun e => match e with | .alloc c => some c | _ => none)
    (by intro e c; cases e <;> simp) s.log hl.alloc1
  rw [List.perm_ext_iff_of_nodup n1 n2]
  intro c
  rw [m1, m2]
  constructor
  · exact fun hr => C07_released_was_created h.reachable hr
  · intro hc
    rcases C08_balance h hq.2 (fun t c hr => by simp [RunsOn, hq.1 t] at hr) hc with h1 | ⟨t, d, h1, _⟩
    · exact h1
    · simp [RunsOn, hq.1 t] at h1

/-- as `h3`, then the main function returns -/
def h4 : List (Tid × Op) := h3 ++ [(0, .ret), (0, .tick), (0, .tick)]

/-- to check that all threads and objects of a concrete reachable state are quiet it is enough to look at the finitely many
that exist -/
theorem quiet_of {s : State} (h : Reachable s) (ht : ∀ t < s.nextTid, s.cur t = none) (hx : ∀ x < s.nextVar, s.val x = none) : AllQuiet s := by
  have hi := reachable_inv h
  refine ⟨fun t => ?_, fun x => ?_⟩
  · by_cases hlt : t < s.nextTid
    · exact ht t hlt
    · exact hi.ci.tids t (Nat.not_lt.1 hlt)
  · by_cases hlt : x < s.nextVar
    · exact hx x hlt
    · exact hi.vi.deadNone x (hi.oi.fresh x (Nat.not_lt.1 hlt))

example : ReachableNS (exec h4) ∧ AllQuiet (exec h4) ∧ (exec h4).log = [.destroyed 1 0, .dealloc 1, .enter 1, .alloc 1] :=
  ⟨reachableNS_exec (by decide) (by decide), quiet_of (reachable_exec (by decide)) (by decide) (by decide), by decide⟩

/-! ## C17 -/

/-- A context is executed by at most one thread, and a thread executes at most one context. -/
theorem C17_one_thread {s : State} (h : Reachable s) {t t' : Tid} {c c' : CtxId} (h1 : RunsOn s t c) :
    (RunsOn s t' c → t = t') ∧ (RunsOn s t c' → c = c') := by
  have hi := (reachable_inv h).ci
  refine ⟨fun h2 => ?_, fun h2 => ?_⟩
  · have a := (hi.curRun t c).1 h1
    have b := (hi.curRun t' c).1 h2
    rw [a] at b; simpa using b
  · simp only [RunsOn] at h1 h2; rw [h1] at h2; simpa using h2

/-- A running context is in no handle: it can be resumed by nobody. -/
theorem C17_running_not_resumable {s : State} (h : Reachable s) {t : Tid} {c : CtxId} (h1 : RunsOn s t c) (x : Var) :
    ¬ Designates s x c := by
  rintro ⟨f, hx, rfl⟩
  exact (C02_no_dangling h hx).2.2.2 t h1

/-- main starts a second thread; both create fibers and resume them; thread 1 then resumes the fiber created by thread 0
that main's fiber suspended -/
def hThreads : List (Tid × Op) :=
  [(0, .spawn), (0, .create [] .success), (1, .create [] .success), (1, .resume 1), (0, .resume 0)]

example : Reachable (exec hThreads) ∧ RunsOn (exec hThreads) 1 3 ∧ RunsOn (exec hThreads) 0 2 :=
  ⟨reachable_exec (by decide), (by decide : (exec hThreads).cur 1 = some 3), (by decide : (exec hThreads).cur 0 = some 2)⟩

/-! ## C19 -/

/-- Outside of construction no context is raw: every context has been entered and suspended by the library before it
appears in a handle, so on-top functions are only ever executed on contexts at a proper suspension point. -/
theorem C19_no_raw_context {s : State} (h : Reachable s) :
    (∀ c, s.status c ≠ .raw) ∧ ∀ x c, Designates s x c → s.frames c = [.entryJump] ∨
      (∃ k ls rest, InResume s c k ls rest) ∨ ∃ v, WaitsInDtor s c v := by
  have hi := (reachable_inv h).ci
  refine ⟨hi.noRaw, ?_⟩
  rintro x c ⟨f, hx, rfl⟩
  have hs := ((reachable_inv h).vi.valid x f hx).1
  have hw := hi.wf f.ctx (by simp [hs])
  obtain ⟨rest, hf | hf | ⟨v, hf⟩⟩ := suspTop_iff.1 (hi.susp f.ctx hs)
  · rw [hf] at hw
    obtain rfl := wf_entryJump hw
    exact .inl hf
  · rw [hf] at hw
    obtain ⟨k, ls, r, rfl⟩ := adj_resume_inv hw.1
    exact .inr (.inl ⟨k, ls, r, hf⟩)
  · exact .inr (.inr ⟨v, rest, hf⟩)

example : Designates (exec h0) 0 1 ∧ Designates (exec h1) 2 1 := ⟨⟨⟨1, 1⟩, by decide, rfl⟩, ⟨⟨1, 2⟩, by decide, rfl⟩⟩

end Verif.Fiber
