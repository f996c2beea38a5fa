import Verif.Fiber.Props1
import Verif.Fiber.Persist

/-! # Switching: C05, C09-C12, C15, C20 -/

namespace Verif.Fiber
open State

/-! ## C05 -/

/-- `resume()` on a handle of a context `d` that is suspended in `resume()`: the suspended call returns a new object that
designates the resuming context `c`, which is now suspended in `resume()` itself. -/
theorem C05_resumed_gets_resumer {s : State} {t : Tid} {c d : CtxId} {k k' : UKind} {ls ls' : List Var} {rest rest' : List Frame} {x : Var}
    (h : Reachable s) (hu : UserCode s t c k ls rest) (ha : Handle s x) (hd : Designates s x d) (hr : InResume s d k' ls' rest') :
    ∃ s' r, step s t (.resume x) = .ok s' ∧ UserCode s' t d k' (r :: ls') rest' ∧ s'.kind r = .loc d ∧ Designates s' r c ∧
      InResume s' c k ls rest ∧ Suspended s' c := by
  have hi := reachable_inv h
  obtain ⟨f, hv, rfl⟩ := hd
  have hcf : f.ctx ≠ c := ((facts hi hu.1).2.2.2 x f hv).2.2
  simp only [InResume] at hr
  rw [resume_eq hi hu ha hv]
  simp only [State.deliver, sw, State.setFrames, State.setVal, upd_apply, hcf, if_false, hr]
  refine ⟨_, s.nextVar, rfl, ?_⟩
  simp [State.newVar, Suspended, Designates, Ne.symm hcf, UserCode, InResume, hu.2]

/-- A finished fiber `n` was released on top of a context suspended in `resume()`: that call returns an empty object. -/
theorem C05_exited_gets_empty {s : State} {t : Tid} {d n : CtxId} {k : UKind} {ls : List Var} {rest : List Frame}
    (h : Reachable s) (hr : RunsOn s t d) (hf : s.frames d = .exiting n :: .resume :: .user k ls .normal :: rest) (hc : s.caps n = []) :
    ∃ s' r, step s t .tick = .ok s' ∧ UserCode s' t d k (r :: ls) rest ∧ s'.kind r = .loc d ∧ s'.val r = none ∧ Released s' n := by
  have hi := reachable_inv h
  have hst : s.status n = .terminated := hi.ci.exitT n d (by rw [hf]; simp [exits])
  simp only [RunsOn] at hr
  simp only [step, hr, hf, exitStep, hc, hst, if_true, State.addLog, State.deliver, upd_apply]
  refine ⟨_, s.nextVar, rfl, ?_⟩
  simp [State.newVar, UserCode, hr, Released, State.setFrames]

/-- An on-top function returned object `x` on top of a context suspended in `resume()`: that call returns what `x` held. -/
theorem C05_ontop_result {s : State} {t : Tid} {d : CtxId} {i : Nat} {x : Var} {k : UKind} {ls : List Var} {rest : List Frame}
    (hr : RunsOn s t d) (hf : s.frames d = .user (.ontop i) [] (.returning (some x)) :: .resume :: .user k ls .normal :: rest) :
    ∃ s' r, step s t .tick = .ok s' ∧ UserCode s' t d k (r :: ls) rest ∧ s'.kind r = .loc d ∧ s'.val r = s.val x := by
  simp only [RunsOn] at hr
  simp only [step, hr, hf, leave, State.deliver, State.kill, State.setFrames, upd_apply, if_true]
  refine ⟨_, s.nextVar, rfl, ?_⟩
  simp [State.newVar, UserCode, hr]

/-- Whenever `resume()` returns, it is for one of these three reasons; in particular the result is empty only if the context that
switched back terminated or an on-top function returned an empty fiber. -/
theorem C05_returns {s s' : State} {t : Tid} {op : Op} {d : CtxId} {r : Var} (h : Reachable s) (hs : step s t op = .ok s')
    (hr : ResumeReturns s s' d r) :
    (∃ c x, RunsOn s t c ∧ op = .resume x ∧ Designates s x d ∧ Designates s' r c) ∨
    (∃ n rest, RunsOn s t d ∧ s.frames d = .exiting n :: rest ∧ ¬ Released s n ∧ Released s' n ∧ s'.val r = none) ∨
    (∃ i x rest, RunsOn s t d ∧ s.frames d = .user (.ontop i) [] (.returning (some x)) :: rest ∧ s'.val r = s.val x) := by
  have hi := reachable_inv h
  obtain ⟨pre, k, ls, rest, hf, hf'⟩ := hr
  cases step_evol hi hs d with
  | same h1 =>
    have := congrArg List.length (h1.symm.trans hf'); rw [hf] at this; simp at this; omega
  | top hc h1 hp h' =>
    have h2 := congrArg List.length (h'.symm.trans hf'); simp at h2
    have h3 := congrArg List.length (h1.symm.trans hf); simp at h3
    omega
  | exitTop hc h1 hp h' =>
    have h2 := congrArg List.length (h'.symm.trans hf'); simp at h2
    have h3 := congrArg List.length (h1.symm.trans hf); simp at h3
    omega
  | pop hc hk h1 h' =>
    have h2 := congrArg List.length (h'.symm.trans hf'); simp at h2
    have h3 := congrArg List.length (h1.symm.trans hf); simp at h3
    have : pre = [] := by rw [← List.length_eq_zero_iff]; omega
    subst this; rw [h1] at hf; simp at hf
  | prop hc ho h1 h' =>
    have h2 := congrArg List.length (h'.symm.trans hf'); simp at h2
    have h3 := congrArg List.length (h1.symm.trans hf); simp at h3
    have : pre = [] := by rw [← List.length_eq_zero_iff]; omega
    subst this; rw [h1] at hf; simp at hf
  | finish hc ho h1 h' hst => rw [h'] at hf'; simp at hf'
  | endMain hc ho h1 h' => rw [h'] at hf'; simp at hf'
  | ontopRet hc ho h1 h' =>
    refine .inr (.inr ⟨_, _, _, hc, h1, ?_⟩)
    generalize hg : s'.frames d = fs' at h'
    rw [hg] at hf'
    cases h' with
    | entry hx hk => simp at hf'; have h4 := congrArg List.length (h1.symm.trans hf); have h5 := congrArg List.length hf'.2; simp at h4 h5; omega
    | resume hx hk => simp at hf'; obtain ⟨⟨_, rfl, _⟩, _⟩ := hf'; exact hx
    | dtor hl =>
      subst hf'
      have h3 := congrArg List.length (h1.symm.trans hf); simp at h3
      match pre, h3 with
      | [a], _ => rw [h1] at hf; simp at hf
      | [], h3 => simp at h3
      | _ :: _ :: _, h3 => simp at h3; omega
  | ontopThrow hc ho h1 he h' =>
    generalize hg : s'.frames d = fs' at h'
    rw [hg] at hf'
    cases h' <;> simp at hf'
  | exitDone hc ho h1 hcp hst hl h' =>
    rename_i n _
    have hnr : ¬ Released s n := by
      intro hr
      have := ((reachable_linv h).freed n).1 hr
      rw [hst] at this; simp at this
    refine .inr (.inl ⟨_, _, hc, h1, hnr, hl, ?_⟩)
    generalize hg : s'.frames d = fs' at h'
    rw [hg] at hf'
    cases h' with
    | entry hx hk => simp at hf'; have h4 := congrArg List.length (h1.symm.trans hf); have h5 := congrArg List.length hf'.2; simp at h4 h5; omega
    | resume hx hk => simp at hf'; obtain ⟨⟨_, rfl, _⟩, _⟩ := hf'; exact hx
    | dtor hl =>
      subst hf'
      have h3 := congrArg List.length (h1.symm.trans hf); simp at h3
      match pre, h3 with
      | [a], _ => rw [h1] at hf; simp at hf
      | [], h3 => simp at h3
      | _ :: _ :: _, h3 => simp at h3; omega
  | resumed hc ho ha hd hst hr hfc h' =>
    refine .inl ⟨_, _, hc, ho, hd, _, ?_, hfc⟩
    generalize hg : s'.frames d = fs' at h'
    rw [hg] at hf'
    generalize hgs : s.frames d = fs at h'
    rw [hgs] at hf
    cases h' with
    | entry hx hk => simp at hf'; have h4 := congrArg List.length hf; have h5 := congrArg List.length hf'.2; simp at h4 h5; omega
    | resume hx hk => simp at hf'; obtain ⟨⟨_, rfl, _⟩, _⟩ := hf'; exact hx
    | dtor hl =>
      subst hf'
      have h3 := congrArg List.length hf; simp at h3
      subst h3; simp at hf
  | ontop hc ho hd hst hr hv h' =>
    rw [h'] at hf'; have h2 := congrArg List.length hf'; rw [hf] at h2; simp at h2; omega
  | raised hc hd hst hw h' =>
    generalize hg : s'.frames d = fs' at h'
    generalize hgs : s.frames d = fs at h'
    rw [hg] at hf'
    cases h' <;> simp at hf'
  | copyThrow hc ho hd hst hr h' =>
    generalize hg : s'.frames d = fs' at h'
    generalize hgs : s.frames d = fs at h'
    rw [hg] at hf'
    cases h' <;> simp at hf'
  | exitOf hc ho hd hst hr hfc h' =>
    rw [h'] at hf'; have h2 := congrArg List.length hf'; rw [hf] at h2; simp at h2; omega
  | freed h1 h' => rw [h'] at hf'; simp at hf'
  | created h1 h' => rw [hi.ci.fAbsent d h1] at hf; simp at hf

example : Reachable (exec h1) ∧ UserCode (exec h1) 0 0 .main [2, 0] [] ∧ Handle (exec h1) 2 ∧ Designates (exec h1) 2 1 ∧
    InResume (exec h1) 1 .fn [1] [.entryRun] :=
  ⟨reachable_exec (by decide), ⟨by decide, by decide⟩, .inr (.inl ⟨0, by decide⟩), ⟨⟨1, 2⟩, by decide, rfl⟩,
   (by decide : (exec h1).frames 1 = [.resume, .user .fn [1] .normal, .entryRun])⟩

/-- main resumes a fiber whose function returns its parameter: main's `resume()` is about to return -/
def hExit : List (Tid × Op) := [(0, .create [] .success), (0, .resume 0), (0, .retHandle 1), (0, .tick), (0, .tick)]

example : Reachable (exec hExit) ∧ RunsOn (exec hExit) 0 0 ∧
    (exec hExit).frames 0 = [.exiting 1, .resume, .user .main [0] .normal] ∧ (exec hExit).caps 1 = [] :=
  ⟨reachable_exec (by decide), (by decide : (exec hExit).cur 0 = some 0), by decide, by decide⟩

/-- main calls `resume_with` on a fiber suspended in `resume()`; the function returns its parameter -/
def hOntop : List (Tid × Op) := h1 ++ [(0, .resumeWith 2), (0, .retHandle 3), (0, .tick)]

example : Reachable (exec hOntop) ∧ RunsOn (exec hOntop) 0 1 ∧
    (exec hOntop).frames 1 = [.user (.ontop 0) [] (.returning (some 4)), .resume, .user .fn [1] .normal, .entryRun] :=
  ⟨reachable_exec (by decide), (by decide : (exec hOntop).cur 0 = some 1), by decide⟩

/-! ## C09 -/

theorem destroyedAfter {l : List Event} (h : DestroyedAfterDealloc l) {l1 l2 v c} (he : l = l1 ++ .destroyed v c :: l2) : .dealloc v ∈ l2 := by
  induction l1 generalizing l with
  | nil => subst he; exact h.1
  | cons a l1 ih =>
    subst he
    refine ih (l := l1 ++ .destroyed v c :: l2) ?_ rfl
    cases a <;> first | exact h | exact h.2

/-- Whenever the destructor of a fiber that designated `v` has returned, the stack of `v` had been released before. -/
theorem C09_release_before_return {s : State} (h : Reachable s) {v c : CtxId} {l1 l2 : List Event}
    (hl : s.log = l1 ++ .destroyed v c :: l2) : .dealloc v ∈ l2 := destroyedAfter (reachable_linv h).order hl

/-- The destructor of a non-empty fiber starts: the destroying context is inside that destructor. If the target was suspended in
`resume()`, `forced_unwind` is raised there; if it was never started, it ends at once and its release begins. -/
theorem C09_destroy {s : State} {t : Tid} {c v : CtxId} {k : UKind} {ls : List Var} {rest : List Frame} {x : Var}
    (h : Reachable s) (hu : UserCode s t c k ls rest) (hdr : CanDrop s ls x) (hacc : Handle s x) (hd : Designates s x v) :
    ∃ s' ls', step s t (.drop x) = .ok s' ∧ (∀ y, y ∈ ls' ↔ y ∈ ls ∧ y ≠ x) ∧ s'.log = s.log ∧ s'.kind x = .dead ∧
      ((NotStarted s v ∧ s'.frames v = [.exitJump] ∧ s'.frames c = .exiting v :: .dtor v :: .user k ls' .normal :: rest ∧ RunsOn s' t c ∧
        s'.status v = .terminated) ∨
       (∃ k' l' rest' e, InResume s v k' l' rest' ∧ s'.frames v = .user k' l' (.unwinding (.forced e)) :: rest' ∧
          s'.frames c = .dtor v :: .user k ls' .normal :: rest ∧ RunsOn s' t v ∧ Suspended s' c ∧ Designates s' e c)) := by
  have hi := reachable_inv h
  have hd0 := hd
  obtain ⟨f, hv, rfl⟩ := hd
  obtain ⟨hc1, hc2, hc3, hval⟩ := facts hi hu.1
  have hcf : f.ctx ≠ c := (hval x f hv).2.2
  have hxn : x ≠ s.nextVar := Nat.ne_of_lt (lt_nextVar hi (accessible_ne_dead (handle_accessible hacc)))
  obtain ⟨s1, ls', e1, e2, e3, e4, e5, e6, e7, e8, e9, e10, e11⟩ := drop_eq hi hu hdr hv
  have hk := hi.vi.nonExc x f (accessible_ne_exc (handle_accessible hacc)) hv
  rw [e11]
  rcases (C19_no_raw_context h).2 x f.ctx hd0 with hf | ⟨k', l', rest', hf⟩ | ⟨w, r, hf⟩
  · simp only [State.raiseForced, sw, State.setFrames, upd_apply, hcf, if_false, e1, hf]
    rw [finish_eq (c := f.ctx) (by simp) (by simp [Ne.symm hcf]) (by simp [e6])]
    refine ⟨_, ls', rfl, e10, by simp [fin, e7], by simp [fin, e3], .inl ⟨hf, ?_⟩⟩
    simp [fin, hcf, RunsOn, Ne.symm hcf]
  · simp only [InResume] at hf
    simp only [State.raiseForced, sw, State.setFrames, upd_apply, hcf, if_false, e1, hf]
    refine ⟨_, ls', rfl, e10, by simp [State.newVar, e7], by simp [State.newVar, e3, e8, hxn], .inr ⟨k', l', rest', s1.nextVar, hf, ?_⟩⟩
    simp [State.newVar, RunsOn, Suspended, Designates, Ne.symm hcf]
  · exact absurd (dtorTop_iff.2 ⟨r, hf⟩) (hk w)

/-- While context `c` is inside the destructor of a fiber that designated `v`, it stays there (whatever the destructors
executed on top of it do, and whatever other threads do) until the stack of `v` has just been released. -/
theorem C09_dtor_waits {s s' : State} {t : Tid} {op : Op} {c v : CtxId} {pre base : List Frame} (h : Reachable s)
    (hs : step s t op = .ok s') (hf : s.frames c = pre ++ .dtor v :: base) :
    (∃ pre', s'.frames c = pre' ++ .dtor v :: base) ∨ (¬ Released s v ∧ Released s' v ∧ s'.frames c = base ∧ .destroyed v c ∈ s'.log) := by
  have hi := reachable_inv h
  rcases dtor_persists hi hs hf with h1 | ⟨h1, _, _, _, h2, h3, h4⟩
  · exact .inl h1
  · refine .inr ⟨?_, h3, h2, h4⟩
    intro hr
    have := ((reachable_linv h).freed v).1 hr
    have hst := hi.ci.exitT v c (by rw [hf, h1]; simp [exits])
    rw [hst] at this; simp at this

example : Reachable (exec h1) ∧ UserCode (exec h1) 0 0 .main [2, 0] [] ∧ CanDrop (exec h1) [2, 0] 2 ∧ Handle (exec h1) 2 ∧ Designates (exec h1) 2 1 :=
  ⟨reachable_exec (by decide), ⟨by decide, by decide⟩, .inl (by decide), .inr (.inl ⟨0, by decide⟩), ⟨⟨1, 2⟩, by decide, rfl⟩⟩
example : (exec h2).frames 0 = [] ++ .dtor 1 :: [.user .main [0] .normal] := by decide

/-! ## C10 -/

theorem never_enters {s s' : State} (h : Reachable s) {v : CtxId} (hst : s.status v = .terminated ∨ s.status v = .freed)
    (hn : .enter v ∉ s.log) (hs : Steps s s') : .enter v ∉ s'.log := by
  suffices (s'.status v = .terminated ∨ s'.status v = .freed) ∧ .enter v ∉ s'.log from this.2
  induction hs with
  | refl => exact ⟨hst, hn⟩
  | @tail s0 s1 s2 op hs1 hstp ih =>
    have hi := reachable_inv (hs1.reachable h)
    have ha := step_status hi hstp v
    refine ⟨by grind, ?_⟩
    obtain ⟨l, hl, h2, _⟩ := step_logAdd hi hstp
    rw [hl]
    intro hm
    rcases List.mem_append.1 hm with hm | hm
    · have := h2 v hm
      rcases ih.1 with h3 | h3
      · rw [hi.ci.fTerm v h3] at this; simp at this
      · rw [hi.ci.fFreed v h3] at this; simp at this
    · exact ih.2 hm

/-- Destroying a never started fiber `v`: its function is not entered then or at any later time, and the release of its function
object and stack begins at once in the destroying context. -/
theorem C10_never_runs {s : State} {t : Tid} {c v : CtxId} {k : UKind} {ls : List Var} {rest : List Frame} {x : Var}
    (h : Reachable s) (hu : UserCode s t c k ls rest) (hdr : CanDrop s ls x) (hacc : Handle s x) (hd : Designates s x v) (hn : NotStarted s v) :
    ∃ s', step s t (.drop x) = .ok s' ∧ RunsOn s' t c ∧ (∃ base, s'.frames c = .exiting v :: .dtor v :: base) ∧
      ∀ s'', Steps s' s'' → .enter v ∉ s''.log := by
  obtain ⟨s', ls', hs, _, hl, _, h1 | ⟨k', l', r', e, h1, _⟩⟩ := C09_destroy h hu hdr hacc hd
  · refine ⟨s', hs, h1.2.2.2.1, ⟨_, h1.2.2.1⟩, ?_⟩
    intro s'' hss
    refine never_enters (.step h hs) (.inl h1.2.2.2.2) ?_ hss
    rw [hl]
    exact (reachable_linv h).entry v (by rw [hn]; simp)
  · rw [NotStarted] at hn; rw [InResume, hn] at h1; simp at h1

/-- The captured fibers are destroyed one after the other, then the stack is released and the destructor returns. -/
theorem C10_release_steps {s : State} {t : Tid} {c v : CtxId} {base : List Frame} (h : Reachable s) (hr : RunsOn s t c)
    (hf : s.frames c = .exiting v :: .dtor v :: base) :
    (∀ x xs, s.caps v = x :: xs → s.val x = none → ∃ s', step s t .tick = .ok s' ∧ s'.caps v = xs ∧ s'.kind x = .dead ∧ s'.frames c = s.frames c) ∧
    (∀ x xs w, s.caps v = x :: xs → Designates s x w → ∃ s' p, step s t .tick = .ok s' ∧ s'.caps v = xs ∧ s'.kind x = .dead ∧
      s'.frames c = p ++ .dtor w :: s.frames c) ∧
    (s.caps v = [] → ∃ s', step s t .tick = .ok s' ∧ s'.frames c = base ∧ RunsOn s' t c ∧ s'.log = .destroyed v c :: .dealloc v :: s.log) := by
  have hi := reachable_inv h
  simp only [RunsOn] at hr
  have hst : s.status v = .terminated := hi.ci.exitT v c (by rw [hf]; simp [exits])
  have hnc : v ≠ c := by
    rintro rfl; have := (hi.ci.curRun t v).1 hr; rw [hst] at this; simp at this
  refine ⟨?_, ?_, ?_⟩
  · intro x xs hc hv
    simp only [step, hr, hf, exitStep, hc, State.destroyVar, hv]
    exact ⟨_, rfl, by simp [State.kill, hf]⟩
  · rintro x xs w hc ⟨f, hv, rfl⟩
    have hval := (facts hi hr).2.2.2 x f hv
    have hq := (hi.vi.valid x f hv).2
    have hkx : s.kind x = .cap v := (hi.oi.capv v x).1 (by rw [hc]; simp)
    have hxn : x ≠ s.nextVar := Nat.ne_of_lt (lt_nextVar hi (by simp [hkx]))
    simp only [step, hr, hf, exitStep, hc, State.destroyVar, hv]
    rw [destroyFctx_eq (by exact hr) (by exact hval.1) (by exact hq)]
    rcases (C19_no_raw_context h).2 x f.ctx ⟨f, hv, rfl⟩ with hf2 | ⟨k', l', rest', hf2⟩ | ⟨w, r, hf2⟩
    · simp only [State.raiseForced, sw, State.setFrames, State.kill, upd_apply, hval.2.2, if_false, hf2]
      rw [finish_eq (c := f.ctx) (by simp) (by simp [Ne.symm hval.2.2]) (by simp)]
      refine ⟨_, [.exiting f.ctx], rfl, ?_⟩
      simp [fin, hf, Ne.symm hval.2.2]
    · simp only [InResume] at hf2
      simp only [State.raiseForced, sw, State.setFrames, State.kill, upd_apply, hval.2.2, if_false, hf2]
      refine ⟨_, [], rfl, ?_⟩
      simp [State.newVar, hf, Ne.symm hval.2.2, hxn]
    · exact absurd (dtorTop_iff.2 ⟨r, hf2⟩) (hi.vi.nonExc x f (by simp [hkx]) hv w)
  · intro hc
    simp only [step, hr, hf, exitStep, hc, hst, if_true, State.addLog, State.deliver, upd_apply]
    refine ⟨_, rfl, ?_⟩
    simp [RunsOn, hr, State.setFrames]

example : Reachable (exec h0) ∧ UserCode (exec h0) 0 0 .main [0] [] ∧ CanDrop (exec h0) [0] 0 ∧ NotStarted (exec h0) 1 :=
  ⟨reachable_exec (by decide), ⟨by decide, by decide⟩, .inl (by decide), (by decide : (exec h0).frames 1 = [.entryJump])⟩

/-- main creates fiber 1 and moves its handle into the function of fiber 2, then destroys fiber 2: fiber 1 is destroyed
with the function object, then both stacks are released -/
def hCapture : List (Tid × Op) := [(0, .create [] .success), (0, .create [0] .success), (0, .drop 2), (0, .tick), (0, .tick), (0, .tick)]
example : (exec hCapture).log = [.destroyed 2 0, .dealloc 2, .destroyed 1 0, .dealloc 1, .alloc 2, .alloc 1] := by decide

/-! ## C11 -/

/-- `resume_with()` immediately executes the given function in the target context `d`, on top of its suspension point, with
one parameter that designates the resuming context. -/
theorem C11_on_top {s : State} {t : Tid} {c d : CtxId} {k : UKind} {ls : List Var} {rest : List Frame} {x : Var}
    (h : Reachable s) (hu : UserCode s t c k ls rest) (ha : Handle s x) (hd : Designates s x d) :
    ∃ s' p, step s t (.resumeWith x) = .ok s' ∧ RunsOn s' t d ∧ s'.frames d = .user (.ontop s.nextId) [p] .normal :: s.frames d ∧
      Designates s' p c ∧ InResume s' c k ls rest ∧ s'.log = .ontop s.nextId d :: s.log ∧ s'.nextId = s.nextId + 1 := by
  have hi := reachable_inv h
  obtain ⟨f, hv, rfl⟩ := hd
  have hcf : f.ctx ≠ c := ((facts hi hu.1).2.2.2 x f hv).2.2
  rw [resumeWith_eq hi hu ha hv]
  refine ⟨_, s.nextVar, rfl, ?_⟩
  simp [RunsOn, hcf, Designates, InResume, Ne.symm hcf, hu.2]

/-- The function of the `i`-th `resume_with()` call is executed exactly once (and those of calls not yet made never). -/
theorem C11_exactly_once {s : State} (h : Reachable s) (i : Nat) :
    (s.log.countP (isOntop i)) = if i < s.nextId then 1 else 0 := by
  have hl := reachable_linv h
  have key : ∀ (l : List Event), (∀ c d, .ontop i c ∈ l → .ontop i d ∈ l → c = d) → (∀ c, l.count (.ontop i c) ≤ 1) →
      (l.countP (isOntop i)) ≤ 1 := by
    intro l
    induction l with
    | nil => simp
    | cons e l ih =>
      intro h1 h2
      have ih' := ih (fun c d hc hd => h1 c d (by simp [hc]) (by simp [hd])) (fun c => Nat.le_trans (by simp [List.count_cons]) (h2 c))
      rw [List.countP_cons]
      by_cases he : ∃ c, e = .ontop i c
      · obtain ⟨c, rfl⟩ := he
        have : (l.countP (isOntop i)) = 0 := by
          rw [List.countP_eq_zero]
          intro e he
          cases e <;> simp [isOntop]
          rename_i j d
          rintro rfl
          have hcd := h1 c d (by simp) (by simp [he])
          subst hcd
          have := h2 c
          rw [List.count_cons_self] at this
          have := List.count_pos_iff.2 he
          omega
        rw [this]; split <;> simp
      · have : isOntop i e = false := by
          cases e <;> simp [isOntop]
          rintro rfl; exact he ⟨_, rfl⟩
        rw [if_neg (by rw [this]; simp)]; exact ih'
  have hk := key s.log (hl.ids1 i) (hl.ids2 i)
  split
  · rename_i hlt
    obtain ⟨c, hc⟩ := (hl.ids i).2 hlt
    have : 0 < (s.log.countP (isOntop i)) := by
      rw [List.countP_pos_iff]; exact ⟨_, hc, by simp [isOntop]⟩
    omega
  · rename_i hlt
    rw [List.countP_eq_zero]
    intro e he
    cases e <;> simp [isOntop]
    rename_i j d
    rintro rfl
    exact (hl.ids j).1 (Nat.not_lt.1 hlt) d he

/-- Until the on-top function is left, the target executes nothing below it; when it is left by return, its result goes to the
suspended `resume()` or to the start of the target's function. -/
theorem C11_before_anything_else {s s' : State} {t : Tid} {op : Op} {d : CtxId} {i : Nat} {ls : List Var} {m : Mode} {pre base : List Frame}
    (h : Reachable s) (hs : step s t op = .ok s') (hf : s.frames d = pre ++ .user (.ontop i) ls m :: base) :
    (∃ pre' ls' m', s'.frames d = pre' ++ .user (.ontop i) ls' m' :: base) ∨
    (pre = [] ∧ ls = [] ∧ op = .tick ∧ RunsOn s t d ∧ ((∃ x, m = .returning x) ∨ ∃ e, m = .unwinding e)) := by
  rcases ontop_persists (reachable_inv h) hs hf with h1 | ⟨h1, h2, h3, h4, ⟨x, h5, _⟩ | ⟨e, e', h5, _⟩⟩
  · exact .inl h1
  · exact .inr ⟨h1, h2, h3, h4, .inl ⟨_, h5⟩⟩
  · exact .inr ⟨h1, h2, h3, h4, .inr ⟨_, h5⟩⟩

/-- The on-top function of a never started fiber returns: the fiber's function starts now, its parameter holds the result.
(For a fiber suspended in `resume()` see `C05_ontop_result`.) -/
theorem C11_result_to_entry {s : State} {t : Tid} {d : CtxId} {i : Nat} {x : Var}
    (hr : RunsOn s t d) (hf : s.frames d = [.user (.ontop i) [] (.returning (some x)), .entryJump]) :
    ∃ s' p, step s t .tick = .ok s' ∧ s'.frames d = [.user .fn [p] .normal, .entryRun] ∧ s'.val p = s.val x ∧ s'.log = .enter d :: s.log := by
  simp only [RunsOn] at hr
  simp only [step, hr, hf, leave, State.deliver, State.kill, State.setFrames, upd_apply, if_true]
  refine ⟨_, s.nextVar, rfl, ?_⟩
  simp [State.newVar, State.addLog]

/-- `resume_with` on a never started fiber, the function returns its parameter -/
def hOntopNew : List (Tid × Op) := [(0, .create [] .success), (0, .resumeWith 0), (0, .retHandle 1), (0, .tick)]

example : Reachable (exec hOntopNew) ∧ RunsOn (exec hOntopNew) 0 1 ∧
    (exec hOntopNew).frames 1 = [.user (.ontop 0) [] (.returning (some 2)), .entryJump] :=
  ⟨reachable_exec (by decide), (by decide : (exec hOntopNew).cur 0 = some 1), by decide⟩

/-! ## C12 -/

/-- A user exception leaves the on-top function of a context suspended in `resume()`: it continues to propagate from that `resume()`
call; all outer frames are as before. -/
theorem C12_surfaces_in_target {s : State} {t : Tid} {d : CtxId} {i n : Nat} {k : UKind} {ls : List Var} {rest : List Frame}
    (hr : RunsOn s t d) (hf : s.frames d = .user (.ontop i) [] (.unwinding (.user n)) :: .resume :: .user k ls .normal :: rest) :
    ∃ s', step s t .tick = .ok s' ∧ RunsOn s' t d ∧ s'.frames d = .user k ls (.unwinding (.user n)) :: rest ∧
      (∀ e, e ≠ d → s'.frames e = s.frames e) ∧ s'.val = s.val ∧ s'.status = s.status := by
  simp only [RunsOn] at hr
  simp only [step, hr, hf, propagate, State.raiseUser, State.setFrames, upd_apply, if_true]
  refine ⟨_, rfl, ?_⟩
  simp only [RunsOn, hr, upd_apply, if_true, true_and, and_true]
  intro e he
  simp [he]

/-- On a never started fiber the program terminates. -/
theorem C12_not_started_terminates {s : State} {t : Tid} {d : CtxId} {i n : Nat} {rest : List Frame}
    (hr : RunsOn s t d) (hf : s.frames d = .user (.ontop i) [] (.unwinding (.user n)) :: .entryJump :: rest) :
    step s t .tick = .terminate := by
  simp only [RunsOn] at hr
  simp [step, hr, hf, propagate, State.raiseUser, State.setFrames]

/-- If constructing the function object in the caller of `resume_with()` throws, the only effect is that the exception propagates there;
in particular the fiber keeps its context. -/
theorem C12_construct_throws {s : State} {t : Tid} {c : CtxId} {k : UKind} {ls : List Var} {rest : List Frame} {x : Var} {n : Nat}
    (hu : UserCode s t c k ls rest) (ha : Handle s x) (hv : s.val x ≠ none) :
    ∃ s', step s t (.withThrows x n false) = .ok s' ∧ s'.frames c = .user k ls (.unwinding (.user n)) :: rest ∧
      s' = { s with frames := s'.frames } ∧ ∀ d, d ≠ c → s'.frames d = s.frames d := by
  obtain ⟨hcur, hf⟩ := hu
  cases hx : s.val x with
  | none => exact absurd hx hv
  | some f =>
    refine ⟨s.setFrames c (.user k ls (.unwinding (.user n)) :: rest), ?_, by simp, rfl, fun d hd => by simp [hd]⟩
    simp [step, hcur, hf, userStep, handle_accessible ha, State.doWithThrows, hx]

/-- If copying the function object throws in the target of `resume_with()`, which is suspended in `resume()`: the exception is raised at
that `resume()` call, the outer frames of the target and all other stacks are as before; the function is not executed; the caller is
suspended in `resume_with()` and (this is a defect of the library) no object designates it, now or ever again. -/
theorem C12_copy_throws {s : State} {t : Tid} {c d : CtxId} {k k' : UKind} {ls ls' : List Var} {rest rest' : List Frame} {x : Var} {n : Nat}
    (h : Reachable s) (hu : UserCode s t c k ls rest) (ha : Handle s x) (hd : Designates s x d) (hr : InResume s d k' ls' rest') :
    ∃ s', step s t (.withThrows x n true) = .ok s' ∧ RunsOn s' t d ∧ s'.frames d = .user k' ls' (.unwinding (.user n)) :: rest' ∧
      InResume s' c k ls rest ∧ Suspended s' c ∧ (∀ e, e ≠ c → e ≠ d → s'.frames e = s.frames e) ∧ s'.log = s.log ∧
      (∀ y, s'.val y = if y = x then none else s.val y) ∧ (∀ y, ¬ Designates s' y c) ∧
      ∀ s'', Steps s' s'' → Suspended s'' c ∧ ∀ y, ¬ Designates s'' y c := by
  have hi := reachable_inv h
  obtain ⟨f, hv, rfl⟩ := hd
  obtain ⟨h4, h5⟩ := hi.vi.valid x f hv
  have hrun := (hi.ci.curRun t c).1 hu.1
  have hfc : f.ctx ≠ c := by rintro e; rw [e] at h4; simp [hrun] at h4
  have hst := withThrows_eq (n := n) hi hu ha hv
  simp only [InResume] at hr
  simp only [State.raiseUser, sw, State.setFrames, State.setVal, upd_apply, hfc, if_false, hr] at hst
  obtain ⟨s1, hs1⟩ : ∃ s1, step s t (.withThrows x n true) = .ok s1 := ⟨_, hst⟩
  have e1 := Res.ok.inj (hs1.symm.trans hst)
  have hlost : ∀ s'', Steps s1 s'' → s''.lost c = true ∧ Reachable s'' := by
    intro s'' hs
    induction hs with
    | refl => exact ⟨by simp [e1], .step h hs1⟩
    | tail _ hs ih => exact ⟨lost_mono (reachable_inv ih.2) hs ih.1, .step ih.2 hs⟩
  have hfin : ∀ s'', Steps s1 s'' → Suspended s'' c ∧ ∀ y, ¬ Designates s'' y c := fun s'' hs =>
    have hl := (reachable_inv (hlost s'' hs).2).vi.lostS c (hlost s'' hs).1
    ⟨hl.1, fun y ⟨g, hg, hgc⟩ => hl.2.1 y g hg hgc⟩
  refine ⟨s1, hs1, by simp [RunsOn, e1], by simp [e1], by simp [InResume, hfc.symm, hu.2, e1], (hfin _ (.refl _)).1, ?_, by simp [e1], fun y => by simp [e1], (hfin _ (.refl _)).2, hfin⟩
  intro e h1 h2
  simp [h1, h2, e1]

/-- On a never started fiber the program terminates. -/
theorem C12_copy_throws_not_started {s : State} {t : Tid} {c d : CtxId} {k : UKind} {ls : List Var} {rest : List Frame} {x : Var} {n : Nat}
    (h : Reachable s) (hu : UserCode s t c k ls rest) (ha : Handle s x) (hd : Designates s x d) (hn : NotStarted s d) :
    step s t (.withThrows x n true) = .terminate := by
  have hi := reachable_inv h
  obtain ⟨f, hv, rfl⟩ := hd
  obtain ⟨h4, h5⟩ := hi.vi.valid x f hv
  have hrun := (hi.ci.curRun t c).1 hu.1
  have hfc : f.ctx ≠ c := by rintro e; rw [e] at h4; simp [hrun] at h4
  rw [withThrows_eq (n := n) hi hu ha hv]
  simp only [NotStarted] at hn
  simp [State.raiseUser, sw, State.setFrames, State.setVal, hfc, hn]

example : Reachable (exec h1) ∧ UserCode (exec h1) 0 0 .main [2, 0] [] ∧ Handle (exec h1) 2 ∧ Designates (exec h1) 2 1 ∧
    InResume (exec h1) 1 .fn [1] [.entryRun] :=
  ⟨reachable_exec (by decide), ⟨by decide, by decide⟩, .inr (.inl ⟨0, by decide⟩), ⟨⟨1, 2⟩, by decide, rfl⟩,
    (by decide : (exec h1).frames 1 = [.resume, .user .fn [1] .normal, .entryRun])⟩

/-- An on-top function is always directly above a suspended `resume()` or the start of a never started fiber, so these are all cases. -/
theorem C12_cases {s : State} {t : Tid} {d : CtxId} {i : Nat} {ls : List Var} {m : Mode} {rest : List Frame} (h : Reachable s)
    (hr : RunsOn s t d) (hf : s.frames d = .user (.ontop i) ls m :: rest) :
    rest = [.entryJump] ∨ ∃ k ls' rest', rest = .resume :: .user k ls' .normal :: rest' := by
  have hw := (facts (reachable_inv h) hr).2.1
  rw [hf] at hw
  match rest, hw with
  | .entryJump :: r, hw => obtain rfl := wf_entryJump hw.2; exact .inl rfl
  | .resume :: r, hw => obtain ⟨k, l, r', rfl⟩ := adj_resume_inv hw.2.1; exact .inr ⟨k, l, r', rfl⟩
  | [], hw => simp [WF, Adj] at hw
  | .entryRun :: _, hw => simp [WF, Adj] at hw
  | .exitJump :: _, hw => simp [WF, Adj] at hw
  | .dtor _ :: _, hw => simp [WF, Adj] at hw
  | .exiting _ :: _, hw => simp [WF, Adj] at hw
  | .user _ _ _ :: _, hw => simp [WF, Adj] at hw

/-- as `hOntop`, but the function saves its parameter and throws -/
def hOntopThrow2 : List (Tid × Op) := h1 ++ [(0, .resumeWith 2), (0, .moveHeap 3), (0, .throw 7), (0, .tick)]
example : Reachable (exec hOntopThrow2) ∧ RunsOn (exec hOntopThrow2) 0 1 ∧
    (exec hOntopThrow2).frames 1 = [.user (.ontop 0) [] (.unwinding (.user 7)), .resume, .user .fn [1] .normal, .entryRun] :=
  ⟨reachable_exec (by decide), (by decide : (exec hOntopThrow2).cur 0 = some 1), by decide⟩
/-- the same on a never started fiber -/
def hOntopThrow3 : List (Tid × Op) := h0 ++ [(0, .resumeWith 0), (0, .moveHeap 1), (0, .throw 7), (0, .tick)]
example : Reachable (exec hOntopThrow3) ∧ RunsOn (exec hOntopThrow3) 0 1 ∧
    (exec hOntopThrow3).frames 1 = [.user (.ontop 0) [] (.unwinding (.user 7)), .entryJump] :=
  ⟨reachable_exec (by decide), (by decide : (exec hOntopThrow3).cur 0 = some 1), by decide⟩

/-! ## C15 -/

/-- A step of thread `t` changes the call stack of a context `d` that `t` does not execute only by handing control to it at its
suspension point (somebody held a handle of it), or by releasing the stack of a finished fiber. -/
theorem C15_isolation {s s' : State} {t : Tid} {op : Op} {d : CtxId} (h : Reachable s) (hs : step s t op = .ok s')
    (hn : ¬ RunsOn s t d) (hd : s.status d ≠ .absent) :
    s'.frames d = s.frames d ∨ (Suspended s d ∧ (∃ x, Designates s x d) ∧ Continues s s' d) ∨
    (s.frames d = [.exitJump] ∧ s'.frames d = [] ∧ Released s' d) := by
  have hi := reachable_inv h
  cases step_evol hi hs d with
  | same h1 => exact .inl h1
  | top hc => exact absurd hc hn
  | exitTop hc => exact absurd hc hn
  | pop hc => exact absurd hc hn
  | prop hc => exact absurd hc hn
  | finish hc => exact absurd hc hn
  | endMain hc => exact absurd hc hn
  | ontopRet hc => exact absurd hc hn
  | ontopThrow hc => exact absurd hc hn
  | exitDone hc => exact absurd hc hn
  | resumed hc ho ha hdd hst hr hfc h' =>
    refine .inr (.inl ⟨hst, ⟨_, hdd⟩, ?_⟩)
    generalize hg : s'.frames d = fs' at h'
    generalize hgs : s.frames d = fs at h'
    cases h' with
    | entry hx hk => exact .starts hgs hg
    | resume hx hk => exact .result hgs hg
    | dtor hl =>
      obtain ⟨f, hx, rfl⟩ := hdd
      exact absurd (dtorTop_iff.2 ⟨_, hgs⟩) (hi.vi.nonExc _ f (accessible_ne_exc ha) hx _)
  | ontop hc ho hdd hst hr hv h' => exact .inr (.inl ⟨hst, ⟨_, hdd⟩, .ontop h'⟩)
  | copyThrow hc ho hdd hst hr h' =>
    refine .inr (.inl ⟨hst, ⟨_, hdd⟩, ?_⟩)
    generalize hg : s'.frames d = fs' at h'
    generalize hgs : s.frames d = fs at h'
    cases h' with
    | resume => exact .throws hgs hg
  | raised hc hdd hst hw h' =>
    refine .inr (.inl ⟨hst, ⟨_, hdd⟩, ?_⟩)
    generalize hg : s'.frames d = fs' at h'
    generalize hgs : s.frames d = fs at h'
    cases h' with
    | entry => exact .ends hgs hg
    | resume => exact .unwinds hgs hg
  | exitOf hc ho hdd hst hr hfc h' => exact .inr (.inl ⟨hst, ⟨_, hdd⟩, .release h'⟩)
  | freed h1 h' =>
    refine .inr (.inr ⟨h1, h', ?_⟩)
    have hr' := reachable_inv (.step h hs)
    have hst : s.status d = .terminated := by
      cases hst : s.status d with
      | terminated => rfl
      | absent => exact absurd hst hd
      | raw => exact absurd hst (hi.ci.noRaw d)
      | running t' => have := hi.ci.runTop d t' hst (by simp); rw [h1] at this; simp [RunTop] at this
      | suspended => have := hi.ci.susp d hst; rw [h1] at this; simp [SuspTop] at this
      | freed => rw [hi.ci.fFreed d hst] at h1; simp at h1
      | ended => rw [hi.ci.fEnded d hst] at h1; simp at h1
    have := (step_status hi hs d).2.1 hst
    rcases this with h2 | h2
    · rw [hr'.ci.fTerm d h2] at h'; simp at h'
    · exact ((reachable_linv (.step h hs)).freed d).2 h2
  | created h1 => exact absurd h1 hd

example : Reachable (exec h1) ∧ ¬ RunsOn (exec h1) 0 1 ∧ (exec h1).status 1 ≠ .absent ∧ runsOk (h1 ++ [(0, .resume 2)]) = true :=
  ⟨reachable_exec (by decide), (by decide : (exec h1).cur 0 ≠ some 1), by decide, by decide⟩

/-! ## C20 -/

/-- A context function has returned handle `x` of context `d` (all its locals are destroyed): control goes to exactly `d`, which
first releases the finished fiber; `x` is consumed. -/
theorem C20_hand_over {s : State} {t : Tid} {c d : CtxId} {x : Var} {rest : List Frame} (h : Reachable s) (hr : RunsOn s t c)
    (hf : s.frames c = .user .fn [] (.returning (some x)) :: rest) (hd : Designates s x d) :
    ∃ s', step s t .tick = .ok s' ∧ RunsOn s' t d ∧ s'.frames d = .exiting c :: s.frames d ∧ s'.frames c = [.exitJump] ∧
      (∀ t', ¬ RunsOn s' t' c) ∧ (∀ y, ¬ Designates s' y d) ∧ s'.kind x = .dead := by
  have hi := reachable_inv h
  have hr0 := hr
  simp only [RunsOn] at hr
  obtain ⟨f, hv, rfl⟩ := hd
  obtain ⟨h1, h2, h3, hval⟩ := facts hi hr
  obtain ⟨h4, h5, h6⟩ := hval x f hv
  have hst : step s t .tick = .ok (fin (s.kill x) t c f.ctx) := by
    simp only [step, hr, hf, leave, hv]
    exact finish_eq (s := s.kill x) (by exact hr) (by exact h4) (by exact (hi.vi.valid x f hv).2)
  have hre := Reachable.step h hst
  refine ⟨_, hst, by simp [fin, RunsOn], by simp [fin, State.kill, h6], by simp [fin, Ne.symm h6], ?_, ?_, by simp [fin, State.kill]⟩
  · intro t' ht
    have := ((reachable_inv hre).ci.curRun t' c).1 ht
    simp [fin, Ne.symm h6] at this
  · exact fun y => C17_running_not_resumable hre (t := t) (by simp [fin, RunsOn]) y

/-- The same when a fiber is unwound: control goes back to the context that waits in the destructor. -/
theorem C20_hand_over_unwound {s : State} {t : Tid} {c : CtxId} {e : Var} {rest : List Frame} (h : Reachable s) (hr : RunsOn s t c)
    (hf : s.frames c = .user .fn [] (.unwinding (.forced e)) :: rest) :
    ∃ s' d base, step s t .tick = .ok s' ∧ s.frames d = .dtor c :: base ∧ Suspended s d ∧ RunsOn s' t d ∧
      s'.frames d = .exiting c :: .dtor c :: base ∧ s'.frames c = [.exitJump] := by
  have hi := reachable_inv h
  simp only [RunsOn] at hr
  have hk : s.kind e = .exc c := (hi.oi.excs c e).1 (by rw [hf]; simp [evars, Frame.evars])
  obtain ⟨f, hv⟩ := Option.ne_none_iff_exists'.1 (hi.vi.excSome e c hk)
  obtain ⟨h1, h2, h3, hval⟩ := facts hi hr
  obtain ⟨h4, h5, h6⟩ := hval e f hv
  obtain ⟨base, hb⟩ := dtorTop_iff.1 (hi.vi.excTop e c f hk hv)
  have hst : step s t .tick = .ok (fin (s.kill e) t c f.ctx) := by
    simp only [step, hr, hf, propagate, hv]
    exact finish_eq (s := s.kill e) (by exact hr) (by exact h4) (by exact (hi.vi.valid e f hv).2)
  exact ⟨_, f.ctx, base, hst, hb, h4, by simp [fin, RunsOn], by simp [fin, State.kill, h6, hb], by simp [fin, Ne.symm h6]⟩

/-- The continuing context does nothing else before captured state and stack of the finished fiber are gone. -/
theorem C20_released_first {s s' : State} {t : Tid} {op : Op} {d n : CtxId} {pre base : List Frame} (h : Reachable s)
    (hs : step s t op = .ok s') (hf : s.frames d = pre ++ .exiting n :: base) :
    (∃ pre', s'.frames d = pre' ++ .exiting n :: base) ∨
    (pre = [] ∧ RunsOn s t d ∧ (∀ x, s.kind x ≠ .cap n) ∧ ¬ Released s n ∧ Released s' n) := by
  have hi := reachable_inv h
  rcases exiting_persists hi hs hf with h1 | ⟨h1, _, h2, h3, h4, h5, _⟩
  · exact .inl h1
  · refine .inr ⟨h1, h2, ?_, ?_, h5⟩
    · intro x hx
      have := (hi.oi.capv n x).2 hx
      rw [h3] at this; simp at this
    · intro hr
      have := ((reachable_linv h).freed n).1 hr
      rw [h4] at this; simp at this

def hExit0 : List (Tid × Op) := [(0, .create [] .success), (0, .resume 0), (0, .retHandle 1), (0, .tick)]
example : Reachable (exec hExit0) ∧ RunsOn (exec hExit0) 0 1 ∧
    (exec hExit0).frames 1 = [.user .fn [] (.returning (some 2)), .entryRun] ∧ Designates (exec hExit0) 2 0 :=
  ⟨reachable_exec (by decide), (by decide : (exec hExit0).cur 0 = some 1), by decide, ⟨⟨0, 2⟩, by decide, rfl⟩⟩
def hUnw : List (Tid × Op) := h2 ++ [(0, .tick)]
example : Reachable (exec hUnw) ∧ RunsOn (exec hUnw) 0 1 ∧ (exec hUnw).frames 1 = [.user .fn [] (.unwinding (.forced 3)), .entryRun] :=
  ⟨reachable_exec (by decide), (by decide : (exec hUnw).cur 0 = some 1), by decide⟩

end Verif.Fiber
