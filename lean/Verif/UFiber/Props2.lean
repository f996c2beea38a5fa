import Verif.UFiber.Props
import Verif.Fiber.Spec

/-! # Properties of the ucontext/winfib implementation: where it differs from fcontext (C23-C26) -/

namespace Verif.UFiber
open Verif.Fiber (CtxId Var Tid Kind Exc Mode UKind Frame Status Event Op CreateOutcome upd upd_apply RunTop SuspTop
  exits exits_cons exits_nil DtorTop dtorTop_iff isMain)
open State

theorem handle_acc {s : State} {x} (h : Handle s x) : s.accessible x = true := by
  rcases h with h | ⟨c, h⟩ | ⟨c, h⟩ <;> simp [State.accessible, h]

/-- the state in which `resume()` of object `x`, called by context `c`, arrives in the target `d` -/
def preResume (s : State) (t : Tid) (c d : CtxId) (x : Var) : State :=
  sw ((s.setVal x none).setFrames c (.resume :: s.frames c)) t c d .suspended

/-- the same for `resume_with()` -/
def preResumeWith (s : State) (t : Tid) (c d : CtxId) (x : Var) : State :=
  sw { s with ontop := upd s.ontop d (some s.nextId), nextId := s.nextId + 1, val := upd s.val x none,
              frames := upd s.frames c (.resume :: s.frames c) } t c d .suspended

theorem resume_eq {s : State} {t c k ls rest x d} (hu : UserCode s t c k ls rest) (ha : Handle s x) (hd : Designates s x d)
    (hs : Suspended s d) : step s t (.resume x) = (preResume s t c d x).arrive d := by
  obtain ⟨hc, hf⟩ := hu
  have hs' : s.status d = .suspended := hs
  have hd' : s.val x = some d := hd
  simp [step, hc, hf, userStep, handle_acc ha, State.doResume, hd', hs', switchTo, preResume, sw]

theorem resumeWith_eq {s : State} {t c k ls rest x d} (hu : UserCode s t c k ls rest) (ha : Handle s x) (hd : Designates s x d)
    (hs : Suspended s d) : step s t (.resumeWith x) = (preResumeWith s t c d x).arrive d := by
  obtain ⟨hc, hf⟩ := hu
  have hs' : s.status d = .suspended := hs
  have hd' : s.val x = some d := hd
  simp [step, hc, hf, userStep, handle_acc ha, State.doResumeWith, hd', hs', switchTo, preResumeWith, sw]

theorem susp_ne {s : State} {t c d} (hi : Inv s) (hc : s.cur t = some c) (hs : Suspended s d) : d ≠ c := by
  rintro rfl
  have := (hi.ci.curRun t d).1 hc
  rw [Suspended, this] at hs; simp at hs

theorem notStarted_susp {s : State} (hi : Inv s) {x d} (hd : Designates s x d) (hn : NotStarted s d) : Suspended s d := by
  rcases (hi.vi.valid x d hd).1 with h | h
  · exact h
  · have := hi.ci.fTerm d h; rw [NotStarted, this] at hn; simp at hn

theorem inResume_susp {s : State} (hi : Inv s) {x d k ls rest} (hd : Designates s x d) (hn : InResume s d k ls rest) : Suspended s d := by
  rcases (hi.vi.valid x d hd).1 with h | h
  · exact h
  · have := hi.ci.fTerm d h; rw [InResume, this] at hn; simp at hn

/-! ## What `resume()` does, case by case (part of C22) -/

/-- The first `resume()` starts the fiber's function, which receives an object designating the resumer. -/
theorem C22_first_resume {s : State} {t : Tid} {c d : CtxId} {k : UKind} {ls : List Var} {rest : List Frame} {x : Var}
    (h : Reachable s) (he : NoEarlyDestroy s) (hu : UserCode s t c k ls rest) (ha : Handle s x) (hd : Designates s x d)
    (hn : NotStarted s d) :
    ∃ s' p, step s t (.resume x) = .ok s' ∧ RunsOn s' t d ∧ s'.log = .enter d :: s.log ∧
      s'.frames d = [.user .fn [p] .normal, .entryRun] ∧ Handle s' p ∧ Designates s' p c ∧ Suspended s' c := by
  have hi := reachable_inv h he
  have hs := notStarted_susp hi hd hn
  have hdc := susp_ne hi hu.1 hs
  rw [resume_eq hu ha hd hs]
  have hn' : s.frames d = [.entryJump] := hn
  simp only [State.arrive, preResume, sw, setFrames_frames, upd_apply, hdc, if_false, setVal_frames, hn', if_true, Res.ok.injEq]
  refine ⟨_, s.nextVar, rfl, ?_, rfl, ?_, .inr (.inl ⟨d, ?_⟩), ?_, ?_⟩ <;>
    simp [RunsOn, Designates, Suspended, upd_apply, Ne.symm hdc]

/-- `resume()` of a started fiber (not being unwound, no on-top function pending) returns in that fiber with an object that
designates the resumer. -/
theorem C22_resume_returns {s : State} {t : Tid} {c d : CtxId} {k k' : UKind} {ls ls' : List Var} {rest rest' : List Frame} {x : Var}
    (h : Reachable s) (he : NoEarlyDestroy s) (hu : UserCode s t c k ls rest) (ha : Handle s x) (hd : Designates s x d)
    (hn : InResume s d k' ls' rest') (hw : s.unw d = false) (ho : s.ontop d = none) :
    ∃ s' p, step s t (.resume x) = .ok s' ∧ UserCode s' t d k' (p :: ls') rest' ∧ Handle s' p ∧ Designates s' p c ∧
      Suspended s' c ∧ s'.log = s.log := by
  have hi := reachable_inv h he
  have hs := inResume_susp hi hd hn
  have hdc := susp_ne hi hu.1 hs
  rw [resume_eq hu ha hd hs]
  have hn' : s.frames d = .resume :: .user k' ls' .normal :: rest' := hn
  simp only [State.arrive, preResume, sw, setFrames_frames, upd_apply, hdc, if_false, setVal_frames, hn', if_true,
    setFrames_unw, setVal_unw, hw, setFrames_ontop, setVal_ontop, ho, Res.ok.injEq, Bool.false_eq_true]
  refine ⟨_, s.nextVar, rfl, ⟨?_, ?_⟩, .inr (.inl ⟨d, ?_⟩), ?_, ?_, rfl⟩ <;>
    simp [Designates, Suspended, upd_apply, Ne.symm hdc]

example : Reachable (exec h1) ∧ NoEarlyDestroy (exec h1) ∧ UserCode (exec h1) 0 0 .main [2, 0] [] ∧ Handle (exec h1) 2 ∧
    Designates (exec h1) 2 1 ∧ InResume (exec h1) 1 .fn [1] [.entryRun] ∧ (exec h1).unw 1 = false ∧ (exec h1).ontop 1 = none :=
  ⟨reachable_exec (by decide), (by decide : (exec h1).early = false), ⟨by decide, by decide⟩, .inr (.inl ⟨0, by decide⟩),
    (by decide : (exec h1).val 2 = some 1), (by decide : (exec h1).frames 1 = _), by decide, by decide⟩

/-! ## C23 -/

/-- `resume_with()` on a never started fiber: in every state, the fiber's function is started at once and the function passed
to `resume_with` is not executed by this step; it is only stored. (Documented, and true for fcontext: it is executed
before the fiber's function.) -/
theorem C23_function_first {s : State} {t : Tid} {c d : CtxId} {k : UKind} {ls : List Var} {rest : List Frame} {x : Var}
    (h : Reachable s) (he : NoEarlyDestroy s) (hu : UserCode s t c k ls rest) (ha : Handle s x) (hd : Designates s x d)
    (hn : NotStarted s d) :
    ∃ s' p, step s t (.resumeWith x) = .ok s' ∧ RunsOn s' t d ∧ s'.log = .enter d :: s.log ∧
      s'.frames d = [.user .fn [p] .normal, .entryRun] ∧ Handle s' p ∧ Designates s' p c ∧ Suspended s' c ∧
      (∀ b, .ontop s.nextId b ∉ s'.log) ∧ s'.ontop d = some s.nextId ∧ s'.nextId = s.nextId + 1 := by
  have hi := reachable_inv h he
  have hl := reachable_linv h he
  have hs := notStarted_susp hi hd hn
  have hdc := susp_ne hi hu.1 hs
  rw [resumeWith_eq hu ha hd hs]
  have hn' : s.frames d = [.entryJump] := hn
  simp only [State.arrive, preResumeWith, sw, upd_apply, hdc, if_false, hn', if_true, Res.ok.injEq]
  refine ⟨_, s.nextVar, rfl, ?_, rfl, ?_, .inr (.inl ⟨d, ?_⟩), ?_, ?_, ?_, ?_, rfl⟩ <;>
    try simp [RunsOn, Designates, Suspended, upd_apply, Ne.symm hdc]
  intro b hb
  exact absurd (hl.ids _ _ hb) (by omega)

/-- main creates a fiber and calls `resume_with()` on it -/
def hFirst : List (Tid × Op) := [(0, .create [] .success)]
example : Reachable (exec hFirst) ∧ NoEarlyDestroy (exec hFirst) ∧ UserCode (exec hFirst) 0 0 .main [0] [] ∧
    Handle (exec hFirst) 0 ∧ Designates (exec hFirst) 0 1 ∧ NotStarted (exec hFirst) 1 :=
  ⟨reachable_exec (by decide), (by decide : (exec hFirst).early = false), ⟨by decide, by decide⟩, .inr (.inl ⟨0, by decide⟩),
    (by decide : (exec hFirst).val 0 = some 1), (by decide : (exec hFirst).frames 1 = [.entryJump])⟩

/-- The documented order is violated, the function is even never executed if the fiber's function does not suspend: it
returns its parameter, and the fiber is finished. -/
theorem C23_violation : ∃ h : List (Tid × Op), runsOk h = true ∧ (exec h).log = [.dealloc 1, .enter 1, .alloc 1] ∧
    (exec h).nextId = 1 ∧ (exec h).ontop 1 = none :=
  ⟨[(0, .create [] .success), (0, .resumeWith 0), (0, .retHandle 1), (0, .tick), (0, .tick), (0, .drop 3), (0, .tick)],
    by decide, by decide, by decide, by decide⟩

/-- the same operations on the fcontext implementation: the on-top function is executed first -/
theorem C23_fcontext_order : (Verif.Fiber.exec [(0, .create [] .success), (0, .resumeWith 0)]).log = [.ontop 0 1, .alloc 1] := by decide

/-! ## C24 -/

theorem notStarted_root {s : State} (hl : LInv s) {d} (hs : Suspended s d) (hn : NotStarted s d) : s.root d = false := by
  have := hl.main d
  rw [show s.frames d = [.entryJump] from hn, show s.status d = .suspended from hs] at this
  simpa [isMain] using this

/-- Destroying an object that designates a never started fiber starts the fiber's function, in every state. -/
theorem C24_destroy_starts {s : State} {t : Tid} {c d : CtxId} {k : UKind} {ls : List Var} {rest : List Frame} {x : Var}
    (h : Reachable s) (he : NoEarlyDestroy s) (hu : UserCode s t c k ls rest) (ha : x ∈ ls ∨ s.kind x = .heap)
    (hd : Designates s x d) (hn : NotStarted s d) :
    ∃ s' p, step s t (.drop x) = .ok s' ∧ RunsOn s' t d ∧ s'.log = .enter d :: s.log ∧
      s'.frames d = [.user .fn [p] .normal, .entryRun] ∧ Handle s' p ∧ Designates s' p c ∧ Suspended s' c ∧
      ∃ gs, s'.frames c = .dtor d :: gs := by
  have hi := reachable_inv h he
  have hl := reachable_linv h he
  have hs := notStarted_susp hi hd hn
  have hdc := susp_ne hi hu.1 hs
  have hr := notStarted_root hl hs hn
  have hs' : s.status d = .suspended := hs
  have hn' : s.frames d = [.entryJump] := hn
  have hd' : s.val x = some d := hd
  have ht : s.term d = false := by
    cases ht : s.term d with
    | false => rfl
    | true => have := (hi.ci.termI d).1 ht; simp [hs'] at this
  obtain ⟨hc, hf⟩ := hu
  by_cases hx : x ∈ ls
  · simp only [step, hc, hf, userStep, hx, if_true, State.destroyVar, setFrames_val, hd', State.destroyPtr, kill_status,
      setFrames_status, hs', kill_root, setFrames_root, hr, kill_term, setFrames_term, ht, switchTo, setFrames_cur, kill_cur,
      State.arrive, setFrames_frames, kill_frames, upd_apply, hdc, if_false, hn', reduceCtorEq, or_self, Bool.false_eq_true, Res.ok.injEq]
    refine ⟨_, s.nextVar, rfl, ?_, rfl, ?_, .inr (.inl ⟨d, ?_⟩), ?_, ?_, ?_⟩ <;>
      simp [RunsOn, Designates, Suspended, upd_apply, Ne.symm hdc]
  · have hk : s.kind x = .heap := ha.resolve_left hx
    simp only [step, hc, hf, userStep, hx, hk, if_true, State.destroyVar, hd', State.destroyPtr, kill_status,
      hs', kill_root, hr, kill_term, ht, switchTo, setFrames_cur, kill_cur, setFrames_status,
      State.arrive, setFrames_frames, kill_frames, upd_apply, hdc, if_false, hn', reduceCtorEq, or_self, Bool.false_eq_true, Res.ok.injEq]
    refine ⟨_, s.nextVar, rfl, ?_, rfl, ?_, .inr (.inl ⟨d, ?_⟩), ?_, ?_, ?_⟩ <;>
      simp [RunsOn, Designates, Suspended, upd_apply, Ne.symm hdc]

/-- Whatever the way of destruction (end of scope, unwinding, assignment, destruction of the function object that captured
it, explicit): the first destruction of a never started fiber starts its function. -/
theorem C24_every_destruction {s s' : State} {t : Tid} {op : Op} (h : Reachable s) (he : NoEarlyDestroy s)
    (hs : step s t op = .ok s') (hn : ¬ NoEarlyDestroy s') :
    ∃ d, NotStarted s d ∧ s'.log = .enter d :: s.log ∧ RunsOn s' t d := by
  have hi := reachable_inv h he
  obtain ⟨c, hcur, heff⟩ := step_eff hs
  have hrun := (hi.ci.curRun t c).1 hcur
  have he' : s'.early = true := by simpa [NoEarlyDestroy] using hn
  have hee : s.early = false := he
  cases heff with
  | resume _ _ _ _ hd => rw [hd.early] at he'; simp [sw, hee] at he'
  | resumeWith _ _ _ _ hd => rw [hd.early] at he'; simp [sw, hee] at he'
  | propFn _ hd => obtain ⟨_, _, ha⟩ := hd; rw [ha.early] at he'; simp [sw, hee] at he'
  | leaveFn _ hd => obtain ⟨_, _, ha⟩ := hd; rw [ha.early] at he'; simp [sw, hee] at he'
  | create _ _ h2 => subst h2; simp [capture_early, hee] at he'
  | @destroy _ s1 v _ h1 h2 =>
    obtain ⟨e1, _, _, _, _, e6, _, _, e9, e10, _⟩ := h1.wf hi
    cases h2 with
    | root => simp [e9, hee] at he'
    | term => simp [e9, hee] at he'
    | unwind _ _ hst ha =>
      have hvc : v ≠ c := by rintro rfl; rw [e1, hrun] at hst; simp at hst
      rw [ha.early] at he'
      simp only [sw, e9, hee, Bool.false_or, decide_eq_true_eq] at he'
      refine ⟨v, by rw [NotStarted, ← e6 v hvc]; exact he', ?_⟩
      cases ha with
      | entry hf => simp [sw, e10, RunsOn, upd_apply]
      | unwind hf => simp [sw, upd_apply, hvc, he'] at hf
      | ontop hf => simp [sw, upd_apply, hvc, he'] at hf
      | ret hf => simp [sw, upd_apply, hvc, he'] at hf
      | dtor hf => simp [sw, upd_apply, hvc, he'] at hf
  | _ => simp [hee] at he'

/-- what a started function leaves behind (holds in all reachable states, also after early destructions) -/
structure GInv (s : State) : Prop where
  fn : ∀ c ls m, .user .fn ls m ∈ s.frames c → .enter c ∈ s.log
  term : ∀ c, s.status c = .terminated → .enter c ∈ s.log
  rel : ∀ c, .dealloc c ∈ s.log → .enter c ∈ s.log

theorem GInv.weaken {s s' : State} (h : GInv s) (hl : ∀ e, e ∈ s.log → e ∈ s'.log)
    (hf : ∀ c ls m, .user .fn ls m ∈ s'.frames c → .enter c ∈ s'.log ∨ ∃ ls m, .user .fn ls m ∈ s.frames c)
    (ht : ∀ c, s'.status c = .terminated → s.status c = .terminated ∨ ∃ ls m, .user .fn ls m ∈ s.frames c)
    (hr : ∀ c, .dealloc c ∈ s'.log → .dealloc c ∈ s.log ∨ s.status c = .terminated) : GInv s' := by
  constructor
  · intro c ls m hh; rcases hf c ls m hh with h1 | ⟨_, _, h1⟩
    · exact h1
    · exact hl _ (h.fn c _ _ h1)
  · intro c hh; rcases ht c hh with h1 | ⟨_, _, h1⟩
    · exact hl _ (h.term c h1)
    · exact hl _ (h.fn c _ _ h1)
  · intro c hh; rcases hr c hh with h1 | h1
    · exact hl _ (h.rel c h1)
    · exact hl _ (h.term c h1)

theorem GInv.arr {s s' : State} {w} (h : GInv s) (ha : Arr s w s') : GInv s' := by
  refine h.weaken ?_ ?_ ?_ ?_
  · rcases ha.log with h1 | h1 | ⟨i, h1⟩ <;> rw [h1] <;> grind
  · intro c ls m
    cases ha <;> simp only [upd_apply] <;> grind
  · intro c; rw [ha.status]; exact Or.inl
  · rcases ha.log with h1 | h1 | ⟨i, h1⟩ <;> rw [h1] <;> grind

theorem fn_mem {k a b a' b' ls m rest} (h : Frame.user .fn ls m ∈ Frame.user k a b :: rest) :
    ∃ ls m, Frame.user .fn ls m ∈ Frame.user k a' b' :: rest := by
  simp only [List.mem_cons, Frame.user.injEq] at h
  rcases h with ⟨rfl, _⟩ | h
  · exact ⟨a', b', by simp⟩
  · exact ⟨ls, m, by simp [h]⟩

theorem eff_ginv {s s' : State} {t c op} (h : GInv s) (he : Eff s t c op s') : GInv s' := by
  cases he with
  | resume hf _ _ _ ha =>
    refine GInv.arr ?_ ha
    refine h.weaken (fun _ h => h) ?_ ?_ (fun _ h => .inl h)
    · intro d ls m; simp only [sw, upd_apply, setFrames_frames, setVal_frames]; grind
    · intro d; simp only [sw, upd_apply, setFrames_status, setVal_status]; grind
  | resumeWith hf _ _ _ ha =>
    refine GInv.arr ?_ ha
    refine h.weaken (fun _ h => h) ?_ ?_ (fun _ h => .inl h)
    · intro d ls m; simp only [sw, upd_apply]; grind
    · intro d; simp only [sw, upd_apply]; grind
  | propFn hf hd =>
    obtain ⟨_, _, ha⟩ := hd
    refine GInv.arr ?_ ha
    refine h.weaken (fun _ h => h) ?_ ?_ (fun _ h => .inl h)
    · intro d ls m; simp only [sw, upd_apply, kill_frames]; grind
    · intro d; simp only [sw, upd_apply, kill_status]; grind
  | leaveFn hf hd =>
    obtain ⟨_, _, ha⟩ := hd
    refine GInv.arr ?_ ha
    refine h.weaken (fun _ h => h) ?_ ?_ (fun _ h => .inl h)
    · intro d ls m; simp only [sw, upd_apply, kill_frames]; grind
    · intro d; simp only [sw, upd_apply, kill_status]; grind
  | @create k ls rest xs hf ha s2 h2 =>
    have hc := capture_keep ({ s with nextCtx := s.nextCtx + 1 }.addLog (.alloc s.nextCtx)) s.nextCtx xs
    rw [← h2] at hc
    obtain ⟨c1, c2, c3, _⟩ := hc
    simp only [addLog_status, addLog_frames, addLog_log] at c1 c2 c3
    refine h.weaken ?_ ?_ ?_ ?_ <;> simp only [c1, c2, c3, upd_apply] <;> grind
  | @destroy _ s1 v _ h1 h2 =>
    have hs1 : GInv s1 := by
      refine h.weaken ?_ ?_ ?_ ?_ <;> cases h1 <;> simp only [upd_apply] <;> grind
    cases h2 with
    | root => exact ⟨hs1.fn, hs1.term, hs1.rel⟩
    | term => refine hs1.weaken (fun _ h => h) ?_ (fun _ h => .inl h) (fun _ h => .inl h); intro d ls m; simp only [upd_apply, setFrames_frames]; grind
    | unwind _ _ _ ha =>
      refine GInv.arr ?_ ha
      refine hs1.weaken (fun _ h => h) ?_ ?_ (fun _ h => .inl h)
      · intro d ls m; simp only [sw, upd_apply]; grind
      · intro d; simp only [sw, upd_apply]; grind
  | newHeap => exact ⟨h.fn, h.term, h.rel⟩
  | moveHeap => exact ⟨h.fn, h.term, h.rel⟩
  | moveSelf => exact h
  | moveAssign => exact ⟨h.fn, h.term, h.rel⟩
  | swap => exact ⟨h.fn, h.term, h.rel⟩
  | dropHeap => exact ⟨h.fn, h.term, h.rel⟩
  | exitCap => exact ⟨h.fn, h.term, h.rel⟩
  | exitDtor => refine h.weaken ?_ ?_ ?_ ?_ <;> simp only [upd_apply] <;> grind
  | exitDone => refine h.weaken ?_ ?_ ?_ ?_ <;> simp only [upd_apply] <;> grind
  | leaveMain => refine h.weaken ?_ ?_ ?_ ?_ <;> simp only [upd_apply] <;> grind
  | spawn => refine h.weaken ?_ ?_ ?_ ?_ <;> simp only [upd_apply] <;> grind
  | leaveOntop hf =>
    refine h.weaken (fun _ h => h) ?_ (fun _ h => .inl h) (fun _ h => .inl h)
    intro d ls m; simp only [upd_apply]
    split
    · rename_i hd; subst hd; intro hh
      obtain ⟨_, _, h2⟩ := fn_mem hh
      exact .inr ⟨_, _, by rw [hf]; exact List.mem_cons_of_mem _ (List.mem_cons_of_mem _ h2)⟩
    · exact fun hh => .inr ⟨_, _, hh⟩
  | propOntop hf =>
    refine h.weaken (fun _ h => h) ?_ (fun _ h => .inl h) (fun _ h => .inl h)
    intro d ls m; simp only [upd_apply, setFrames_frames]
    split
    · rename_i hd; subst hd; intro hh
      obtain ⟨_, _, h2⟩ := fn_mem hh
      exact .inr ⟨_, _, by rw [hf]; exact List.mem_cons_of_mem _ (List.mem_cons_of_mem _ h2)⟩
    · exact fun hh => .inr ⟨_, _, hh⟩
  | _ =>
    refine h.weaken (fun _ h => h) ?_ (fun _ h => .inl h) (fun _ h => .inl h)
    intro d ls m; simp only [upd_apply, setFrames_frames, newVar_frames, setVal_frames, kill_frames]; grind

theorem reachable_ginv {s : State} (h : Reachable s) : GInv s := by
  induction h with
  | init => constructor <;> simp [init] <;> intro c <;> split <;> simp
  | step _ hs ih => obtain ⟨c, _, he⟩ := step_eff hs; exact eff_ginv ih he

/-- Consequently a stack is never released without its fiber's function having been started: with ucontext there is no way to
dispose of a fiber without executing it. (No proviso.) -/
theorem C24_released_was_started {s : State} (h : Reachable s) {c : CtxId} (hr : Released s c) : .enter c ∈ s.log :=
  (reachable_ginv h).rel c hr

/-- with fcontext a fiber can be disposed of without executing its function -/
theorem C24_fcontext_not_started : ∃ h : List (Tid × Op),
    (Verif.Fiber.exec h).log = [.destroyed 1 0, .dealloc 1, .alloc 1] :=
  ⟨[(0, .create [] .success), (0, .drop 0), (0, .tick)], by decide⟩

/-- If the function started by the destructor switches back to the destroying context (whose object is its parameter), the
assertion in the destructor fails (in a release build, the stack of a suspended fiber would be released). -/
theorem C24_resume_asserts {s : State} {t : Tid} {c d : CtxId} {k : UKind} {ls : List Var} {rest rest' : List Frame} {x : Var}
    (hu : UserCode s t d k ls rest) (ha : Handle s x) (hd : Designates s x c) (hs : Suspended s c) (hdc : c ≠ d)
    (hw : s.frames c = .dtor d :: rest') (hf : s.term d = false) (hst : s.status d ≠ .freed) : step s t (.resume x) = .assertion := by
  rw [resume_eq hu ha hd hs]
  simp [State.arrive, preResume, sw, upd_apply, hdc, hw, hf, Ne.symm hdc]

/-- the hypotheses of `C24_resume_asserts` hold directly after `C24_destroy_starts` -/
example : let s := exec [(0, .create [] .success), (0, .drop 0)]
    UserCode s 0 1 .fn [1] [.entryRun] ∧ Handle s 1 ∧ Designates s 1 0 ∧ Suspended s 0 ∧ s.frames 0 = [.dtor 1, .user .main [] .normal] ∧
      s.term 1 = false ∧ s.status 1 ≠ .freed := by
  refine ⟨⟨by decide, by decide⟩, .inr (.inl ⟨1, by decide⟩), ?_, ?_, by decide, by decide, by decide⟩ <;> simp only [Designates, Suspended] <;> decide

/-! ## C25 -/

/-- a switch to a context suspended in `resume()`, not being unwound, with function `i` stored, executes it first -/
theorem C25_pending_runs {s : State} {t : Tid} {c d : CtxId} {k k' : UKind} {ls ls' : List Var} {rest rest' : List Frame} {x : Var} {i : Nat}
    (h : Reachable s) (he : NoEarlyDestroy s) (hu : UserCode s t c k ls rest) (ha : Handle s x) (hd : Designates s x d)
    (hn : InResume s d k' ls' rest') (hw : s.unw d = false) (ho : s.ontop d = some i) :
    ∃ s' p, step s t (.resume x) = .ok s' ∧ UserCode s' t d (.ontop i) [p] (.resume :: .user k' ls' .normal :: rest') ∧
      Handle s' p ∧ Designates s' p c ∧ s'.log = .ontop i d :: s.log := by
  have hi := reachable_inv h he
  have hs := inResume_susp hi hd hn
  have hdc := susp_ne hi hu.1 hs
  rw [resume_eq hu ha hd hs]
  have hn' : s.frames d = .resume :: .user k' ls' .normal :: rest' := hn
  simp only [State.arrive, preResume, sw, setFrames_frames, upd_apply, hdc, if_false, setVal_frames, hn', if_true,
    setFrames_unw, setVal_unw, hw, setFrames_ontop, setVal_ontop, ho, Res.ok.injEq, Bool.false_eq_true]
  refine ⟨_, s.nextVar, rfl, ⟨?_, ?_⟩, .inr (.inl ⟨d, ?_⟩), ?_, rfl⟩ <;>
    simp [Designates, upd_apply]

/-- `resume_with()` on a fiber suspended in `resume()` and not being unwound executes the function at once on the target's
stack, with an object that designates the caller. -/
theorem C25_at_once {s : State} {t : Tid} {c d : CtxId} {k k' : UKind} {ls ls' : List Var} {rest rest' : List Frame} {x : Var}
    (h : Reachable s) (he : NoEarlyDestroy s) (hu : UserCode s t c k ls rest) (ha : Handle s x) (hd : Designates s x d)
    (hn : InResume s d k' ls' rest') (hw : s.unw d = false) :
    ∃ s' p, step s t (.resumeWith x) = .ok s' ∧ UserCode s' t d (.ontop s.nextId) [p] (.resume :: .user k' ls' .normal :: rest') ∧
      Handle s' p ∧ Designates s' p c ∧ Suspended s' c ∧ s'.log = .ontop s.nextId d :: s.log ∧ s'.ontop d = some s.nextId ∧
      s'.nextId = s.nextId + 1 := by
  have hi := reachable_inv h he
  have hs := inResume_susp hi hd hn
  have hdc := susp_ne hi hu.1 hs
  rw [resumeWith_eq hu ha hd hs]
  have hn' : s.frames d = .resume :: .user k' ls' .normal :: rest' := hn
  simp only [State.arrive, preResumeWith, sw, upd_apply, hdc, if_false, hn', if_true, hw, Res.ok.injEq, Bool.false_eq_true]
  refine ⟨_, s.nextVar, rfl, ⟨?_, ?_⟩, .inr (.inl ⟨d, ?_⟩), ?_, ?_, rfl, ?_, rfl⟩ <;>
    simp [Designates, Suspended, upd_apply, Ne.symm hdc]

/-- where functions are stored (holds in all reachable states) -/
structure PInv (s : State) : Prop where
  lt : ∀ c i, s.ontop c = some i → i < s.nextId
  logLt : ∀ c i, .ontop i c ∈ s.log → i < s.nextId
  uniq : ∀ c d i, s.ontop c = some i → s.ontop d = some i → c = d

/-- how a step changes the stored functions and the log -/
theorem eff_ontop {s s' : State} {t c op} (he : Eff s t c op s') :
    (∀ d i, s'.ontop d = some i → s.ontop d = some i ∨ (i = s.nextId ∧ s'.nextId = s.nextId + 1 ∧ ∃ x, op = .resumeWith x ∧ s.val x = some d)) ∧
    s.nextId ≤ s'.nextId ∧
    (∀ d i, .ontop i d ∈ s'.log → .ontop i d ∈ s.log ∨ (s'.ontop d = some i)) := by
  have harr : ∀ {s s' : State} {w}, Arr s w s' → s'.ontop = s.ontop ∧ s'.nextId = s.nextId ∧
      ∀ d i, .ontop i d ∈ s'.log → .ontop i d ∈ s.log ∨ s'.ontop d = some i := by
    intro s s' w ha
    cases ha <;> refine ⟨rfl, rfl, ?_⟩ <;> simp <;> grind
  cases he with
  | resume hf _ _ _ ha => obtain ⟨a1, a2, a3⟩ := harr ha; simp only [sw, setFrames_ontop, setVal_ontop, setFrames_nextId, setVal_nextId, setFrames_log, setVal_log] at a1 a2 a3; simp only [a1, a2] at *; grind
  | resumeWith hf _ hv _ ha =>
    obtain ⟨a1, a2, a3⟩ := harr ha
    simp only [sw] at a1 a2 a3
    refine ⟨?_, by omega, ?_⟩
    · intro d i; rw [a1, a2]; simp only [upd_apply]; grind
    · exact a3
  | propFn hf hd =>
    obtain ⟨_, _, ha⟩ := hd
    obtain ⟨a1, a2, a3⟩ := harr ha
    simp only [sw, kill_ontop, kill_nextId, kill_log] at a1 a2 a3
    refine ⟨?_, by omega, a3⟩
    intro d i; rw [a1]; simp only [upd_apply]; grind
  | leaveFn hf hd =>
    obtain ⟨_, _, ha⟩ := hd
    obtain ⟨a1, a2, a3⟩ := harr ha
    simp only [sw, kill_ontop, kill_nextId, kill_log] at a1 a2 a3
    refine ⟨?_, by omega, a3⟩
    intro d i; rw [a1]; simp only [upd_apply]; grind
  | @create k ls rest xs hf ha s2 h2 =>
    have hc := capture_keep ({ s with nextCtx := s.nextCtx + 1 }.addLog (.alloc s.nextCtx)) s.nextCtx xs
    rw [← h2] at hc
    obtain ⟨_, _, c3, _, c5, _, _, c8, _⟩ := hc
    simp only [addLog_ontop, addLog_nextId, addLog_log] at c3 c5 c8
    simp only [c3, c5, c8, upd_apply]; grind
  | @destroy _ s1 v _ h1 h2 =>
    have e : s1.ontop = s.ontop ∧ s1.nextId = s.nextId ∧ s1.log = s.log := by cases h1 <;> simp
    cases h2 with
    | root => simp only [e]; grind
    | term => simp only [setFrames_ontop, setFrames_nextId, setFrames_log, e]; grind
    | unwind _ _ _ ha =>
      obtain ⟨a1, a2, a3⟩ := harr ha
      simp only [sw, e] at a1 a2 a3
      refine ⟨?_, by omega, a3⟩
      intro d i; rw [a1]; exact Or.inl
  | exitDtor => refine ⟨fun _ _ h => .inl h, Nat.le_refl _, ?_⟩; simp; grind
  | exitDone => refine ⟨fun _ _ h => .inl h, Nat.le_refl _, ?_⟩; simp; grind
  | spawn => refine ⟨?_, Nat.le_refl _, fun _ _ h => .inl h⟩; intro d i; simp only [upd_apply]; grind
  | leaveOntop => refine ⟨?_, Nat.le_refl _, fun _ _ h => .inl h⟩; intro d i; simp only [upd_apply]; grind
  | _ => exact ⟨fun _ _ h => .inl h, Nat.le_refl _, fun _ _ h => .inl h⟩

theorem reachable_pinv {s : State} (h : Reachable s) : PInv s := by
  induction h with
  | init => constructor <;> simp [init]
  | step _ hs ih =>
    obtain ⟨c, _, he⟩ := step_eff hs
    obtain ⟨h1, h2, h3⟩ := eff_ontop he
    obtain ⟨a1, a2, a3⟩ := ih
    refine ⟨?_, ?_, ?_⟩
    · intro c i hc; have := h1 c i hc; have := a1 c i; grind
    · intro c i hc; have := h3 c i hc; have := h1 c i; have := a1 c i; have := a2 c i; grind
    · intro c d i hc hd
      have h4 := h1 c i hc
      have h5 := h1 d i hd
      have := a3 c d i
      have := a1 c i
      have := a1 d i
      grind

/-- how often the function of the `i`-th `resume_with()` was executed -/
def executions (s : State) (i : Nat) : Nat := s.log.countP (isOntop i)

/-- a step executes function `i` at most once more, and only for a context that is switched to, stores `i`, and is not being unwound -/
theorem eff_count {s s' : State} {t c op} (he : Eff s t c op s') (i : Nat) :
    executions s' i = executions s i ∨
      executions s' i = executions s i + 1 ∧ ∃ d, s'.ontop d = some i ∧ s'.unw d = false ∧ s.status d = .suspended := by
  have harr : ∀ {s s' : State} {w}, Arr s w s' → executions s' i = executions s i ∨
      executions s' i = executions s i + 1 ∧ s'.ontop w = some i ∧ s'.unw w = false := by
    intro s s' w ha
    cases ha with
    | @ontop k ls m rest j hf hu ho =>
      by_cases hj : j = i
      · subst hj; refine .inr ⟨?_, ho, hu⟩; simp [executions, isOntop]
      · refine .inl ?_; simp [executions, isOntop, hj]
    | entry => refine .inl ?_; simp [executions, isOntop]
    | _ => exact .inl rfl
  cases he with
  | resume hf _ _ hs ha =>
    rcases harr ha with h | ⟨h, h2, h3⟩
    · exact .inl h
    · exact .inr ⟨h, _, h2, h3, hs⟩
  | resumeWith hf _ _ hs ha =>
    rcases harr ha with h | ⟨h, h2, h3⟩
    · exact .inl h
    · exact .inr ⟨h, _, h2, h3, hs⟩
  | propFn hf hd =>
    obtain ⟨_, hs, ha⟩ := hd
    rcases harr ha with h | ⟨h, h2, h3⟩
    · exact .inl h
    · exact .inr ⟨h, _, h2, h3, hs⟩
  | leaveFn hf hd =>
    obtain ⟨_, hs, ha⟩ := hd
    rcases harr ha with h | ⟨h, h2, h3⟩
    · exact .inl h
    · exact .inr ⟨h, _, h2, h3, hs⟩
  | @create k ls rest xs hf ha s2 h2 =>
    have hc := capture_keep ({ s with nextCtx := s.nextCtx + 1 }.addLog (.alloc s.nextCtx)) s.nextCtx xs
    rw [← h2] at hc
    refine .inl ?_
    simp [executions, hc.2.2.1, isOntop]
  | @destroy _ s1 v _ h1 h2 =>
    have e : s1.log = s.log ∧ s1.status = s.status := by cases h1 <;> simp
    have e1 : executions s1 i = executions s i := by simp [executions, e.1]
    cases h2 with
    | root => exact .inl e1
    | term => exact .inl e1
    | unwind _ _ hs ha =>
      rcases harr ha with h | ⟨h, h2, h3⟩
      · exact .inl (h.trans e1)
      · exact .inr ⟨h.trans (by rw [← e1]; rfl), v, h2, h3, by rw [← e.2]; exact hs⟩
  | exitDtor => refine .inl ?_; simp [executions, isOntop]
  | exitDone => refine .inl ?_; simp [executions, isOntop]
  | _ => exact .inl rfl

/-- Once no context stores function `i` any more it is never executed again. -/
theorem C25_never_again {s s' : State} (h : Reachable s) {i : Nat} (hi : i < s.nextId) (hn : ∀ c, s.ontop c ≠ some i)
    (hs : Steps s s') : executions s' i = executions s i := by
  suffices executions s' i = executions s i ∧ i < s'.nextId ∧ ∀ c, s'.ontop c ≠ some i from this.1
  induction hs with
  | refl => exact ⟨rfl, hi, hn⟩
  | @tail s1 s2 t op hs hst ih =>
    obtain ⟨i1, i2, i3⟩ := ih
    obtain ⟨c, _, he⟩ := step_eff hst
    obtain ⟨e1, e2, e3⟩ := eff_ontop he
    have hno : ∀ c, s2.ontop c ≠ some i := by
      intro d hd
      rcases e1 d i hd with h1 | ⟨h1, _⟩
      · exact i3 d h1
      · omega
    refine ⟨?_, by omega, hno⟩
    rcases eff_count he i with h1 | ⟨_, d, h2, _⟩
    · rw [h1, i1]
    · exact absurd h2 (hno d)

/-- When an on-top function returns, nothing is stored for its context any more; whatever function was stored there is never
executed again. -/
theorem C25_return_clears {s s' s'' : State} {t : Tid} {c : CtxId} {i j : Nat} {x : Var} {rest : List Frame} (h : Reachable s)
    (hc : RunsOn s t c) (hf : s.frames c = .user (.ontop i) [] (.returning (some x)) :: rest) (hj : s.ontop c = some j)
    (hs : step s t .tick = .ok s') (hs' : Steps s' s'') : s'.ontop c = none ∧ executions s' j = executions s j ∧ executions s'' j = executions s j := by
  obtain ⟨d, hcur, he⟩ := step_eff hs
  have hdc : d = c := by rw [RunsOn, hcur] at hc; simpa using hc
  subst hdc
  cases he with
  | destroy h1 h2 =>
    cases h1 with
    | tick hf2 => rw [hf] at hf2; simp at hf2
    | exit hf2 => rw [hf] at hf2; simp at hf2
  | tickLocal hf2 => rw [hf] at hf2; simp at hf2
  | exitCap hf2 => rw [hf] at hf2; simp at hf2
  | propCall hf2 => rw [hf] at hf2; simp at hf2
  | propFn hf2 => rw [hf] at hf2; simp at hf2
  | propOntop hf2 => rw [hf] at hf2; simp at hf2
  | leaveMain hf2 => rw [hf] at hf2; simp at hf2
  | leaveCall hf2 => rw [hf] at hf2; simp at hf2
  | leaveFn hf2 => rw [hf] at hf2; simp at hf2
  | exitDtor hf2 => rw [hf] at hf2; simp at hf2
  | exitDone hf2 => rw [hf] at hf2; simp at hf2
  | leaveOntop hf2 =>
    have hp := reachable_pinv h
    refine ⟨by simp, rfl, ?_⟩
    refine (C25_never_again (.step h hs) (i := j) (hp.lt d j hj) ?_ hs').trans rfl
    intro z
    simp only [upd_apply]
    split
    · simp
    · intro hz; have := hp.uniq z d j hz hj; contradiction

theorem Steps.trans {a b c : State} (h1 : Steps a b) (h2 : Steps b c) : Steps a c := by
  induction h2 with
  | refl => exact h1
  | tail _ hs ih => exact .tail ih hs

/-- a history during which thread `t` stays in context `d` -/
inductive StepsIn (t : Tid) (d : CtxId) : State → State → Prop
  | refl {s : State} (h : RunsOn s t d) : StepsIn t d s s
  | tail {s s' s'' : State} {t' : Tid} {op : Op} : StepsIn t d s s' → step s' t' op = .ok s'' → RunsOn s'' t d → StepsIn t d s s''

theorem StepsIn.steps {t d} {s s' : State} (h : StepsIn t d s s') : Steps s s' := by
  induction h with
  | refl => exact .refl _
  | tail _ hs _ ih => exact .tail ih hs

theorem StepsIn.runs {t d} {s s' : State} (h : StepsIn t d s s') : RunsOn s' t d := by
  cases h with
  | refl h => exact h
  | tail _ _ h => exact h

/-- Exactly once: if the target is suspended in `resume()` and not being unwound, and the function neither suspends (the
thread stays in the target, other threads may do anything) nor throws (it returns), then it is executed exactly once at
all later times. -/
theorem C25_exactly_once {s s1 s2 s3 s4 : State} {t : Tid} {c d : CtxId} {k k' : UKind} {ls ls' : List Var} {rest rest' : List Frame} {x y : Var}
    (h : Reachable s) (he : NoEarlyDestroy s2) (hu : UserCode s t c k ls rest) (ha : Handle s x) (hd : Designates s x d)
    (hn : InResume s d k' ls' rest') (hw : s.unw d = false) (h1 : step s t (.resumeWith x) = .ok s1) (h2 : StepsIn t d s1 s2)
    (hr : s2.frames d = .user (.ontop s.nextId) [] (.returning (some y)) :: .resume :: .user k' ls' .normal :: rest')
    (h3 : step s2 t .tick = .ok s3) (h4 : Steps s3 s4) : executions s4 s.nextId = 1 := by
  have hs01 : Steps s s1 := .tail (.refl _) h1
  have he1 : s1.early = false := h2.steps.early he
  have he0 : s.early = false := hs01.early he1
  obtain ⟨s1', p, e1, e2, e3, e4, e5, e6, e7, e8⟩ := C25_at_once h he0 hu ha hd hn hw
  rw [h1] at e1
  simp only [Res.ok.injEq] at e1
  subst e1
  have hr1 := hs01.reachable h
  have h0 : executions s s.nextId = 0 := by
    simp only [executions, List.countP_eq_zero]
    intro e he hh
    cases e <;> simp [isOntop] at hh
    subst hh
    have := (reachable_pinv h).logLt _ _ he
    omega
  have hc1 : executions s1 s.nextId = 1 := by
    simp only [executions, e6]
    simp only [executions] at h0
    simp [isOntop, h0]
  have hs2 : executions s2 s.nextId = 1 ∧ s2.ontop d = some s.nextId ∨ executions s2 s.nextId = 1 ∧ ∀ z, s2.ontop z ≠ some s.nextId := by
    clear h3 h4 hr
    suffices ∀ s2, StepsIn t d s1 s2 → s2.early = false → (executions s2 s.nextId = 1 ∧ s.nextId < s2.nextId) ∧
        (s2.ontop d = some s.nextId ∨ ∀ z, s2.ontop z ≠ some s.nextId) by
      have := this s2 h2 he
      grind
    intro s2 h2 he2
    induction h2 with
    | refl => exact ⟨⟨hc1, by omega⟩, .inl e7⟩
    | @tail sa sb t' op hab hst hrun ih =>
      have hea := step_early hst he2
      obtain ⟨⟨i1, i2⟩, i3⟩ := ih hea
      have hra := hab.steps.reachable hr1
      have hrb := Reachable.step hra hst
      have hia := reachable_inv hra hea
      have hpb := reachable_pinv hrb
      obtain ⟨b, hb, heff⟩ := step_eff hst
      obtain ⟨o1, o2, o3⟩ := eff_ontop heff
      have hkey : ∀ z, sb.ontop z = some s.nextId → z = d := by
        intro z hz
        rcases o1 z _ hz with hz | ⟨hz, _⟩
        · rcases i3 with h5 | h5
          · exact (reachable_pinv hra).uniq z d _ hz h5
          · exact absurd hz (h5 z)
        · omega
      refine ⟨⟨?_, by omega⟩, ?_⟩
      · rcases eff_count heff s.nextId with h5 | ⟨_, z, h6, _, h7⟩
        · omega
        · have := hkey z h6
          subst this
          have := (hia.ci.curRun t z).1 hab.runs
          rw [this] at h7; simp at h7
      · by_cases hz : sb.ontop d = some s.nextId
        · exact .inl hz
        · right; intro z hz'; exact hz (hkey z hz' ▸ hz')
  have hrun2 := h2.runs
  have hr2 := h2.steps.reachable hr1
  have hi2 : s.nextId < s2.nextId := by
    have key : ∀ {a b : State}, Steps a b → a.nextId ≤ b.nextId := by
      intro a b hab
      induction hab with
      | refl => exact Nat.le_refl _
      | tail _ hst ih => obtain ⟨_, _, heff⟩ := step_eff hst; have := (eff_ontop heff).2.1; omega
    have := key h2.steps
    omega
  rcases hs2 with ⟨h5, h6⟩ | ⟨h5, h6⟩
  · exact (C25_return_clears hr2 hrun2 hr h6 h3 h4).2.2.trans h5
  · exact (C25_never_again hr2 hi2 h6 ((Steps.tail (.refl _) h3).trans h4)).trans h5

/-- main resumes a fiber that resumes main back (`h1`), then calls `resume_with()` on it; the on-top function returns its
parameter at once -/
def hOnce : List (Tid × Op) := h1 ++ [(0, .resumeWith 2), (0, .retHandle 3), (0, .tick)]
example : runsOk hOnce = true ∧ (exec hOnce).frames 1 = [.user (.ontop 0) [] (.returning (some 4)), .resume, .user .fn [1] .normal, .entryRun] ∧
    executions (exec (hOnce ++ [(0, .tick)])) 0 = 1 := by decide

/-- An exception that leaves the function does not remove it: it stays stored, so that the next switch to the fiber executes
it again (`C25_pending_runs`). -/
theorem C25_throw_keeps {s : State} {t : Tid} {c : CtxId} {i j : Nat} {e : Exc} {k : UKind} {ls : List Var} {m : Mode} {rest : List Frame}
    (hc : RunsOn s t c) (hf : s.frames c = .user (.ontop i) [] (.unwinding e) :: .resume :: .user k ls m :: rest)
    (hj : s.ontop c = some j) :
    ∃ s', step s t .tick = .ok s' ∧ s'.ontop c = some j ∧ s'.frames c = .user k ls (.unwinding e) :: rest := by
  have hc' : s.cur t = some c := hc
  refine ⟨s.setFrames c (.user k ls (.unwinding e) :: rest), ?_, hj, by simp⟩
  simp [step, hc', hf, propagate]

/-- "Exactly once" fails: (1) the function throws, the fiber catches the exception, suspends and is resumed: executed twice;
(2) the function suspends and its fiber is resumed: executed twice; (3) the target is being unwound: never executed. -/
theorem C25_violation_throw : ∃ h : List (Tid × Op), runsOk h = true ∧ (exec h).nextId = 1 ∧ executions (exec h) 0 = 2 :=
  ⟨[(0, .create [] .success), (0, .resume 0), (0, .call), (0, .resume 1), (0, .resumeWith 2), (0, .moveHeap 3), (0, .throw 7), (0, .tick),
    (0, .tick), (0, .catchUser), (0, .resume 4), (0, .resume 5)], by decide, by decide, by decide⟩

theorem C25_violation_suspend : ∃ h : List (Tid × Op), runsOk h = true ∧ (exec h).nextId = 1 ∧ executions (exec h) 0 = 2 :=
  ⟨h1 ++ [(0, .resumeWith 2), (0, .resume 3), (0, .resume 4)], by decide, by decide, by decide⟩

/-- the same operations with fcontext: executed once -/
theorem C25_fcontext_suspend :
    (Verif.Fiber.exec (Verif.Fiber.h1 ++ [(0, .resumeWith 2), (0, .resume 3), (0, .resume 4)])).log.countP (isOntop 0) = 1 := by decide

/-- stored functions of contexts being unwound are not executed -/
theorem unwound_count {s s' : State} (h : Reachable s) {i : Nat} (hi : i < s.nextId) (hn : ∀ c, s.ontop c = some i → s.unw c = true)
    (hs : Steps s s') : executions s' i = executions s i := by
  suffices executions s' i = executions s i ∧ i < s'.nextId ∧ ∀ c, s'.ontop c = some i → s'.unw c = true from this.1
  induction hs with
  | refl => exact ⟨rfl, hi, hn⟩
  | @tail s1 s2 t op hs hst ih =>
    obtain ⟨i1, i2, i3⟩ := ih
    obtain ⟨c, _, he⟩ := step_eff hst
    obtain ⟨e1, e2, e3⟩ := eff_ontop he
    have hu : ∀ c, s2.ontop c = some i → s2.unw c = true := by
      intro d hd
      have h1 : s1.ontop d = some i := by
        rcases e1 d i hd with h1 | ⟨h1, _⟩
        · exact h1
        · omega
      have h2 := i3 d h1
      have harr : ∀ {s s' : State} {w}, Arr s w s' → s'.unw = s.unw ∧ s'.ontop = s.ontop := by
        intro s s' w ha; cases ha <;> exact ⟨rfl, rfl⟩
      cases he with
      | resume _ _ _ _ ha => rw [(harr ha).1]; exact h2
      | resumeWith _ _ _ _ ha => rw [(harr ha).1]; exact h2
      | propFn _ hd2 =>
        obtain ⟨_, _, ha⟩ := hd2
        rw [(harr ha).1]; rw [(harr ha).2] at hd
        simp only [sw, upd_apply, kill_ontop, kill_unw] at hd ⊢; grind
      | leaveFn _ hd2 =>
        obtain ⟨_, _, ha⟩ := hd2
        rw [(harr ha).1]; rw [(harr ha).2] at hd
        simp only [sw, upd_apply, kill_ontop, kill_unw] at hd ⊢; grind
      | @create k ls rest xs hf ha s3 h3 =>
        have hc := capture_keep ({ s1 with nextCtx := s1.nextCtx + 1 }.addLog (.alloc s1.nextCtx)) s1.nextCtx xs
        rw [← h3] at hc
        obtain ⟨_, _, _, _, _, _, _, c8, c9, _⟩ := hc
        simp only [addLog_ontop, addLog_unw] at c8 c9
        simp only [c8, c9, upd_apply] at hd ⊢; grind
      | @destroy _ s3 v _ h1 h4 =>
        have e : s3.ontop = s1.ontop ∧ s3.unw = s1.unw := by cases h1 <;> simp
        cases h4 with
        | root => simpa only [e] using h2
        | term => simpa only [setFrames_unw, e] using h2
        | unwind _ _ _ ha => rw [(harr ha).1]; simp only [sw, upd_apply, e]; grind
      | spawn => simp only [upd_apply] at hd ⊢; grind
      | _ => exact h2
    refine ⟨?_, by omega, hu⟩
    rcases eff_count he i with h1 | ⟨_, d, h2, h3, _⟩
    · rw [h1, i1]
    · have := hu d h2; simp [h3] at this

/-- `resume_with()` on a fiber that is being unwound (suspended again by code running during the unwinding): the function is
never executed, whatever happens later. -/
theorem C25_unwound_never {s s' s'' : State} {t : Tid} {d : CtxId} {x : Var} (h : Reachable s)
    (hd : Designates s x d) (hw : s.unw d = true) (hs : step s t (.resumeWith x) = .ok s')
    (hs' : Steps s' s'') : executions s'' s.nextId = 0 := by
  have hp := reachable_pinv h
  have h0 : executions s s.nextId = 0 := by
    simp only [executions, List.countP_eq_zero]
    intro e he hh
    cases e <;> simp [isOntop] at hh
    subst hh
    have := hp.logLt _ _ he
    omega
  have hd' : s.val x = some d := hd
  obtain ⟨c, _, he⟩ := step_eff hs
  obtain ⟨e1, e2, e3⟩ := eff_ontop he
  have harr : ∀ {s s' : State} {w}, Arr s w s' → s'.unw = s.unw := by
    intro s s' w ha; cases ha <;> rfl
  have hu : ∀ c, s'.ontop c = some s.nextId → s'.unw c = true := by
    intro b hb
    have hbd : b = d := by
      rcases e1 b _ hb with h1 | ⟨_, _, y, hy, hv⟩
      · have := hp.lt _ _ h1; omega
      · cases hy; rw [hd'] at hv; simpa using hv.symm
    subst hbd
    cases he with
    | resumeWith _ _ _ _ ha => rw [harr ha]; exact hw
    | destroy h1 => cases h1
  have hid : s'.nextId = s.nextId + 1 := by
    cases he with
    | resumeWith _ _ _ _ ha => cases ha <;> rfl
    | destroy h1 => cases h1
  have h1 : executions s' s.nextId = 0 := by
    rcases eff_count he s.nextId with h2 | ⟨_, b, h2, h3, _⟩
    · rw [h2, h0]
    · have := hu b h2; simp [h3] at this
  exact (unwound_count (.step h hs) (by omega) hu hs').trans h1

/-- main destroys a suspended fiber; code that runs during the unwinding creates a second fiber and resumes it: the first
fiber is suspended while being unwound, and object 6 designates it -/
def hUnw : List (Tid × Op) := h1 ++ [(0, .drop 2), (0, .cleanup), (0, .create [] .success), (0, .resume 4)]
example : Reachable (exec hUnw) ∧ NoEarlyDestroy (exec hUnw) ∧ Designates (exec hUnw) 5 1 ∧ (exec hUnw).unw 1 = true ∧
    UserCode (exec hUnw) 0 2 .fn [5] [.entryRun] ∧ Handle (exec hUnw) 5 ∧
    InResume (exec hUnw) 1 .cleanup [4] [.user .fn [1] (.unwinding (.forced 3)), .entryRun] ∧
    runsOk (hUnw ++ [(0, .resumeWith 5)]) = true := by
  refine ⟨reachable_exec (by decide), (by decide : (exec hUnw).early = false), (by decide : (exec hUnw).val 5 = some 1), by decide,
    ⟨by decide, by decide⟩, .inr (.inl ⟨2, by decide⟩), (by decide : (exec hUnw).frames 1 = _), by decide⟩

/-! ## C26 -/

/-- A context that is being unwound and was suspended by code running during the unwinding: when it is resumed, `resume()`
does not return there, it throws `forced_unwind` again (carrying the way back to the resumer), so the code running during
the unwinding cannot continue normally. -/
theorem C26_resume_throws {s : State} {t : Tid} {c d : CtxId} {k k' : UKind} {ls ls' : List Var} {rest rest' : List Frame} {x : Var}
    (h : Reachable s) (he : NoEarlyDestroy s) (hu : UserCode s t c k ls rest) (ha : Handle s x) (hd : Designates s x d)
    (hn : InResume s d k' ls' rest') (hw : s.unw d = true) :
    ∃ s' e, step s t (.resume x) = .ok s' ∧ RunsOn s' t d ∧ s'.frames d = .user k' ls' (.unwinding (.forced e)) :: rest' ∧
      s'.val e = some c ∧ s'.log = s.log := by
  have hi := reachable_inv h he
  have hs := inResume_susp hi hd hn
  have hdc := susp_ne hi hu.1 hs
  rw [resume_eq hu ha hd hs]
  have hn' : s.frames d = .resume :: .user k' ls' .normal :: rest' := hn
  simp only [State.arrive, preResume, sw, setFrames_frames, upd_apply, hdc, if_false, setVal_frames, hn', if_true,
    setFrames_unw, setVal_unw, hw, Res.ok.injEq]
  refine ⟨_, s.nextVar, rfl, ?_, ?_, ?_, rfl⟩ <;> simp [RunsOn, upd_apply]

/-- the same with `resume_with()` -/
theorem C26_resume_with_throws {s : State} {t : Tid} {c d : CtxId} {k k' : UKind} {ls ls' : List Var} {rest rest' : List Frame} {x : Var}
    (h : Reachable s) (he : NoEarlyDestroy s) (hu : UserCode s t c k ls rest) (ha : Handle s x) (hd : Designates s x d)
    (hn : InResume s d k' ls' rest') (hw : s.unw d = true) :
    ∃ s' e, step s t (.resumeWith x) = .ok s' ∧ RunsOn s' t d ∧ s'.frames d = .user k' ls' (.unwinding (.forced e)) :: rest' ∧
      s'.val e = some c ∧ s'.log = s.log := by
  have hi := reachable_inv h he
  have hs := inResume_susp hi hd hn
  have hdc := susp_ne hi hu.1 hs
  rw [resumeWith_eq hu ha hd hs]
  have hn' : s.frames d = .resume :: .user k' ls' .normal :: rest' := hn
  simp only [State.arrive, preResumeWith, sw, upd_apply, hdc, if_false, hn', if_true, hw, Res.ok.injEq]
  refine ⟨_, s.nextVar, rfl, ?_, ?_, ?_, rfl⟩ <;> simp [RunsOn, upd_apply]

/-- The state "is being unwound" lasts until the fiber has finished. -/
theorem C26_sticky {s s' : State} (h : Reachable s) {d : CtxId} (hw : s.unw d = true) (hs : Steps s s') (he : NoEarlyDestroy s') :
    s'.unw d = true ∨ s'.term d = true := by
  induction hs with
  | refl => exact .inl hw
  | @tail s1 s2 t op hs hst ih =>
    have he1 := step_early hst he
    have hr1 := hs.reachable h
    have hi := reachable_inv hr1 he1
    have hl := reachable_linv hr1 he1
    obtain ⟨c, hcur, heff⟩ := step_eff hst
    have hnn : d ≠ s1.nextCtx := by
      have hd0 := ((reachable_linv h (hs.early he1)).unw1 d hw).2
      have key : ∀ {a b : State}, Reachable a → Steps a b → b.early = false → a.status d ≠ .absent → b.status d ≠ .absent := by
        intro a b ha hab hb had
        have hle : a.nextCtx ≤ b.nextCtx := by
          clear had
          induction hab with
          | refl => exact Nat.le_refl _
          | @tail b1 b2 t' op' hab1 hst1 ih1 =>
            have := ih1 (step_early hst1 hb)
            obtain ⟨c', _, he'⟩ := step_eff hst1
            have harr : ∀ {s s' : State} {w}, Arr s w s' → s'.nextCtx = s.nextCtx := by
              intro s s' w ha; cases ha <;> rfl
            have hb1 := reachable_inv (hab1.reachable ha) (step_early hst1 hb)
            refine Nat.le_trans this ?_
            cases he' with
            | resume _ _ _ _ ha => rw [harr ha]; exact Nat.le_refl _
            | resumeWith _ _ _ _ ha => rw [harr ha]; exact Nat.le_refl _
            | propFn _ hd2 => obtain ⟨_, _, ha⟩ := hd2; rw [harr ha]; exact Nat.le_refl _
            | leaveFn _ hd2 => obtain ⟨_, _, ha⟩ := hd2; rw [harr ha]; exact Nat.le_refl _
            | @create k ls rest xs hf ha s3 h3 =>
              have hc := capture_keep ({ b1 with nextCtx := b1.nextCtx + 1 }.addLog (.alloc b1.nextCtx)) b1.nextCtx xs
              rw [← h3] at hc
              simp [hc.2.2.2.1]
            | destroy h1 h4 =>
              obtain ⟨_, _, _, e4, _⟩ := h1.wf hb1
              cases h4 with
              | root => simp [e4]
              | term => simp [e4]
              | unwind _ _ _ ha => rw [harr ha]; simp [sw, e4]
            | spawn => simp
            | _ => exact Nat.le_refl _
        have h1 := (reachable_inv ha (hab.early hb)).ci.absent d
        have h2 := (reachable_inv (hab.reachable ha) hb).ci.absent d
        rw [Ne, h2]; rw [Ne, h1] at had; omega
      have := key h hs he1 hd0
      intro hh
      exact this ((hi.ci.absent d).2 (Nat.le_of_eq hh.symm))
    have harr : ∀ {s s' : State} {w}, Arr s w s' → s'.unw = s.unw ∧ s'.term = s.term := by
      intro s s' w ha; cases ha <;> exact ⟨rfl, rfl⟩
    have ih := ih he1
    cases heff with
    | resume _ _ _ _ ha => rw [(harr ha).1, (harr ha).2]; exact ih
    | resumeWith _ _ _ _ ha => rw [(harr ha).1, (harr ha).2]; exact ih
    | propFn _ hd2 =>
      obtain ⟨_, _, ha⟩ := hd2
      rw [(harr ha).1, (harr ha).2]; simp only [sw, upd_apply, kill_unw, kill_term]; grind
    | leaveFn _ hd2 =>
      obtain ⟨_, _, ha⟩ := hd2
      rw [(harr ha).1, (harr ha).2]; simp only [sw, upd_apply, kill_unw, kill_term]; grind
    | @create k ls rest xs hf ha s3 h3 =>
      have hc := capture_keep ({ s1 with nextCtx := s1.nextCtx + 1 }.addLog (.alloc s1.nextCtx)) s1.nextCtx xs
      rw [← h3] at hc
      obtain ⟨_, _, _, _, _, _, _, _, c9, c10, _⟩ := hc
      simp only [addLog_unw, addLog_term] at c9 c10
      simp only [c9, c10, upd_apply]; grind
    | @destroy _ s3 v _ h1 h4 =>
      have e : s3.unw = s1.unw ∧ s3.term = s1.term := by cases h1 <;> simp
      cases h4 with
      | root => simpa only [e] using ih
      | term => simpa only [setFrames_unw, setFrames_term, e] using ih
      | unwind _ _ _ ha => rw [(harr ha).1, (harr ha).2]; simp only [sw, upd_apply, e]; grind
    | spawn => simp only [upd_apply]; grind
    | _ => exact ih

/-- A destructor that switches away during the unwinding and is resumed ends in `std::terminate` with ucontext; the same
operations succeed with fcontext, where the destructor continues normally. -/
theorem C26_violation :
    (exec (hUnw ++ [(0, .resume 5)])).frames 1 =
      [.user .cleanup [4] (.unwinding (.forced 6)), .user .fn [1] (.unwinding (.forced 3)), .entryRun] ∧
    runsTerminate (hUnw ++ [(0, .resume 5), (0, .tick), (0, .tick)]) = true ∧
    (Verif.Fiber.exec (hUnw ++ [(0, .resume 5)])).frames 1 =
      [.user .cleanup [6, 4] .normal, .user .fn [1] (.unwinding (.forced 3)), .entryRun] := by decide

end Verif.UFiber
