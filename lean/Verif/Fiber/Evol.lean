import Verif.Fiber.Two

/-! # How one call stack changes in one step -/

namespace Verif.Fiber
open State

/-- The suspension point on top of stack `fs` is continued with transfer value `v`, giving stack `fs'` of context `d`. -/
inductive Cont (s' : State) (d : CtxId) (v : Option Fctx) : List Frame → List Frame → Prop
  | entry {x} (hx : s'.val x = v) (hk : s'.kind x = .loc d) :
      Cont s' d v [.entryJump] [.user .fn [x] .normal, .entryRun]
  | resume {x k ls rest} (hx : s'.val x = v) (hk : s'.kind x = .loc d) :
      Cont s' d v (.resume :: .user k ls .normal :: rest) (.user k (x :: ls) .normal :: rest)
  | dtor {w rest} (hl : .destroyed w d ∈ s'.log) : Cont s' d v (.dtor w :: rest) rest

/-- An exception is raised at the suspension point on top of stack `fs`. -/
inductive Raised (s' : State) (d : CtxId) : Exc → List Frame → List Frame → Prop
  | entry {x} : Raised s' d (.forced x) [.entryJump] [.exitJump]
  | resume {k ls rest e} : Raised s' d e (.resume :: .user k ls .normal :: rest) (.user k ls (.unwinding e) :: rest)

/-- frames that the running context may push in one step -/
inductive Push : List Frame → Prop
  | none : Push []
  | resume : Push [.resume]
  | dtor {v} : Push [.dtor v]
  | exit {v} : Push [.exiting v, .dtor v]
  | call : Push [.user .call [] .normal]
  | cleanup : Push [.user .cleanup [] .normal]

/-- Change of the stack of context `d` in a step `s → s'` of thread `t` performing `op`. -/
inductive Evol (s : State) (t : Tid) (op : Op) (s' : State) (d : CtxId) : Prop
  /-- nothing -/
  | same (h : s'.frames d = s.frames d)
  /-- `d` is the running context and works in its innermost frame -/
  | top {k ls m r ls' m' p} (hc : s.cur t = some d) (h : s.frames d = .user k ls m :: r) (hp : Push p)
      (h' : s'.frames d = p ++ .user k ls' m' :: r)
  | exitTop {n r p} (hc : s.cur t = some d) (h : s.frames d = .exiting n :: r) (hp : Push p)
      (h' : s'.frames d = p ++ .exiting n :: r)
  /-- a nested call or destructor returns, or its exception is caught -/
  | pop {k m r} (hc : s.cur t = some d) (hk : k = .call ∨ k = .cleanup) (h : s.frames d = .user k [] m :: r) (h' : s'.frames d = r)
  /-- an exception leaves a nested call -/
  | prop {e k ls r} (hc : s.cur t = some d) (ho : op = .tick) (h : s.frames d = .user .call [] (.unwinding e) :: .user k ls .normal :: r)
      (h' : s'.frames d = .user k ls (.unwinding e) :: r)
  /-- the context function ends -/
  | finish {m} (hc : s.cur t = some d) (ho : op = .tick) (h : s.frames d = [.user .fn [] m, .entryRun]) (h' : s'.frames d = [.exitJump])
      (hs : s'.status d = .terminated)
  /-- the main function ends -/
  | endMain {m} (hc : s.cur t = some d) (ho : op = .tick) (h : s.frames d = [.user .main [] m]) (h' : s'.frames d = [])
  /-- an on-top function returns -/
  | ontopRet {i x r} (hc : s.cur t = some d) (ho : op = .tick) (h : s.frames d = .user (.ontop i) [] (.returning (some x)) :: r)
      (h' : Cont s' d (s.val x) r (s'.frames d))
  /-- an exception leaves an on-top function -/
  | ontopThrow {i e e' r} (hc : s.cur t = some d) (ho : op = .tick) (h : s.frames d = .user (.ontop i) [] (.unwinding e) :: r)
      (he : (∃ n, e = .user n ∧ e' = .user n) ∨ ∃ x y, e = .forced x ∧ e' = .forced y) (h' : Raised s' d e' r (s'.frames d))
  /-- the stack of finished fiber `n` has been released -/
  | exitDone {n r} (hc : s.cur t = some d) (ho : op = .tick) (h : s.frames d = .exiting n :: r) (hcp : s.caps n = [])
      (hs : s.status n = .terminated) (hl : .dealloc n ∈ s'.log) (h' : Cont s' d none r (s'.frames d))
  /-- suspended `d` is resumed by context `c` -/
  | resumed {c x} (hc : s.cur t = some c) (ho : op = .resume x) (ha : s.accessible x = true) (hd : Designates s x d) (hs : s.status d = .suspended) (hr : s'.cur t = some d)
      {f : Fctx} (hf : f.ctx = c) (h' : Cont s' d (some f) (s.frames d) (s'.frames d))
  /-- suspended `d` gets an on-top function -/
  | ontop {c x p} (hc : s.cur t = some c) (ho : op = .resumeWith x) (hd : Designates s x d) (hs : s.status d = .suspended) (hr : s'.cur t = some d)
      (hv : Designates s' p c) (h' : s'.frames d = .user (.ontop s.nextId) [p] .normal :: s.frames d)
  /-- copying the function object passed to `resume_with` throws on top of suspended `d` -/
  | copyThrow {c x n} (hc : s.cur t = some c) (ho : op = .withThrows x n true) (hd : Designates s x d) (hs : s.status d = .suspended)
      (hr : s'.cur t = some d) (h' : Raised s' d (.user n) (s.frames d) (s'.frames d))
  /-- suspended `d` is destroyed by context `c` -/
  | raised {c x y} (hc : s.cur t = some c) (hd : Designates s x d) (hs : s.status d = .suspended)
      (hw : ∃ p rest, s'.frames c = p ++ .dtor d :: rest) (h' : Raised s' d (.forced y) (s.frames d) (s'.frames d))
  /-- suspended `d` releases the finished fiber `c` that handed over to it -/
  | exitOf {c x m} (hc : s.cur t = some c) (ho : op = .tick) (hd : Designates s x d) (hs : s.status d = .suspended) (hr : s'.cur t = some d)
      (hfc : ∃ r, s.frames c = .user .fn [] m :: r ∨ ∃ i, s.frames c = .user (.ontop i) [] m :: r) (h' : s'.frames d = .exiting c :: s.frames d)
  /-- the stack of `d` is released -/
  | freed (h : s.frames d = [.exitJump]) (h' : s'.frames d = [])
  /-- `d` is created -/
  | created (h : s.status d = .absent) (h' : s'.frames d = [.entryJump] ∨ s'.frames d = [.user .main [] .normal])

/-- facts of the invariant used below -/
theorem facts {s : State} {t c} (hi : Inv s) (hc : s.cur t = some c) :
    s.status c = .running t ∧ WF (s.frames c) ∧ s.status s.nextCtx = .absent ∧
    (∀ x f, s.val x = some f → s.status f.ctx = .suspended ∧ WF (s.frames f.ctx) ∧ f.ctx ≠ c) := by
  have h1 := (hi.ci.curRun t c).1 hc
  refine ⟨h1, hi.ci.wf c (by simp [h1]), (hi.ci.absent _).2 (Nat.le_refl _), ?_⟩
  intro x f hx
  have := (hi.vi.valid x f hx).1
  refine ⟨this, hi.ci.wf _ (by simp [this]), ?_⟩
  intro h; rw [h, h1] at this; simp at this

theorem wf_resume {k ls m rest} (h : WF (.resume :: .user k ls m :: rest)) : m = .normal := by
  cases m <;> simp_all [WF, Adj]

theorem wf_of_cons {f fs} (h : WF (f :: fs)) : WF fs := h.2

theorem wf_callTop {m k ls m' rest} (h : WF (.user .call [] m :: .user k ls m' :: rest)) : m' = .normal := by
  cases m' <;> simp_all [WF, Adj]

theorem step_evol {s s' : State} {t op} (hi : Inv s) (h : step s t op = .ok s') (d : CtxId) : Evol s t op s' d := by
  obtain ⟨c, hc, he⟩ := step_eff hi h
  obtain ⟨h1, h2, h3, hval⟩ := facts hi hc
  clear h
  cases he
  case create k ls rest xs hf ha s2 h2' =>
    have hs := capture_same ({ s with nextCtx := s.nextCtx + 1 }.addLog (.alloc s.nextCtx)) s.nextCtx xs
    rw [← h2'] at hs
    simp only [State.addLog] at hs
    by_cases hd : d = c
    · subst hd; exact .top hc hf .none (by simp; exact ⟨rfl, rfl⟩)
    · by_cases hd2 : d = s.nextCtx
      · subst hd2; exact .created h3 (Or.inl (by simp [hd]))
      · exact .same (by simp [hd, hd2, hs])
  case resume k ls rest x f hf ha hv hdl =>
    obtain ⟨h4, h5, h6⟩ := hval x f hv
    by_cases hd : d = c
    · subst hd
      refine .top hc hf .resume ?_ (ls' := ls) (m' := .normal)
      have : d ≠ f.ctx := fun h => h6 h.symm
      cases hdl <;> simp [sw, State.setFrames, State.setVal, this, hf]
    · by_cases hd2 : d = f.ctx
      · subst hd2
        refine .resumed (f := ⟨c, s.seq c + 1⟩) hc rfl ha ⟨f, hv, rfl⟩ h4 ?_ rfl ?_
        · cases hdl <;> simp [sw, State.setFrames, State.setVal]
        · cases hdl
          case entry rest' hf2 =>
            simp [sw, State.setFrames, h6, State.setVal] at hf2
            rw [hf2] at h5
            obtain rfl := wf_entryJump h5
            simp only [hf2]
            simp only [sw, State.setFrames, State.setVal, upd_apply, if_true]
            exact .entry (by simp) (by simp)
          case resume rest' hf2 =>
            simp [sw, State.setFrames, h6, State.setVal] at hf2
            rw [hf2] at h5
            obtain rfl := wf_resume h5
            simp only [hf2]
            simp only [sw, State.setFrames, State.setVal, upd_apply, if_true]
            exact .resume (by simp) (by simp)
          case dtor rest' hf2 =>
            simp [sw, State.setFrames, h6, State.setVal] at hf2
            simp only [hf2]
            simp only [sw, State.setFrames, State.setVal, upd_apply, if_true]
            exact .dtor (by simp)
      · refine .same ?_
        cases hdl <;> simp [sw, State.setFrames, State.setVal, hd, hd2]
  case resumeWith k ls rest x f hf ha hv =>
    obtain ⟨h4, h5, h6⟩ := hval x f hv
    by_cases hd : d = c
    · subst hd
      have : d ≠ f.ctx := fun h => h6 h.symm
      exact .top hc hf .resume (ls' := ls) (m' := .normal) (by simp [this, hf])
    · by_cases hd2 : d = f.ctx
      · subst hd2
        exact .ontop hc rfl ⟨f, hv, rfl⟩ h4 (by simp) (p := s.nextVar) ⟨⟨c, s.seq c + 1⟩, by simp, rfl⟩ (by simp [h6])
      · exact .same (by simp [hd, hd2])
  case withThrows k ls rest x n f k' ls' m' rest' hf ha hv hf' =>
    obtain ⟨h4, h5, h6⟩ := hval x f hv
    by_cases hd : d = c
    · subst hd
      have : d ≠ f.ctx := fun h => h6 h.symm
      exact .top hc hf .resume (ls' := ls) (m' := .normal) (by simp [this, hf])
    · by_cases hd2 : d = f.ctx
      · subst hd2
        simp only [upd_apply, h6, if_false] at hf'
        rw [hf'] at h5
        obtain rfl := wf_resume h5
        refine .copyThrow hc rfl ⟨f, hv, rfl⟩ h4 (by simp) ?_
        rw [hf']
        simp only [upd_apply, if_true]
        exact .resume
      · exact .same (by simp [hd, hd2])
  case destroy s1 f hp hds =>
    obtain ⟨x, hv⟩ : ∃ x, s.val x = some f := by cases hp <;> exact ⟨_, by assumption⟩
    obtain ⟨h4, h5, h6⟩ := hval x f hv
    have hfo : ∀ e, e ≠ c → s1.frames e = s.frames e := by
      intro e he; cases hp <;> simp [he]
    obtain ⟨hds⟩ := hds
    have hcf : c ≠ f.ctx := fun h => h6 h.symm
    by_cases hd : d = c
    · subst hd
      have key : ∃ p, Push p ∧ s'.frames d = p ++ s1.frames d := by
        cases hds
        · exact ⟨_, .exit (v := f.ctx), by simp [fin, sw, State.setFrames, hcf]⟩
        · exact ⟨_, .dtor (v := f.ctx), by simp [sw, State.setFrames, hcf]⟩
      obtain ⟨p, hpp, hk⟩ := key
      cases hp
      case moveAssign hf _ _ _ _ => exact .top hc hf hpp (by rw [hk]; exact congrArg _ hf)
      case dropLoc hf _ _ => exact .top hc hf hpp (by rw [hk]; simp; exact ⟨rfl, rfl⟩)
      case dropHeap hf _ _ => exact .top hc hf hpp (by rw [hk]; exact congrArg _ hf)
      case tick hf _ _ => exact .top hc hf hpp (by rw [hk]; simp; exact ⟨rfl, rfl⟩)
      case exit hf _ _ => exact .exitTop hc hf hpp (by rw [hk]; exact congrArg _ hf)
    · by_cases hd2 : d = f.ctx
      · subst hd2
        cases hds
        case entry rest' hf2 =>
          simp [sw, State.setFrames, h6] at hf2
          rw [hfo _ h6] at hf2
          rw [hf2] at h5
          obtain rfl := wf_entryJump h5
          refine .raised (y := 0) hc ⟨f, hv, rfl⟩ h4 ⟨[.exiting f.ctx], s1.frames c, by simp [fin, sw, State.setFrames, hcf]⟩ ?_
          rw [hf2]
          simp only [fin, sw, State.setFrames, upd_apply, hd, if_true, if_false]
          exact .entry
        case resume rest' hf2 =>
          simp [sw, State.setFrames, h6] at hf2
          rw [hfo _ h6] at hf2
          rw [hf2] at h5
          obtain rfl := wf_resume h5
          refine .raised (y := s1.nextVar) hc ⟨f, hv, rfl⟩ h4 ⟨[], s1.frames c, by simp [sw, State.setFrames, hcf]⟩ ?_
          rw [hf2]
          simp only [fin, sw, State.setFrames, upd_apply, if_true]
          exact .resume
      · refine .same ?_
        have := hfo d hd
        cases hds <;> simp [fin, sw, State.setFrames, hd, hd2, this]
  case propFn x f rest hf hv =>
    obtain ⟨h4, h5, h6⟩ := hval x f hv
    rw [hf] at h2
    obtain rfl := adj_fn h2.1
    by_cases hd : d = c
    · subst hd
      have : d ≠ f.ctx := fun h => h6 h.symm
      exact .finish hc rfl hf (by simp [fin, this]) (by simp [fin, this])
    · by_cases hd2 : d = f.ctx
      · subst hd2
        exact .exitOf hc rfl ⟨f, hv, rfl⟩ h4 (by simp [fin]) ⟨_, .inl hf⟩ (by simp [fin, h6, State.kill])
      · exact .same (by simp [fin, hd, hd2, State.kill])
  case leaveFn x f rest hf hv =>
    obtain ⟨h4, h5, h6⟩ := hval x f hv
    rw [hf] at h2
    obtain rfl := adj_fn h2.1
    by_cases hd : d = c
    · subst hd
      have : d ≠ f.ctx := fun h => h6 h.symm
      exact .finish hc rfl hf (by simp [fin, this]) (by simp [fin, this])
    · by_cases hd2 : d = f.ctx
      · subst hd2
        exact .exitOf hc rfl ⟨f, hv, rfl⟩ h4 (by simp [fin]) ⟨_, .inl hf⟩ (by simp [fin, h6, State.kill])
      · exact .same (by simp [fin, hd, hd2, State.kill])
  case propOntopUser i n k ls m rest hf =>
    rw [hf] at h2
    obtain rfl := wf_resume h2.2
    by_cases hd : d = c
    · subst hd
      refine .ontopThrow (e' := .user n) hc rfl hf (.inl ⟨n, rfl, rfl⟩) ?_
      simp [State.setFrames]
      exact .resume
    · exact .same (by simp [State.setFrames, hd])
  case propOntopForced i x f rest hf hv hr =>
    obtain ⟨h4, h5, h6⟩ := hval x f hv
    have hcf : c ≠ f.ctx := fun h => h6 h.symm
    rw [hf] at h2
    by_cases hd : d = c
    · subst hd
      cases hr
      case entry rest' hf2 =>
        simp [State.setFrames, State.kill] at hf2
        subst hf2
        obtain rfl := wf_entryJump h2.2
        refine .ontopThrow (e' := .forced x) hc rfl hf (.inr ⟨x, x, rfl, rfl⟩) ?_
        simp [fin, hcf]
        exact .entry
      case resume hf2 =>
        simp [State.setFrames, State.kill] at hf2
        subst hf2
        obtain rfl := wf_resume h2.2
        refine .ontopThrow (e' := .forced s.nextVar) hc rfl hf (.inr ⟨x, _, rfl, rfl⟩) ?_
        simp [State.setFrames, State.kill]
        exact .resume
    · cases hr
      case entry =>
        by_cases hd2 : d = f.ctx
        · subst hd2
          exact .exitOf hc rfl ⟨f, hv, rfl⟩ h4 (by simp [fin]) ⟨_, .inr ⟨_, hf⟩⟩ (by simp [fin, h6, State.kill, State.setFrames])
        · exact .same (by simp [fin, hd, hd2, State.kill, State.setFrames])
      case resume => exact .same (by simp [hd, State.kill, State.setFrames])
  case leaveOntop i x rest hf hdl =>
    rw [hf] at h2
    by_cases hd : d = c
    · subst hd
      refine .ontopRet hc rfl hf ?_
      cases hdl
      case entry hf2 =>
        simp [State.setFrames, State.kill] at hf2
        subst hf2
        obtain rfl := wf_entryJump h2.2
        simp only [State.setFrames, State.kill, upd_apply, if_true]
        exact .entry (by simp) (by simp)
      case resume hf2 =>
        simp [State.setFrames, State.kill] at hf2
        subst hf2
        obtain rfl := wf_resume h2.2
        simp only [State.setFrames, State.kill, upd_apply, if_true]
        exact .resume (by simp) (by simp)
      case dtor hf2 =>
        simp [State.setFrames, State.kill] at hf2
        subst hf2
        simp only [State.setFrames, State.kill, upd_apply, if_true]
        exact .dtor (by simp)
    · refine .same ?_
      cases hdl <;> simp [hd, State.setFrames, State.kill]
  case exitDone n rest hf hcp hs hdl =>
    rw [hf] at h2
    have hnc : n ≠ c := by rintro rfl; rw [h1] at hs; simp at hs
    by_cases hd : d = c
    · subst hd
      have hl : .dealloc n ∈ s'.log := by cases hdl <;> simp
      refine .exitDone hc rfl hf hcp hs hl ?_
      cases hdl
      case entry hf2 =>
        simp at hf2
        subst hf2
        obtain rfl := wf_entryJump h2.2
        simp only [upd_apply, if_true]
        exact .entry (by simp) (by simp)
      case resume hf2 =>
        simp at hf2
        subst hf2
        obtain rfl := wf_resume h2.2
        simp only [upd_apply, if_true]
        exact .resume (by simp) (by simp)
      case dtor hf2 =>
        simp at hf2
        subst hf2
        simp only [upd_apply, if_true]
        exact .dtor (by simp)
    · by_cases hd2 : d = n
      · subst hd2
        exact .freed (hi.ci.fTerm d hs) (by cases hdl <;> simp [hd])
      · refine .same ?_
        cases hdl <;> simp [hd, hd2]
  case leaveMain rest hf =>
    rw [hf] at h2
    have : rest = [] := by have := h2.1; simp [Adj] at this; exact this.2
    subst this
    by_cases hd : d = c
    · subst hd; exact .endMain hc rfl hf (by simp)
    · exact .same (by simp [hd])
  case spawn =>
    by_cases hd : d = s.nextCtx
    · subst hd; exact .created h3 (Or.inr (by simp))
    · exact .same (by simp [hd])
  case propCall hf =>
    rw [hf] at h2
    obtain rfl := wf_callTop h2
    by_cases hd : d = c
    · subst hd; exact .prop hc rfl hf (by simp [State.setFrames])
    · exact .same (by simp [hd, State.setFrames])
  case leaveCall hf hk =>
    by_cases hd : d = c
    · subst hd; exact .pop hc hk hf (by simp [State.setFrames])
    · exact .same (by simp [hd, State.setFrames])
  case catchUser hf =>
    by_cases hd : d = c
    · subst hd; exact .pop hc (Or.inl rfl) hf (by simp [State.setFrames])
    · exact .same (by simp [hd, State.setFrames])
  case swallow hf _ =>
    by_cases hd : d = c
    · subst hd; exact .pop hc (Or.inl rfl) hf (by simp [State.setFrames, State.kill])
    · exact .same (by simp [hd, State.setFrames, State.kill])
  case cleanup fr rest hf hr =>
    by_cases hd : d = c
    · subst hd
      obtain ⟨r, ⟨k, ls, m, h⟩ | ⟨n, h⟩⟩ := runTop_iff.1 hr
      · rw [h] at hf; exact .top hc hf .cleanup (by simp [State.setFrames, h]; exact ⟨rfl, rfl⟩)
      · rw [h] at hf; exact .exitTop hc hf .cleanup (by simp [State.setFrames, h])
    · exact .same (by simp [hd, State.setFrames])
  case call hf =>
    by_cases hd : d = c
    · subst hd; exact .top hc hf .call (by simp [State.setFrames]; exact ⟨rfl, rfl⟩)
    · exact .same (by simp [hd, State.setFrames])
  all_goals
    first
    | exact .same rfl
    | (by_cases hd : d = c
       · subst hd; exact .top hc (by assumption) .none (by simp [State.setFrames, State.kill]; exact ⟨rfl, rfl⟩)
       · exact .same (by simp [hd, State.setFrames, State.newVar, State.setVal, State.kill]))

end Verif.Fiber
