import Verif.Backends.Prim3

/-! # One step, on both sides -/

namespace Verif.Backends
open Verif.Fiber (CtxId Var Tid Kind Exc Mode UKind Frame Status Event Op CreateOutcome Fctx upd upd_apply RunTop runTop_iff DtorTop
  dtorTop_iff suspTop_iff hasMain isMain)

/-- the innermost user frame changes its locals or its mode -/
theorem R.top {a : Fiber.State} {b : UFiber.State} {c k ls m rest ls' m'} (h : R a b) (hc : b.status c ≠ .terminated)
    (hf : b.frames c = .user k ls m :: rest) (hm : ∀ x, m = .unwinding (.forced x) → m' = m) :
    R (a.setFrames c (.user k ls' m' :: rest)) (b.setFrames c (.user k ls' m' :: rest)) := by
  refine h.setFrames hc ?_ ?_ ?_ (by simp)
  · have := h.noExit c; simp only [hf] at this; simpa using this
  · intro i hi; have := h.ont c i hi; simp only [hf] at this; simpa using this
  · intro hi
    have := h.unw c hi; simp only [hf, beingUnwound_cons, isForced_iff] at this ⊢
    rcases this with ⟨x, hx⟩ | this
    · exact .inl ⟨x, (hm x hx).trans hx⟩
    · exact .inr this

/-- a user function is called -/
theorem R.push {a : Fiber.State} {b : UFiber.State} {c k} (h : R a b) (hc : b.status c ≠ .terminated) :
    R (a.setFrames c (.user k [] .normal :: b.frames c)) (b.setFrames c (.user k [] .normal :: b.frames c)) := by
  refine h.setFrames hc ?_ ?_ ?_ (by simp)
  · have := h.noExit c; simpa using this
  · intro i hi; have := h.ont c i hi; simp [this]
  · intro hi; have := h.unw c hi; simp [this]

/-- a nested user function is left -/
theorem R.pop {a : Fiber.State} {b : UFiber.State} {c k ls m rest} (h : R a b) (hc : b.status c ≠ .terminated)
    (hf : b.frames c = .user k ls m :: rest) (hm : ∀ x, m ≠ .unwinding (.forced x)) (hk : ∀ i, k ≠ .ontop i)
    (hr : ∀ rest', rest ≠ .resume :: rest') : R (a.setFrames c rest) (b.setFrames c rest) := by
  refine h.setFrames hc ?_ ?_ ?_ ?_
  · have := h.noExit c; simp only [hf] at this; simpa using this
  · intro i hi; have := h.ont c i hi; simp only [hf, inOntop_cons, isOntop_iff] at this; grind
  · intro hi; have := h.unw c hi; simp only [hf, beingUnwound_cons, isForced_iff] at this; grind
  · intro rest' h'; exact absurd h' (hr rest')

/-- the main function of a thread returns -/
theorem R.endThread {a : Fiber.State} {b : UFiber.State} {t c} (h : R a b) (hc : b.status c = .running t)
    (ho : ¬ InOntop (b.frames c)) (hu : ¬ BeingUnwound (b.frames c)) :
    R { a with cur := upd a.cur t none, status := upd a.status c .ended, frames := upd a.frames c [] }
      { b with cur := upd b.cur t none, status := upd b.status c .ended, frames := upd b.frames c [] } := by
  have hl : ∀ v, live (upd b.status c .ended) v = live b.status v := by
    apply live_congr; intro d; simp only [upd_apply]; grind
  obtain ⟨a1,a2,a3,a4,a5,a6,a7,a8,a9,a10,a11,a12,a13,a14,a15,a16,a17⟩ := h
  constructor <;> try simp only [upd_apply, hl]
  case cur => rw [a1]
  case st => intro d; have := a7 d; unfold fin at *; grind
  case fr => intro d; have := a8 d; grind
  case noExit => intro d; split <;> simp_all
  case ont => intro d; grind
  case unw => intro d; grind
  case res => intro d; grind
  all_goals assumption

/-- a thread starts -/
theorem R.spawn {a : Fiber.State} {b : UFiber.State} {sq rt fm tm} (h : R a b) (hn : b.status b.nextCtx = .absent) :
    R { a with cur := upd a.cur a.nextTid (some a.nextCtx), status := upd a.status a.nextCtx (.running a.nextTid), seq := sq,
               frames := upd a.frames a.nextCtx [.user .main [] .normal], nextCtx := a.nextCtx + 1, nextTid := a.nextTid + 1 }
      { b with cur := upd b.cur b.nextTid (some b.nextCtx), status := upd b.status b.nextCtx (.running b.nextTid), root := rt, frm := fm,
               frames := upd b.frames b.nextCtx [.user .main [] .normal], ontop := upd b.ontop b.nextCtx none, term := tm,
               unw := upd b.unw b.nextCtx false, nextCtx := b.nextCtx + 1, nextTid := b.nextTid + 1 } := by
  have hl : ∀ v, live (upd b.status b.nextCtx (.running b.nextTid)) v = live b.status v := by
    apply live_congr; intro d; simp only [upd_apply]; grind
  obtain ⟨a1,a2,a3,a4,a5,a6,a7,a8,a9,a10,a11,a12,a13,a14,a15,a16,a17⟩ := h
  constructor <;> try simp only [upd_apply, hl, ← a3, ← a5]
  case cur => rw [a1]
  case st => intro d; have := a7 d; unfold fin at *; grind
  case fr => intro d; have := a8 d; grind
  case noExit => intro d; split <;> simp_all
  case ont => intro d; grind
  case unw => intro d; grind
  case res => intro d; grind
  all_goals assumption

/-- a fiber is created -/
theorem R.create {a : Fiber.State} {b : UFiber.State} {sq rt fm tm e} (h : R a b) (hn : b.status b.nextCtx = .absent) :
    R { a with status := upd a.status a.nextCtx .suspended, seq := sq,
               frames := upd a.frames a.nextCtx [.entryJump], nextCtx := a.nextCtx + 1, log := e :: a.log }
      { b with status := upd b.status b.nextCtx .suspended, root := rt, frm := fm,
               frames := upd b.frames b.nextCtx [.entryJump], ontop := upd b.ontop b.nextCtx none, term := tm,
               unw := upd b.unw b.nextCtx false, nextCtx := b.nextCtx + 1, log := e :: b.log } := by
  have hl : ∀ v, live (upd b.status b.nextCtx .suspended) v = live b.status v := by
    apply live_congr; intro d; simp only [upd_apply]; grind
  obtain ⟨a1,a2,a3,a4,a5,a6,a7,a8,a9,a10,a11,a12,a13,a14,a15,a16,a17⟩ := h
  constructor <;> try simp only [upd_apply, hl, ← a3]
  case st => intro d; have := a7 d; unfold fin at *; grind
  case fr => intro d; have := a8 d; grind
  case log => simp only [List.filter_cons, a10]
  case noExit => intro d; split <;> simp_all
  case ont => intro d; grind
  case unw => intro d; grind
  case res => intro d; grind
  all_goals assumption

/-- What is known before a step. -/
structure Env (a : Fiber.State) (b : UFiber.State) (t : Tid) (c : CtxId) : Prop where
  r : R a b
  ia : Fiber.Inv a
  ib : UFiber.Inv b
  il : UFiber.LInv b
  cur : a.cur t = some c

namespace Env
variable {a : Fiber.State} {b : UFiber.State} {t : Tid} {c : CtxId}

theorem curB (h : Env a b t c) : b.cur t = some c := by rw [h.r.cur]; exact h.cur
theorem runB (h : Env a b t c) : b.status c = .running t := (h.ib.ci.curRun t c).1 h.curB
theorem nt (h : Env a b t c) : b.status c ≠ .terminated := by simp [h.runB]
theorem fr (h : Env a b t c) : a.frames c = b.frames c := h.r.frames_eq h.nt
theorem wf (h : Env a b t c) : UFiber.WF (b.frames c) := h.ib.ci.wf c h.nt

theorem top (h : Env a b t c) : ∃ k ls m rest, b.frames c = .user k ls m :: rest := by
  obtain ⟨rest, ⟨k, ls, m, hf⟩ | ⟨n, hf⟩⟩ := runTop_iff.1 (h.ib.ci.runTop c t h.runB (by simp))
  · exact ⟨k, ls, m, rest, hf⟩
  · exact absurd (by simp [hf]) (h.r.noExit c n)

/-- what a suspended context that is not waiting in a destructor looks like -/
theorem shape (h : Env a b t c) {f : Fctx} {x : Var} (hx : a.val x = some f) (hk : ∀ c, a.kind x ≠ .exc c) :
    a.status f.ctx = .suspended ∧ a.seq f.ctx = f.seq ∧
      (a.frames f.ctx = [.entryJump] ∨ ∃ k ls rest, a.frames f.ctx = .resume :: .user k ls .normal :: rest) := by
  obtain ⟨h1, h2⟩ := h.ia.vi.valid x f hx
  refine ⟨h1, h2, ?_⟩
  have hw := h.ia.ci.wf f.ctx (by simp [h1])
  have hd := h.ia.vi.nonExc x f hk hx
  obtain ⟨rest, hf | hf | ⟨v, hf⟩⟩ := suspTop_iff.1 (h.ia.ci.susp f.ctx h1)
  · left
    rw [hf] at hw ⊢
    cases rest <;> simp_all [Fiber.WF, Fiber.Adj]
  · right
    rw [hf] at hw ⊢
    cases rest with
    | nil => simp [Fiber.WF, Fiber.Adj] at hw
    | cons g gs =>
      cases g
      case user k ls m => cases m <;> simp_all [Fiber.WF, Fiber.Adj]
      all_goals simp [Fiber.WF, Fiber.Adj] at hw
  · exact absurd (dtorTop_iff.2 ⟨rest, hf⟩) (hd v)

theorem ptr (h : Env a b t c) {w : CtxId} {x : Var} (hx : b.val x = some w) : b.status w = .suspended ∨ b.status w = .terminated :=
  (h.ib.vi.valid x w hx).1

theorem accEq (h : Env a b t c) (x : Var) : b.accessible x = a.accessible x := by
  simp only [Fiber.State.accessible, UFiber.State.accessible, h.r.kind]; rfl

theorem accK {x : Var} (h : a.accessible x = true) : ∀ c, a.kind x ≠ .exc c := by
  intro c hc; simp [Fiber.State.accessible, hc] at h

theorem termRoot (h : Env a b t c) {w : CtxId} (hw : b.status w = .terminated) : b.root w = false := by
  cases hr : b.root w with
  | false => rfl
  | true =>
    have := (h.il.main w).2 ⟨hr, by simp [hw]⟩
    rw [h.ib.ci.fTerm w hw] at this
    simp [hasMain, isMain] at this

theorem allocRoot (h : Env a b t c) {w : CtxId} (hw : .alloc w ∈ a.log) : b.root w = false := by
  have h1 : Event.alloc w ∈ a.log.filter notRelease := by simp [hw, notRelease]
  rw [h.r.log] at h1
  exact ((h.il.alloc w).1 (List.mem_filter.1 h1).1).2

theorem termB (h : Env a b t c) {w : CtxId} {x : Var} (hx : b.val x = some w) : b.term w = true ↔ b.status w = .terminated := by
  rw [h.ib.ci.termI w]
  rcases h.ptr hx with hs | hs <;> simp [hs]

/-- the destructor of an object: `a'`, `b'` are the states after the value has been taken out of object `x` -/
theorem destroy {a' : Fiber.State} {b' : UFiber.State} {x : Var} (h : Env a b t c) (hR : R a' b') (hk : ∀ c, a.kind x ≠ .exc c) (hd : MayDestroy a x)
    (hcur : a'.cur = a.cur) (hst : a'.status = a.status) (hsq : a'.seq = a.seq) (hfr : ∀ d, d ≠ c → a'.frames d = a.frames d)
    (hst' : b'.status = b.status) (hfr' : ∀ d, d ≠ c → b'.frames d = b.frames d) (hf : ∃ k ls m rest, b'.frames c = .user k ls m :: rest)
    (hrt : b'.root = b.root) (htm : b'.term = b.term) (hvb : ∀ w y, b.val x = some w → b'.val y ≠ some w) :
    Match (fSettle t (match a.val x with | none => .ok a' | some f => a'.destroyFctx t c f))
      (uSettle t (match b.val x with | none => .ok b' | some w => b'.destroyPtr t c w)) := by
  refine destroy_match hR (by rw [hcur]; exact h.cur) (by rw [hst']; exact h.runB) ?_ ?_ (by rw [hst']; exact h.r.val x) ?_ ?_
  · intro w hw
    rw [hst'] at hw
    rw [hfr' w (by rintro rfl; rw [h.runB] at hw; simp at hw)]
    exact h.ib.ci.fTerm w hw
  · intro v rest; obtain ⟨k, ls, m, rest', hf⟩ := hf; rw [hf]; simp
  · intro f hx
    obtain ⟨g1, g2, g3⟩ := h.shape hx hk
    have hne : f.ctx ≠ c := by
      intro hc; rw [hc, h.r.status_eq h.nt, h.runB] at g1; simp at g1
    rw [hst, hsq, hfr _ hne]
    refine ⟨g1, g2, ?_⟩
    unfold MayDestroy at hd
    simp only [hx] at hd
    rcases g3 with g3 | g3
    · exact absurd g3 hd.2
    · exact g3
  · intro w hx
    rw [hst', hrt, htm]
    refine ⟨h.ptr hx, ?_, h.termB hx, fun y => hvb w y hx⟩
    rcases h.ptr hx with hs | hs
    · have hv := h.r.val x
      rw [hx] at hv
      cases ha : a.val x with
      | none => simp [ha, live, hs] at hv
      | some f =>
        have hfw : f.ctx = w := by simpa [ha, live, hs] using hv
        unfold MayDestroy at hd
        simp only [ha] at hd
        rw [hfw] at hd
        exact h.allocRoot hd.1
    · exact h.termRoot hs

theorem destroyVar (h : Env a b t c) {k ls m rest x ls'} (hf : b.frames c = .user k ls m :: rest) (hk : ∀ c, a.kind x ≠ .exc c) (hd : MayDestroy a x) :
    Match (fSettle t ((a.setFrames c (.user k ls' m :: rest)).destroyVar t c x))
      (uSettle t ((b.setFrames c (.user k ls' m :: rest)).destroyVar t c x)) := by
  have r1 := ((h.r.top (ls' := ls') (m' := m) h.nt hf (fun _ _ => rfl)).kill (x := x))
  have := h.destroy (x := x) r1 hk hd rfl rfl rfl (fun d hd => by simp [Fiber.State.kill, Fiber.State.setFrames, hd]) rfl
    (fun d hd => by simp [UFiber.State.kill, UFiber.State.setFrames, hd]) ⟨k, ls', m, rest, by simp [UFiber.State.kill, UFiber.State.setFrames]⟩ rfl rfl
    (fun w y hx => by
      simp only [UFiber.State.kill, UFiber.State.setFrames, upd_apply]
      split
      · simp
      · rename_i hne; intro hy; exact hne (h.ib.vi.inj y x w hy hx))
  simp only [Fiber.State.destroyVar, UFiber.State.destroyVar]
  exact this

end Env

end Verif.Backends
