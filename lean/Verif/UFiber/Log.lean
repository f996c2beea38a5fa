import Verif.UFiber.Eff
import Verif.Fiber.Log

/-! # Reachable states of the ucontext machine: the invariant holds; the event log -/

namespace Verif.UFiber
open Verif.Fiber (CtxId Var Tid Kind Exc Mode UKind Frame Status Event Op CreateOutcome upd upd_apply RunTop SuspTop
  DestroyedAfterDealloc DeallocAfterAlloc isMain hasMain hasMain_nil hasMain_cons exits exits_cons exits_nil)
open State

theorem Arr.early {s s' : State} {w} (h : Arr s w s') : s'.early = s.early := by cases h <;> rfl

theorem capture_early (s : State) (n : CtxId) (xs : List Var) : (s.capture n xs).early = s.early := by
  induction xs generalizing s with
  | nil => rfl
  | cons x xs ih => simp only [State.capture]; rw [ih]; rfl

theorem eff_early {s s' : State} {t c op} (h : Eff s t c op s') (he : s'.early = false) : s.early = false := by
  cases h with
  | resume _ _ _ _ hd => rw [hd.early] at he; exact he
  | resumeWith _ _ _ _ hd => rw [hd.early] at he; exact he
  | propFn _ hd => obtain ⟨_, _, ha⟩ := hd; rw [ha.early] at he; exact he
  | leaveFn _ hd => obtain ⟨_, _, ha⟩ := hd; rw [ha.early] at he; exact he
  | create _ _ h2 => subst h2; simpa [capture_early] using he
  | destroy h1 h2 =>
    cases h2 with
    | root => cases h1 <;> exact he
    | term => cases h1 <;> exact he
    | unwind _ _ _ ha =>
      rw [ha.early] at he
      simp only [sw, Bool.or_eq_false_iff] at he
      cases h1 <;> exact he.1
  | _ => exact he

theorem step_early {s s' : State} {t op} (h : step s t op = .ok s') (he : s'.early = false) : s.early = false := by
  obtain ⟨c, _, h⟩ := step_eff h
  exact eff_early h he

/-- The invariant holds in every reachable state, as long as no never started fiber was destroyed. -/
theorem reachable_inv {s : State} (h : Reachable s) (he : s.early = false) : Inv s := by
  induction h with
  | init => exact inv_init
  | @step s s' t op hr hs ih =>
    have := step_safe (t := t) (op := op) (ih (step_early hs he))
    rw [hs] at this
    exact this he

/-- the event log and the fields `root`, `ontop`, `unw` -/
structure LInv (s : State) : Prop where
  freed : ∀ c, .dealloc c ∈ s.log ↔ s.status c = .freed
  freed1 : ∀ c, s.log.count (.dealloc c) ≤ 1
  enter : ∀ c, .enter c ∈ s.log ↔ s.status c ≠ .absent ∧ s.root c = false ∧ s.frames c ≠ [.entryJump]
  enter1 : ∀ c, s.log.count (.enter c) ≤ 1
  alloc : ∀ c, .alloc c ∈ s.log ↔ s.status c ≠ .absent ∧ s.root c = false
  alloc1 : ∀ c, s.log.count (.alloc c) ≤ 1
  main : ∀ c, hasMain (s.frames c) = true ↔ s.root c = true ∧ s.status c ≠ .ended
  ended : ∀ c, s.status c = .ended → s.root c = true
  rootA : ∀ c, s.root c = true → s.status c ≠ .absent
  ids : ∀ i c, .ontop i c ∈ s.log → i < s.nextId
  ids2 : ∀ i c, s.ontop c = some i → i < s.nextId
  order : DestroyedAfterDealloc s.log
  order2 : DeallocAfterAlloc s.log
  unw1 : ∀ c, s.unw c = true → s.root c = false ∧ s.status c ≠ .absent

/-- only stacks changed, keeping the main frames and the unstarted fibers -/
theorem LInv.frames {s s' : State} (h : LInv s) (hl : s'.log = s.log) (hi : s'.nextId = s.nextId)
    (hst : s'.status = s.status) (hr : s'.root = s.root) (ho : s'.ontop = s.ontop) (hu : s'.unw = s.unw)
    (hm : ∀ c, hasMain (s'.frames c) = hasMain (s.frames c))
    (he : ∀ c, s'.frames c = [.entryJump] ↔ s.frames c = [.entryJump]) : LInv s' := by
  obtain ⟨a1,a2,a3,a4,a5,a6,a7,a8,a9,a10,a11,a12,a13,a14⟩ := h
  constructor <;> simp only [hl, hi, hst, hr, ho, hu, hm]
  case enter => intro c; rw [a3, Ne, Ne, Ne, he]
  all_goals assumption

theorem LInv.setFrames {s : State} {c fs} (h : LInv s) (hm : hasMain fs = hasMain (s.frames c))
    (he : fs = [.entryJump] ↔ s.frames c = [.entryJump]) : LInv (s.setFrames c fs) := by
  refine h.frames rfl rfl rfl rfl rfl rfl ?_ ?_ <;> intro d <;> simp only [setFrames_frames, upd_apply] <;> grind

theorem LInv.same {s s' : State} (h : LInv s) (hl : s'.log = s.log) (hi : s'.nextId = s.nextId)
    (hst : s'.status = s.status) (hr : s'.root = s.root) (ho : s'.ontop = s.ontop) (hu : s'.unw = s.unw)
    (hf : s'.frames = s.frames) : LInv s' := h.frames hl hi hst hr ho hu (by simp [hf]) (by simp [hf])

theorem LInv.sw {s : State} {t c w lv} (h : LInv s) (hc : s.status c = .running t) (hw : s.status w = .suspended)
    (hl : lv = .suspended ∨ lv = .terminated) : LInv (UFiber.sw s t c w lv) := by
  obtain ⟨a1,a2,a3,a4,a5,a6,a7,a8,a9,a10,a11,a12,a13,a14⟩ := h
  have hcw : c ≠ w := by rintro rfl; simp [hc] at hw
  constructor <;> simp only [UFiber.sw, upd_apply] <;> (try assumption) <;> intro d
  · have := a1 d; grind
  · have := a3 d; grind
  · have := a5 d; grind
  · have := a7 d; grind
  · have := a8 d; grind
  · have := a9 d; grind
  · have := a14 d; grind

theorem LInv.arr {s s' : State} {w t} (h : LInv s) (hs : s.status w = .running t) (hw : WF (s.frames w)) (ha : Arr s w s') :
    LInv s' := by
  have hne : s.status w ≠ .absent := by simp [hs]
  have hnend : s.status w ≠ .ended := by simp [hs]
  cases ha with
  | @entry rest hf =>
    rw [hf] at hw
    obtain rfl := adj_entryJump_inv hw.1
    obtain ⟨a1,a2,a3,a4,a5,a6,a7,a8,a9,a10,a11,a12,a13,a14⟩ := h
    have hr : s.root w = false := by
      have := a7 w; rw [hf] at this; simp [isMain] at this; grind
    have hne : .enter w ∉ s.log := by rw [a3]; simp [hf]
    constructor <;> simp only [upd_apply] <;> (try assumption)
    case freed => intro d; have := a1 d; grind
    case enter => intro d; have := a3 d; grind
    case enter1 => intro d; have := a4 d; grind [List.count_eq_zero]
    case alloc => intro d; have := a5 d; grind
    case main =>
      intro d; have := a7 d
      by_cases hd : d = w
      · subst hd; simp [isMain, hr]
      · simpa [hd] using this
    case ids => intro i d; have := a10 i d; grind
  | @unwind k ls m rest hf hu =>
    refine h.frames rfl rfl rfl rfl rfl rfl ?_ ?_ <;> intro d <;> simp only [upd_apply] <;> by_cases hd : d = w
    · subst hd; cases k <;> simp [hf, isMain]
    · simp [hd]
    · subst hd; simp [hf]
    · simp [hd]
  | @ret k ls m rest hf hu ho =>
    refine h.frames rfl rfl rfl rfl rfl rfl ?_ ?_ <;> intro d <;> simp only [upd_apply] <;> by_cases hd : d = w
    · subst hd; cases k <;> simp [hf, isMain]
    · simp [hd]
    · subst hd; simp [hf]
    · simp [hd]
  | @dtor v rest hf hs ht =>
    refine h.frames rfl rfl rfl rfl rfl rfl ?_ ?_ <;> intro d <;> simp only [upd_apply] <;> by_cases hd : d = w
    · subst hd; simp [hf, isMain]
    · simp [hd]
    · subst hd; simp [hf]
    · simp [hd]
  | @ontop k ls m rest i hf hu ho =>
    have hii := h.ids2 i w ho
    have h1 : LInv (s.setFrames w (.user (.ontop i) [s.nextVar] .normal :: .resume :: .user k ls m :: rest)) := by
      refine h.setFrames ?_ ?_ <;> simp [hf, isMain]
    obtain ⟨a1,a2,a3,a4,a5,a6,a7,a8,a9,a10,a11,a12,a13,a14⟩ := h1
    simp only [setFrames_log, setFrames_frames, setFrames_status, setFrames_root, setFrames_ontop, setFrames_nextId, setFrames_unw] at *
    constructor <;> (try assumption)
    case freed => intro d; have := a1 d; grind
    case enter => intro d; have := a3 d; grind
    case alloc => intro d; have := a5 d; grind
    case ids => intro j d hj; have := a10 j d; grind


theorem hasMain_user {k ls m ls' m'} : isMain (.user k ls m) = isMain (.user k ls' m') := by cases k <;> rfl

theorem LInv.preDst {s s1 : State} {c v op} (h : LInv s) (hp : PreDst s c v op s1) : LInv s1 := by
  cases hp with
  | moveAssign => exact h.same rfl rfl rfl rfl rfl rfl rfl
  | dropHeap => exact h.same rfl rfl rfl rfl rfl rfl rfl
  | exit => exact h.same rfl rfl rfl rfl rfl rfl rfl
  | @dropLoc k ls rest x hf hx hv =>
    exact LInv.same (h.setFrames (c := c) (fs := .user k (ls.erase x) .normal :: rest)
      (by simp only [hf, hasMain_cons]; rw [hasMain_user]) (by simp [hf])) rfl rfl rfl rfl rfl rfl rfl
  | @tick k ls m rest x hf hm hv =>
    exact LInv.same (h.setFrames (c := c) (fs := .user k ls m :: rest)
      (by simp only [hf, hasMain_cons]; rw [hasMain_user]) (by simp [hf])) rfl rfl rfl rfl rfl rfl rfl

theorem PreDst.wf {s s1 : State} {c v op} (hi : Inv s) (hp : PreDst s c v op s1) :
    s1.status = s.status ∧ s1.root = s.root ∧ s1.term = s.term ∧ s1.nextCtx = s.nextCtx ∧ s1.cur = s.cur ∧
    (∀ d, d ≠ c → s1.frames d = s.frames d) ∧ (s.status v = .suspended ∨ s.status v = .terminated) ∧ RunTop (s1.frames c) ∧
    s1.early = s.early ∧ s1.log = s.log ∧ s1.nextId = s.nextId ∧ s1.ontop = s.ontop ∧ s1.unw = s.unw ∧ s1.frm = s.frm := by
  cases hp with
  | moveAssign hf _ _ _ hv =>
    exact ⟨rfl, rfl, rfl, rfl, rfl, fun _ _ => rfl, (hi.vi.valid _ _ hv).1, by simp [hf, RunTop], rfl, rfl, rfl, rfl, rfl, rfl⟩
  | dropHeap hf _ hv =>
    exact ⟨rfl, rfl, rfl, rfl, rfl, fun _ _ => rfl, (hi.vi.valid _ _ hv).1, by simp [hf, RunTop], rfl, rfl, rfl, rfl, rfl, rfl⟩
  | exit hf _ hv =>
    exact ⟨rfl, rfl, rfl, rfl, rfl, fun _ _ => rfl, (hi.vi.valid _ _ hv).1, by simp [hf, RunTop], rfl, rfl, rfl, rfl, rfl, rfl⟩
  | dropLoc hf _ hv =>
    exact ⟨rfl, rfl, rfl, rfl, rfl, fun d hd => by simp [upd_apply, hd], (hi.vi.valid _ _ hv).1, by simp [RunTop], rfl, rfl, rfl, rfl, rfl, rfl⟩
  | tick hf _ hv =>
    exact ⟨rfl, rfl, rfl, rfl, rfl, fun d hd => by simp [upd_apply, hd], (hi.vi.valid _ _ hv).1, by simp [RunTop], rfl, rfl, rfl, rfl, rfl, rfl⟩

theorem hasMain_dtor {v fs} : hasMain (.dtor v :: fs) = hasMain fs := by simp [isMain]
theorem hasMain_exiting {v fs} : hasMain (.exiting v :: fs) = hasMain fs := by simp [isMain]
theorem hasMain_resume {fs} : hasMain (.resume :: fs) = hasMain fs := by simp [isMain]

theorem LInv.dst {s s1 s' : State} {t c v op} (hi : Inv s) (hcur : s.cur t = some c) (h : LInv s) (hp : PreDst s c v op s1)
    (hd : Dst s1 t c v s') : LInv s' := by
  have hrun := (hi.ci.curRun t c).1 hcur
  have h1 := h.preDst hp
  obtain ⟨e1, e2, e3, e4, e5, e6, e7, e8, _⟩ := hp.wf hi
  have hne : s1.frames c ≠ [.entryJump] := by intro hh; rw [hh] at e8; simp [RunTop] at e8
  cases hd with
  | root hr => exact h1.same rfl rfl rfl rfl rfl rfl rfl
  | term hr ht hs =>
    refine h1.setFrames hasMain_exiting ?_
    simp [hne]
  | unwind hr ht hs ha =>
    have hvc : v ≠ c := by rintro rfl; rw [e1, hrun] at hs; simp at hs
    refine LInv.arr (t := t) ?_ ?_ ?_ ha
    · refine LInv.sw ?_ ?_ ?_ (Or.inl rfl)
      · have h2 := h1.setFrames (c := c) (fs := .dtor v :: s1.frames c) hasMain_dtor (by simp [hne])
        obtain ⟨a1,a2,a3,a4,a5,a6,a7,a8,a9,a10,a11,a12,a13,a14⟩ := h2
        constructor <;> (try assumption)
        intro d; have := a14 d
        simp only [upd_apply]; simp only [setFrames_status, setFrames_root, setFrames_unw] at this
        split
        · rename_i hdv; subst hdv; intro _; exact ⟨hr, by simp [hs]⟩
        · exact this
      · simp [e1, hrun]
      · exact hs
    · simp [UFiber.sw, upd_apply]
    · simp only [UFiber.sw, upd_apply, hvc, if_false]
      rw [e6 v hvc]
      exact hi.ci.wf v (by rw [← e1, hs]; simp)

theorem LInv.fin {s s' : State} {t c p} (h : LInv s) (hrun : s.status c = .running t) (hr : s.root c = false) (hne : s.frames c ≠ [.entryJump])
    (hwf : ∀ w, p = some w → s.status w = .suspended → WF (s.frames w)) (hd : Fin s t c p s') : LInv s' := by
  obtain ⟨hp, hs, ha⟩ := hd
  rename_i w
  have hwc : w ≠ c := by rintro rfl; rw [hrun] at hs; simp at hs
  have hm : hasMain (s.frames c) = false := by
    have := h.main c; grind
  refine LInv.arr (t := t) ?_ ?_ ?_ ha
  · refine LInv.sw ?_ hrun hs (Or.inr rfl)
    have h2 := h.setFrames (c := c) (fs := [.exitJump]) (by simp [hm, isMain]) (by simp [hne])
    obtain ⟨a1,a2,a3,a4,a5,a6,a7,a8,a9,a10,a11,a12,a13,a14⟩ := h2
    constructor <;> (try assumption)
    · intro i d; have := a11 i d; simp only [upd_apply, setFrames_ontop, setFrames_nextId] at *; grind
    · intro d; have := a14 d; simp only [upd_apply, setFrames_unw, setFrames_root, setFrames_status] at *; grind
  · simp [UFiber.sw, upd_apply]
  · simp only [UFiber.sw, upd_apply, hwc, if_false]
    exact hwf w hp hs

theorem capture_keep (s : State) (n : CtxId) (xs : List Var) :
    (s.capture n xs).status = s.status ∧ (s.capture n xs).frames = s.frames ∧ (s.capture n xs).log = s.log ∧
    (s.capture n xs).nextCtx = s.nextCtx ∧ (s.capture n xs).nextId = s.nextId ∧ (s.capture n xs).cur = s.cur ∧
    (s.capture n xs).root = s.root ∧ (s.capture n xs).ontop = s.ontop ∧ (s.capture n xs).unw = s.unw ∧
    (s.capture n xs).term = s.term ∧ (s.capture n xs).frm = s.frm ∧ (s.capture n xs).lost = s.lost := by
  induction xs generalizing s with
  | nil => simp [State.capture]
  | cons x xs ih => simp only [State.capture]; have := ih { ((s.setVal x none).newVar (.cap n) (s.val x)) with
      caps := upd ((s.setVal x none).newVar (.cap n) (s.val x)).caps n (s.nextVar :: ((s.setVal x none).newVar (.cap n) (s.val x)).caps n) }; simpa using this

theorem eff_log {s s' : State} {t c op} (hi : Inv s) (h : LInv s) (hcur : s.cur t = some c) (he : Eff s t c op s') : LInv s' := by
  have hrun := (hi.ci.curRun t c).1 hcur
  have hw := hi.ci.wf c (by simp [hrun])
  have hwf : ∀ w, s.status w = .suspended → WF (s.frames w) := fun w hs => hi.ci.wf w (by simp [hs])
  have hset : ∀ {k ls m rest ls' m'}, s.frames c = .user k ls m :: rest → LInv (s.setFrames c (.user k ls' m' :: rest)) := by
    intro k ls m rest ls' m' hf
    exact h.setFrames (by simp only [hf, hasMain_cons]; rw [hasMain_user]) (by simp [hf])
  have hrest : ∀ {k ls m rest}, s.frames c = .user k ls m :: rest → (k = .call ∨ k = .cleanup) → LInv (s.setFrames c rest) := by
    intro k ls m rest hf hk
    rw [hf] at hw
    refine h.setFrames (by rcases hk with rfl | rfl <;> simp [hf, isMain]) ?_
    have : rest ≠ [.entryJump] := by
      rintro rfl; have := hw.1; rcases hk with rfl | rfl <;> simp [Adj] at this
    simp [hf, this]
  have hrt : ∀ {k ls m rest}, s.frames c = .user k ls m :: rest → k = .fn → s.root c = false := by
    rintro k ls m rest hf rfl
    rw [hf] at hw
    have hadj := adj_fn hw.1
    have := h.main c; rw [hf, hadj] at this; simp [isMain, hrun] at this; exact this
  cases he with
  | newHeap hf => exact h.same rfl rfl rfl rfl rfl rfl rfl
  | newLocal hf => exact LInv.same (hset hf) rfl rfl rfl rfl rfl rfl rfl
  | moveHeap hf => exact h.same rfl rfl rfl rfl rfl rfl rfl
  | moveLocal hf => exact LInv.same (hset hf) rfl rfl rfl rfl rfl rfl rfl
  | moveSelf hf => exact h
  | moveAssign hf => exact h.same rfl rfl rfl rfl rfl rfl rfl
  | swap hf => exact h.same rfl rfl rfl rfl rfl rfl rfl
  | dropLoc hf => exact LInv.same (hset hf) rfl rfl rfl rfl rfl rfl rfl
  | dropHeap hf => exact h.same rfl rfl rfl rfl rfl rfl rfl
  | @create k ls rest xs hf ha s2 h2 =>
    have hc := capture_keep ({ s with nextCtx := s.nextCtx + 1 }.addLog (.alloc s.nextCtx)) s.nextCtx xs
    rw [← h2] at hc
    obtain ⟨c1, c2, c3, c4, c5, c6, c7, c8, c9, c10, c11, c12⟩ := hc
    simp only [addLog_status, addLog_frames, addLog_log, addLog_root, addLog_ontop, addLog_unw, addLog_nextId] at c1 c2 c3 c5 c7 c8 c9
    have hn : s.status s.nextCtx = .absent := (hi.ci.absent _).2 (Nat.le_refl _)
    have hcn : c ≠ s.nextCtx := by intro hh; rw [← hh, hrun] at hn; simp at hn
    obtain ⟨a1,a2,a3,a4,a5,a6,a7,a8,a9,a10,a11,a12,a13,a14⟩ := h
    have hna : Event.alloc s.nextCtx ∉ s.log := by rw [a5]; simp [hn]
    have hmain : ∀ ls', hasMain (.user k ls' .normal :: rest) = hasMain (s.frames c) := by
      intro ls'; simp only [hf, hasMain_cons]; rw [hasMain_user]
    constructor <;> simp only [c1, c2, c3, c5, c7, c8, c9, upd_apply]
    case order => exact a12
    case order2 => exact a13
    case freed => intro d; have := a1 d; grind
    case freed1 => intro d; have := a2 d; grind
    case enter => intro d; have := a3 d; grind
    case enter1 => intro d; have := a4 d; grind
    case alloc => intro d; have := a5 d; grind
    case alloc1 => intro d; have := a6 d; grind [List.count_eq_zero]
    case main =>
      intro d; have := a7 d
      by_cases hd : d = s.nextCtx
      · subst hd; simp [Ne.symm hcn, isMain]
      · by_cases hdc : d = c
        · subst hdc; simpa [hd, hmain] using this
        · simpa [hd, hdc] using this
    case ended => intro d; have := a8 d; grind
    case rootA => intro d; have := a9 d; grind
    case ids => intro i d; have := a10 i d; grind
    case ids2 => intro i d; have := a11 i d; grind
    case unw1 => intro d; have := a14 d; grind
  | createThrows hf => exact hset hf
  | @resume k ls rest x w s' hf ha hv hs hd =>
    have hwc : w ≠ c := by rintro rfl; rw [hrun] at hs; simp at hs
    refine LInv.arr (t := t) (LInv.sw ?_ ?_ ?_ (Or.inl rfl)) ?_ ?_ hd
    rotate_left
    · exact hrun
    · exact hs
    rotate_right 1
    · refine LInv.same (h.setFrames (c := c) (fs := .resume :: s.frames c) hasMain_resume ?_) rfl rfl rfl rfl rfl rfl rfl
      simp [hf]
    · simp [UFiber.sw, upd_apply]
    · simp only [UFiber.sw, upd_apply, setFrames_frames, hwc, if_false]; exact hwf w hs
  | @resumeWith k ls rest x w s' hf ha hv hs hd =>
    have hwc : w ≠ c := by rintro rfl; rw [hrun] at hs; simp at hs
    refine LInv.arr (t := t) (LInv.sw ?_ ?_ ?_ (Or.inl rfl)) ?_ ?_ hd
    rotate_left
    · exact hrun
    · exact hs
    rotate_right 1
    · have h2 := h.setFrames (c := c) (fs := .resume :: s.frames c) hasMain_resume (by simp [hf])
      obtain ⟨a1,a2,a3,a4,a5,a6,a7,a8,a9,a10,a11,a12,a13,a14⟩ := h2
      constructor <;> (try assumption)
      case ids => intro i d; have := a10 i d; simp only [setFrames_log, setFrames_nextId] at *; grind
      case ids2 => intro i d; have := a11 i d; simp only [upd_apply, setFrames_ontop, setFrames_nextId] at *; grind
    · simp [UFiber.sw, upd_apply]
    · simp only [UFiber.sw, upd_apply, hwc, if_false]; exact hwf w hs
  | @call k ls rest hf =>
    refine h.setFrames ?_ (by simp [hf]); simp only [hf, hasMain_cons]; simp [isMain]
  | @cleanup fr rest hf hr =>
    refine h.setFrames ?_ ?_
    · simp only [hf, hasMain_cons]; simp [isMain]
    · have : fr :: rest ≠ [.entryJump] := by intro hh; rw [hh] at hr; simp [RunTop] at hr
      rw [hf]; simp [this]
  | ret hf => exact hset hf
  | retHandle hf => exact LInv.same (hset hf) rfl rfl rfl rfl rfl rfl rfl
  | throw hf => exact hset hf
  | @spawn k ls rest hf =>
    have hn : s.status s.nextCtx = .absent := (hi.ci.absent _).2 (Nat.le_refl _)
    obtain ⟨a1,a2,a3,a4,a5,a6,a7,a8,a9,a10,a11,a12,a13,a14⟩ := h
    constructor <;> simp only [upd_apply] <;> (try assumption)
    case freed => intro d; have := a1 d; grind
    case enter => intro d; have := a3 d; grind
    case alloc => intro d; have := a5 d; grind
    case main =>
      intro d; have := a7 d
      by_cases hd : d = s.nextCtx
      · subst hd; simp [isMain]
      · simpa [hd] using this
    case ended => intro d; have := a8 d; grind
    case rootA => intro d; have := a9 d; grind
    case ids2 => intro i d; have := a11 i d; grind
    case unw1 => intro d; have := a14 d; grind
  | destroy h1 h2 => exact h.dst hi hcur h1 h2
  | tickLocal hf => exact LInv.same (hset hf) rfl rfl rfl rfl rfl rfl rfl
  | exitCap hf => exact h.same rfl rfl rfl rfl rfl rfl rfl
  | catchUser hf => exact hrest hf (Or.inl rfl)
  | swallow hf => exact LInv.same (hrest hf (Or.inl rfl)) rfl rfl rfl rfl rfl rfl rfl
  | swallowNone hf => exact LInv.same (hrest hf (Or.inl rfl)) rfl rfl rfl rfl rfl rfl rfl
  | @propCall e k' ls' m' rest hf =>
    refine h.setFrames ?_ (by simp [hf])
    cases k' <;> simp [hf, isMain]
  | propFn hf hd =>
    exact LInv.fin (s := s.kill _) (LInv.same h rfl rfl rfl rfl rfl rfl rfl) hrun (hrt hf rfl) (by simp [hf])
      (fun w _ hs => hwf w hs) hd
  | @propOntop i e k ls m rest hf =>
    refine h.setFrames ?_ (by simp [hf])
    cases k <;> simp [hf, isMain]
  | @leaveMain rest hf =>
    rw [hf] at hw
    have hr : rest = [] := hw.1.2
    subst hr
    have hroot : s.root c = true := ((h.main c).1 (by simp [hf, isMain])).1
    obtain ⟨a1,a2,a3,a4,a5,a6,a7,a8,a9,a10,a11,a12,a13,a14⟩ := h
    constructor <;> simp only [upd_apply] <;> (try assumption)
    case freed => intro d; have := a1 d; grind
    case enter => intro d; have := a3 d; grind
    case alloc => intro d; have := a5 d; grind
    case main =>
      intro d; have := a7 d
      by_cases hd : d = c
      · subst hd; simp
      · simpa [hd] using this
    case ended => intro d; have := a8 d; grind
    case rootA => intro d; have := a9 d; grind
    case unw1 => intro d; have := a14 d; grind
  | leaveCall hf hk => exact hrest hf hk
  | leaveFn hf hd =>
    exact LInv.fin (s := s.kill _) (LInv.same h rfl rfl rfl rfl rfl rfl rfl) hrun (hrt hf rfl) (by simp [hf])
      (fun w _ hs => hwf w hs) hd
  | @leaveOntop i x k ls m rest hf =>
    have h2 : LInv (s.setFrames c (.user k (s.nextVar :: ls) m :: rest)) := by
      refine h.setFrames ?_ (by simp [hf])
      cases k <;> simp [hf, isMain]
    obtain ⟨a1,a2,a3,a4,a5,a6,a7,a8,a9,a10,a11,a12,a13,a14⟩ := h2
    constructor <;> (try assumption)
    intro i d; have := a11 i d; simp only [upd_apply, setFrames_ontop, setFrames_nextId] at *; grind
  | @exitDtor n v rest hf hc hs =>
    rw [hf] at hw
    have hnv : n = v := by have := hw.1; simpa [Adj] using this
    subst hnv
    have hnc : n ≠ c := by rintro rfl; simp [hrun] at hs
    have hfn := hi.ci.fTerm n hs
    have hmc : hasMain rest = hasMain (s.frames c) := by simp [hf, isMain]
    have hrn : rest ≠ [.entryJump] := by
      rintro rfl; have := hw.2.1; simp [Adj] at this
    have hr : s.root n = false := by have := h.main n; rw [hfn] at this; simp [isMain, hs] at this; exact this
    obtain ⟨a1,a2,a3,a4,a5,a6,a7,a8,a9,a10,a11,a12,a13,a14⟩ := h
    have hal : Event.alloc n ∈ s.log := by rw [a5]; simp [hs, hr]
    constructor <;> simp only [upd_apply]
    case order => exact ⟨by simp, a12⟩
    case order2 => exact ⟨hal, a13⟩
    case freed => intro d; have := a1 d; grind
    case freed1 => intro d; have := a1 d; have := a2 d; grind [List.count_eq_zero]
    case enter => intro d; have := a3 d; grind
    case enter1 => intro d; have := a4 d; grind
    case alloc => intro d; have := a5 d; grind
    case alloc1 => intro d; have := a6 d; grind
    case main =>
      intro d; have := a7 d
      by_cases hd : d = n
      · subst hd; simp [hnc, hr]
      · by_cases hdc : d = c
        · subst hdc; simpa [hd, hmc] using this
        · simpa [hd, hdc] using this
    case ended => intro d; have := a8 d; grind
    case rootA => intro d; have := a9 d; grind
    case ids => intro i d; have := a10 i d; grind
    case ids2 => exact a11
    case unw1 => intro d; have := a14 d; grind
  | @exitDone n rest hf hc hs hn =>
    rw [hf] at hw
    have hnc : n ≠ c := by rintro rfl; simp [hrun] at hs
    have hfn := hi.ci.fTerm n hs
    have hmc : hasMain rest = hasMain (s.frames c) := by simp [hf, isMain]
    have hrn : rest ≠ [.entryJump] := by
      rintro rfl; have := hw.1; simp [Adj] at this
    have hr : s.root n = false := by have := h.main n; rw [hfn] at this; simp [isMain, hs] at this; exact this
    obtain ⟨a1,a2,a3,a4,a5,a6,a7,a8,a9,a10,a11,a12,a13,a14⟩ := h
    have hal : Event.alloc n ∈ s.log := by rw [a5]; simp [hs, hr]
    constructor <;> simp only [upd_apply]
    case order => exact a12
    case order2 => exact ⟨hal, a13⟩
    case freed => intro d; have := a1 d; grind
    case freed1 => intro d; have := a1 d; have := a2 d; grind [List.count_eq_zero]
    case enter => intro d; have := a3 d; grind
    case enter1 => intro d; have := a4 d; grind
    case alloc => intro d; have := a5 d; grind
    case alloc1 => intro d; have := a6 d; grind
    case main =>
      intro d; have := a7 d
      by_cases hd : d = n
      · subst hd; simp [hnc, hr]
      · by_cases hdc : d = c
        · subst hdc; simpa [hd, hmc] using this
        · simpa [hd, hdc] using this
    case ended => intro d; have := a8 d; grind
    case rootA => intro d; have := a9 d; grind
    case ids => intro i d; have := a10 i d; grind
    case ids2 => exact a11
    case unw1 => intro d; have := a14 d; grind

theorem linv_init : LInv init := by
  constructor <;> simp [init, DestroyedAfterDealloc, DeallocAfterAlloc] <;> intro c <;> (try split) <;> simp_all [isMain]

theorem reachable_linv {s : State} (h : Reachable s) (he : s.early = false) : LInv s := by
  induction h with
  | init => exact linv_init
  | @step s s' t op hr hs ih =>
    have h1 := step_early hs he
    obtain ⟨c, hcur, hs'⟩ := step_eff hs
    exact eff_log (reachable_inv hr h1) (ih h1) hcur hs'

end Verif.UFiber
