import Verif.Fiber.Steps3

/-! # Invariant of the event log -/

namespace Verif.Fiber
open State

/-- every `destroyed w c` is preceded by `dealloc w` (the log is newest first) -/
def DestroyedAfterDealloc : List Event → Prop
  | [] => True
  | .destroyed w _ :: l => .dealloc w ∈ l ∧ DestroyedAfterDealloc l
  | _ :: l => DestroyedAfterDealloc l

/-- every `dealloc c` is preceded by `alloc c` -/
def DeallocAfterAlloc : List Event → Prop
  | [] => True
  | .dealloc c :: l => .alloc c ∈ l ∧ DeallocAfterAlloc l
  | _ :: l => DeallocAfterAlloc l

def isMain : Frame → Bool
  | .user .main _ _ => true
  | _ => false

/-- the stack belongs to a thread's main function -/
def hasMain (fs : List Frame) : Bool := fs.any isMain

structure LInv (s : State) : Prop where
  freed : ∀ c, .dealloc c ∈ s.log ↔ s.status c = .freed
  freed1 : ∀ c, s.log.count (.dealloc c) ≤ 1
  entry : ∀ c, .entryJump ∈ s.frames c → .enter c ∉ s.log
  enter1 : ∀ c, s.log.count (.enter c) ≤ 1
  absentA : ∀ c, s.status c = .absent → .alloc c ∉ s.log ∧ .enter c ∉ s.log
  alloc1 : ∀ c, s.log.count (.alloc c) ≤ 1
  allocS : ∀ c, .alloc c ∈ s.log → s.status c ≠ .ended ∧ hasMain (s.frames c) = false
  noAlloc : ∀ c, .alloc c ∉ s.log → s.status c = .absent ∨ s.status c = .ended ∨ hasMain (s.frames c) = true
  ids : ∀ i, (s.nextId ≤ i → ∀ c, .ontop i c ∉ s.log) ∧ (i < s.nextId → ∃ c, .ontop i c ∈ s.log)
  ids1 : ∀ i c d, .ontop i c ∈ s.log → .ontop i d ∈ s.log → c = d
  ids2 : ∀ i c, s.log.count (.ontop i c) ≤ 1
  order : DestroyedAfterDealloc s.log
  order2 : DeallocAfterAlloc s.log

def SafeL : Res → Prop
  | .ok s => LInv s
  | _ => True

/-- steps that do not log -/
theorem LInv.mono {s s' : State} (h : LInv s) (hl : s'.log = s.log) (hi : s'.nextId = s.nextId)
    (hf : ∀ c, s'.status c = .freed ↔ s.status c = .freed)
    (ha : ∀ c, s'.status c = .absent → s.status c = .absent)
    (ha' : ∀ c, s.status c = .absent → s'.status c = .absent ∨ hasMain (s'.frames c) = true)
    (he : ∀ c, .entryJump ∈ s'.frames c → .entryJump ∈ s.frames c)
    (hm : ∀ c, hasMain (s'.frames c) = true → hasMain (s.frames c) = true ∨ s.status c = .absent)
    (hm' : ∀ c, hasMain (s.frames c) = true → hasMain (s'.frames c) = true ∨ s'.status c = .ended)
    (hn : ∀ c, s'.status c = .ended → s.status c = .ended ∨ hasMain (s.frames c) = true)
    (hn' : ∀ c, s.status c = .ended → s'.status c = .ended) : LInv s' := by
  obtain ⟨a1,a2,a3,a4,a5,a6,a7,a8,a9,a10,a11,a12,a13⟩ := h
  constructor <;> (try simp only [hl, hi])
  case allocS =>
    intro c hc
    have := a7 c hc
    have := hn c
    have := hm c
    have := a5 c
    refine ⟨by grind, ?_⟩
    cases hh : hasMain (s'.frames c) <;> grind
  case noAlloc =>
    intro c hc
    rcases a8 c hc with h | h | h
    · rcases ha' c h with h | h <;> simp [h]
    · exact Or.inr (Or.inl (hn' c h))
    · rcases hm' c h with h | h <;> simp [h]
  all_goals first | assumption | grind

@[simp] theorem hasMain_nil : hasMain [] = false := rfl
@[simp] theorem hasMain_cons (f fs) : hasMain (f :: fs) = (isMain f || hasMain fs) := rfl

/-- a change of one stack that keeps the entry and main frames -/
theorem LInv.setFrames {s : State} {c fs} (h : LInv s) (he : .entryJump ∈ fs → .entryJump ∈ s.frames c)
    (hm : hasMain fs = hasMain (s.frames c)) : LInv (s.setFrames c fs) := by
  refine h.mono rfl rfl (fun _ => Iff.rfl) (fun _ h => h) (fun _ h => Or.inl h) ?_ ?_ ?_ (fun _ h => Or.inl h) (fun _ h => h)
  · intro d; simp only [setFrames_frames, upd_apply]; grind
  · intro d; simp only [setFrames_frames, upd_apply]; grind
  · intro d; simp only [setFrames_frames, upd_apply]; grind

theorem LInv.objects {s s' : State} (h : LInv s) (hl : s'.log = s.log) (hi : s'.nextId = s.nextId) (hst : s'.status = s.status)
    (hfr : s'.frames = s.frames) : LInv s' := by
  refine h.mono hl hi ?_ ?_ ?_ ?_ ?_ ?_ ?_ ?_ <;> simp [hst, hfr] <;> simp_all

theorem LInv.switch {s s' : State} {t f leave ar back} (h : LInv s) (hsw : s.switch t f leave ar = some (s', back))
    (hl : leave = .suspended ∨ leave = .terminated) (hc : ∀ c, s.cur t = some c → s.status c = .running t) : LInv s' := by
  unfold State.switch at hsw
  cases hcur : s.cur t with
  | none => simp [hcur] at hsw
  | some c =>
    have hrun := hc c hcur
    simp only [hcur] at hsw
    split at hsw
    · rename_i hv
      simp only [Option.some.injEq, Prod.mk.injEq] at hsw
      obtain ⟨rfl, _⟩ := hsw
      refine h.mono rfl rfl ?_ ?_ ?_ ?_ ?_ ?_ ?_ ?_ <;> intro d <;> simp only [upd_apply] <;> grind
    · simp at hsw

theorem LInv.finish {s : State} {t c f} (h : LInv s) (hc : ∀ c, s.cur t = some c → s.status c = .running t)
    (hm : hasMain (s.frames c) = false) : SafeL (s.finish t c f) := by
  simp only [State.finish, ontopSwitch]
  split
  · trivial
  · rename_i s' b hsw
    have h1 : LInv (s.setFrames c [.exitJump]) := h.setFrames (by simp) (by simp [hm, isMain])
    have h2 := h1.switch hsw (Or.inr rfl) hc
    exact h2.setFrames (by simp) (by simp [isMain])

theorem LInv.log {s : State} (h : LInv s) {e} (h1 : ∀ c, e ≠ .alloc c) (h2 : ∀ c, e ≠ .dealloc c) (h3 : ∀ c, e ≠ .enter c)
    (h4 : ∀ i c, e ≠ .ontop i c) (h5 : ∀ w c, e = .destroyed w c → .dealloc w ∈ s.log) : LInv (s.addLog e) := by
  cases e with
  | alloc c => exact absurd rfl (h1 c)
  | dealloc c => exact absurd rfl (h2 c)
  | enter c => exact absurd rfl (h3 c)
  | ontop i c => exact absurd rfl (h4 i c)
  | destroyed w c =>
    obtain ⟨a1,a2,a3,a4,a5,a6,a7,a8,a9,a10,a11,a12,a13⟩ := h
    have := h5 w c rfl
    constructor <;> (try simp only [addLog_log, addLog_status, addLog_frames, addLog_nextId])
    case order => exact ⟨this, a12⟩
    case order2 => exact a13
    all_goals first | assumption | grind

theorem LInv.logEnter {s : State} (h : LInv s) {c} (he : .enter c ∉ s.log) (hs : .entryJump ∉ s.frames c)
    (ha : s.status c ≠ .absent) : LInv (s.addLog (.enter c)) := by
  obtain ⟨a1,a2,a3,a4,a5,a6,a7,a8,a9,a10,a11,a12,a13⟩ := h
  constructor <;> (try simp only [addLog_log, addLog_status, addLog_frames, addLog_nextId])
  case order => exact a12
  case order2 => exact a13
  case enter1 => intro d; have := a4 d; grind [List.count_eq_zero]
  all_goals first | assumption | grind

theorem LInv.deliver {s : State} {c v} (h : LInv s) (hd : ∀ w, DtorTop w (s.frames c) → .dealloc w ∈ s.log)
    (ha : s.status c ≠ .absent) (hw : WF (s.frames c)) : SafeL (s.deliver c v) := by
  unfold State.deliver
  split
  · rename_i rest hfr
    rw [hfr] at hw
    have hr := adj_entryJump_inv hw.1
    subst hr
    have he := h.entry c (by simp [hfr])
    refine LInv.logEnter (s := (s.newVar (.loc c) v).setFrames c [.user .fn [s.nextVar] .normal, .entryRun]) ?_ he (by simp) ha
    exact (h.objects (s' := s.newVar (.loc c) v) rfl rfl rfl rfl).setFrames (by simp) (by simp [hfr, isMain])
  · rename_i k ls m rest hfr
    refine (h.objects (s' := s.newVar (.loc c) v) rfl rfl rfl rfl).setFrames ?_ ?_
    · simp [hfr]
    · simp [hfr]; cases k <;> simp [isMain]
  · rename_i w rest hfr
    refine LInv.log (s := s.setFrames c rest) (h.setFrames (by simp [hfr]) (by simp [hfr, isMain])) (by simp) (by simp) (by simp) (by simp) ?_
    intro w' c' heq
    simp at heq
    exact hd w' (by rw [hfr]; simp [DtorTop, heq.1])
  · trivial

theorem LInv.raiseUser {s : State} {c n} (h : LInv s) : SafeL (s.raiseUser c n) := by
  unfold State.raiseUser
  split
  · trivial
  · rename_i k ls m rest hfr
    refine h.setFrames ?_ ?_
    · simp [hfr]
    · simp [hfr]; cases k <;> simp [isMain]
  · trivial
  · trivial

theorem wf_entryJump {rest} (h : WF (.entryJump :: rest)) : rest = [] := adj_entryJump_inv h.1

theorem LInv.raiseForced {s : State} {t c f} (h : LInv s) (hc : ∀ c, s.cur t = some c → s.status c = .running t)
    (hw : WF (s.frames c)) : SafeL (s.raiseForced t c f) := by
  unfold State.raiseForced
  split
  · rename_i rest hfr
    rw [hfr] at hw
    have := wf_entryJump hw
    subst this
    exact h.finish hc (by simp [hfr, isMain])
  · rename_i k ls m rest hfr
    refine (h.objects (s' := s.newVar (.exc c) (some f)) rfl rfl rfl rfl).setFrames ?_ ?_
    · simp [hfr]
    · simp [hfr]; cases k <;> simp [isMain]
  · trivial
  · trivial

theorem switch_cur {s s' : State} {t f leave ar back} (hsw : s.switch t f leave ar = some (s', back)) :
    s'.cur t = some f.ctx ∧ s'.status f.ctx = .running t ∧ s'.frames = s.frames ∧ s'.log = s.log ∧ s'.nextVar = s.nextVar ∧ s'.nextId = s.nextId := by
  unfold State.switch at hsw
  cases hcur : s.cur t with
  | none => simp [hcur] at hsw
  | some c =>
    simp only [hcur] at hsw
    split at hsw
    · simp only [Option.some.injEq, Prod.mk.injEq] at hsw
      obtain ⟨rfl, _⟩ := hsw
      simp
    · simp at hsw

/-- Everything the log lemmas need to know about the pre-state of a primitive. -/
structure Pre (s : State) : Prop where
  cur : ∀ t c, s.cur t = some c → s.status c = .running t
  wf : ∀ c, s.status c ≠ .terminated → WF (s.frames c)

theorem Inv.pre {s : State} (h : Inv s) : Pre s := ⟨fun t c => (h.ci.curRun t c).1, h.ci.wf⟩

theorem LInv.destroyFctx {s : State} {t c f} (h : LInv s) (hp : Pre s) (hcur : s.cur t = some c) (hf : s.status f.ctx = .suspended) :
    SafeL (s.destroyFctx t c f) := by
  have hrun := hp.cur t c hcur
  have hfc : f.ctx ≠ c := by rintro e; rw [e] at hf; simp [hrun] at hf
  simp only [State.destroyFctx, ontopSwitch]
  split
  · trivial
  · rename_i s' b hsw
    have h1 : LInv (s.setFrames c (.dtor f.ctx :: s.frames c)) := h.setFrames (by simp) (by simp [isMain])
    have h2 := h1.switch hsw (Or.inl rfl) (fun d hd => hp.cur t d hd)
    have h3 := switch_cur hsw
    refine h2.raiseForced ?_ ?_
    · intro d hd; rw [h3.1] at hd; cases hd; exact h3.2.1
    · rw [h3.2.2.1]; simp [hfc]; exact hp.wf _ (by simp [hf])

theorem LInv.destroyVar {s : State} {t c x} (h : LInv s) (hp : Pre s) (hcur : s.cur t = some c)
    (hf : ∀ f, s.val x = some f → s.status f.ctx = .suspended) :
    SafeL (s.destroyVar t c x) := by
  unfold State.destroyVar
  split
  · exact h.objects rfl rfl rfl rfl
  · rename_i f hx
    exact (h.objects (s' := s.kill x) rfl rfl rfl rfl).destroyFctx ⟨hp.cur, hp.wf⟩ hcur (hf f hx)

theorem LInv.doResume {s : State} {t c x} (h : LInv s) (hi : Inv s) (hcur : s.cur t = some c) (ha : s.accessible x = true) :
    SafeL (s.doResume t c x) := by
  have hk := accessible_ne_exc ha
  unfold State.doResume
  split
  · trivial
  · rename_i f hx
    have hnd := hi.vi.nonExc x f hk hx
    have hf := (hi.vi.valid x f hx).1
    have hrun := (hi.ci.curRun t c).1 hcur
    have hfc : f.ctx ≠ c := by rintro e; rw [e] at hf; simp [hrun] at hf
    simp only [jump]
    split
    · trivial
    · rename_i s' b hsw
      have h1 : LInv ((s.setVal x none).setFrames c (.resume :: s.frames c)) :=
        (h.objects (s' := s.setVal x none) rfl rfl rfl rfl).setFrames (by simp) (by simp [isMain])
      have h2 := h1.switch hsw (Or.inl rfl) (fun d hd => hi.pre.cur t d hd)
      have h3 := switch_cur hsw
      have hff : s'.frames f.ctx = s.frames f.ctx := by rw [h3.2.2.1]; simp [hfc]
      refine h2.deliver ?_ ?_ ?_
      · intro w hw; rw [hff] at hw; exact absurd hw (hnd w)
      · simp [h3.2.1]
      · rw [hff]; exact hi.ci.wf _ (by simp [hf])

theorem LInv.doResumeWith {s : State} {t c x} (h : LInv s) (hi : Inv s) : SafeL (s.doResumeWith t c x) := by
  unfold State.doResumeWith
  split
  · trivial
  · rename_i f hx
    simp only [ontopSwitch]
    split
    · trivial
    · rename_i s' b hsw
      have h1 : LInv ((s.setVal x none).setFrames c (.resume :: s.frames c)) :=
        (h.objects (s' := s.setVal x none) rfl rfl rfl rfl).setFrames (by simp) (by simp [isMain])
      have h2 := h1.switch hsw (Or.inl rfl) (fun d hd => hi.pre.cur t d hd)
      have h3 : LInv ((s'.newVar (.loc f.ctx) (some b)).setFrames f.ctx
          (.user (.ontop s'.nextId) [s'.nextVar] .normal :: s'.frames f.ctx)) :=
        (h2.objects (s' := s'.newVar (.loc f.ctx) (some b)) rfl rfl rfl rfl).setFrames (by simp) (by simp [isMain])
      obtain ⟨a1,a2,a3,a4,a5,a6,a7,a8,a9,a10,a11,a12,a13⟩ := h3
      simp only [SafeL, Nat.add_sub_cancel]
      constructor <;> (try simp only [addLog_log, addLog_status, addLog_frames, addLog_nextId, newVar_log, newVar_status, newVar_frames,
        setFrames_log, setFrames_status, setFrames_frames, setFrames_nextId, newVar_nextId] at *)
      case order => exact a12
      case order2 => exact a13
      case ids =>
        intro i
        have := a9 i
        constructor
        · intro hi c
          have := this.1 (by simpa using Nat.le_of_succ_le hi) c
          have hne : i ≠ s'.nextId := by omega
          simp only [List.mem_cons, Event.ontop.injEq, hne, false_and, false_or]
          exact this
        · intro hi
          by_cases heq : i = s'.nextId
          · exact ⟨f.ctx, by simp [heq]⟩
          · obtain ⟨c, hc⟩ := this.2 (by omega)
            exact ⟨c, by simp; exact Or.inr hc⟩
      case ids1 =>
        intro i c d h1 h2
        have hz := (a9 s'.nextId).1 (Nat.le_refl _)
        have := a10 i c d
        grind
      case ids2 =>
        intro i c
        have hz := (a9 s'.nextId).1 (Nat.le_refl _)
        have := a11 i c
        grind [List.count_eq_zero]
      all_goals first | assumption | grind

theorem LInv.doCreate {s : State} {t c k ls rest xs} (h : LInv s) (hi : Inv s) (hcur : s.cur t = some c)
    (hfr : s.frames c = .user k ls .normal :: rest) : SafeL (s.doCreate t c k ls rest xs) := by
  have hrun := (hi.ci.curRun t c).1 hcur
  have habs := (hi.ci.absent s.nextCtx).2 (Nat.le_refl _)
  have hcn : c ≠ s.nextCtx := by rintro h; rw [← h] at habs; simp [hrun] at habs
  have hfa := hi.ci.fAbsent _ habs
  rw [doCreate_eq hi hcur]
  obtain ⟨e1, e2, e3, e4, e5, e6, e7, e8, e9⟩ := capture_same ({ s with nextCtx := s.nextCtx + 1 }.addLog (.alloc s.nextCtx)) s.nextCtx xs
  simp only [addLog_status, addLog_frames, addLog_nextId, addLog_log] at e2 e4 e8 e9
  obtain ⟨a1,a2,a3,a4,a5,a6,a7,a8,a9,a10,a11,a12,a13⟩ := h
  simp only [SafeL]
  have hna := a5 _ habs
  have hmm : hasMain (.user k (s.nextVar :: ls) .normal :: rest) = hasMain (s.frames c) := by
    simp [hfr]; cases k <;> simp [isMain]
  have hm2 : ∀ y, hasMain (.user k (y :: ls) .normal :: rest) = hasMain (s.frames c) := by
    intro y; simp [hfr]; cases k <;> simp [isMain]
  have hej : ∀ y, Frame.entryJump ∈ (.user k (y :: ls) .normal :: rest : List Frame) → Frame.entryJump ∈ s.frames c := by
    intro y hy; simp at hy; simp [hfr, hy]
  constructor <;> (try simp only [newVar_log, newVar_status, newVar_frames, newVar_nextId,
        setFrames_log, setFrames_status, setFrames_frames, setFrames_nextId, e2, e4, e8, e9, upd_apply])
  case order => exact a12
  case order2 => exact a13
  case freed => intro d; have := a1 d; grind
  case entry => intro d; have := a3 d; grind
  case alloc1 => intro d; have := a6 d; grind [List.count_eq_zero]
  case absentA => intro d; have := a5 d; grind
  case allocS =>
    intro d hd
    have := a7 d
    by_cases hdn : d = s.nextCtx
    · subst hdn
      have : ¬ s.nextCtx = c := fun h => hcn h.symm
      simp [this, isMain]
    · by_cases hdc : d = c
      · subst hdc; simp only [if_true, hdn, if_false, hm2]; exact this (by simpa [hdn] using hd)
      · simp only [hdn, hdc, if_false]; exact this (by simpa [hdn] using hd)
  case noAlloc =>
    intro d hd
    have hd' : d ≠ s.nextCtx ∧ Event.alloc d ∉ s.log := by simpa using hd
    have := a8 d hd'.2
    by_cases hdc : d = c
    · subst hdc; simp only [if_true, hm2, hd'.1, if_false]; exact this
    · simp only [hdc, hd'.1, if_false]; exact this
  all_goals first | assumption | grind

end Verif.Fiber
