import Verif.Fiber.Evol

/-! # Equations for single steps -/

namespace Verif.Fiber
open State

theorem handle_accessible {s : State} {x} (h : Handle s x) : s.accessible x = true := by
  rcases h with h | ⟨e, h⟩ | ⟨e, h⟩ <;> simp [State.accessible, h]

theorem accessible_handle {s : State} {x} (h : s.accessible x = true) : Handle s x := by
  simp only [State.accessible] at h
  split at h <;> first | simp at h | skip
  · exact .inl (by assumption)
  · exact .inr (.inl ⟨_, by assumption⟩)
  · exact .inr (.inr ⟨_, by assumption⟩)

theorem switch_eq {s : State} {t c f lv ar} (hc : s.cur t = some c) (hs : s.status f.ctx = .suspended) (hq : s.seq f.ctx = f.seq) :
    s.switch t f lv ar = some (sw s t c f.ctx lv, ⟨c, s.seq c + 1⟩) := by
  simp [State.switch, hc, hs, hq, sw]

theorem finish_eq {s : State} {t c f} (hc : s.cur t = some c) (hs : s.status f.ctx = .suspended) (hq : s.seq f.ctx = f.seq) :
    s.finish t c f = .ok (fin s t c f.ctx) := by
  simp only [State.finish, State.ontopSwitch]
  rw [switch_eq (c := c) (by exact hc) (by exact hs) (by exact hq)]
  rfl

theorem destroyFctx_eq {s : State} {t c f} (hc : s.cur t = some c) (hs : s.status f.ctx = .suspended) (hq : s.seq f.ctx = f.seq) :
    s.destroyFctx t c f = (sw (s.setFrames c (.dtor f.ctx :: s.frames c)) t c f.ctx .suspended).raiseForced t f.ctx ⟨c, s.seq c + 1⟩ := by
  simp only [State.destroyFctx, State.ontopSwitch]
  rw [switch_eq (c := c) (by exact hc) (by exact hs) (by exact hq)]
  rfl

theorem resume_eq {s : State} {t c k ls rest x f} (hi : Inv s) (hu : UserCode s t c k ls rest) (ha : Handle s x) (hv : s.val x = some f) :
    step s t (.resume x) =
      (sw ((s.setVal x none).setFrames c (.resume :: s.frames c)) t c f.ctx .suspended).deliver f.ctx (some ⟨c, s.seq c + 1⟩) := by
  obtain ⟨hcur, hf⟩ := hu
  obtain ⟨h4, h5⟩ := hi.vi.valid x f hv
  simp only [step, hcur, hf, userStep, handle_accessible ha, State.doResume, hv, State.jump, if_true]
  rw [switch_eq (c := c) (by exact hcur) (by exact h4) (by exact h5)]
  rfl

theorem resumeWith_eq {s : State} {t c k ls rest x f} (hi : Inv s) (hu : UserCode s t c k ls rest) (ha : Handle s x) (hv : s.val x = some f) :
    step s t (.resumeWith x) = .ok
        { s with cur := upd s.cur t (some f.ctx), status := upd (upd s.status c .suspended) f.ctx (.running t),
                 seq := upd s.seq c (s.seq c + 1), nextId := s.nextId + 1, kind := upd s.kind s.nextVar (.loc f.ctx),
                 val := upd (upd s.val x none) s.nextVar (some ⟨c, s.seq c + 1⟩), nextVar := s.nextVar + 1,
                 frames := upd (upd s.frames c (.resume :: s.frames c)) f.ctx
                   (.user (.ontop s.nextId) [s.nextVar] .normal :: upd s.frames c (.resume :: s.frames c) f.ctx),
                 log := .ontop s.nextId f.ctx :: s.log } := by
  obtain ⟨hcur, hf⟩ := hu
  obtain ⟨h4, h5⟩ := hi.vi.valid x f hv
  simp only [step, hcur, hf, userStep, handle_accessible ha, State.doResumeWith, hv, State.ontopSwitch, if_true]
  rw [switch_eq (c := c) (by exact hcur) (by exact h4) (by exact h5)]
  rfl

theorem withThrows_eq {s : State} {t c k ls rest x f n} (hi : Inv s) (hu : UserCode s t c k ls rest) (ha : Handle s x) (hv : s.val x = some f) :
    step s t (.withThrows x n true) =
      State.raiseUser { sw ((s.setVal x none).setFrames c (.resume :: s.frames c)) t c f.ctx .suspended with lost := upd s.lost c true } f.ctx n := by
  obtain ⟨hcur, hf⟩ := hu
  obtain ⟨h4, h5⟩ := hi.vi.valid x f hv
  simp only [step, hcur, hf, userStep, handle_accessible ha, State.doWithThrows, hv, State.ontopSwitch, if_true]
  rw [switch_eq (c := c) (by exact hcur) (by exact h4) (by exact h5)]
  rfl

theorem create_eq {s : State} {t c k ls rest xs} (hi : Inv s) (hu : UserCode s t c k ls rest) (ha : ∀ x ∈ xs, Handle s x) :
    ∃ s2 : State, s2 = ({ s with nextCtx := s.nextCtx + 1 }.addLog (.alloc s.nextCtx)).capture s.nextCtx xs ∧
    step s t (.create xs .success) = .ok
        { s2 with status := upd s2.status s.nextCtx .suspended,
                  frames := upd (upd s2.frames s.nextCtx [.entryJump]) c (.user k (s2.nextVar :: ls) .normal :: rest),
                  seq := upd (upd s2.seq s.nextCtx 1) c (s2.seq c + 1),
                  kind := upd s2.kind s2.nextVar (.loc c), val := upd s2.val s2.nextVar (some ⟨s.nextCtx, 1⟩),
                  nextVar := s2.nextVar + 1 } := by
  obtain ⟨hcur, hf⟩ := hu
  refine ⟨_, rfl, ?_⟩
  have : xs.all s.accessible = true := by
    simp only [List.all_eq_true]; exact fun x hx => handle_accessible (ha x hx)
  simp only [step, hcur, hf, userStep, this, if_true]
  rw [doCreate_eq hi hcur]
  rfl

/-- the object `x` is destroyed: either it is a local of the innermost frame, or on the heap -/
def CanDrop (s : State) (ls : List Var) (x : Var) : Prop := x ∈ ls ∨ s.kind x = .heap

theorem drop_eq {s : State} {t c k ls rest x f} (hi : Inv s) (hu : UserCode s t c k ls rest) (hd : CanDrop s ls x) (hv : s.val x = some f) :
    ∃ (s1 : State) (ls' : List Var), s1.frames = upd s.frames c (.user k ls' .normal :: rest) ∧ s1.val = upd s.val x none ∧
      s1.kind = upd s.kind x .dead ∧ s1.cur = s.cur ∧ s1.status = s.status ∧ s1.seq = s.seq ∧ s1.log = s.log ∧ s1.nextVar = s.nextVar ∧
      s1.caps = s.caps ∧ (∀ y, y ∈ ls' ↔ y ∈ ls ∧ y ≠ x) ∧
      step s t (.drop x) = (sw (s1.setFrames c (.dtor f.ctx :: s1.frames c)) t c f.ctx .suspended).raiseForced t f.ctx ⟨c, s.seq c + 1⟩ := by
  obtain ⟨hcur, hf⟩ := hu
  obtain ⟨h4, h5⟩ := hi.vi.valid x f hv
  have hnd : ls.Nodup := by
    have := hi.oi.locsN c
    rw [hf] at this
    simp only [lvars_cons, Frame.lvars] at this
    exact (List.nodup_append.1 this).1
  by_cases hx : x ∈ ls
  · refine ⟨(s.setFrames c (.user k (ls.erase x) .normal :: rest)).kill x, ls.erase x, rfl, rfl, rfl, rfl, rfl, rfl, rfl, rfl, rfl, ?_, ?_⟩
    · intro y; rw [hnd.mem_erase_iff]; exact And.comm
    · simp only [step, hcur, hf, userStep, hx, if_true, State.destroyVar]
      have : (s.setFrames c (Frame.user k (ls.erase x) Mode.normal :: rest)).val x = some f := hv
      simp only [this]
      rw [destroyFctx_eq (by exact hcur) (by exact h4) (by exact h5)]
      rfl
  · have hk : s.kind x = .heap := by rcases hd with h | h; exact absurd h hx; exact h
    refine ⟨s.kill x, ls, ?_, rfl, rfl, rfl, rfl, rfl, rfl, rfl, rfl, ?_, ?_⟩
    · funext d; simp only [upd_apply, State.kill]; grind
    · intro y; constructor
      · intro hy; exact ⟨hy, fun h => hx (h ▸ hy)⟩
      · exact fun h => h.1
    · simp only [step, hcur, hf, userStep, hx, if_false, hk, if_true, State.destroyVar, hv]
      rw [destroyFctx_eq (by exact hcur) (by exact h4) (by exact h5)]
      rfl

end Verif.Fiber
