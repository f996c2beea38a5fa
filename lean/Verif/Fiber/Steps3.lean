import Verif.Fiber.Steps2

/-! # Every step preserves the invariant (end): runtime steps, initial state, reachability -/

namespace Verif.Fiber
open State

/-- The stack below an on-top frame is a suspension point: a context whose on-top frame has been popped is `mid`. -/
theorem CInv.popOntop {s : State} {t c i ls m rest} (h : CInv s none) (hcur : s.cur t = some c)
    (hfr : s.frames c = .user (.ontop i) ls m :: rest) :
    CInv (s.setFrames c rest) (some c) ∧ ∀ v, ¬ DtorTop v rest := by
  have hrun := (h.curRun t c).1 hcur
  have hw := h.wf c (by simp [hrun])
  rw [hfr] at hw
  have hst : SuspTop rest ∧ ∀ v, ¬ DtorTop v rest := by
    have := hw.1
    revert this
    cases rest with
    | nil => simp [Adj]
    | cons g gs => cases g <;> simp [Adj, SuspTop, DtorTop]
  refine ⟨?_, hst.2⟩
  have hst := hst.1
  have hx : ∀ n, exits n rest = exits n (s.frames c) := by simp [hfr]
  obtain ⟨a1,a2,a3,a4,a5,a6,a0,a7,a8,a9,a10,a11,a12,a13,a14,a15⟩ := h
  constructor <;> try simp only [setFrames_cur, setFrames_status, setFrames_nextCtx, setFrames_nextTid, setFrames_frames, upd_apply]
  case wf => intro d; have := hw.2; grind
  case exitE =>
    intro n' hn'
    obtain ⟨d, hd⟩ := a15 n' (by grind)
    exact ⟨d, by grind⟩
  all_goals first | assumption | grind

theorem adj_fn {ls m rest} (h : Adj (.user .fn ls m) rest) : rest = [.entryRun] := by
  cases rest with
  | nil => simp [Adj] at h
  | cons g gs => cases g <;> simp_all [Adj]

theorem adj_call {ls m rest} (h : Adj (.user .call ls m) rest) : ∃ k ls' rest', rest = .user k ls' .normal :: rest' := by
  cases rest with
  | nil => simp [Adj] at h
  | cons g gs =>
    cases g with
    | user k ls m => cases m <;> simp_all [Adj]
    | _ => simp [Adj] at h

theorem adj_cleanup {ls m rest} (h : Adj (.user .cleanup ls m) rest) : RunTop rest := by
  cases rest with
  | nil => simp [Adj] at h
  | cons g gs => cases g <;> simp_all [Adj, RunTop]

theorem propagate_safe {s : State} {t c k e rest} (hi : Inv s) (hcur : s.cur t = some c)
    (hfr : s.frames c = .user k [] (.unwinding e) :: rest) : Safe (propagate s t c k e rest) := by
  have hrun := (hi.ci.curRun t c).1 hcur
  have hw := hi.ci.wf c (by simp [hrun])
  rw [hfr] at hw
  cases k with
  | main => simp [propagate, Safe]
  | cleanup => simp [propagate, Safe]
  | call =>
    obtain ⟨k', ls', rest', rfl⟩ := adj_call hw.1
    simp only [propagate]
    refine hi.setTop hcur ⟨hw.2.1.change modeOK_unwinding, hw.2.2⟩ ?_ ?_ ?_ ?_ ?_
    · simp [RunTop]
    · simp [hfr]
    · simp [hfr]
    · cases e <;> simp [hfr]
    · simp [hfr]
  | fn =>
    have := adj_fn hw.1
    subst this
    cases e with
    | user n => simp [propagate, Safe]
    | forced x =>
      simp only [propagate]
      have hkx : s.kind x = .exc c := (hi.oi.excs c x).1 (by simp [hfr])
      cases hx : s.val x with
      | none => exact absurd hx (hi.vi.excSome x c hkx)
      | some f =>
        have hd := hi.vi.excTop x c f hkx hx
        -- first drop the frame's exception object
        have h2 : ∀ s1 : State, s1 = (s.setFrames c [.entryRun]).kill x → Safe (State.finish s1 t c f) := by
          rintro s1 rfl
          have hci : CInv ((s.setFrames c [.user .fn [] (.unwinding (.user 0)), .entryRun]).kill x) none :=
            CInv.congr (hi.ci.setFrames hrun (Or.inl rfl) (fs := [.user .fn [] (.unwinding (.user 0)), .entryRun])
              ⟨hw.1.change modeOK_unwinding, hw.2⟩ (by simp [RunTop]) (by simp [hfr])) rfl rfl rfl rfl rfl
          have hoi := hi.oi.killExc (c := c) (fs := [.user .fn [] (.unwinding (.user 0)), .entryRun]) (x := x) (by simp [hfr]) (by simp [hfr]) (by simp [hfr])
          have hvi := (hi.vi.setFrames hrun (fs := [.user .fn [] (.unwinding (.user 0)), .entryRun])).killSome (x := x) (f := f) (by simpa using hx)
          have hfin := finish_safe (t := t) (c := c) (Or.inl rfl) hci hoi hvi (by simpa using hcur) (by simp) (by simp) (by simp) (by simp) ?_
          · have heq : ∀ fs, State.setFrames ((s.setFrames c fs).kill x) c [Frame.exitJump] = (s.kill x).setFrames c [.exitJump] := by
              intro fs
              simp only [State.setFrames, State.kill]
              congr 1
              funext d; simp only [upd_apply]; grind
            simp only [State.finish, heq] at hfin ⊢
            exact hfin
          · intro v hv
            have hfc : f.ctx ≠ c := by
              rintro h
              have := (hi.vi.valid x f hx).1
              rw [h] at this; simp [hrun] at this
            simp [hfc] at hv
            obtain ⟨_, h1⟩ := dtorTop_iff.1 hv; obtain ⟨_, h2⟩ := dtorTop_iff.1 hd; simp_all
        have heq : State.setFrames ((s.setFrames c [.entryRun]).kill x) c [Frame.exitJump] = (s.kill x).setFrames c [.exitJump] := by
          simp only [State.setFrames, State.kill]
          congr 1
          funext d; simp only [upd_apply]; grind
        have := h2 _ rfl
        simp only [State.finish, heq] at this ⊢
        exact this
  | ontop i =>
    obtain ⟨hci, hnd⟩ := hi.ci.popOntop hcur hfr
    cases e with
    | user n =>
      simp only [propagate]
      exact raiseUser_safe hci (hi.oi.setFrames (by simp [hfr]) (by simp [hfr]) (by simp [hfr])) (hi.vi.setFrames hrun) hcur
    | forced x =>
      simp only [propagate]
      have hkx : s.kind x = .exc c := (hi.oi.excs c x).1 (by simp [hfr])
      cases hx : s.val x with
      | none => exact absurd hx (hi.vi.excSome x c hkx)
      | some f =>
        have hd := hi.vi.excTop x c f hkx hx
        have hfc : f.ctx ≠ c := by
          rintro h
          have := (hi.vi.valid x f hx).1
          rw [h] at this; simp [hrun] at this
        refine raiseForced_safe (CInv.congr hci rfl rfl rfl rfl rfl) (hi.oi.killExc (by simp [hfr]) (by simp [hfr]) (by simp [hfr]))
          ((hi.vi.setFrames hrun).killSome (by simpa using hx)) (by simpa using hcur) ?_
        simpa [hfc] using hd

theorem leave_safe {s : State} {t c k x rest} (hi : Inv s) (hcur : s.cur t = some c)
    (hfr : s.frames c = .user k [] (.returning x) :: rest) : Safe (leave s t c k x rest) := by
  have hrun := (hi.ci.curRun t c).1 hcur
  have hw := hi.ci.wf c (by simp [hrun])
  rw [hfr] at hw
  have hm := hw.1.modeOK
  cases k with
  | main =>
    cases x with
    | some x => simp [ModeOK] at hm
    | none =>
      simp only [leave, Safe]
      have hrest : rest = [] := by
        have := hw.1; cases rest <;> simp_all [Adj]
      subst hrest
      refine ⟨hi.ci.threadExit hcur hfr, ?_, ?_⟩
      · have ho := hi.oi.setFrames (c := c) (fs := []) (by simp [hfr]) (by simp [hfr]) (by simp [hfr])
        refine ho.congr rfl rfl rfl rfl (Nat.le_refl _) ?_
        intro d hd
        simp only [upd_apply] at hd
        left
        show s.status d = .freed
        grind
      · refine hi.vi.status rfl rfl rfl rfl ?_ ?_
        · intro d; simp only [upd_apply]; grind
        · intro d; simp only [upd_apply]; grind
  | call =>
    cases x with
    | some x => simp [ModeOK] at hm
    | none =>
      obtain ⟨k', ls', rest', rfl⟩ := adj_call hw.1
      refine hi.setTop hcur hw.2 ?_ ?_ ?_ ?_ ?_
      · simp [RunTop]
      · simp [hfr]
      · simp [hfr]
      · simp [hfr]
      · simp [hfr]
  | cleanup =>
    cases x with
    | some x => simp [ModeOK] at hm
    | none =>
      refine hi.setTop hcur hw.2 (adj_cleanup hw.1) ?_ ?_ ?_ ?_
      · simp [hfr]
      · simp [hfr]
      · simp [hfr]
      · simp [hfr]
  | fn =>
    cases x with
    | none => simp [ModeOK] at hm
    | some x =>
      have := adj_fn hw.1
      subst this
      simp only [leave]
      have hkx : s.kind x = .ret c := (hi.oi.rets c x).1 (by simp [hfr])
      cases hx : s.val x with
      | none => simp [Safe]
      | some f =>
        have hd := hi.vi.nonExc x f (by simp [hkx]) hx
        have hfc : f.ctx ≠ c := by
          rintro h
          have := (hi.vi.valid x f hx).1
          rw [h] at this; simp [hrun] at this
        have hci : CInv ((s.setFrames c [.user .fn [] .normal, .entryRun]).kill x) none :=
          CInv.congr (hi.ci.setFrames hrun (Or.inl rfl) (fs := [.user .fn [] .normal, .entryRun])
            ⟨hw.1.change modeOK_normal, hw.2⟩ (by simp [RunTop]) (by simp [hfr])) rfl rfl rfl rfl rfl
        have hoi := hi.oi.killRet (c := c) (fs := [.user .fn [] .normal, .entryRun]) (x := x) (by simp [hfr]) (by simp [hfr]) (by simp [hfr])
        have hvi := (hi.vi.setFrames hrun (fs := [.user .fn [] .normal, .entryRun])).killSome (x := x) (f := f) (by simpa using hx)
        have hfin := finish_safe (t := t) (c := c) (Or.inl rfl) hci hoi hvi (by simpa using hcur) (by simp) (by simp) (by simp) (by simp) ?_
        · have heq : ∀ fs, State.setFrames ((s.setFrames c fs).kill x) c [Frame.exitJump] = (s.kill x).setFrames c [.exitJump] := by
            intro fs
            simp only [State.setFrames, State.kill]
            congr 1
            funext d; simp only [upd_apply]; grind
          simp only [State.finish, heq] at hfin ⊢
          exact hfin
        · intro v hv
          simp [hfc] at hv
          exact absurd hv (hd v)
  | ontop i =>
    cases x with
    | none => simp [ModeOK] at hm
    | some x =>
      obtain ⟨hci, hnd⟩ := hi.ci.popOntop hcur hfr
      simp only [leave]
      have hkx : s.kind x = .ret c := (hi.oi.rets c x).1 (by simp [hfr])
      have hvi : VInv ((s.setFrames c rest).kill x) (s.val x).toList := by
        cases hx : s.val x with
        | none => exact (hi.vi.setFrames hrun).killNone (by simpa using hx)
        | some f => exact (hi.vi.setFrames hrun).killSome (by simpa using hx)
      refine deliver_safe (t := t) (CInv.congr hci rfl rfl rfl rfl rfl) (hi.oi.killRet (by simp [hfr]) (by simp [hfr]) (by simp [hfr])) hvi
        (by simpa using hcur) ?_ ?_
      · intro w hw; simp at hw; exact absurd hw (hnd w)
      · intro f hx w hw
        have hd := hi.vi.nonExc x f (by simp [hkx]) hx
        have hfc : f.ctx ≠ c := by
          rintro h
          have := (hi.vi.valid x f hx).1
          rw [h] at this; simp [hrun] at this
        simp [hfc] at hw
        exact hd w hw

theorem exitStep_safe {s : State} {t c n rest} (hi : Inv s) (hcur : s.cur t = some c)
    (hfr : s.frames c = .exiting n :: rest) : Safe (exitStep s t c n rest) := by
  have hrun := (hi.ci.curRun t c).1 hcur
  simp only [exitStep]
  cases hx : s.caps n with
  | cons x xs =>
    exact destroyVar_safe (hi.ci.congr rfl rfl rfl rfl rfl) (hi.vi.congr rfl rfl rfl rfl rfl rfl) (hi.oi.killCap hx) hcur
  | nil =>
    have hn : s.status n = .terminated := hi.ci.exitT n c (by simp [hfr])
    have hnc : n ≠ c := by rintro rfl; simp [hrun] at hn
    simp only [hn, if_true]
    have hfn := hi.ci.fTerm n hn
    refine deliver_safe (t := t) (v := none) (hi.ci.free hrun hfr) ?_ ?_ (by simpa using hcur) (by simp) (by simp)
    · refine (hi.oi.frames2 (c := n) (d := c) (fs := []) (gs := rest) ?_ ?_ ?_ ?_ ?_ ?_).congr rfl rfl rfl rfl (Nat.le_refl _) ?_
      · simp [hfn]
      · simp [hfn]
      · simp [hfn]
      · simp [hfr]
      · simp [hfr]
      · simp [hfr]
      · intro d; simp; grind
    · refine hi.vi.status rfl rfl rfl rfl ?_ ?_
      · intro d; simp; grind
      · intro d; simp; grind

theorem step_safe {s : State} {t op} (hi : Inv s) : Safe (step s t op) := by
  unfold step
  cases hcur : s.cur t with
  | none => simp [Safe]
  | some c =>
    have hrun := (hi.ci.curRun t c).1 hcur
    have hw := hi.ci.wf c (by simp [hrun])
    simp only
    have hcl : ∀ f rest, s.frames c = f :: rest → RunTop [f] → Inv (s.setFrames c (.user .cleanup [] .normal :: f :: rest)) := by
      intro f rest hfr ht
      rw [hfr] at hw
      refine hi.setTop hcur ⟨?_, hw⟩ ?_ ?_ ?_ ?_ ?_
      · cases f <;> simp_all [Adj, RunTop, ModeOK]
      · simp [RunTop]
      · simp [hfr]
      · simp only [hfr, lvars_cons]; rfl
      · simp only [hfr, evars_cons]; rfl
      · simp only [hfr, rvars_cons]; rfl
    obtain ⟨rest, ⟨k, ls, m, hfr⟩ | ⟨n, hfr⟩⟩ := runTop_iff.1 (hi.ci.runTop c t hrun (by simp))
    · rw [hfr] at hw
      cases m with
      | normal => simp only [hfr]; exact userStep_safe hi hcur hfr
      | unwinding e =>
        cases ls with
        | cons x ls =>
          simp only [hfr]
          cases op <;> simp only <;> try simp [Safe]
          case cleanup => exact hcl _ _ hfr (by simp [RunTop])
          case tick =>
            refine destroyVar_safe ?_ ?_ ?_ hcur
            · refine hi.ci.setFrames hrun (Or.inl rfl) ⟨hw.1.change modeOK_unwinding, hw.2⟩ ?_ ?_
              · simp [RunTop]
              · simp [hfr]
            · exact hi.vi.setFrames hrun
            · refine hi.oi.killLoc ?_ ?_ ?_
              · simp [hfr]
              · cases e <;> simp [hfr]
              · simp [hfr]
        | nil =>
          simp only [hfr]
          cases op <;> simp only <;> try simp [Safe]
          case cleanup => exact hcl _ _ hfr (by simp [RunTop])
          case tick => exact propagate_safe hi hcur hfr
          case catchUser =>
            cases k <;> cases e <;> simp only <;> try simp [Safe]
            obtain ⟨k', ls', rest', rfl⟩ := adj_call hw.1
            refine hi.setTop hcur hw.2 ?_ ?_ ?_ ?_ ?_
            · simp [RunTop]
            · simp [hfr]
            · simp [hfr]
            · simp [hfr]
            · simp [hfr]
          case swallow =>
            cases k <;> cases e <;> simp only <;> try simp [Safe]
            rename_i x
            obtain ⟨k', ls', rest', rfl⟩ := adj_call hw.1
            have hkx : s.kind x = .exc c := (hi.oi.excs c x).1 (by simp [hfr])
            cases hx : s.val x with
            | none => exact absurd hx (hi.vi.excSome x c hkx)
            | some f =>
              simp only
              refine ⟨?_, ?_, ?_⟩
              · refine CInv.congr (hi.ci.setFrames (c := c) hrun (Or.inl rfl) hw.2 ?_ ?_) rfl rfl rfl rfl rfl
                · simp [RunTop]
                · simp [hfr]
              · refine OInv.congr (hi.oi.killExc (c := c) (fs := .user k' ls' .normal :: rest') (x := x) ?_ ?_ ?_) rfl rfl rfl rfl (Nat.le_refl _) (fun _ h => Or.inl h)
                · simp [hfr]
                · simp [hfr]
                · simp [hfr]
              · exact VInv.congr (VInv.swallow (hi.vi.setFrames hrun (fs := .user k' ls' .normal :: rest')) (x := x) (f := f) (c := c) (by simpa using hx) (by simpa using hkx)) rfl rfl rfl rfl rfl rfl
      | returning r =>
        cases ls with
        | cons x ls =>
          simp only [hfr]
          cases op <;> simp only <;> try simp [Safe]
          case cleanup => exact hcl _ _ hfr (by simp [RunTop])
          case tick =>
            refine destroyVar_safe ?_ ?_ ?_ hcur
            · refine hi.ci.setFrames hrun (Or.inl rfl) ⟨hw.1.change hw.1.modeOK, hw.2⟩ ?_ ?_
              · simp [RunTop]
              · simp [hfr]
            · exact hi.vi.setFrames hrun
            · refine hi.oi.killLoc ?_ ?_ ?_
              · simp [hfr]
              · simp [hfr]
              · cases r <;> simp [hfr]
        | nil =>
          simp only [hfr]
          cases op <;> simp only <;> try simp [Safe]
          case cleanup => exact hcl _ _ hfr (by simp [RunTop])
          case tick => exact leave_safe hi hcur hfr
    · simp only [hfr]
      cases op <;> simp only <;> try simp [Safe]
      case cleanup => exact hcl _ _ hfr (by simp [RunTop])
      case tick => exact exitStep_safe hi hcur hfr

theorem inv_init : Inv init := by
  refine ⟨?_, ?_, ?_⟩
  · constructor <;> simp only [init] <;> intros <;> try (split at * <;> simp_all [WF, Adj, ModeOK, RunTop])
    all_goals grind
  · constructor <;> simp only [init] <;> intros <;> (try split) <;> simp_all
  · constructor <;> simp [init]
    intro c; split <;> simp

theorem reachable_inv {s : State} (h : Reachable s) : Inv s := by
  induction h with
  | init => exact inv_init
  | step _ hs ih =>
    rename_i t op _
    have := step_safe (t := t) (op := op) ih
    rw [hs] at this
    exact this

end Verif.Fiber
