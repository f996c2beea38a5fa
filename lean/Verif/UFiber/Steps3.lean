import Verif.UFiber.Steps2

/-! # Every step preserves the invariant (continued): frames are left, fibers finish and are released -/

namespace Verif.UFiber
open Verif.Fiber (CtxId Var Tid Kind Exc Mode UKind Frame Status Event Op CreateOutcome upd upd_apply lvars evars rvars exits
  ModeOK SuspTop RunTop DtorTop lvars_nil evars_nil rvars_nil lvars_cons evars_cons rvars_cons exits_nil exits_cons
  dtorTop_iff suspTop_iff runTop_iff modeOK_unwinding modeOK_normal)
open State

/-- a context function is left; the object `x` (result or exception) provides the context to continue with -/
theorem finish_kill {s : State} {t c x gs} (hi : Inv s) (hcur : s.cur t = some c)
    (hwf : WF gs) (hrt : RunTop gs) (hx0 : ∀ n, exits n gs = 0) (hx : ∀ n, exits n (s.frames c) = 0)
    (hl : lvars gs = []) (he : evars gs = []) (hr : rvars gs = [])
    (ho : OInv ((s.setFrames c gs).kill x))
    (hd : ∀ w v, s.val x = some w → DtorTop v (s.frames w) → v = c) : Safe ((s.kill x).finish t c (s.val x)) := by
  have hrun := (hi.ci.curRun t c).1 hcur
  have hgx : ∀ n, exits n gs = exits n (s.frames c) := by intro n; rw [hx0, hx]
  have hci : CInv ((s.setFrames c gs).kill x) none :=
    CInv.congr (hi.ci.setFrames hrun (Or.inl rfl) (fs := gs) hwf hrt hgx) rfl rfl rfl rfl rfl rfl
  have hvi : VInv ((s.setFrames c gs).kill x) (s.val x).toList := by
    cases hv : s.val x with
    | none => exact (hi.vi.setFrames hrun hgx).killNone (by simpa using hv)
    | some f => exact (hi.vi.setFrames hrun hgx).killSome (by simpa using hv)
  have hfin := finish_safe (t := t) (c := c) (p := s.val x) hci ho hvi (by simpa using hcur) (by simp [hx0]) (by simp [hl]) (by simp [he]) (by simp [hr]) ?_
  · have heq : ∀ p, State.finish ((s.setFrames c gs).kill x) t c p = (s.kill x).finish t c p := by
      intro p
      cases p with
      | none => rfl
      | some w =>
        have hq : State.setFrames { (s.setFrames c gs).kill x with frm := upd s.frm c none, ontop := upd s.ontop c none, term := upd s.term c true, unw := upd s.unw c false } c [Frame.exitJump]
            = State.setFrames { s.kill x with frm := upd s.frm c none, ontop := upd s.ontop c none, term := upd s.term c true, unw := upd s.unw c false } c [Frame.exitJump] := by
          simp only [State.setFrames, State.kill]
          congr 1
          funext d; simp only [upd_apply]; grind
        show (if s.status w = .terminated then Res.assertion else _) = (if s.status w = .terminated then Res.assertion else _)
        split
        · rfl
        · exact congrArg (fun q : State => match q.switchTo t w .terminated with | none => Res.ub | some s => s.arrive w) hq
    rw [heq] at hfin
    exact hfin
  · intro w v hxw hv
    have hwc : w ≠ c := by
      rintro rfl
      have := (hi.vi.valid x w hxw).1
      simp [hrun] at this
    simp [hwc] at hv
    exact hd w v hxw hv

theorem propagate_safe {s : State} {t c k e rest} (hi : Inv s) (hcur : s.cur t = some c)
    (hfr : s.frames c = .user k [] (.unwinding e) :: rest) : Safe (propagate s t c k e rest) := by
  have hrun := (hi.ci.curRun t c).1 hcur
  have hw := hi.ci.wf c (by simp [hrun])
  rw [hfr] at hw
  cases k with
  | main => simp [propagate, Safe]
  | cleanup => simp [propagate, Safe]
  | call =>
    obtain ⟨k', ls', rest', rfl⟩ := adj_call hw.1
    simp only [propagate]
    refine Inv.safe (hi.setTop hcur ⟨hw.2.1.change modeOK_unwinding, hw.2.2⟩ ?_ ?_ ?_ ?_ ?_)
    · simp [RunTop]
    · simp [hfr]
    · simp [hfr]
    · cases e <;> simp [hfr]
    · simp [hfr]
  | fn =>
    have := adj_fn hw.1
    subst this
    cases e with
    | user n => simp [propagate, Safe]
    | forced x =>
      simp only [propagate]
      have hkx : s.kind x = .exc c := (hi.oi.excs c x).1 (by simp [hfr])
      refine finish_kill hi hcur (gs := [.user .fn [] (.unwinding (.user 0)), .entryRun])
        ⟨hw.1.change modeOK_unwinding, hw.2⟩ (by simp [RunTop]) (by simp) (by simp [hfr]) (by simp) (by simp) (by simp)
        (hi.oi.killExc (by simp [hfr]) (by simp [hfr]) (by simp [hfr])) ?_
      intro w v hx hv
      exact hi.vi.excTop x c w v hkx hx hv
  | ontop i =>
    obtain ⟨rest1, rfl⟩ := adj_ontop hw.1
    obtain ⟨k', ls', rest', rfl⟩ := adj_resume_inv hw.2.1
    simp only [propagate]
    refine Inv.safe (hi.setTop hcur ⟨hw.2.2.1.change modeOK_unwinding, hw.2.2.2⟩ ?_ ?_ ?_ ?_ ?_)
    · simp [RunTop]
    · simp [hfr]
    · simp [hfr]
    · cases e <;> simp [hfr]
    · simp [hfr]

theorem leave_safe {s : State} {t c k x rest} (hi : Inv s) (hcur : s.cur t = some c)
    (hfr : s.frames c = .user k [] (.returning x) :: rest) : Safe (leave s t c k x rest) := by
  have hrun := (hi.ci.curRun t c).1 hcur
  have hw := hi.ci.wf c (by simp [hrun])
  rw [hfr] at hw
  have hm := hw.1.modeOK
  cases k with
  | main =>
    cases x with
    | some x => simp [ModeOK] at hm
    | none =>
      simp only [leave]
      have hrest : rest = [] := by
        have := hw.1; cases rest <;> simp_all [Adj]
      subst hrest
      refine Inv.safe ⟨hi.ci.threadExit hcur hfr, ?_, ?_⟩
      · have ho := hi.oi.setFrames (c := c) (fs := []) (by simp [hfr]) (by simp [hfr]) (by simp [hfr])
        refine ho.congr rfl rfl rfl rfl (Nat.le_refl _) ?_
        intro d hd
        simp only [upd_apply] at hd
        left
        show s.status d = .freed
        grind
      · refine hi.vi.status rfl rfl rfl ?_ ?_ ?_ ?_
        · intro d; simp only [upd_apply]; grind
        · intro d; simp only [upd_apply]; grind
        · intro n d; simp only [upd_apply]; split
          · subst_vars; simp [hfr]
          · rfl
        · intro d; simp only [upd_apply]; grind
  | call =>
    cases x with
    | some x => simp [ModeOK] at hm
    | none =>
      obtain ⟨k', ls', rest', rfl⟩ := adj_call hw.1
      refine Inv.safe (hi.setTop hcur hw.2 ?_ ?_ ?_ ?_ ?_)
      · simp [RunTop]
      · simp [hfr]
      · simp [hfr]
      · simp [hfr]
      · simp [hfr]
  | cleanup =>
    cases x with
    | some x => simp [ModeOK] at hm
    | none =>
      refine Inv.safe (hi.setTop hcur hw.2 (adj_cleanup hw.1) ?_ ?_ ?_ ?_)
      · simp [hfr]
      · simp [hfr]
      · simp [hfr]
      · simp [hfr]
  | fn =>
    cases x with
    | none => simp [ModeOK] at hm
    | some x =>
      have := adj_fn hw.1
      subst this
      simp only [leave]
      have hkx : s.kind x = .ret c := (hi.oi.rets c x).1 (by simp [hfr])
      refine finish_kill hi hcur (gs := [.user .fn [] .normal, .entryRun])
        ⟨hw.1.change modeOK_normal, hw.2⟩ (by simp [RunTop]) (by simp) (by simp [hfr]) (by simp) (by simp) (by simp)
        (hi.oi.killRet (by simp [hfr]) (by simp [hfr]) (by simp [hfr])) ?_
      intro w v hx hv
      exact absurd hv (hi.vi.nonExc x w (by simp [hkx]) hx v)
  | ontop i =>
    cases x with
    | none => simp [ModeOK] at hm
    | some x =>
      obtain ⟨rest1, rfl⟩ := adj_ontop hw.1
      obtain ⟨k', ls', rest', rfl⟩ := adj_resume_inv hw.2.1
      simp only [leave]
      have hkx : s.kind x = .ret c := (hi.oi.rets c x).1 (by simp [hfr])
      have hex : ∀ n, exits n (.user k' ls' .normal :: rest') = exits n (s.frames c) := by simp [hfr]
      obtain ⟨s1, hs1⟩ : ∃ s1 : State, s1 = { (s.setFrames c (.user k' ls' .normal :: rest')).kill x with ontop := upd s.ontop c none } := ⟨_, rfl⟩
      have hc1 : CInv s1 none := by
        rw [hs1]
        exact CInv.congr (hi.ci.setFrames hrun (Or.inl rfl) (fs := .user k' ls' .normal :: rest') hw.2.2 (by simp [RunTop]) hex) rfl rfl rfl rfl rfl rfl
      have ho1 : OInv s1 := by
        rw [hs1]
        exact (hi.oi.killRet (c := c) (fs := .user k' ls' .normal :: rest') (x := x) (by simp [hfr]) (by simp [hfr]) (by simp [hfr])).congr rfl rfl rfl rfl (Nat.le_refl _) (fun _ h => Or.inl h)
      have hv1 : VInv s1 (s.val x).toList := by
        rw [hs1]
        cases hx : s.val x with
        | none => exact ((hi.vi.setFrames (fs := .user k' ls' .normal :: rest') hrun hex).killNone (x := x) (by simpa using hx)).congr rfl rfl rfl rfl rfl
        | some f => exact ((hi.vi.setFrames (fs := .user k' ls' .normal :: rest') hrun hex).killSome (x := x) (by simpa using hx)).congr rfl rfl rfl rfl rfl
      have hr1 : s1.status c = .running t := by simp [hs1, hrun]
      have hfr1 : s1.frames c = .user k' ls' .normal :: rest' := by simp [hs1]
      have hvn : VInv (s1.newVar (.loc c) (s.val x)) [] := by
        cases hx : s.val x with
        | none => rw [hx] at hv1; exact hv1.newVar (ho1.fresh _ (Nat.le_refl _)) (by simp)
        | some f =>
          rw [hx] at hv1
          refine VInv.newVarSome hv1 (ho1.fresh _ (Nat.le_refl _)) (by simp) (by simp) ?_
          intro _ v hv
          have hfc : f ≠ c := by
            rintro rfl
            have := (hi.vi.valid x f hx).1
            simp [hrun] at this
          rw [hs1] at hv
          simp [hfc] at hv
          exact hi.vi.nonExc x f (by simp [hkx]) hx v hv
      have hI : Inv ((s1.newVar (.loc c) (s.val x)).setFrames c (.user k' (s1.nextVar :: ls') .normal :: rest')) := by
        refine ⟨CInv.congr (hc1.setFrames hr1 (Or.inl rfl) (fs := .user k' (s1.nextVar :: ls') .normal :: rest')
          ⟨hw.2.2.1.change modeOK_normal, hw.2.2.2⟩ (by simp [RunTop]) ?_) rfl rfl rfl rfl rfl rfl, ho1.newLoc ?_ ?_ ?_, hvn.setFrames (t := t) hr1 ?_⟩ <;> simp [hfr1]
      have heq : (s1.newVar (.loc c) (s.val x)).setFrames c (.user k' (s1.nextVar :: ls') .normal :: rest')
          = (State.newVar (State.kill { s with ontop := upd s.ontop c none } x) (.loc c) (s.val x)).setFrames c (.user k' (s.nextVar :: ls') .normal :: rest') := by
        rw [hs1]
        simp only [State.setFrames, State.kill, State.newVar]
        congr 1
        funext d; simp only [upd_apply]; grind
      rw [heq] at hI
      exact Inv.safe hI

theorem exitStep_safe {s : State} {t c n rest} (hi : Inv s) (hcur : s.cur t = some c)
    (hfr : s.frames c = .exiting n :: rest) : Safe (exitStep s t c n rest) := by
  have hrun := (hi.ci.curRun t c).1 hcur
  have hw := hi.ci.wf c (by simp [hrun])
  rw [hfr] at hw
  simp only [exitStep]
  cases hx : s.caps n with
  | cons x xs =>
    have hk : s.kind x = .cap n := (hi.oi.capv n x).1 (by simp [hx])
    exact destroyVar_safe (hi.ci.congr rfl rfl rfl rfl rfl rfl) (hi.vi.congr rfl rfl rfl rfl rfl) (hi.oi.killCap hx) hcur
      (by intro c; show s.kind x ≠ _; simp [hk])
  | nil =>
    have hn : s.status n = .terminated := hi.ci.exitT n c (by simp [hfr])
    have hnc : n ≠ c := by rintro rfl; simp [hrun] at hn
    simp only [hn, if_true]
    have hfn := hi.ci.fTerm n hn
    have key : ∀ rest', (rest' = rest ∨ ∃ v, rest = .dtor v :: rest') → RunTop rest' →
        Inv ((({ s with status := upd s.status n .freed, frames := upd s.frames n [] }).addLog (.dealloc n)).setFrames c rest') := by
      intro rest' hr ht
      have hrr : ∀ n', exits n' rest' = exits n' rest := by rcases hr with rfl | ⟨v, rfl⟩ <;> simp
      have hll : lvars rest' = lvars rest ∧ evars rest' = evars rest ∧ rvars rest' = rvars rest := by
        rcases hr with rfl | ⟨v, rfl⟩ <;> simp
      refine ⟨hi.ci.free hrun hfr hr ht, ?_, hi.vi.free hrun hfr hn hrr (by simp [hfn])⟩
      refine (hi.oi.frames2 (c := n) (d := c) (fs := []) (gs := rest') ?_ ?_ ?_ ?_ ?_ ?_).congr rfl rfl rfl rfl (Nat.le_refl _) ?_
      · simp [hfn]
      · simp [hfn]
      · simp [hfn]
      · simp [hfr, hll]
      · simp [hfr, hll]
      · simp [hfr, hll]
      · intro d; simp; grind
    rcases adj_exiting_inv hw.1 with h | ⟨rest', rfl⟩
    · obtain ⟨rest'', ⟨k, ls, m, rfl⟩ | ⟨n', rfl⟩⟩ := runTop_iff.1 h
      · exact Inv.safe (key _ (Or.inl rfl) h)
      · exact Inv.safe (key _ (Or.inl rfl) h)
    · exact Inv.safe (Inv.addLog (key rest' (Or.inr ⟨n, rfl⟩) (adj_dtor_inv hw.2.1)))

theorem step_safe {s : State} {t op} (hi : Inv s) : Safe (step s t op) := by
  unfold step
  cases hcur : s.cur t with
  | none => simp [Safe]
  | some c =>
    have hrun := (hi.ci.curRun t c).1 hcur
    have hw := hi.ci.wf c (by simp [hrun])
    simp only
    have hcl : ∀ f rest, s.frames c = f :: rest → RunTop [f] → Inv (s.setFrames c (.user .cleanup [] .normal :: f :: rest)) := by
      intro f rest hfr ht
      rw [hfr] at hw
      refine hi.setTop hcur ⟨?_, hw⟩ ?_ ?_ ?_ ?_ ?_
      · cases f <;> simp_all [Adj, RunTop, ModeOK]
      · simp [RunTop]
      · simp [hfr]
      · simp only [hfr, lvars_cons]; rfl
      · simp only [hfr, evars_cons]; rfl
      · simp only [hfr, rvars_cons]; rfl
    obtain ⟨rest, ⟨k, ls, m, hfr⟩ | ⟨n, hfr⟩⟩ := runTop_iff.1 (hi.ci.runTop c t hrun (by simp))
    · rw [hfr] at hw
      cases m with
      | normal => simp only [hfr]; exact userStep_safe hi hcur hfr
      | unwinding e =>
        cases ls with
        | cons x ls =>
          simp only [hfr]
          cases op <;> simp only <;> try simp [Safe]
          case cleanup => exact Inv.safe (hcl _ _ hfr (by simp [RunTop]))
          case tick =>
            refine destroyVar_safe ?_ ?_ ?_ hcur ?_
            · refine hi.ci.setFrames hrun (Or.inl rfl) ⟨hw.1.change modeOK_unwinding, hw.2⟩ ?_ ?_
              · simp [RunTop]
              · simp [hfr]
            · exact hi.vi.setFrames hrun (by simp [hfr])
            · refine hi.oi.killLoc ?_ ?_ ?_
              · simp [hfr]
              · cases e <;> simp [hfr]
              · simp [hfr]
            · have hkx : s.kind x = .loc c := (hi.oi.locs c x).1 (by simp [hfr])
              simp [hkx]
        | nil =>
          simp only [hfr]
          cases op <;> simp only <;> try simp [Safe]
          case cleanup => exact Inv.safe (hcl _ _ hfr (by simp [RunTop]))
          case tick => exact propagate_safe hi hcur hfr
          case catchUser =>
            cases k <;> cases e <;> simp only <;> try simp [Safe]
            obtain ⟨k', ls', rest', rfl⟩ := adj_call hw.1
            intro _
            refine hi.setTop hcur hw.2 ?_ ?_ ?_ ?_ ?_
            · simp [RunTop]
            · simp [hfr]
            · simp [hfr]
            · simp [hfr]
            · simp [hfr]
          case swallow =>
            cases k <;> cases e <;> simp only <;> try simp [Safe]
            rename_i x
            obtain ⟨k', ls', rest', rfl⟩ := adj_call hw.1
            have hkx : s.kind x = .exc c := (hi.oi.excs c x).1 (by simp [hfr])
            cases hx : s.val x with
            | none => exact absurd hx (hi.vi.excSome x c hkx)
            | some f =>
              simp only
              have hex : ∀ n, exits n (.user k' ls' .normal :: rest') = exits n (s.frames c) := by simp [hfr]
              intro _
              refine ⟨?_, ?_, ?_⟩
              · refine CInv.congr (hi.ci.setFrames (c := c) hrun (Or.inl rfl) hw.2 ?_ hex) rfl rfl rfl rfl rfl rfl
                simp [RunTop]
              · refine OInv.congr (hi.oi.killExc (c := c) (fs := .user k' ls' .normal :: rest') (x := x) ?_ ?_ ?_) rfl rfl rfl rfl (Nat.le_refl _) (fun _ h => Or.inl h)
                · simp [hfr]
                · simp [hfr]
                · simp [hfr]
              · exact VInv.congr (((hi.vi.setFrames (fs := .user k' ls' .normal :: rest') hrun hex).killSome (x := x) (w := f) (by simpa using hx)).lose) rfl rfl rfl rfl rfl
      | returning r =>
        cases ls with
        | cons x ls =>
          simp only [hfr]
          cases op <;> simp only <;> try simp [Safe]
          case cleanup => exact Inv.safe (hcl _ _ hfr (by simp [RunTop]))
          case tick =>
            refine destroyVar_safe ?_ ?_ ?_ hcur ?_
            · refine hi.ci.setFrames hrun (Or.inl rfl) ⟨hw.1.change hw.1.modeOK, hw.2⟩ ?_ ?_
              · simp [RunTop]
              · simp [hfr]
            · exact hi.vi.setFrames hrun (by simp [hfr])
            · refine hi.oi.killLoc ?_ ?_ ?_
              · simp [hfr]
              · simp [hfr]
              · cases r <;> simp [hfr]
            · have hkx : s.kind x = .loc c := (hi.oi.locs c x).1 (by simp [hfr])
              simp [hkx]
        | nil =>
          simp only [hfr]
          cases op <;> simp only <;> try simp [Safe]
          case cleanup => exact Inv.safe (hcl _ _ hfr (by simp [RunTop]))
          case tick => exact leave_safe hi hcur hfr
    · simp only [hfr]
      cases op <;> simp only <;> try simp [Safe]
      case cleanup => exact Inv.safe (hcl _ _ hfr (by simp [RunTop]))
      case tick => exact exitStep_safe hi hcur hfr

theorem inv_init : Inv init := by
  refine ⟨?_, ?_, ?_⟩
  · constructor <;> simp only [init] <;> intros <;> try (split at * <;> simp_all [WF, Adj, ModeOK, RunTop])
    all_goals grind
  · constructor <;> simp only [init] <;> intros <;> (try split) <;> simp_all
  · constructor <;> simp [init]
    intro c; split <;> simp

end Verif.UFiber
