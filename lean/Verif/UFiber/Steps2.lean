import Verif.UFiber.Steps

/-! # Every step preserves the invariant (continued): creation, user operations, runtime steps -/

namespace Verif.UFiber
open Verif.Fiber (CtxId Var Tid Kind Exc Mode UKind Frame Status Event Op CreateOutcome upd upd_apply lvars evars rvars exits
  ModeOK SuspTop RunTop DtorTop lvars_nil evars_nil rvars_nil lvars_cons evars_cons rvars_cons exits_nil exits_cons
  dtorTop_iff suspTop_iff runTop_iff modeOK_unwinding modeOK_normal)
open State

/-- components that capturing does not touch -/
theorem capture_same (s : State) (n : CtxId) (xs : List Var) :
    (s.capture n xs).cur = s.cur ∧ (s.capture n xs).status = s.status ∧ (s.capture n xs).frames = s.frames ∧
    (s.capture n xs).nextCtx = s.nextCtx ∧ (s.capture n xs).nextTid = s.nextTid ∧
    (s.capture n xs).lost = s.lost ∧ (s.capture n xs).nextId = s.nextId ∧ (s.capture n xs).log = s.log ∧
    (s.capture n xs).root = s.root ∧ (s.capture n xs).frm = s.frm ∧ (s.capture n xs).ontop = s.ontop ∧
    (s.capture n xs).term = s.term ∧ (s.capture n xs).unw = s.unw ∧ (s.capture n xs).early = s.early := by
  induction xs generalizing s with
  | nil => simp [capture]
  | cons x xs ih => simp only [capture]; have := ih; simp only [this]; simp

/-- moving out of an accessible object into a new one -/
theorem VInv.moveNew {s : State} {x k} (hv : VInv s []) (ho : OInv s) (ha : s.accessible x = true) (hk : ∀ c, k ≠ .exc c)
    (hd : k ≠ .dead) : VInv ((s.setVal x none).newVar k (s.val x)) [] := by
  have hfr : (s.setVal x none).kind (s.setVal x none).nextVar = .dead := ho.fresh _ (Nat.le_refl _)
  cases hx : s.val x with
  | none => exact (hv.setNone hx).newVar hfr hk
  | some f =>
    exact (hv.take hx (accessible_ne_exc ha)).newVarSome hfr hd (fun c _ h _ => absurd h (hk c))
      (fun _ => hv.nonExc x f (accessible_ne_exc ha) hx)

theorem capture_inv {s : State} {n xs} (ho : OInv s) (hv : VInv s []) (hn : n < s.nextCtx) (hs : s.status n ≠ .freed)
    (ha : ∀ x ∈ xs, s.accessible x = true) : OInv (s.capture n xs) ∧ VInv (s.capture n xs) [] := by
  induction xs generalizing s with
  | nil => exact ⟨ho, hv⟩
  | cons x xs ih =>
    simp only [capture]
    have hv1 := hv.moveNew (k := .cap n) ho (ha x (by simp)) (by simp) (by simp)
    apply ih
    · exact (ho.setVal (x := x) (v := none)).newCap hn hs
    · exact hv1.congr rfl rfl rfl rfl rfl
    · exact hn
    · exact hs
    · intro y hy
      have h1 := ha y (by simp [hy])
      have : (s.setVal x none).accessible y = true := by simpa [accessible] using h1
      exact accessible_newVar (v := s.val x) (k := .cap n) ho.setVal this

theorem doCreate_safe {s : State} {t c k ls rest xs} (hi : Inv s) (hcur : s.cur t = some c)
    (hfr : s.frames c = .user k ls .normal :: rest) (ha : ∀ x ∈ xs, s.accessible x = true) :
    Safe (s.doCreate c k ls rest xs) := by
  have hrun := (hi.ci.curRun t c).1 hcur
  have habs := (hi.ci.absent s.nextCtx).2 (Nat.le_refl _)
  have hcn : c ≠ s.nextCtx := by rintro h; rw [← h] at habs; simp [hrun] at habs
  obtain ⟨e1, e2, e4, e5, e6, e7, e8, e9, e10, e11, e12, e13, e14, e15⟩ := capture_same ({ s with nextCtx := s.nextCtx + 1 }.addLog (.alloc s.nextCtx)) s.nextCtx xs
  have hinv := capture_inv (s := { s with nextCtx := s.nextCtx + 1 }.addLog (.alloc s.nextCtx)) (n := s.nextCtx) (xs := xs)
    (hi.oi.congr rfl rfl rfl rfl (by simp) (fun _ h => Or.inl h)) (hi.vi.congr rfl rfl rfl rfl rfl) (by simp)
    (by simp [habs]) ha
  simp only [State.doCreate]
  generalize hs2 : ({ s with nextCtx := s.nextCtx + 1 }.addLog (.alloc s.nextCtx)).capture s.nextCtx xs = s2 at *
  simp only [addLog_cur, addLog_status, addLog_frames, addLog_nextCtx, addLog_nextTid, addLog_lost, addLog_term] at e1 e2 e4 e5 e6 e7 e13
  have hw := hi.ci.wf c (by simp [hrun])
  rw [hfr] at hw
  have hf3 : s2.frames s.nextCtx = [] := by rw [e4]; exact hi.ci.fAbsent _ habs
  have hx3 : ∀ d, exits s.nextCtx (s2.frames d) = 0 := by
    intro d
    rw [e4]
    rcases Nat.eq_zero_or_pos (exits s.nextCtx (s.frames d)) with h | h
    · exact h
    · have := hi.ci.exitT _ d h; simp [habs] at this
  obtain ⟨s3, hs3⟩ : ∃ s3 : State, s3 = { s2 with status := upd s2.status s.nextCtx .suspended, frames := upd s2.frames s.nextCtx [.entryJump], root := upd s2.root s.nextCtx false, frm := upd s2.frm s.nextCtx none, ontop := upd s2.ontop s.nextCtx none, term := upd s2.term s.nextCtx false, unw := upd s2.unw s.nextCtx false } := ⟨_, rfl⟩
  rw [← hs3]
  have hnv : s2.nextVar = s3.nextVar := by simp [hs3]
  have hc3 : CInv s3 none := by
    refine CInv.congr (hi.ci.create (q := s3.frm) (r := s3.root) (o := s3.ontop) (u := s3.unw)) ?_ ?_ ?_ ?_ ?_ ?_ <;> simp [hs3, e1, e2, e4, e5, e6, e13]
  have hv3 : VInv s3 [s.nextCtx] := by
    rw [hs3]; exact hinv.2.create (by rw [e2]; exact habs) hx3 hf3
  have ho3 : OInv s3 := by
    refine OInv.congr (hinv.1.setFrames (c := s.nextCtx) (fs := [.entryJump]) ?_ ?_ ?_) ?_ ?_ ?_ ?_ ?_ ?_
    · simp [hf3]
    · simp [hf3]
    · simp [hf3]
    · simp [hs3]
    · simp [hs3]
    · simp [hs3]
    · simp [hs3]
    · simp [hs3]
    · intro d; simp [hs3]; grind
  have hf : s3.frames c = s.frames c := by simp [hs3, e4, hcn]
  have hst : s3.status c = .running t := by simp [hs3, e2, hcn, hrun]
  simp only [hnv]
  refine Inv.safe ⟨?_, ?_, ?_⟩
  · refine CInv.congr (CInv.setFrames (c := c) (t := t) (fs := .user k (s3.nextVar :: ls) .normal :: rest) hc3 hst (Or.inl rfl)
      ⟨hw.1.change modeOK_normal, hw.2⟩ ?_ ?_) rfl rfl rfl rfl rfl rfl
    · simp [RunTop]
    · simp [hf, hfr]
  · refine OInv.newLoc ho3 ?_ ?_ ?_
    · simp [hf, hfr]
    · simp [hf, hfr]
    · simp [hf, hfr]
  · refine VInv.setFrames (t := t) (VInv.newVarSome hv3 ?_ (by simp) (by simp) ?_) hst ?_
    · exact ho3.fresh _ (Nat.le_refl _)
    · simp [hs3, DtorTop]
    · simp [hf, hfr]

theorem setVal_setVal {s : State} {x y v w} : ((s.setVal x v).setVal y w) = { s with val := upd (upd s.val x v) y w } := rfl

theorem userStep_safe {s : State} {t c k ls rest op} (hi : Inv s) (hcur : s.cur t = some c)
    (hfr : s.frames c = .user k ls .normal :: rest) : Safe (userStep s t c k ls rest op) := by
  have hrun := (hi.ci.curRun t c).1 hcur
  have hw := hi.ci.wf c (by simp [hrun])
  rw [hfr] at hw
  have hnew := hi.oi.fresh _ (Nat.le_refl _)
  have hnewLoc : ∀ (s1 : State) (v : Option CtxId), s1.cur = s.cur → s1.status = s.status → s1.frames = s.frames →
      s1.nextCtx = s.nextCtx → s1.nextTid = s.nextTid → s1.term = s.term → OInv s1 → VInv (s1.newVar (.loc c) v) [] →
      Inv ((s1.newVar (.loc c) v).setFrames c (.user k (s1.nextVar :: ls) .normal :: rest)) := by
    intro s1 v e1 e2 e3 e4 e5 e6 ho hv
    refine ⟨CInv.congr (CInv.setFrames (fs := .user k (s1.nextVar :: ls) .normal :: rest) hi.ci hrun (Or.inl rfl)
      ⟨hw.1.change modeOK_normal, hw.2⟩ ?_ ?_) ?_ ?_ ?_ ?_ ?_ ?_, ho.newLoc ?_ ?_ ?_, hv.setFrames (t := t) ?_ ?_⟩
    · simp [RunTop]
    · simp [hfr]
    · simp [e1]
    · simp [e2]
    · simp [e3]
    · simp [e4]
    · simp [e5]
    · simp [e6]
    · simp [e3, hfr]
    · simp [e3, hfr]
    · simp [e3, hfr]
    · simp [e2, hrun]
    · simp [e3, hfr]
  cases op with
  | newHeap => exact Inv.safe ⟨hi.ci.congr rfl rfl rfl rfl rfl rfl, hi.oi.newHeap, hi.vi.newVar hnew (by simp)⟩
  | newLocal => exact Inv.safe (hnewLoc s none rfl rfl rfl rfl rfl rfl hi.oi (hi.vi.newVar hnew (by simp)))
  | moveHeap x =>
    simp only [userStep]
    split
    · rename_i ha
      exact Inv.safe ⟨hi.ci.congr rfl rfl rfl rfl rfl rfl, hi.oi.setVal.newHeap, hi.vi.moveNew hi.oi ha (by simp) (by simp)⟩
    · simp [Safe]
  | moveLocal x =>
    simp only [userStep]
    split
    · rename_i ha
      exact Inv.safe (hnewLoc (s.setVal x none) (s.val x) rfl rfl rfl rfl rfl rfl hi.oi.setVal (hi.vi.moveNew hi.oi ha (by simp) (by simp)))
    · simp [Safe]
  | moveAssign y x =>
    simp only [userStep]
    split
    · rename_i ha
      split
      · exact Inv.safe hi
      · rename_i hyx
        have hex := accessible_ne_exc ha.1
        have hey := accessible_ne_exc ha.2
        have hdy := accessible_ne_dead ha.2
        have hv1 : VInv ((s.setVal y (s.val x)).setVal x none) (s.val y).toList := by
          have hcomm : (s.setVal y (s.val x)).setVal x none = ((s.setVal y none).setVal x none).setVal y (s.val x) := by
            simp only [setVal_setVal]
            simp only [State.setVal]
            congr 1
            funext z; simp only [upd_apply]; grind
          rw [hcomm]
          have h1 : VInv (s.setVal y none) (s.val y).toList := by
            cases hy : s.val y with
            | none => exact hi.vi.setNone hy
            | some f => exact hi.vi.take hy hey
          cases hx : s.val x with
          | none =>
            exact ((h1.setNone (x := x) (by simp [hx])).setNone (x := y) (by simp))
          | some g =>
            refine VInv.put (h1.take (x := x) (w := g) ?_ (by simpa using hex)) ?_ ?_ ?_ ?_
            · simp [hx]; grind
            · simp
            · simpa using hdy
            · simpa using hey
            · exact hi.vi.nonExc x g hex hx
        split
        · rename_i hy
          rw [hy] at hv1
          exact Inv.safe ⟨hi.ci.congr rfl rfl rfl rfl rfl rfl, hi.oi.setVal.setVal, hv1⟩
        · rename_i f hy
          rw [hy] at hv1
          exact destroyPtr_safe (hi.ci.congr rfl rfl rfl rfl rfl rfl) hi.oi.setVal.setVal hv1 hcur (hi.vi.nonExc y f hey hy)
    · simp [Safe]
  | swap x y =>
    simp only [userStep]
    split
    · rename_i ha
      have hex := accessible_ne_exc ha.1
      have hey := accessible_ne_exc ha.2
      have hdx := accessible_ne_dead ha.1
      have hdy := accessible_ne_dead ha.2
      refine Inv.safe ⟨hi.ci.congr rfl rfl rfl rfl rfl rfl, hi.oi.setVal.setVal, ?_⟩
      by_cases hxy : x = y
      · subst hxy
        refine hi.vi.congr ?_ rfl rfl rfl rfl
        funext z; simp; grind
      · have hcomm : (s.setVal x (s.val y)).setVal y (s.val x)
            = (((s.setVal y none).setVal x none).setVal x (s.val y)).setVal y (s.val x) := by
          simp only [State.setVal]
          congr 1
          funext z; simp only [upd_apply]; grind
        rw [hcomm]
        cases hy : s.val y with
        | none =>
          have h1 := hi.vi.setNone hy
          cases hx : s.val x with
          | none => exact ((h1.setNone (x := x) (by simp [hx])).setNone (x := x) (by simp)).setNone (x := y) (by simp)
          | some g =>
            have h2 := h1.take (x := x) (w := g) (by simp [hx, hxy]) (by simpa using hex)
            refine VInv.put (h2.setNone (x := x) (by simp)) ?_ ?_ ?_ ?_
            · simp
            · simpa using hdy
            · simpa using hey
            · exact hi.vi.nonExc x g hex hx
        | some f =>
          have h1 := hi.vi.take hy hey
          cases hx : s.val x with
          | none =>
            have h2 := h1.setNone (x := x) (by simp [hx])
            refine VInv.setNone (VInv.put h2 ?_ ?_ ?_ ?_) ?_
            · simp
            · simpa using hdx
            · simpa using hex
            · exact hi.vi.nonExc y f hey hy
            · simp; grind
          | some g =>
            have h2 := h1.take (x := x) (w := g) (by simp [hx, hxy]) (by simpa using hex)
            -- registers: g :: [f]; put f into x first
            have h3 : VInv ((s.setVal y none).setVal x none) [f, g] := by
              obtain ⟨a1,a2,a3,a4,a5,a6,a7,a8,a9,a10,a11⟩ := h2
              constructor
              case held =>
                intro d hd
                have := a7 d hd
                simp only [List.mem_cons] at this ⊢
                grind
              all_goals first | assumption | grind
            refine VInv.put (VInv.put h3 ?_ ?_ ?_ ?_) ?_ ?_ ?_ ?_
            · simp
            · simpa using hdx
            · simpa using hex
            · exact hi.vi.nonExc y f hey hy
            · simp; grind
            · simpa using hdy
            · simpa using hey
            · exact hi.vi.nonExc x g hex hx
    · simp [Safe]
  | drop x =>
    simp only [userStep]
    split
    · rename_i hx
      refine destroyVar_safe ?_ ?_ ?_ hcur ?_
      · refine hi.ci.setFrames hrun (Or.inl rfl) ⟨hw.1.change modeOK_normal, hw.2⟩ ?_ ?_
        · simp [RunTop]
        · simp [hfr]
      · exact hi.vi.setFrames hrun (by simp [hfr])
      · refine hi.oi.killLoc ?_ ?_ ?_
        · simp only [hfr, lvars_cons, Frame.lvars]
          exact (List.perm_cons_erase hx).append_right _
        · simp [hfr]
        · simp [hfr]
      · have hkx : s.kind x = .loc c := (hi.oi.locs c x).1 (by simp [hfr, hx])
        simp [hkx]
    · split
      · rename_i hx
        exact destroyVar_safe hi.ci hi.vi (hi.oi.killHeap hx) hcur (by simp [hx])
      · simp [Safe]
  | create xs o =>
    simp only [userStep]
    split
    · rename_i ha
      rw [List.all_eq_true] at ha
      cases o with
      | success => exact doCreate_safe hi hcur hfr ha
      | allocThrows n =>
        intro _
        refine hi.setTop hcur ⟨hw.1.change modeOK_unwinding, hw.2⟩ ?_ ?_ ?_ ?_ ?_
        · simp [RunTop]
        · simp [hfr]
        · simp [hfr]
        · simp [hfr]
        · simp [hfr]
      | fnThrows => simp [Safe]
    · simp [Safe]
  | resume x =>
    simp only [userStep]
    split
    · rename_i ha; exact doResume_safe hi hcur hfr ha
    · simp [Safe]
  | resumeWith x =>
    simp only [userStep]
    split
    · rename_i ha; exact doResumeWith_safe hi hcur hfr ha
    · simp [Safe]
  | call =>
    intro _
    refine hi.setTop hcur ⟨?_, hw⟩ ?_ ?_ ?_ ?_ ?_
    · simp [Adj, ModeOK]
    · simp [RunTop]
    · simp [hfr]
    · simp [hfr]
    · simp [hfr]
    · simp [hfr]
  | cleanup =>
    intro _
    refine hi.setTop hcur ⟨?_, hw⟩ ?_ ?_ ?_ ?_ ?_
    · simp [Adj, ModeOK]
    · simp [RunTop]
    · simp [hfr]
    · simp [hfr]
    · simp [hfr]
    · simp [hfr]
  | ret =>
    have key : ModeOK k (.returning none) → Safe (.ok (s.setFrames c (.user k ls (.returning none) :: rest))) := by
      intro hm
      intro _
      refine hi.setTop hcur ⟨hw.1.change hm, hw.2⟩ ?_ ?_ ?_ ?_ ?_
      · simp [RunTop]
      · simp [hfr]
      · simp [hfr]
      · simp [hfr]
      · simp [hfr]
    cases k <;> simp only [userStep] <;> first | exact key (by simp [ModeOK]) | simp [Safe]
  | retHandle x =>
    simp only [userStep]
    split
    · rename_i ha
      have key : (∀ y, ModeOK k (.returning (some y))) →
          Safe (.ok (((s.setVal x none).newVar (.ret c) (s.val x)).setFrames c (.user k ls (.returning (some s.nextVar)) :: rest))) := by
        intro hm
        refine Inv.safe ⟨CInv.congr (CInv.setFrames (fs := .user k ls (.returning (some s.nextVar)) :: rest) hi.ci hrun (Or.inl rfl)
          ⟨hw.1.change (hm _), hw.2⟩ ?_ ?_) rfl rfl rfl rfl rfl rfl, hi.oi.setVal.newRet ?_ ?_ ?_,
          (hi.vi.moveNew hi.oi ha (by simp) (by simp)).setFrames (t := t) hrun (by simp [hfr])⟩
        · simp [RunTop]
        · simp [hfr]
        · simp [hfr]
        · simp [hfr]
        · simp [hfr]
      cases k <;> first | exact key (by simp [ModeOK]) | simp [Safe]
    · simp [Safe]
  | throw n =>
    intro _
    refine hi.setTop hcur ⟨hw.1.change modeOK_unwinding, hw.2⟩ ?_ ?_ ?_ ?_ ?_
    · simp [RunTop]
    · simp [hfr]
    · simp [hfr]
    · simp [hfr]
    · simp [hfr]
  | spawn =>
    have habs := (hi.ci.absent s.nextCtx).2 (Nat.le_refl _)
    have hf0 := hi.ci.fAbsent _ habs
    refine Inv.safe ⟨hi.ci.spawn, ?_, ?_⟩
    · refine OInv.congr (hi.oi.setFrames (c := s.nextCtx) (fs := [.user .main [] .normal]) ?_ ?_ ?_) rfl rfl rfl rfl (by simp) ?_
      · simp [hf0]
      · simp [hf0]
      · simp [hf0]
      · intro d; simp; grind
    · refine hi.vi.status rfl rfl rfl ?_ ?_ ?_ ?_
      · intro d; simp only [upd_apply]; grind
      · intro d; simp only [upd_apply]; grind
      · intro n d; simp only [upd_apply]; split
        · subst_vars; simp [hf0]
        · rfl
      · intro d; simp only [upd_apply]; grind
  | catchUser => simp [userStep, Safe]
  | swallow => simp [userStep, Safe]
  | withThrows => simp [userStep, Safe]
  | tick => simp [userStep, Safe]


end Verif.UFiber
