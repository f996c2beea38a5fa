import Verif.Fiber.Steps

/-! # Every step preserves the invariant (continued): creation, user operations, runtime steps -/

namespace Verif.Fiber
open State

/-- components that capturing does not touch -/
theorem capture_same (s : State) (n : CtxId) (xs : List Var) :
    (s.capture n xs).cur = s.cur ∧ (s.capture n xs).status = s.status ∧ (s.capture n xs).seq = s.seq ∧
    (s.capture n xs).frames = s.frames ∧ (s.capture n xs).nextCtx = s.nextCtx ∧ (s.capture n xs).nextTid = s.nextTid ∧
    (s.capture n xs).lost = s.lost ∧ (s.capture n xs).nextId = s.nextId ∧ (s.capture n xs).log = s.log := by
  induction xs generalizing s with
  | nil => simp [capture]
  | cons x xs ih => simp only [capture]; have := ih; simp only [this]; simp

theorem accessible_ne_exc {s : State} {x} (h : s.accessible x = true) : ∀ c, s.kind x ≠ .exc c := by
  intro c hc; simp [accessible, hc] at h

theorem accessible_ne_dead {s : State} {x} (h : s.accessible x = true) : s.kind x ≠ .dead := by
  intro hc; simp [accessible, hc] at h

theorem accessible_newVar {s : State} {x k v} (ho : OInv s) (h : s.accessible x = true) :
    (s.newVar k v).accessible x = true := by
  have : x ≠ s.nextVar := by
    rintro rfl
    exact accessible_ne_dead h (ho.fresh _ (Nat.le_refl _))
  simpa [accessible, this] using h

/-- moving out of an accessible object into a new one -/
theorem VInv.moveNew {s : State} {x k} (hv : VInv s []) (ho : OInv s) (ha : s.accessible x = true) (hk : ∀ c, k ≠ .exc c)
    (hd : k ≠ .dead) : VInv ((s.setVal x none).newVar k (s.val x)) [] := by
  have hfr : (s.setVal x none).kind (s.setVal x none).nextVar = .dead := ho.fresh _ (Nat.le_refl _)
  cases hx : s.val x with
  | none => exact (hv.setNone hx).newVar hfr hk
  | some f =>
    exact (hv.take hx (accessible_ne_exc ha)).newVarSome hfr hd (fun c h => absurd h (hk c))
      (fun _ => hv.nonExc x f (accessible_ne_exc ha) hx)

theorem capture_inv {s : State} {n xs} (ho : OInv s) (hv : VInv s []) (hn : n < s.nextCtx) (hs : s.status n ≠ .freed)
    (ha : ∀ x ∈ xs, s.accessible x = true) : OInv (s.capture n xs) ∧ VInv (s.capture n xs) [] := by
  induction xs generalizing s with
  | nil => exact ⟨ho, hv⟩
  | cons x xs ih =>
    simp only [capture]
    have hv1 := hv.moveNew (k := .cap n) ho (ha x (by simp)) (by simp) (by simp)
    apply ih
    · exact (ho.setVal (x := x) (v := none)).newCap hn hs
    · exact hv1.congr rfl rfl rfl rfl rfl rfl
    · exact hn
    · exact hs
    · intro y hy
      have h1 := ha y (by simp [hy])
      have : (s.setVal x none).accessible y = true := by simpa [accessible] using h1
      exact accessible_newVar (v := s.val x) (k := .cap n) ho.setVal this

theorem doCreate_eq {s : State} {t c k ls rest xs} (hi : Inv s) (hcur : s.cur t = some c)  :
    let n := s.nextCtx
    let s2 := ({ s with nextCtx := n + 1 }.addLog (.alloc n)).capture n xs
    let s3 : State := { s2 with status := upd s2.status n .suspended, frames := upd s2.frames n [.entryJump],
                                seq := upd (upd s2.seq n 1) c (s2.seq c + 1) }
    s.doCreate t c k ls rest xs =
      .ok ((s3.newVar (.loc c) (some ⟨n, 1⟩)).setFrames c (.user k (s3.nextVar :: ls) .normal :: rest)) := by
  intro n s2 s3
  have hrun := (hi.ci.curRun t c).1 hcur
  have habs := (hi.ci.absent n).2 (Nat.le_refl _)
  have hcn : c ≠ n := by rintro rfl; simp [hrun] at habs
  have hcs := capture_same ({ s with nextCtx := n + 1 }.addLog (.alloc n)) n xs
  have e1 : s2.cur t = some c := by rw [show s2.cur = s.cur from hcs.1]; exact hcur
  have e2 : s2.status c = .running t := by rw [show s2.status = s.status from hcs.2.1]; exact hrun
  have hj1 : jump { s2 with status := upd s2.status n .raw, seq := upd s2.seq n 0 } t ⟨n, 0⟩
      = some ({ s2 with cur := upd s2.cur t (some n), status := upd (upd (upd s2.status n .raw) c .suspended) n (.running t),
                        seq := upd (upd s2.seq n 0) c (s2.seq c + 1) }, ⟨c, s2.seq c + 1⟩) := by
    simp [jump, switch, e1, hcn]
  have hj2 : ∀ s4 : State, s4 = { s2 with cur := upd s2.cur t (some n), status := upd (upd (upd s2.status n .raw) c .suspended) n (.running t),
                                          seq := upd (upd s2.seq n 0) c (s2.seq c + 1) } →
      jump (s4.setFrames n [.entryJump]) t ⟨c, s2.seq c + 1⟩ = some (s3, ⟨n, 1⟩) := by
    rintro s4 rfl
    have h1 : (upd (upd s2.cur t (some n)) t (some c)) = s2.cur := by
      funext t'; simp only [upd_apply]; grind
    have h2 : upd (upd (upd (upd (upd s2.status n .raw) c .suspended) n (.running t)) n .suspended) c (.running t)
        = upd s2.status n .suspended := by
      funext d; simp only [upd_apply]; grind
    have h3 : upd (upd (upd s2.seq n 0) c (s2.seq c + 1)) n 1 = upd (upd s2.seq n 1) c (s2.seq c + 1) := by
      funext d; simp only [upd_apply]; grind
    have hnc : n ≠ c := fun h => hcn h.symm
    simp [jump, switch, State.setFrames, hcn, hnc, h1, h2, h3, s3]
  show State.doCreate s t c k ls rest xs = _
  unfold State.doCreate
  show (match jump { s2 with status := upd s2.status n .raw, seq := upd s2.seq n 0 } t ⟨n, 0⟩ with
    | none => Res.ub
    | some (s, back) =>
      match (s.setFrames n [.entryJump]).jump t back with
      | none => .ub
      | some (s, f) => .ok ((s.newVar (.loc c) (some f)).setFrames c (.user k (s.nextVar :: ls) .normal :: rest))) = _
  rw [hj1]
  simp only
  rw [hj2 _ rfl]

theorem doCreate_safe {s : State} {t c k ls rest xs} (hi : Inv s) (hcur : s.cur t = some c)
    (hfr : s.frames c = .user k ls .normal :: rest) (ha : ∀ x ∈ xs, s.accessible x = true) :
    Safe (s.doCreate t c k ls rest xs) := by
  have hrun := (hi.ci.curRun t c).1 hcur
  have habs := (hi.ci.absent s.nextCtx).2 (Nat.le_refl _)
  have hcn : c ≠ s.nextCtx := by rintro h; rw [← h] at habs; simp [hrun] at habs
  rw [doCreate_eq hi hcur]
  obtain ⟨e1, e2, e3, e4, e5, e6, e7, e8, e9⟩ := capture_same ({ s with nextCtx := s.nextCtx + 1 }.addLog (.alloc s.nextCtx)) s.nextCtx xs
  have hinv := capture_inv (s := { s with nextCtx := s.nextCtx + 1 }.addLog (.alloc s.nextCtx)) (n := s.nextCtx) (xs := xs)
    (hi.oi.congr rfl rfl rfl rfl (by simp) (fun _ h => Or.inl h)) (hi.vi.congr rfl rfl rfl rfl rfl rfl) (by simp)
    (by simp [habs]) ha
  simp only [Safe]
  generalize hs2 : ({ s with nextCtx := s.nextCtx + 1 }.addLog (.alloc s.nextCtx)).capture s.nextCtx xs = s2 at *
  simp only [addLog_cur, addLog_status, addLog_seq, addLog_frames, addLog_nextCtx, addLog_nextTid, addLog_lost] at e1 e2 e3 e4 e5 e6 e7
  have hw := hi.ci.wf c (by simp [hrun])
  rw [hfr] at hw
  have hc3 : CInv { s2 with status := upd s2.status s.nextCtx .suspended, frames := upd s2.frames s.nextCtx [.entryJump],
                            seq := upd (upd s2.seq s.nextCtx 1) c (s2.seq c + 1) } none := by
    refine CInv.congr (hi.ci.create (q := upd (upd s2.seq s.nextCtx 1) c (s2.seq c + 1))) ?_ ?_ ?_ ?_ ?_ <;> simp [e1, e2, e4, e5, e6]
  have hv3 := (hinv.2.create (n := s.nextCtx) (q := 1) (fs := [.entryJump]) (nc := s2.nextCtx) (by simp [e2, habs]) (by simp [DtorTop])).bump
    (c := c) (t := t) (q := s2.seq c + 1) (by simp [e2, hcn, hrun])
  have hf3 : s2.frames s.nextCtx = [] := by rw [e4]; exact hi.ci.fAbsent _ habs
  have ho3 : OInv { s2 with status := upd s2.status s.nextCtx .suspended, frames := upd s2.frames s.nextCtx [.entryJump],
                            seq := upd (upd s2.seq s.nextCtx 1) c (s2.seq c + 1) } := by
    refine OInv.congr (hinv.1.setFrames (c := s.nextCtx) (fs := [.entryJump]) ?_ ?_ ?_) rfl rfl rfl rfl (Nat.le_refl _) ?_
    · simp [hf3]
    · simp [hf3]
    · simp [hf3]
    · intro d; simp; grind
  refine ⟨?_, ?_, ?_⟩
  · refine CInv.congr (CInv.setFrames (c := c) (t := t) (fs := .user k (s2.nextVar :: ls) .normal :: rest) hc3 ?_ (Or.inl rfl)
      ⟨hw.1.change modeOK_normal, hw.2⟩ ?_ ?_) rfl rfl rfl rfl rfl
    · simp [e2, hcn, hrun]
    · simp [RunTop]
    · simp [e4, hcn, hfr]
  · refine OInv.newLoc ho3 ?_ ?_ ?_
    · simp [e4, hcn, hfr]
    · simp [e4, hcn, hfr]
    · simp [e4, hcn, hfr]
  · refine VInv.setFrames (t := t) (VInv.newVarSome (VInv.congr hv3 rfl rfl rfl rfl rfl rfl) ?_ (by simp) (by simp) ?_) ?_
    · exact hinv.1.fresh _ (Nat.le_refl _)
    · simp [DtorTop]
    · simp [e2, hcn, hrun]

/-- changing only the innermost user frame of the running context, variables unchanged -/
theorem Inv.setTop {s : State} {t c fs} (hi : Inv s) (hcur : s.cur t = some c) (hw : WF fs) (ht : RunTop fs) (hx : ∀ n, exits n fs = exits n (s.frames c))
    (hl : lvars fs = lvars (s.frames c)) (he : evars fs = evars (s.frames c)) (hr : rvars fs = rvars (s.frames c)) :
    Inv (s.setFrames c fs) := by
  have hrun := (hi.ci.curRun t c).1 hcur
  exact ⟨hi.ci.setFrames hrun (Or.inl rfl) hw ht hx, hi.oi.setFrames hl he hr, hi.vi.setFrames hrun⟩

/-- destroying an object that has been detached from its owner -/
theorem destroyVar_safe {s0 : State} {t c x} (hc : CInv s0 none) (hv : VInv s0 []) (ho : OInv (s0.kill x))
    (hcur : s0.cur t = some c)  : Safe (s0.destroyVar t c x) := by
  simp only [State.destroyVar]
  cases hx : s0.val x with
  | none => exact ⟨hc.congr rfl rfl rfl rfl rfl, ho, hv.killNone hx⟩
  | some f =>
    exact destroyFctx_safe (hc.congr rfl rfl rfl rfl rfl) ho (hv.killSome hx) hcur

theorem setVal_setVal {s : State} {x y v w} : ((s.setVal x v).setVal y w) = { s with val := upd (upd s.val x v) y w } := rfl

theorem doWithThrows_safe {s : State} {t c x k ls rest n b} (hi : Inv s) (hcur : s.cur t = some c)
    (hfr : s.frames c = .user k ls .normal :: rest) (ha : s.accessible x = true) : Safe (s.doWithThrows t c k ls rest x n b) := by
  have hk : ∀ d, s.kind x ≠ .exc d := by intro d h; simp [accessible, h] at ha
  simp only [State.doWithThrows]
  cases hx : s.val x with
  | none => simp [Safe]
  | some f =>
    cases b with
    | false =>
      have hw := hi.ci.wf c (by simp [(hi.ci.curRun t c).1 hcur])
      rw [hfr] at hw
      simp only [Bool.false_eq_true, if_false]
      refine hi.setTop hcur ⟨hw.1.change modeOK_unwinding, hw.2⟩ ?_ ?_ ?_ ?_ ?_
      · simp [RunTop]
      · simp [hfr]
      · simp [hfr]
      · simp [hfr]
      · simp [hfr]
    | true =>
    have hv1 := hi.vi.take hx hk
    have hci : CInv (s.setVal x none) none := hi.ci.congr rfl rfl rfl rfl rfl
    obtain ⟨s', hsw, hc', ho', hv', hcur', hfr', hfc, _, _⟩ := pushSwitch_inv (s := s.setVal x none) (t := t) (c := c) (fr := .resume)
      (allowRaw := false) hci hi.oi.setVal hv1 hcur (by simp [SuspTop]) (by simp [hfr, Adj])
    simp only [ontopSwitch, if_true]
    rw [show (s.setVal x none).setFrames c (.resume :: s.frames c) = (s.setVal x none).setFrames c (.resume :: (s.setVal x none).frames c) from rfl, hsw]
    exact raiseUser_safe (hc'.congr rfl rfl rfl rfl rfl) (ho'.congr rfl rfl rfl rfl (Nat.le_refl _) (fun _ h => Or.inl h)) hv'.loseReg hcur'

theorem userStep_safe {s : State} {t c k ls rest op} (hi : Inv s) (hcur : s.cur t = some c)
    (hfr : s.frames c = .user k ls .normal :: rest) : Safe (userStep s t c k ls rest op) := by
  have hrun := (hi.ci.curRun t c).1 hcur
  have hw := hi.ci.wf c (by simp [hrun])
  rw [hfr] at hw
  have hnew := hi.oi.fresh _ (Nat.le_refl _)
  have hnewLoc : ∀ (s1 : State) (v : Option Fctx), s1.cur = s.cur → s1.status = s.status → s1.frames = s.frames →
      s1.nextCtx = s.nextCtx → s1.nextTid = s.nextTid → OInv s1 → VInv (s1.newVar (.loc c) v) [] →
      Inv ((s1.newVar (.loc c) v).setFrames c (.user k (s1.nextVar :: ls) .normal :: rest)) := by
    intro s1 v e1 e2 e3 e4 e5 ho hv
    refine ⟨CInv.congr (CInv.setFrames (fs := .user k (s1.nextVar :: ls) .normal :: rest) hi.ci hrun (Or.inl rfl)
      ⟨hw.1.change modeOK_normal, hw.2⟩ ?_ ?_) ?_ ?_ ?_ ?_ ?_, ho.newLoc ?_ ?_ ?_, hv.setFrames (t := t) ?_⟩
    · simp [RunTop]
    · simp [hfr]
    · simp [e1]
    · simp [e2]
    · simp [e3]
    · simp [e4]
    · simp [e5]
    · simp [e3, hfr]
    · simp [e3, hfr]
    · simp [e3, hfr]
    · simp [e2, hrun]
  cases op with
  | newHeap => exact ⟨hi.ci.congr rfl rfl rfl rfl rfl, hi.oi.newHeap, hi.vi.newVar hnew (by simp)⟩
  | newLocal => exact hnewLoc s none rfl rfl rfl rfl rfl hi.oi (hi.vi.newVar hnew (by simp))
  | moveHeap x =>
    simp only [userStep]
    split
    · rename_i ha
      exact ⟨hi.ci.congr rfl rfl rfl rfl rfl, hi.oi.setVal.newHeap, hi.vi.moveNew hi.oi ha (by simp) (by simp)⟩
    · simp [Safe]
  | moveLocal x =>
    simp only [userStep]
    split
    · rename_i ha
      exact hnewLoc (s.setVal x none) (s.val x) rfl rfl rfl rfl rfl hi.oi.setVal (hi.vi.moveNew hi.oi ha (by simp) (by simp))
    · simp [Safe]
  | moveAssign y x =>
    simp only [userStep]
    split
    · rename_i ha
      split
      · exact hi
      · rename_i hyx
        have hex := accessible_ne_exc ha.1
        have hey := accessible_ne_exc ha.2
        have hdy := accessible_ne_dead ha.2
        have hv1 : VInv ((s.setVal y (s.val x)).setVal x none) (s.val y).toList := by
          have hcomm : (s.setVal y (s.val x)).setVal x none = ((s.setVal y none).setVal x none).setVal y (s.val x) := by
            simp only [setVal_setVal]
            simp only [State.setVal]
            congr 1
            funext z; simp only [upd_apply]; grind
          rw [hcomm]
          have h1 : VInv (s.setVal y none) (s.val y).toList := by
            cases hy : s.val y with
            | none => exact hi.vi.setNone hy
            | some f => exact hi.vi.take hy hey
          cases hx : s.val x with
          | none =>
            exact ((h1.setNone (x := x) (by simp [hx])).setNone (x := y) (by simp))
          | some g =>
            refine VInv.put (h1.take (x := x) (f := g) ?_ (by simpa using hex)) ?_ ?_ ?_ ?_
            · simp [hx]; grind
            · simp
            · simpa using hdy
            · simpa using hey
            · exact hi.vi.nonExc x g hex hx
        split
        · rename_i hy
          rw [hy] at hv1
          exact ⟨hi.ci.congr rfl rfl rfl rfl rfl, hi.oi.setVal.setVal, hv1⟩
        · rename_i f hy
          rw [hy] at hv1
          exact destroyFctx_safe (hi.ci.congr rfl rfl rfl rfl rfl) hi.oi.setVal.setVal hv1 hcur
    · simp [Safe]
  | swap x y =>
    simp only [userStep]
    split
    · rename_i ha
      have hex := accessible_ne_exc ha.1
      have hey := accessible_ne_exc ha.2
      have hdx := accessible_ne_dead ha.1
      have hdy := accessible_ne_dead ha.2
      refine ⟨hi.ci.congr rfl rfl rfl rfl rfl, hi.oi.setVal.setVal, ?_⟩
      by_cases hxy : x = y
      · subst hxy
        refine hi.vi.congr ?_ rfl rfl rfl rfl rfl
        funext z; simp; grind
      · have hcomm : (s.setVal x (s.val y)).setVal y (s.val x)
            = (((s.setVal y none).setVal x none).setVal x (s.val y)).setVal y (s.val x) := by
          simp only [State.setVal]
          congr 1
          funext z; simp only [upd_apply]; grind
        rw [hcomm]
        cases hy : s.val y with
        | none =>
          have h1 := hi.vi.setNone hy
          cases hx : s.val x with
          | none => exact ((h1.setNone (x := x) (by simp [hx])).setNone (x := x) (by simp)).setNone (x := y) (by simp)
          | some g =>
            have h2 := h1.take (x := x) (f := g) (by simp [hx, hxy]) (by simpa using hex)
            refine VInv.put (h2.setNone (x := x) (by simp)) ?_ ?_ ?_ ?_
            · simp
            · simpa using hdy
            · simpa using hey
            · exact hi.vi.nonExc x g hex hx
        | some f =>
          have h1 := hi.vi.take hy hey
          cases hx : s.val x with
          | none =>
            have h2 := h1.setNone (x := x) (by simp [hx])
            refine VInv.setNone (VInv.put h2 ?_ ?_ ?_ ?_) ?_
            · simp
            · simpa using hdx
            · simpa using hex
            · exact hi.vi.nonExc y f hey hy
            · simp; grind
          | some g =>
            have h2 := h1.take (x := x) (f := g) (by simp [hx, hxy]) (by simpa using hex)
            -- registers: g :: [f]; put f into x first
            have h3 : VInv ((s.setVal y none).setVal x none) [f, g] := by
              obtain ⟨a1,a2,a3,a4,a5,a6,a7,a8,a9,a10,a11⟩ := h2
              constructor
              case nodupR => simp at a6 ⊢; exact fun h => a6 h.symm
              case held =>
                intro d hd
                rcases a7 d hd with h | h | ⟨g', hg, hgd⟩
                · exact Or.inl h
                · exact Or.inr (Or.inl h)
                · exact Or.inr (Or.inr ⟨g', by simp at hg ⊢; exact hg.symm, hgd⟩)
              all_goals first | assumption | grind
            refine VInv.put (VInv.put h3 ?_ ?_ ?_ ?_) ?_ ?_ ?_ ?_
            · simp
            · simpa using hdx
            · simpa using hex
            · exact hi.vi.nonExc y f hey hy
            · simp; grind
            · simpa using hdy
            · simpa using hey
            · exact hi.vi.nonExc x g hex hx
    · simp [Safe]
  | drop x =>
    simp only [userStep]
    split
    · rename_i hx
      refine destroyVar_safe ?_ ?_ ?_ hcur
      · refine hi.ci.setFrames hrun (Or.inl rfl) ⟨hw.1.change modeOK_normal, hw.2⟩ ?_ ?_
        · simp [RunTop]
        · simp [hfr]
      · exact hi.vi.setFrames hrun
      · refine hi.oi.killLoc ?_ ?_ ?_
        · simp only [hfr, lvars_cons, Frame.lvars]
          exact (List.perm_cons_erase hx).append_right _
        · simp [hfr]
        · simp [hfr]
    · split
      · rename_i hx
        exact destroyVar_safe hi.ci hi.vi (hi.oi.killHeap hx) hcur
      · simp [Safe]
  | create xs o =>
    simp only [userStep]
    split
    · rename_i ha
      rw [List.all_eq_true] at ha
      cases o with
      | success => exact doCreate_safe hi hcur hfr ha
      | allocThrows n =>
        refine hi.setTop hcur ⟨hw.1.change modeOK_unwinding, hw.2⟩ ?_ ?_ ?_ ?_ ?_
        · simp [RunTop]
        · simp [hfr]
        · simp [hfr]
        · simp [hfr]
        · simp [hfr]
      | fnThrows => simp [Safe]
    · simp [Safe]
  | resume x =>
    simp only [userStep]
    split
    · rename_i ha; exact doResume_safe hi hcur hfr ha
    · simp [Safe]
  | resumeWith x =>
    simp only [userStep]
    split
    · rename_i ha; exact doResumeWith_safe hi hcur hfr ha
    · simp [Safe]
  | withThrows x n b =>
    simp only [userStep]
    split
    · rename_i ha; exact doWithThrows_safe hi hcur hfr ha
    · simp [Safe]
  | call =>
    refine hi.setTop hcur ⟨?_, hw⟩ ?_ ?_ ?_ ?_ ?_
    · simp [Adj, ModeOK]
    · simp [RunTop]
    · simp [hfr]
    · simp [hfr]
    · simp [hfr]
    · simp [hfr]
  | cleanup =>
    refine hi.setTop hcur ⟨?_, hw⟩ ?_ ?_ ?_ ?_ ?_
    · simp [Adj, ModeOK]
    · simp [RunTop]
    · simp [hfr]
    · simp [hfr]
    · simp [hfr]
    · simp [hfr]
  | ret =>
    have key : ModeOK k (.returning none) → Safe (.ok (s.setFrames c (.user k ls (.returning none) :: rest))) := by
      intro hm
      refine hi.setTop hcur ⟨hw.1.change hm, hw.2⟩ ?_ ?_ ?_ ?_ ?_
      · simp [RunTop]
      · simp [hfr]
      · simp [hfr]
      · simp [hfr]
      · simp [hfr]
    cases k <;> simp only [userStep] <;> first | exact key (by simp [ModeOK]) | simp [Safe]
  | retHandle x =>
    simp only [userStep]
    split
    · rename_i ha
      have key : (∀ y, ModeOK k (.returning (some y))) →
          Safe (.ok (((s.setVal x none).newVar (.ret c) (s.val x)).setFrames c (.user k ls (.returning (some s.nextVar)) :: rest))) := by
        intro hm
        refine ⟨CInv.congr (CInv.setFrames (fs := .user k ls (.returning (some s.nextVar)) :: rest) hi.ci hrun (Or.inl rfl)
          ⟨hw.1.change (hm _), hw.2⟩ ?_ ?_) rfl rfl rfl rfl rfl, hi.oi.setVal.newRet ?_ ?_ ?_,
          (hi.vi.moveNew hi.oi ha (by simp) (by simp)).setFrames hrun⟩
        · simp [RunTop]
        · simp [hfr]
        · simp [hfr]
        · simp [hfr]
        · simp [hfr]
      cases k <;> first | exact key (by simp [ModeOK]) | simp [Safe]
    · simp [Safe]
  | throw n =>
    refine hi.setTop hcur ⟨hw.1.change modeOK_unwinding, hw.2⟩ ?_ ?_ ?_ ?_ ?_
    · simp [RunTop]
    · simp [hfr]
    · simp [hfr]
    · simp [hfr]
    · simp [hfr]
  | spawn =>
    have habs := (hi.ci.absent s.nextCtx).2 (Nat.le_refl _)
    have hf0 := hi.ci.fAbsent _ habs
    refine ⟨hi.ci.spawn, ?_, ?_⟩
    · refine OInv.congr (hi.oi.setFrames (c := s.nextCtx) (fs := [.user .main [] .normal]) ?_ ?_ ?_) rfl rfl rfl rfl (by simp) ?_
      · simp [hf0]
      · simp [hf0]
      · simp [hf0]
      · intro d; simp; grind
    · have hv := hi.vi
      obtain ⟨a1,a2,a3,a4,a5,a6,a7,a8,a9,a10,a11⟩ := hv
      have hv0 : ∀ x f, s.val x = some f → f.ctx ≠ s.nextCtx := by grind
      constructor <;> try simp only [upd_apply]
      case held =>
        intro d hd
        rcases a7 d (by grind) with h | h | h
        · exact Or.inl h
        · exact Or.inr (Or.inl h)
        · exact Or.inr (Or.inr h)
      all_goals first | assumption | grind
  | catchUser => simp [userStep, Safe]
  | swallow => simp [userStep, Safe]
  | tick => simp [userStep, Safe]

end Verif.Fiber
