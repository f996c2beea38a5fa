import Verif.EH.UModel
import Verif.EH.Flight
import Verif.UFiber.Props2

/-! # ucontext: what a step throws and catches, and who is unwound on whose behalf (proofs) -/

namespace Verif.EH.U
open Verif.UFiber Verif.UFiber.State
open Verif.Fiber (CtxId Var Tid Kind Exc Mode UKind Frame Status Op CreateOutcome upd upd_apply lvars evars rvars DtorTop Frame.lvars Frame.evars Frame.rvars RunTop SuspTop ModeOK dtorTop_iff)

theorem X_of {s s' : State} (hk : ∀ y d, s'.kind y = .exc d ↔ s.kind y = .exc d) (hv : ∀ y d, s.kind y = .exc d → s'.val y = s.val y) : ∀ d w, UnwoundFor s' d w ↔ UnwoundFor s d w := by
  intro d w
  constructor
  · rintro ⟨y, h1, h2⟩
    have := (hk y d).1 h1
    exact ⟨y, this, hv y d this ▸ h2⟩
  · rintro ⟨y, h1, h2⟩
    exact ⟨y, (hk y d).2 h1, (hv y d h1).trans h2⟩

theorem X_kv {s s' : State} (hk : s'.kind = s.kind) (hv : s'.val = s.val) : ∀ d w, UnwoundFor s' d w ↔ UnwoundFor s d w := X_of (fun _ _ => by rw [hk]) (fun _ _ _ => by rw [hv])

/-- Classification of the steps of the machine. -/
inductive Sum (s : State) (t : Tid) (c : CtxId) (s' : State) : List (CtxId × Prim) → Prop
  /-- no switch -/
  | quiet {ps} (hc : s'.cur = s.cur) (hx : ∀ d w, UnwoundFor s' d w ↔ UnwoundFor s d w) (hp : ps = [] ∨ ps = [(c, .throw)] ∨ ∃ e, ps = [(c, .beginCatch e)]) : Sum s t c s' ps
  | spawn (hc : s'.cur = upd s.cur s.nextTid (some s.nextCtx)) (hx : ∀ d w, UnwoundFor s' d w ↔ UnwoundFor s d w) : Sum s t c s' []
  /-- `v` starts to be unwound on behalf of `c` -/
  | push {v rest rest'} (hc : s'.cur = upd s.cur t (some v)) (hx : ∀ d w, UnwoundFor s' d w ↔ UnwoundFor s d w ∨ (d = v ∧ w = c)) (hs : s.status v = .suspended) (hf : s'.frames c = .dtor v :: rest)
      (hr : s.frames v = .resume :: rest') : Sum s t c s' [(v, .throw)]
  /-- the unwinding of `c` ends -/
  | pop {w e} (hc : s'.cur = upd s.cur t (some w)) (hw : UnwoundFor s c w) (hu : ∀ w', UnwoundFor s c w' → w' = w) (hs : s.status w = .suspended)
      (hx : arrPrims s w = [] → ∀ d w, UnwoundFor s' d w ↔ UnwoundFor s d w ∧ d ≠ c) (hf : s'.frames c = [.exitJump]) :
      Sum s t c s' ([(c, .beginCatch e), (c, .endCatch)] ++ arrPrims s w)
  /-- any other switch, to `d` -/
  | jump {d} (hc : s'.cur = upd s.cur t (some d)) (hx : arrPrims s d = [] → ∀ d w, UnwoundFor s' d w ↔ UnwoundFor s d w) (hs : s.status d = .suspended) (hn : ∀ v, ¬ DtorTop v (s.frames d))
      (hf : ∀ v, ¬ DtorTop v (s'.frames c)) : Sum s t c s' (arrPrims s d)
  /-- the thread ends -/
  | ended (hc : s'.cur = upd s.cur t none) (hx : ∀ d w, UnwoundFor s' d w ↔ UnwoundFor s d w) (hf : s'.frames c = []) : Sum s t c s' []

theorem X_arr {s s' : State} {w : CtxId} (hd : Arr s w s') (hfr : s.kind s.nextVar = .dead) (ha : arrPrims s w = []) : ∀ d w, UnwoundFor s' d w ↔ UnwoundFor s d w := by
  cases hd with
  | unwind hf hu => simp [arrPrims, hf, hu] at ha
  | dtor => exact X_kv rfl rfl
  | _ => refine X_of (fun y d => ?_) (fun y d h => ?_) <;> (try simp only [upd_apply]) <;> grind

theorem cur_arr {s s' : State} {w : CtxId} (hd : Arr s w s') : s'.cur = s.cur := by cases hd <;> rfl
theorem tid_arr {s s' : State} {w : CtxId} (hd : Arr s w s') : s'.nextTid = s.nextTid := by cases hd <;> rfl
theorem frames_arr {s s' : State} {w d : CtxId} (hd : Arr s w s') (hn : d ≠ w) : s'.frames d = s.frames d := by cases hd <;> simp [hn]

theorem arrPrims_eq {s s' : State} {w : CtxId} (hf : s'.frames w = s.frames w) (hu : s'.unw w = s.unw w) : arrPrims s' w = arrPrims s w := by
  simp only [arrPrims, hf, hu]

theorem exc_capture {s : State} {n : CtxId} {xs : List Var} (hfr : ∀ y, s.nextVar ≤ y → s.kind y = .dead) (ha : ∀ x ∈ xs, s.accessible x = true) :
    (∀ y d, (s.capture n xs).kind y = .exc d ↔ s.kind y = .exc d) ∧ (∀ y d, s.kind y = .exc d → (s.capture n xs).val y = s.val y) ∧
    ∀ y, (s.capture n xs).nextVar ≤ y → (s.capture n xs).kind y = .dead := by
  induction xs generalizing s with
  | nil => exact ⟨fun _ _ => Iff.rfl, fun _ _ _ => rfl, hfr⟩
  | cons x xs ih =>
    have hx := accessible_ne_exc (ha x (by simp))
    have h0 := hfr s.nextVar (Nat.le_refl _)
    simp only [State.capture]
    obtain ⟨s1, hs1⟩ : ∃ s1 : State, s1 = { (s.setVal x none).newVar (.cap n) (s.val x) with
        caps := upd ((s.setVal x none).newVar (.cap n) (s.val x)).caps n (s.nextVar :: ((s.setVal x none).newVar (.cap n) (s.val x)).caps n) } := ⟨_, rfl⟩
    rw [← hs1]
    have hk1 : s1.kind = upd s.kind s.nextVar (.cap n) := by rw [hs1]; rfl
    have hv1 : s1.val = upd (upd s.val x none) s.nextVar (s.val x) := by rw [hs1]; rfl
    have hn1 : s1.nextVar = s.nextVar + 1 := by rw [hs1]; rfl
    obtain ⟨i1, i2, i3⟩ := ih (s := s1) (fun y hy => by
      have hy' : s.nextVar + 1 ≤ y := hn1 ▸ hy
      rw [hk1, upd_apply, if_neg (Nat.ne_of_gt hy')]; exact hfr y (Nat.le_of_succ_le hy')) (fun z hz => by
      have hz' := ha z (by simp [hz])
      have : z ≠ s.nextVar := fun h => accessible_ne_dead hz' (h ▸ h0)
      simpa [State.accessible, hk1, this] using hz')
    refine ⟨fun y d => (i1 y d).trans ?_, fun y d h => ?_, i3⟩
    · rw [hk1]; simp only [upd_apply]; grind
    · have hy : y ≠ s.nextVar := fun e => by rw [e, h0] at h; cases h
      have hy' : y ≠ x := fun e => hx d (e ▸ h)
      rw [i2 y d (by rw [hk1, upd_apply, if_neg hy]; exact h), hv1]
      simp [hy, hy']

theorem X_only {s : State} {c w0 : CtxId} {x : Var} {fs : List Frame} (hi : Inv s) (hf : s.frames c = fs) (he : evars fs = [x]) (hv : s.val x = some w0) :
    ∀ w, UnwoundFor s c w → w = w0 := by
  rintro w ⟨y, a1, a2⟩
  have := (hi.oi.excs c y).2 a1
  rw [hf, he] at this
  simp at this
  subst this
  rw [hv] at a2; cases a2; rfl

/-- the only `forced_unwind` in flight on the stack of `c` ends -/
theorem X_end {s s' : State} {c : CtxId} {x : Var} {fs : List Frame} (hi : Inv s) (hf : s.frames c = fs) (he : evars fs = [x]) (hx : s.kind x = .exc c)
    (hk : s'.kind = upd s.kind x .dead) (hv : s'.val = upd s.val x none) : ∀ d w, UnwoundFor s' d w ↔ UnwoundFor s d w ∧ d ≠ c := by
  intro d w
  simp only [UnwoundFor, hk, hv, upd_apply]
  constructor
  · rintro ⟨y, a1, a2⟩
    by_cases hy : y = x
    · rw [if_pos hy] at a1; cases a1
    · rw [if_neg hy] at a1 a2
      refine ⟨⟨y, a1, a2⟩, ?_⟩
      rintro rfl
      have := (hi.oi.excs d y).2 a1
      rw [hf, he] at this
      simp at this; exact hy this
  · rintro ⟨⟨y, a1, a2⟩, hd⟩
    have hy : y ≠ x := by rintro rfl; rw [hx] at a1; cases a1; exact hd rfl
    exact ⟨y, by rw [if_neg hy]; exact a1, by rw [if_neg hy]; exact a2⟩

/-- destruction of a non-empty object -/
theorem sum_destroy {s s1 s' : State} {t : Tid} {c v : CtxId} {op : Op} (hi : Inv s) (hc : s.cur t = some c) (h1 : PreDst s c v op s1) (h2 : Dst s1 t c v s') (he : s'.early = false) :
    Sum s t c s' (prims s t op) := by
  have hfr : s.kind s.nextVar = .dead := hi.oi.fresh _ (Nat.le_refl _)
  have hnd := preDst_not_dtor hi h1
  have hval : ∃ x, s.val x = some v := by cases h1 <;> exact ⟨_, by assumption⟩
  obtain ⟨x0, hx0⟩ := hval
  have hrun := (hi.ci.curRun t c).1 hc
  have k7 : v ≠ c := by
    rintro rfl
    rcases (hi.vi.valid _ _ hx0).1 with h | h <;> rw [hrun] at h <;> cases h
  have key : prims s t op = destroyPrims s (some v) ∧ (∀ d w, UnwoundFor s1 d w ↔ UnwoundFor s d w) ∧ s1.cur = s.cur ∧ s1.frames v = s.frames v ∧
      s1.kind s1.nextVar = .dead ∧ s1.root = s.root ∧ s1.term = s.term ∧ s1.status = s.status := by
    cases h1 with
    | @moveAssign k ls rest x y hf ha hb hn hv =>
      refine ⟨by simp [prims, hc, hf, hn, hv], X_of (fun y d => Iff.rfl) (fun z d h => ?_), rfl, rfl, hfr, rfl, rfl, rfl⟩
      have := accessible_ne_exc ha; have := accessible_ne_exc hb
      simp only [upd_apply]; grind
    | @dropLoc k ls rest x hf hx hv =>
      have hk : s.kind x = .loc c := (hi.oi.locs c x).1 (by simp [hf, lvars, Frame.lvars, hx])
      refine ⟨by simp [prims, hc, hf, hv], X_of (fun y d => ?_) (fun z d h => ?_), rfl, by simp [k7], ?_, rfl, rfl, rfl⟩
      · simp only [upd_apply]; grind
      · simp only [upd_apply]; grind
      · simp only [upd_apply]; grind
    | @dropHeap k ls rest x hf hx hv =>
      refine ⟨by simp [prims, hc, hf, hv], X_of (fun y d => ?_) (fun z d h => ?_), rfl, rfl, ?_, rfl, rfl, rfl⟩
      · simp only [upd_apply]; grind
      · simp only [upd_apply]; grind
      · simp only [upd_apply]; grind
    | @tick k ls m rest x hf hm hv =>
      have hk : s.kind x = .loc c := (hi.oi.locs c x).1 (by simp [hf, lvars, Frame.lvars])
      refine ⟨by cases m <;> simp_all [prims], X_of (fun y d => ?_) (fun z d h => ?_), rfl, by simp [k7], ?_, rfl, rfl, rfl⟩
      · simp only [upd_apply]; grind
      · simp only [upd_apply]; grind
      · simp only [upd_apply]; grind
    | @exit n rest x xs hf hcap hv =>
      have hk : s.kind x = .cap n := (hi.oi.capv n x).1 (by simp [hcap])
      refine ⟨by simp [prims, hc, hf, hcap, hv], X_of (fun y d => ?_) (fun z d h => ?_), rfl, rfl, ?_, rfl, rfl, rfl⟩
      · simp only [upd_apply]; grind
      · simp only [upd_apply]; grind
      · simp only [upd_apply]; grind
  obtain ⟨k1, k2, k3, k4, k5, k6, k8, k9⟩ := key
  rw [k1]
  cases h2 with
  | root hr => exact .quiet k3 (fun d w => (X_kv rfl rfl d w).trans (k2 d w)) (.inl (by simp [destroyPrims, ← k6, hr]))
  | term hr ht hs => exact .quiet k3 (fun d w => (X_kv rfl rfl d w).trans (k2 d w)) (.inl (by simp [destroyPrims, ← k8, ht]))
  | unwind hr ht hs ha =>
    rw [k6] at hr; rw [k8] at ht; rw [k9] at hs
    cases ha with
    | @entry rest hf =>
      have hf' : s1.frames v = .entryJump :: rest := by simpa [sw, k7] using hf
      have hw := hi.ci.wf v (by rw [hs]; simp)
      rw [← k4, hf'] at hw
      have : rest = [] := by have := hw.1; cases rest <;> simp_all [Adj]
      simp [sw, hf', this] at he
    | @dtor v2 rest hf =>
      have hf' : s.frames v = .dtor v2 :: rest := by rw [← k4]; simpa [sw, k7] using hf
      exact absurd (dtorTop_iff.2 ⟨rest, hf'⟩) (hnd v2)
    | @unwind k ls m rest hf hu =>
      have hf' : s.frames v = .resume :: .user k ls m :: rest := by rw [← k4]; simpa [sw, k7] using hf
      simp only [destroyPrims, hf', hr, ht, Bool.or_self, Bool.false_eq_true, if_false]
      refine .push (v := v) (rest := s1.frames c) (by show upd s1.cur t _ = _; rw [k3]) (fun d w => ?_) hs ?_ hf'
      · rw [← k2 d w]
        simp only [UnwoundFor, sw, upd_apply]
        constructor
        · rintro ⟨y, a1, a2⟩; grind
        · rintro (⟨y, a1, a2⟩ | ⟨rfl, rfl⟩)
          · exact ⟨y, by grind, by grind⟩
          · exact ⟨s1.nextVar, by simp, by simp⟩
      · simp [sw, Ne.symm k7]
    | ontop hf hu => simp [sw] at hu
    | ret hf hu => simp [sw] at hu

theorem step_sum {s s' : State} {t : Tid} {op : Op} (hi : Inv s) (ho : op ≠ .swallow) (hs : step s t op = .ok s') (hea : s'.early = false) :
    ∃ c, s.cur t = some c ∧ Sum s t c s' (prims s t op) := by
  obtain ⟨c, hc, he⟩ := step_eff hs
  refine ⟨c, hc, ?_⟩
  have hrun := (hi.ci.curRun t c).1 hc
  have hwf := hi.ci.wf c (by rw [hrun]; simp)
  have hfr : s.kind s.nextVar = .dead := hi.oi.fresh _ (Nat.le_refl _)
  have ne : ∀ {w}, s.status w = .suspended → w ≠ c := by rintro w h rfl; rw [hrun] at h; cases h
  have hci := hi.ci
  clear hs
  cases he with
  | newHeap hf =>
    simp only [prims, hc, hf]
    refine .quiet rfl (X_of (fun y d => ?_) (fun y d h => ?_)) (.inl rfl) <;> simp only [State.newVar, upd_apply] <;> grind
  | newLocal hf =>
    simp only [prims, hc, hf]
    refine .quiet rfl (X_of (fun y d => ?_) (fun y d h => ?_)) (.inl rfl) <;> simp only [State.newVar, State.setFrames, upd_apply] <;> grind
  | moveHeap hf ha =>
    simp only [prims, hc, hf]
    have := accessible_ne_exc ha
    refine .quiet rfl (X_of (fun y d => ?_) (fun y d h => ?_)) (.inl rfl) <;> simp only [State.newVar, State.setVal, upd_apply] <;> grind
  | moveLocal hf ha =>
    simp only [prims, hc, hf]
    have := accessible_ne_exc ha
    refine .quiet rfl (X_of (fun y d => ?_) (fun y d h => ?_)) (.inl rfl) <;> simp only [State.newVar, State.setVal, State.setFrames, upd_apply] <;> grind
  | moveSelf hf ha => simp only [prims, hc, hf]; exact .quiet rfl (fun _ _ => Iff.rfl) (.inl (by simp))
  | moveAssign hf ha hb hn hv =>
    simp only [prims, hc, hf, hv]
    have := accessible_ne_exc ha; have := accessible_ne_exc hb
    refine .quiet rfl (X_of (fun y d => Iff.rfl) (fun y d h => ?_)) (.inl (by simp [hn, destroyPrims]))
    simp only [State.setVal, upd_apply]; grind
  | swap hf ha hb =>
    simp only [prims, hc, hf]
    have := accessible_ne_exc ha; have := accessible_ne_exc hb
    refine .quiet rfl (X_of (fun y d => Iff.rfl) (fun y d h => ?_)) (.inl rfl)
    simp only [State.setVal, upd_apply]; grind
  | dropLoc hf hx hv =>
    rename_i k ls rest x
    have hk : s.kind x = .loc c := (hi.oi.locs c x).1 (by simp [hf, lvars, Frame.lvars, hx])
    simp only [prims, hc, hf, hv]
    refine .quiet rfl (X_of (fun y d => ?_) (fun y d h => ?_)) (.inl rfl) <;> simp only [State.kill, State.setFrames, upd_apply] <;> grind
  | dropHeap hf hx hv =>
    simp only [prims, hc, hf, hv]
    refine .quiet rfl (X_of (fun y d => ?_) (fun y d h => ?_)) (.inl rfl) <;> simp only [State.kill, upd_apply] <;> grind
  | @create k ls rest xs hf ha s2 h2 =>
    simp only [prims, hc, hf]
    have hsame := capture_same ({ s with nextCtx := s.nextCtx + 1 }.addLog (.alloc s.nextCtx)) s.nextCtx xs
    rw [← h2] at hsame
    obtain ⟨x1, x2, x3⟩ := exc_capture (s := { s with nextCtx := s.nextCtx + 1 }.addLog (.alloc s.nextCtx)) (n := s.nextCtx) (xs := xs) hi.oi.fresh ha
    rw [← h2] at x1 x2 x3
    have x3 := x3 s2.nextVar (Nat.le_refl _)
    refine .quiet hsame.1 (X_of (fun y d => Iff.trans ?_ (x1 y d)) (fun y d h => Eq.trans ?_ (x2 y d h))) (.inl rfl)
    · simp only [upd_apply]; grind
    · have := (x1 y d).2 h
      simp only [upd_apply]; grind
  | createThrows hf ha => simp only [prims, hc, hf]; exact .quiet rfl (X_kv rfl rfl) (.inr (.inl rfl))
  | @resume k ls rest x w s' hf ha hv hsu hd =>
    simp only [prims, hc, hf, hv, toPrims]
    have := accessible_ne_exc ha
    have hn := hi.vi.nonExc x w this hv
    have hw := ne hsu
    have hx1 : ∀ d w', UnwoundFor (sw ((s.setVal x none).setFrames c (Frame.resume :: s.frames c)) t c w Status.suspended) d w' ↔ UnwoundFor s d w' := by
      refine X_of (fun y d => Iff.rfl) (fun y d h => ?_)
      simp only [sw, State.setVal, State.setFrames, upd_apply]; grind
    have hap : arrPrims (sw ((s.setVal x none).setFrames c (Frame.resume :: s.frames c)) t c w Status.suspended) w = arrPrims s w :=
      arrPrims_eq (by simp [sw, State.setFrames, State.setVal, hw]) rfl
    refine .jump (d := w) (cur_arr hd) (fun h0 d w' => (X_arr hd hfr (hap.trans h0) d w').trans (hx1 d w')) hsu hn ?_
    · intro v
      rw [frames_arr hd (Ne.symm hw)]
      simp [sw, State.setFrames, State.setVal, DtorTop]
  | @resumeWith k ls rest x w s' hf ha hv hsu hd =>
    simp only [prims, hc, hf, hv, toPrims]
    have := accessible_ne_exc ha
    have hn := hi.vi.nonExc x w this hv
    have hw := ne hsu
    have hx1 : ∀ d w', UnwoundFor (sw { s with ontop := upd s.ontop w (some s.nextId), nextId := s.nextId + 1, val := upd s.val x none, frames := upd s.frames c (.resume :: s.frames c) } t c w Status.suspended) d w' ↔ UnwoundFor s d w' := by
      refine X_of (fun y d => Iff.rfl) (fun y d h => ?_)
      simp only [sw, upd_apply]; grind
    have hap : arrPrims (sw { s with ontop := upd s.ontop w (some s.nextId), nextId := s.nextId + 1, val := upd s.val x none, frames := upd s.frames c (.resume :: s.frames c) } t c w Status.suspended) w = arrPrims s w :=
      arrPrims_eq (by simp [sw, hw]) rfl
    refine .jump (d := w) (cur_arr hd) (fun h0 d w' => (X_arr hd hfr (hap.trans h0) d w').trans (hx1 d w')) hsu hn ?_
    · intro v
      rw [frames_arr hd (Ne.symm hw)]
      simp [sw, DtorTop]
  | call hf => simp only [prims, hc, hf]; exact .quiet rfl (X_kv rfl rfl) (.inl rfl)
  | @cleanup fr rest hf hr =>
    refine .quiet rfl (X_kv rfl rfl) (.inl ?_)
    simp only [prims, hc, hf]
    cases fr with
    | user k ls m => cases m <;> cases ls <;> simp
    | _ => simp
  | ret hf hk => simp only [prims, hc, hf]; exact .quiet rfl (X_kv rfl rfl) (.inl rfl)
  | retHandle hf ha hk =>
    simp only [prims, hc, hf]
    have := accessible_ne_exc ha
    refine .quiet rfl (X_of (fun y d => ?_) (fun y d h => ?_)) (.inl rfl) <;> simp only [State.newVar, State.setVal, State.setFrames, upd_apply] <;> grind
  | throw hf => simp only [prims, hc, hf]; exact .quiet rfl (X_kv rfl rfl) (.inr (.inl rfl))
  | spawn hf => simp only [prims, hc, hf]; exact .spawn rfl (X_kv rfl rfl)
  | destroy h1 h2 => exact sum_destroy hi hc h1 h2 hea
  | @tickLocal k ls m rest x hf hm hv =>
    have hk : s.kind x = .loc c := (hi.oi.locs c x).1 (by simp [hf, lvars, Frame.lvars])
    refine .quiet rfl (X_of (fun y d => ?_) (fun y d h => ?_)) (.inl ?_)
    · simp only [State.kill, State.setFrames, upd_apply]; grind
    · simp only [State.kill, State.setFrames, upd_apply]; grind
    · cases m <;> simp_all [prims, destroyPrims]
  | @exitCap n rest x xs hf hcap hv =>
    have hk : s.kind x = .cap n := (hi.oi.capv n x).1 (by simp [hcap])
    simp only [prims, hc, hf, hcap, hv]
    refine .quiet rfl (X_of (fun y d => ?_) (fun y d h => ?_)) (.inl rfl) <;> simp only [State.kill, upd_apply] <;> grind
  | catchUser hf => simp only [prims, hc, hf]; exact .quiet rfl (X_kv rfl rfl) (.inr (.inr ⟨_, rfl⟩))
  | swallow => exact absurd rfl ho
  | swallowNone => exact absurd rfl ho
  | propCall hf => simp only [prims, hc, hf]; exact .quiet rfl (X_kv rfl rfl) (.inl rfl)
  | @propFn x rest s' hf hd =>
    have hk : s.kind x = .exc c := (hi.oi.excs c x).1 (by simp [hf, evars, Frame.evars])
    obtain ⟨hp, hsu, ha⟩ := hd
    rename_i w
    simp only [prims, hc, hf, hp, toPrims]
    have hr : rest = [.entryRun] := by rw [hf] at hwf; exact hwf.1.2
    subst hr
    replace hsu : s.status w = .suspended := hsu
    have hw := ne hsu
    refine .pop (w := w) (cur_arr ha) ⟨x, hk, hp⟩ (X_only hi hf rfl hp) hsu (fun h0 d w' => ?_) ?_
    · refine (X_arr ha ?_ ((arrPrims_eq ?_ ?_).trans h0) d w').trans (X_end hi hf rfl hk rfl rfl d w')
      · simp only [sw, State.kill, upd_apply]; grind
      · simp [sw, State.kill, hw]
      · simp [sw, State.kill, hw]
    · rw [frames_arr ha (Ne.symm hw)]; simp [sw]
  | propOntop hf => simp only [prims, hc, hf]; exact .quiet rfl (X_kv rfl rfl) (.inl rfl)
  | leaveMain hf =>
    simp only [prims, hc, hf]
    exact .ended rfl (X_kv rfl rfl) (by simp)
  | leaveCall hf hk => simp only [prims, hc, hf]; rcases hk with rfl | rfl <;> exact .quiet rfl (X_kv rfl rfl) (.inl rfl)
  | @leaveFn x rest s' hf hd =>
    have hk : s.kind x = .ret c := (hi.oi.rets c x).1 (by simp [hf, rvars, Frame.rvars])
    obtain ⟨hp, hsu, ha⟩ := hd
    rename_i w
    have hn := hi.vi.nonExc x w (by intro d; rw [hk]; simp) hp
    simp only [prims, hc, hf, hp, toPrims]
    replace hsu : s.status w = .suspended := hsu
    have hw := ne hsu
    refine .jump (d := w) (cur_arr ha) (fun h0 d w' => ?_) hsu hn ?_
    · refine (X_arr ha ?_ ((arrPrims_eq ?_ ?_).trans h0) d w').trans (X_of (fun y d => ?_) (fun y d h => ?_) d w')
      · simp only [sw, State.kill, upd_apply]; grind
      · simp [sw, State.kill, hw]
      · simp [sw, State.kill, hw]
      · simp only [sw, State.kill, upd_apply]; grind
      · simp only [sw, State.kill, upd_apply]; grind
    · intro v; rw [frames_arr ha (Ne.symm hw)]; simp [sw, DtorTop]
  | @leaveOntop i x k ls m rest hf =>
    have hk : s.kind x = .ret c := (hi.oi.rets c x).1 (by simp [hf, rvars, Frame.rvars])
    simp only [prims, hc, hf]
    refine .quiet rfl (X_of (fun y d => ?_) (fun y d h => ?_)) (.inl rfl) <;> simp only [upd_apply] <;> grind
  | exitDtor hf hcap hst => simp only [prims, hc, hf, hcap]; exact .quiet rfl (X_kv rfl rfl) (.inl rfl)
  | exitDone hf hcap hst hn => simp only [prims, hc, hf, hcap]; exact .quiet rfl (X_kv rfl rfl) (.inl rfl)

end Verif.EH.U
