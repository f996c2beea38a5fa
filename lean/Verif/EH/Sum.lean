import Verif.EH.Model
import Verif.Fiber.Two
import Verif.Fiber.Evol

/-! # What a step throws and catches, and who is unwound on whose behalf (proofs) -/

namespace Verif.EH
open Verif.Fiber

theorem X_of {s s' : State} (hk : ∀ y d, s'.kind y = .exc d ↔ s.kind y = .exc d) (hv : ∀ y d, s.kind y = .exc d → s'.val y = s.val y) : ∀ d w, UnwoundFor s' d w ↔ UnwoundFor s d w := by
  intro d w
  constructor
  · rintro ⟨y, f, h1, h2, h3⟩
    have := (hk y d).1 h1
    exact ⟨y, f, this, hv y d this ▸ h2, h3⟩
  · rintro ⟨y, f, h1, h2, h3⟩
    exact ⟨y, f, (hk y d).2 h1, (hv y d h1).trans h2, h3⟩

/-- Classification of the steps of the machine. -/
inductive Sum (s : State) (t : Tid) (c : CtxId) (s' : State) : List (CtxId × Prim) → Prop
  /-- no switch -/
  | quiet {ps} (hc : s'.cur = s.cur) (hx : ∀ d w, UnwoundFor s' d w ↔ UnwoundFor s d w) (hp : ps = [] ∨ ps = [(c, .throw)] ∨ ∃ e, ps = [(c, .beginCatch e)]) : Sum s t c s' ps
  /-- a never started fiber is destroyed -/
  | early {v e} (hc : s'.cur = s.cur) (hx : ∀ d w, UnwoundFor s' d w ↔ UnwoundFor s d w) (hs : s.status v = .suspended) : Sum s t c s' [(v, .throw), (v, .beginCatch e), (v, .endCatch)]
  | spawn (hc : s'.cur = upd s.cur s.nextTid (some s.nextCtx)) (hx : ∀ d w, UnwoundFor s' d w ↔ UnwoundFor s d w) : Sum s t c s' []
  /-- `v` starts to be unwound on behalf of `c` -/
  | push {v rest rest'} (hc : s'.cur = upd s.cur t (some v)) (hx : ∀ d w, UnwoundFor s' d w ↔ UnwoundFor s d w ∨ (d = v ∧ w = c)) (hs : s.status v = .suspended) (hf : s'.frames c = .dtor v :: rest)
      (hr : s.frames v = .resume :: rest') : Sum s t c s' [(v, .throw)]
  /-- the unwinding of `c` ends -/
  | pop {w e} (hc : s'.cur = upd s.cur t (some w)) (hw : UnwoundFor s c w) (hu : ∀ w', UnwoundFor s c w' → w' = w) (hx : ∀ d w, UnwoundFor s' d w ↔ UnwoundFor s d w ∧ d ≠ c) (hf : s'.frames c = [.exitJump]) :
      Sum s t c s' [(c, .beginCatch e), (c, .endCatch)]
  /-- any other switch, to `d` -/
  | jump {d ps} (hc : s'.cur = upd s.cur t (some d)) (hx : ∀ d w, UnwoundFor s' d w ↔ UnwoundFor s d w) (hs : s.status d = .suspended) (hn : ∀ v, ¬ DtorTop v (s.frames d))
      (hf : ∀ v, ¬ DtorTop v (s'.frames c)) (hp : ps = [] ∨ ps = [(d, .throw)]) : Sum s t c s' ps
  /-- the thread ends -/
  | ended (hc : s'.cur = upd s.cur t none) (hx : ∀ d w, UnwoundFor s' d w ↔ UnwoundFor s d w) (hf : s'.frames c = []) : Sum s t c s' []

theorem X_dlv {s s' : State} {c : CtxId} {v : Option Fctx} (hd : Dlv s c v s') (hfr : s.kind s.nextVar = .dead) : ∀ d w, UnwoundFor s' d w ↔ UnwoundFor s d w := by
  cases hd <;> (refine X_of (fun y d => ?_) (fun y d h => ?_) <;> (try simp only [upd_apply]) <;> grind)

theorem cur_dlv {s s' : State} {c : CtxId} {v : Option Fctx} (hd : Dlv s c v s') : s'.cur = s.cur := by cases hd <;> rfl

theorem acc_kind {s : State} {x : Var} (h : s.accessible x = true) : ∀ d, s.kind x ≠ .exc d := by
  intro d hd; simp [State.accessible, hd] at h

theorem acc_ne {s : State} {x : Var} (h : s.accessible x = true) : s.kind x ≠ .dead := by
  intro hd; simp [State.accessible, hd] at h

theorem X_kv {s s' : State} (hk : s'.kind = s.kind) (hv : s'.val = s.val) : ∀ d w, UnwoundFor s' d w ↔ UnwoundFor s d w := X_of (fun _ _ => by rw [hk]) (fun _ _ _ => by rw [hv])

theorem upd_self {α β : Type} [DecidableEq α] {f : α → β} {a : α} {b : β} (h : f a = b) : upd f a b = f := by
  funext x; simp only [upd_apply]; split
  · next e => rw [e, h]
  · rfl

theorem upd_upd {α β : Type} [DecidableEq α] {f : α → β} {a : α} {b b' : β} : upd (upd f a b') a b = upd f a b := by
  funext x; simp only [upd_apply]; split <;> rfl

/-- destruction of a non-empty object -/
theorem sum_destroy {s s1 s' : State} {t : Tid} {c : CtxId} {f : Fctx} {op : Op} (hi : Inv s) (hc : s.cur t = some c) (h1 : PreDst s t c f op s1) (h2 : Dst s1 t c f s') :
    Sum s t c s' (prims s t op) := by
  obtain ⟨_, _, _, hval⟩ := facts hi hc
  have hfr : s.kind s.nextVar = .dead := hi.oi.fresh _ (Nat.le_refl _)
  have key : prims s t op = destroyPrims s (some f) ∧ (∀ d w, UnwoundFor s1 d w ↔ UnwoundFor s d w) ∧ s1.cur = s.cur ∧ s1.frames f.ctx = s.frames f.ctx ∧
      s1.kind s1.nextVar = .dead ∧ s.status f.ctx = .suspended ∧ f.ctx ≠ c := by
    cases h1 with
    | @moveAssign k ls rest x y hf ha hb hn hv =>
      refine ⟨by simp [prims, hc, hf, hn, hv], X_of (fun y d => Iff.rfl) (fun z d h => ?_), rfl, rfl, hfr, (hval _ _ hv).1, (hval _ _ hv).2.2⟩
      have := acc_kind ha; have := acc_kind hb
      simp only [upd_apply]; grind
    | @dropLoc k ls rest x hf hx hv =>
      have hk : s.kind x = .loc c := (hi.oi.locs c x).1 (by simp [hf, lvars, Frame.lvars, hx])
      obtain ⟨v1, v2, v3⟩ := hval _ _ hv
      refine ⟨by simp [prims, hc, hf, hv], X_of (fun y d => ?_) (fun z d h => ?_), rfl, by simp [v3], ?_, v1, v3⟩
      · simp only [upd_apply]; grind
      · simp only [upd_apply]; grind
      · simp only [upd_apply]; grind
    | @dropHeap k ls rest x hf hx hv =>
      obtain ⟨v1, v2, v3⟩ := hval _ _ hv
      refine ⟨by simp [prims, hc, hf, hv], X_of (fun y d => ?_) (fun z d h => ?_), rfl, rfl, ?_, v1, v3⟩
      · simp only [upd_apply]; grind
      · simp only [upd_apply]; grind
      · simp only [upd_apply]; grind
    | @tick k ls m rest x hf hm hv =>
      have hk : s.kind x = .loc c := (hi.oi.locs c x).1 (by simp [hf, lvars, Frame.lvars])
      obtain ⟨v1, v2, v3⟩ := hval _ _ hv
      refine ⟨by cases m <;> simp_all [prims], X_of (fun y d => ?_) (fun z d h => ?_), rfl, by simp [v3], ?_, v1, v3⟩
      · simp only [upd_apply]; grind
      · simp only [upd_apply]; grind
      · simp only [upd_apply]; grind
    | @exit n rest x xs hf hcap hv =>
      have hk : s.kind x = .cap n := (hi.oi.capv n x).1 (by simp [hcap])
      obtain ⟨v1, v2, v3⟩ := hval _ _ hv
      refine ⟨by simp [prims, hc, hf, hcap, hv], X_of (fun y d => ?_) (fun z d h => ?_), rfl, rfl, ?_, v1, v3⟩
      · simp only [upd_apply]; grind
      · simp only [upd_apply]; grind
      · simp only [upd_apply]; grind
  obtain ⟨k1, k2, k3, k4, k5, k6, k7⟩ := key
  rw [k1]
  obtain ⟨h2⟩ := h2
  cases h2 with
  | @entry rest hf =>
    have hf' : s.frames f.ctx = .entryJump :: rest := by rw [← k4]; simpa [sw, State.setFrames, k7] using hf
    simp only [destroyPrims, hf']
    refine .early ?_ (fun d w => (X_kv rfl rfl d w).trans (k2 d w)) k6
    show upd (upd s1.cur t _) t _ = s.cur
    rw [upd_upd, k3]; exact upd_self hc
  | @resume k ls m rest hf =>
    have hf' : s.frames f.ctx = .resume :: .user k ls m :: rest := by rw [← k4]; simpa [sw, State.setFrames, k7] using hf
    simp only [destroyPrims, hf']
    refine .push (v := f.ctx) (rest := s1.frames c) (by show upd s1.cur t _ = _; rw [k3]) (fun d w => ?_) k6 ?_ hf'
    · rw [← k2 d w]
      simp only [UnwoundFor, sw, State.setFrames, upd_apply]
      constructor
      · rintro ⟨y, f', a1, a2, a3⟩; grind
      · rintro (⟨y, f', a1, a2, a3⟩ | ⟨rfl, rfl⟩)
        · exact ⟨y, f', by grind, by grind, a3⟩
        · exact ⟨s1.nextVar, _, by simp, by simp; rfl, rfl⟩
    · simp [sw, State.setFrames, Ne.symm k7]

theorem exc_capture {s : State} {n : CtxId} {xs : List Var} (hfr : ∀ y, s.nextVar ≤ y → s.kind y = .dead) (ha : ∀ x ∈ xs, s.accessible x = true) :
    (∀ y d, (s.capture n xs).kind y = .exc d ↔ s.kind y = .exc d) ∧ (∀ y d, s.kind y = .exc d → (s.capture n xs).val y = s.val y) ∧
    ∀ y, (s.capture n xs).nextVar ≤ y → (s.capture n xs).kind y = .dead := by
  induction xs generalizing s with
  | nil => exact ⟨fun _ _ => Iff.rfl, fun _ _ _ => rfl, hfr⟩
  | cons x xs ih =>
    have hx := acc_kind (ha x (by simp))
    have h0 := hfr s.nextVar (Nat.le_refl _)
    simp only [State.capture]
    obtain ⟨s1, hs1⟩ : ∃ s1 : State, s1 = { (s.setVal x none).newVar (.cap n) (s.val x) with
        caps := upd ((s.setVal x none).newVar (.cap n) (s.val x)).caps n (s.nextVar :: ((s.setVal x none).newVar (.cap n) (s.val x)).caps n) } := ⟨_, rfl⟩
    rw [← hs1]
    have hk1 : s1.kind = upd s.kind s.nextVar (.cap n) := by rw [hs1]; rfl
    have hv1 : s1.val = upd (upd s.val x none) s.nextVar (s.val x) := by rw [hs1]; rfl
    have hn1 : s1.nextVar = s.nextVar + 1 := by rw [hs1]; rfl
    obtain ⟨i1, i2, i3⟩ := ih (s := s1) (fun y hy => by
      have hy' : s.nextVar + 1 ≤ y := hn1 ▸ hy
      rw [hk1, upd_apply, if_neg (Nat.ne_of_gt hy')]; exact hfr y (Nat.le_of_succ_le hy')) (fun z hz => by
      have hz' := ha z (by simp [hz])
      have : z ≠ s.nextVar := fun h => acc_ne hz' (h ▸ h0)
      simpa [State.accessible, hk1, this] using hz')
    refine ⟨fun y d => (i1 y d).trans ?_, fun y d h => ?_, i3⟩
    · rw [hk1]; simp only [upd_apply]; grind
    · have hy : y ≠ s.nextVar := fun e => by rw [e, h0] at h; cases h
      have hy' : y ≠ x := fun e => hx d (e ▸ h)
      rw [i2 y d (by rw [hk1, upd_apply, if_neg hy]; exact h), hv1]
      simp [hy, hy']

theorem X_only {s : State} {c : CtxId} {x : Var} {f : Fctx} {fs : List Frame} (hi : Inv s) (hf : s.frames c = fs) (he : evars fs = [x]) (hv : s.val x = some f) :
    ∀ w, UnwoundFor s c w → w = f.ctx := by
  rintro w ⟨y, g, a1, a2, a3⟩
  have := (hi.oi.excs c y).2 a1
  rw [hf, he] at this
  simp at this
  subst this
  rw [hv] at a2; cases a2; exact a3.symm

/-- the only `forced_unwind` in flight on the stack of `c` ends -/
theorem X_end {s s' : State} {c : CtxId} {x : Var} {fs : List Frame} (hi : Inv s) (hf : s.frames c = fs) (he : evars fs = [x]) (hx : s.kind x = .exc c)
    (hk : s'.kind = upd s.kind x .dead) (hv : s'.val = upd s.val x none) : ∀ d w, UnwoundFor s' d w ↔ UnwoundFor s d w ∧ d ≠ c := by
  intro d w
  simp only [UnwoundFor, hk, hv, upd_apply]
  constructor
  · rintro ⟨y, g, a1, a2, a3⟩
    by_cases hy : y = x
    · rw [if_pos hy] at a1; cases a1
    · rw [if_neg hy] at a1 a2
      refine ⟨⟨y, g, a1, a2, a3⟩, ?_⟩
      rintro rfl
      have := (hi.oi.excs d y).2 a1
      rw [hf, he] at this
      simp at this; exact hy this
  · rintro ⟨⟨y, g, a1, a2, a3⟩, hd⟩
    have hy : y ≠ x := by rintro rfl; rw [hx] at a1; cases a1; exact hd rfl
    exact ⟨y, g, by rw [if_neg hy]; exact a1, by rw [if_neg hy]; exact a2, a3⟩

theorem step_sum {s s' : State} {t : Tid} {op : Op} (hi : Inv s) (ho : op ≠ .swallow) (hs : step s t op = .ok s') : ∃ c, s.cur t = some c ∧ Sum s t c s' (prims s t op) := by
  obtain ⟨c, hc, he⟩ := step_eff hi hs
  refine ⟨c, hc, ?_⟩
  obtain ⟨_, hwf, _, hval⟩ := facts hi hc
  have hfr : s.kind s.nextVar = .dead := hi.oi.fresh _ (Nat.le_refl _)
  have hci := hi.ci
  clear hs
  cases he with
  | newHeap hf =>
    simp only [prims, hc, hf]
    refine .quiet rfl (X_of (fun y d => ?_) (fun y d h => ?_)) (.inl rfl) <;> simp only [State.newVar, upd_apply] <;> grind
  | newLocal hf =>
    simp only [prims, hc, hf]
    refine .quiet rfl (X_of (fun y d => ?_) (fun y d h => ?_)) (.inl rfl) <;> simp only [State.newVar, State.setFrames, upd_apply] <;> grind
  | moveHeap hf ha =>
    simp only [prims, hc, hf]
    have := acc_kind ha
    refine .quiet rfl (X_of (fun y d => ?_) (fun y d h => ?_)) (.inl rfl) <;> simp only [State.newVar, State.setVal, upd_apply] <;> grind
  | moveLocal hf ha =>
    simp only [prims, hc, hf]
    have := acc_kind ha
    refine .quiet rfl (X_of (fun y d => ?_) (fun y d h => ?_)) (.inl rfl) <;> simp only [State.newVar, State.setVal, State.setFrames, upd_apply] <;> grind
  | moveSelf hf ha => simp only [prims, hc, hf]; exact .quiet rfl (fun _ _ => Iff.rfl) (.inl (by simp))
  | moveAssign hf ha hb hn hv =>
    simp only [prims, hc, hf, hv]
    have := acc_kind ha; have := acc_kind hb
    refine .quiet rfl (X_of (fun y d => Iff.rfl) (fun y d h => ?_)) (.inl (by simp [hn, destroyPrims]))
    simp only [State.setVal, upd_apply]; grind
  | swap hf ha hb =>
    simp only [prims, hc, hf]
    have := acc_kind ha; have := acc_kind hb
    refine .quiet rfl (X_of (fun y d => Iff.rfl) (fun y d h => ?_)) (.inl rfl)
    simp only [State.setVal, upd_apply]; grind
  | dropLoc hf hx hv =>
    rename_i k ls rest x
    have hk : s.kind x = .loc c := (hi.oi.locs c x).1 (by simp [hf, lvars, Frame.lvars, hx])
    simp only [prims, hc, hf, hv]
    refine .quiet rfl (X_of (fun y d => ?_) (fun y d h => ?_)) (.inl rfl) <;> simp only [State.kill, State.setFrames, upd_apply] <;> grind
  | dropHeap hf hx hv =>
    simp only [prims, hc, hf, hv]
    refine .quiet rfl (X_of (fun y d => ?_) (fun y d h => ?_)) (.inl rfl) <;> simp only [State.kill, upd_apply] <;> grind
  | @create k ls rest xs hf ha s2 h2 =>
    simp only [prims, hc, hf]
    have hsame := capture_same ({ s with nextCtx := s.nextCtx + 1 }.addLog (.alloc s.nextCtx)) s.nextCtx xs
    rw [← h2] at hsame
    obtain ⟨x1, x2, x3⟩ := exc_capture (s := { s with nextCtx := s.nextCtx + 1 }.addLog (.alloc s.nextCtx)) (n := s.nextCtx) (xs := xs) hi.oi.fresh ha
    rw [← h2] at x1 x2 x3
    have x3 := x3 s2.nextVar (Nat.le_refl _)
    refine .quiet hsame.1 (X_of (fun y d => Iff.trans ?_ (x1 y d)) (fun y d h => Eq.trans ?_ (x2 y d h))) (.inl rfl)
    · simp only [upd_apply]; grind
    · have := (x1 y d).2 h
      simp only [upd_apply]; grind
  | createThrows hf ha => simp only [prims, hc, hf]; exact .quiet rfl (X_kv rfl rfl) (.inr (.inl rfl))
  | @resume k ls rest x f s' hf ha hv hd =>
    simp only [prims, hc, hf]
    obtain ⟨v1, v2, v3⟩ := hval _ _ hv
    have := acc_kind ha
    have hn := hi.vi.nonExc x f this hv
    have hx1 : ∀ d w, UnwoundFor (sw ((s.setVal x none).setFrames c (Frame.resume :: s.frames c)) t c f.ctx Status.suspended) d w ↔ UnwoundFor s d w := by
      refine X_of (fun y d => Iff.rfl) (fun y d h => ?_)
      simp only [sw, State.setVal, State.setFrames, upd_apply]; grind
    refine .jump (d := f.ctx) (cur_dlv hd) (fun d w => (X_dlv hd hfr d w).trans (hx1 d w)) v1 hn ?_ (.inl rfl)
    · intro v
      have : s'.frames c = .resume :: s.frames c := by
        cases hd <;> simp [sw, State.setFrames, State.setVal, Ne.symm v3]
      rw [this]; exact id
  | @resumeWith k ls rest x f hf ha hv =>
    simp only [prims, hc, hf]
    obtain ⟨v1, v2, v3⟩ := hval _ _ hv
    have := acc_kind ha
    have hn := hi.vi.nonExc x f this hv
    refine .jump (d := f.ctx) rfl (X_of (fun y d => ?_) (fun y d h => ?_)) v1 hn ?_ (.inl rfl)
    · simp only [upd_apply]; grind
    · simp only [upd_apply]; grind
    · intro v
      simp only [upd_apply, Ne.symm v3, if_false, if_true]; exact id
  | withThrowsHere hf ha hv => simp only [prims, hc, hf]; exact .quiet rfl (X_kv rfl rfl) (.inr (.inl rfl))
  | @withThrows k ls rest x n f k' ls' m' rest' hf ha hv hf' =>
    simp only [prims, hc, hf, hv]
    obtain ⟨v1, v2, v3⟩ := hval _ _ hv
    have := acc_kind ha
    have hn := hi.vi.nonExc x f this hv
    refine .jump (d := f.ctx) rfl (X_of (fun y d => Iff.rfl) (fun y d h => ?_)) v1 hn ?_ (.inr rfl)
    · simp only [upd_apply]; grind
    · intro v
      simp only [upd_apply, Ne.symm v3, if_false, if_true]; exact id
  | call hf => simp only [prims, hc, hf]; exact .quiet rfl (X_kv rfl rfl) (.inl rfl)
  | @cleanup fr rest hf hr =>
    refine .quiet rfl (X_kv rfl rfl) (.inl ?_)
    simp only [prims, hc, hf]
    cases fr with
    | user k ls m => cases m <;> cases ls <;> simp
    | _ => simp
  | ret hf hk => simp only [prims, hc, hf]; exact .quiet rfl (X_kv rfl rfl) (.inl rfl)
  | retHandle hf ha hk =>
    simp only [prims, hc, hf]
    have := acc_kind ha
    refine .quiet rfl (X_of (fun y d => ?_) (fun y d h => ?_)) (.inl rfl) <;> simp only [State.newVar, State.setVal, State.setFrames, upd_apply] <;> grind
  | throw hf => simp only [prims, hc, hf]; exact .quiet rfl (X_kv rfl rfl) (.inr (.inl rfl))
  | spawn hf => simp only [prims, hc, hf]; exact .spawn rfl (X_kv rfl rfl)
  | destroy h1 h2 => exact sum_destroy hi hc h1 h2
  | @tickLocal k ls m rest x hf hm hv =>
    have hk : s.kind x = .loc c := (hi.oi.locs c x).1 (by simp [hf, lvars, Frame.lvars])
    refine .quiet rfl (X_of (fun y d => ?_) (fun y d h => ?_)) (.inl ?_)
    · simp only [State.kill, State.setFrames, upd_apply]; grind
    · simp only [State.kill, State.setFrames, upd_apply]; grind
    · cases m <;> simp_all [prims, destroyPrims]
  | @exitCap n rest x xs hf hcap hv =>
    have hk : s.kind x = .cap n := (hi.oi.capv n x).1 (by simp [hcap])
    simp only [prims, hc, hf, hcap, hv]
    refine .quiet rfl (X_of (fun y d => ?_) (fun y d h => ?_)) (.inl rfl) <;> simp only [State.kill, upd_apply] <;> grind
  | catchUser hf => simp only [prims, hc, hf]; exact .quiet rfl (X_kv rfl rfl) (.inr (.inr ⟨_, rfl⟩))
  | swallow => exact absurd rfl ho
  | propCall hf => simp only [prims, hc, hf]; exact .quiet rfl (X_kv rfl rfl) (.inl rfl)
  | @propFn x f rest hf hv =>
    obtain ⟨v1, v2, v3⟩ := hval _ _ hv
    have hk : s.kind x = .exc c := (hi.oi.excs c x).1 (by simp [hf, evars, Frame.evars])
    simp only [prims, hc, hf]
    have hr : rest = [.entryRun] := by rw [hf] at hwf; exact hwf.1.2
    subst hr
    refine .pop (w := f.ctx) rfl ⟨x, f, hk, hv, rfl⟩ (X_only hi hf rfl hv) (X_end hi hf rfl hk rfl rfl) ?_
    · simp [fin, Ne.symm v3]
  | propOntopUser hf => simp only [prims, hc, hf]; exact .quiet rfl (X_kv rfl rfl) (.inl rfl)
  | @propOntopForced i x f rest s' hf hv hr =>
    obtain ⟨v1, v2, v3⟩ := hval _ _ hv
    have hk : s.kind x = .exc c := (hi.oi.excs c x).1 (by simp [hf, evars, Frame.evars])
    cases hr with
    | @entry rest' hf' =>
      have hf' : rest = .entryJump :: rest' := by simpa [State.setFrames, State.kill] using hf'
      subst hf'
      simp only [prims, hc, hf]
      have hr : rest' = [] := by
        rw [hf] at hwf
        have := hwf.2.1
        cases rest' <;> simp_all [Adj]
      subst hr
      refine .pop (w := f.ctx) rfl ⟨x, f, hk, hv, rfl⟩ (X_only hi hf rfl hv) (X_end hi hf rfl hk rfl rfl) ?_
      · simp [fin, Ne.symm v3]
    | @resume k ls m rest' hf' =>
      have hf' : rest = .resume :: .user k ls m :: rest' := by simpa [State.setFrames, State.kill] using hf'
      subst hf'
      simp only [prims, hc, hf]
      refine .quiet rfl (fun d w => ?_) (.inl rfl)
      have hne : x ≠ s.nextVar := by intro h; rw [h, hfr] at hk; cases hk
      simp only [UnwoundFor, State.kill, State.setFrames, upd_apply]
      constructor
      · rintro ⟨y, g, a1, a2, a3⟩
        by_cases hy : y = s.nextVar
        · simp only [hy, if_true] at a1 a2
          cases a1; cases a2
          exact ⟨x, f, hk, hv, a3⟩
        · simp only [hy, if_false] at a1 a2
          exact ⟨y, g, by grind, by grind, a3⟩
      · rintro ⟨y, g, a1, a2, a3⟩
        have hy : y ≠ s.nextVar := by intro h; rw [h, hfr] at a1; cases a1
        by_cases hyx : y = x
        · subst hyx
          rw [hk] at a1; rw [hv] at a2
          cases a1; cases a2
          exact ⟨s.nextVar, f, by simp, by simp, a3⟩
        · exact ⟨y, g, by simp [hy, hyx, a1], by simp [hy, hyx, a2], a3⟩
  | leaveMain hf =>
    simp only [prims, hc, hf]
    exact .ended rfl (X_kv rfl rfl) (by simp)
  | leaveCall hf hk => simp only [prims, hc, hf]; exact .quiet rfl (X_kv rfl rfl) (.inl rfl)
  | @leaveFn x f rest hf hv =>
    obtain ⟨v1, v2, v3⟩ := hval _ _ hv
    have hk : s.kind x = .ret c := (hi.oi.rets c x).1 (by simp [hf, rvars, Frame.rvars])
    have hn := hi.vi.nonExc x f (by intro d; rw [hk]; simp) hv
    simp only [prims, hc, hf]
    refine .jump (d := f.ctx) rfl (X_of (fun y d => ?_) (fun y d h => ?_)) v1 hn ?_ (.inl rfl)
    · simp only [fin, State.kill, upd_apply]; grind
    · simp only [fin, State.kill, upd_apply]; grind
    · intro v; simp [fin, Ne.symm v3, DtorTop]
  | @leaveOntop i x rest s' hf hd =>
    have hk : s.kind x = .ret c := (hi.oi.rets c x).1 (by simp [hf, rvars, Frame.rvars])
    simp only [prims, hc, hf]
    have hne : x ≠ s.nextVar := by intro h; rw [h, hfr] at hk; cases hk
    have hx1 : ∀ d w, UnwoundFor ((s.setFrames c rest).kill x) d w ↔ UnwoundFor s d w := by
      refine X_of (fun y d => ?_) (fun y d h => ?_) <;> simp only [State.kill, State.setFrames, upd_apply] <;> grind
    have hfr' : ((s.setFrames c rest).kill x).kind ((s.setFrames c rest).kill x).nextVar = .dead := by
      simp only [State.kill, State.setFrames, upd_apply]; grind
    exact .quiet ((cur_dlv hd).trans rfl) (fun d w => (X_dlv hd hfr' d w).trans (hx1 d w)) (.inl rfl)
  | @exitDone n rest s' hf hcap hst hd =>
    simp only [prims, hc, hf, hcap]
    have hc' := cur_dlv hd
    have hx1 := X_dlv hd hfr
    exact .quiet hc' (fun d w => (hx1 d w).trans (X_kv rfl rfl d w)) (.inl rfl)

end Verif.EH
