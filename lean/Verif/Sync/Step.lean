import Verif.Sync.Spec
import Verif.Fiber.Evol

/-! # What a step uses (proofs) -/

namespace Verif.Sync
open Verif.Fiber

/-- the step alters `d`: why -/
def Why (s s' : State) (c d : CtxId) : Prop :=
  d = c ∨ (d = s.nextCtx ∧ s.nextCtx < s'.nextCtx) ∨ 0 < exits d (s.frames c) ∨
  ∃ x f, s.val x = some f ∧ f.ctx = d ∧ s'.val x ≠ s.val x ∧ (Handle s x ∨ s.kind x = .exc c ∨ s.kind x = .ret c)

theorem handle_acc {s : State} {x : Var} (h : s.accessible x = true) : Handle s x := by
  unfold State.accessible at h; unfold Handle
  split at h <;> simp_all

theorem handle_kind {s : State} {x : Var} (h : Handle s x) (d : CtxId) : s.kind x ≠ .exc d ∧ s.kind x ≠ .ret d := by
  rcases h with h | ⟨_, h⟩ | ⟨_, h⟩ <;> simp [h]

theorem handle_loc {s : State} {x : Var} {c : CtxId} (h : s.kind x = .loc c) : Handle s x := .inr (.inl ⟨c, h⟩)

/-- an object of the program, or one that the library keeps on the stack of `c` -/
def NearS (s : State) (c : CtxId) (y : Var) : Prop := Handle s y ∨ s.kind y = .exc c ∨ s.kind y = .ret c

structure StepFacts (s s' : State) (t : Tid) (c : CtxId) : Prop where
  why : ∀ d, Alters s s' d → Why s s' c d
  val : ∀ x f, s'.val x = some f → (s.val x = some f ∧ s'.kind x = s.kind x) ∨
    (((f.ctx = c ∨ Alters s s' f.ctx) ∨ ∃ y, y ≠ x ∧ s.val y = some f ∧ NearS s c y) ∧ ∀ d, s'.kind x = .exc d ∨ s'.kind x = .ret d → d = c ∨ Alters s s' d)
  exits : ∀ m d, 0 < exits m (s'.frames d) → 0 < Fiber.exits m (s.frames d) ∨ ((m = c ∨ Alters s s' m) ∧ (d = c ∨ Alters s s' d))
  cur : ∀ t' d, s'.cur t' = some d → ((d = c ∨ Alters s s' d) ∧ (t' = t ∨ s.cur t' = none)) ∨ s.cur t' = some d
  mono : s.nextCtx ≤ s'.nextCtx

/-- nothing but contexts `c` and `d0` is altered -/
theorem StepFacts.two {s s' : State} {t : Tid} {c d0 : CtxId} (hcur : ∀ t' d, s'.cur t' = some d → (t' = t ∧ (d = c ∨ d = d0)) ∨ s.cur t' = some d)
    (ha0 : d0 = c ∨ Alters s s' d0) (hA : ∀ d, Alters s s' d → d = c ∨ d = d0 ∨ 0 < Fiber.exits d (s.frames c)) (hw : Why s s' c d0)
    (hex : ∀ m d, 0 < Fiber.exits m (s'.frames d) → 0 < Fiber.exits m (s.frames d) ∨ ((m = c ∨ m = d0) ∧ (d = c ∨ d = d0)))
    (hv : ∀ x f, s'.val x = some f → (s.val x = some f ∧ s'.kind x = s.kind x) ∨
      ((f.ctx = c ∨ f.ctx = d0 ∨ ∃ y, y ≠ x ∧ s.val y = some f ∧ NearS s c y) ∧ ∀ d, s'.kind x = .exc d ∨ s'.kind x = .ret d → d = c ∨ d = d0))
    (hm : s'.nextCtx = s.nextCtx) : StepFacts s s' t c := by
  have tch : ∀ {d}, d = c ∨ d = d0 → d = c ∨ Alters s s' d := by rintro d (rfl | rfl); exact .inl rfl; exact ha0
  refine ⟨fun d h => ?_, fun x f h => ?_, fun m d h => ?_, fun t' d h => ?_, Nat.le_of_eq hm.symm⟩
  · rcases hA d h with rfl | rfl | h
    · exact .inl rfl
    · exact hw
    · exact .inr (.inr (.inl h))
  · refine (hv x f h).imp id fun ⟨a, b⟩ => ⟨?_, fun d hd => tch (b d hd)⟩
    rcases a with a | a | a
    · exact .inl (.inl a)
    · exact .inl (tch (.inr a))
    · exact .inr a
  · exact (hex m d h).imp id fun ⟨a, b⟩ => ⟨tch a, tch b⟩
  · exact (hcur t' d h).imp (fun ⟨a, b⟩ => ⟨tch b, .inl a⟩) id

/-- nothing but context `c` is altered -/
theorem StepFacts.one {s s' : State} {t : Tid} {c : CtxId} (h1 : s'.cur = s.cur) (hA : ∀ d, Alters s s' d → d = c)
    (hex : ∀ m, 0 < Fiber.exits m (s'.frames c) → 0 < Fiber.exits m (s.frames c))
    (hv : ∀ x f, s'.val x = some f → (s.val x = some f ∧ s'.kind x = s.kind x) ∨ ((∃ y, y ≠ x ∧ s.val y = some f ∧ NearS s c y) ∧ ∀ d, s'.kind x = .exc d ∨ s'.kind x = .ret d → d = c))
    (hm : s'.nextCtx = s.nextCtx) : StepFacts s s' t c := by
  refine .two (d0 := c) (fun t' d h => .inr (h1 ▸ h)) (.inl rfl) (fun d h => .inl (hA d h)) (.inl rfl) (fun m d h => ?_) (fun x f h => (hv x f h).imp id fun ⟨a, b⟩ => ⟨.inr (.inr a), fun d hd => .inl (b d hd)⟩) hm
  by_cases e : d = c
  · subst e; exact .inl (hex m h)
  · refine .inl ?_
    have : s'.frames d = s.frames d := Classical.byContradiction fun hn => e (hA d (.inl hn))
    rwa [this] at h

theorem cap_facts {n : CtxId} {xs : List Var} {s : State} (hfr : ∀ y, s.nextVar ≤ y → s.kind y = .dead ∧ s.val y = none) (ha : ∀ x ∈ xs, s.accessible x = true) :
    (∀ d, d ≠ n → (s.capture n xs).caps d = s.caps d) ∧ s.nextVar ≤ (s.capture n xs).nextVar ∧
    ∀ y g, (s.capture n xs).val y = some g → (s.val y = some g ∧ (s.capture n xs).kind y = s.kind y) ∨
      ((s.capture n xs).kind y = .cap n ∧ s.nextVar ≤ y ∧ y < (s.capture n xs).nextVar ∧ ∃ z, z < s.nextVar ∧ s.val z = some g ∧ Handle s z) := by
  induction xs generalizing s with
  | nil => exact ⟨fun _ _ => rfl, Nat.le_refl _, fun y g h => .inl ⟨h, rfl⟩⟩
  | cons x xs ih =>
    have hx := ha x (by simp)
    have hlt : x < s.nextVar := Nat.lt_of_not_le fun h => by simp [State.accessible, (hfr x h).1] at hx
    simp only [State.capture]
    obtain ⟨s1, hs1⟩ : ∃ s1 : State, s1 = { (s.setVal x none).newVar (.cap n) (s.val x) with
        caps := upd ((s.setVal x none).newVar (.cap n) (s.val x)).caps n (s.nextVar :: ((s.setVal x none).newVar (.cap n) (s.val x)).caps n) } := ⟨_, rfl⟩
    rw [← hs1]
    have hk1 : s1.kind = upd s.kind s.nextVar (.cap n) := by rw [hs1]; rfl
    have hv1 : s1.val = upd (upd s.val x none) s.nextVar (s.val x) := by rw [hs1]; rfl
    have hn1 : s1.nextVar = s.nextVar + 1 := by rw [hs1]; rfl
    have hc1 : s1.caps = upd s.caps n (s.nextVar :: s.caps n) := by rw [hs1]; rfl
    obtain ⟨i1, i2, i3⟩ := ih (s := s1) (fun y hy => by
      have hy' : s.nextVar + 1 ≤ y := hn1 ▸ hy
      have h1 : y ≠ s.nextVar := Nat.ne_of_gt hy'
      have h2 : y ≠ x := fun e => absurd (Nat.lt_trans hlt hy') (by rw [e]; exact Nat.lt_irrefl _)
      simp only [hk1, hv1, upd_apply, if_neg h1, if_neg h2]; exact hfr y (Nat.le_of_succ_le hy')) (fun z hz => by
      have hz' := ha z (by simp [hz])
      have : z ≠ s.nextVar := fun h => by subst h; simp [State.accessible, (hfr _ (Nat.le_refl _)).1] at hz'
      simpa [State.accessible, hk1, this] using hz')
    refine ⟨fun d hd => by rw [i1 d hd, hc1, upd_apply, if_neg hd], Nat.le_trans (by rw [hn1]; exact Nat.le_succ _) i2, fun y g h => ?_⟩
    rcases i3 y g h with ⟨h1, h2⟩ | ⟨h1, h2, h3, z, h4, h5, h6⟩
    · rw [hv1] at h1
      simp only [upd_apply] at h1
      split at h1
      · next e =>
        subst e
        refine .inr ⟨by rw [h2, hk1]; simp, Nat.le_refl _, Nat.lt_of_lt_of_le (by rw [hn1]; exact Nat.lt_succ_self _) i2, x, hlt, h1, handle_acc hx⟩
      · next e =>
        split at h1
        · cases h1
        · exact .inl ⟨h1, by rw [h2, hk1, upd_apply, if_neg e]⟩
    · refine .inr ⟨h1, Nat.le_trans (by rw [hn1]; exact Nat.le_succ _) h2, h3, ?_⟩
      rw [hv1] at h5
      simp only [upd_apply] at h5
      split at h5
      · exact ⟨x, hlt, h5, handle_acc hx⟩
      · next e =>
        split at h5
        · cases h5
        · refine ⟨z, ?_, h5, ?_⟩
          · exact Nat.lt_of_not_le fun hh => by rw [(hfr z hh).2] at h5; cases h5
          · unfold Handle at h6 ⊢; rw [hk1] at h6; simp only [upd_apply, if_neg e] at h6; exact h6

theorem step_facts {s s' : State} {t : Tid} {op : Op} (hi : Inv s) (hs : step s t op = .ok s') : ∃ c, s.cur t = some c ∧ StepFacts s s' t c := by
  obtain ⟨c, hc, he⟩ := step_eff hi hs
  refine ⟨c, hc, ?_⟩
  obtain ⟨_, hwf, hab, hval⟩ := facts hi hc
  have hfr : s.kind s.nextVar = .dead := hi.oi.fresh _ (Nat.le_refl _)
  have hfv : s.val s.nextVar = none := hi.vi.deadNone _ hfr
  clear hs
  have hvk : ∀ {x f}, s.val x = some f → s.kind x ≠ .dead := fun h1 h2 => by rw [hi.vi.deadNone _ h2] at h1; cases h1
  cases he with
  | newHeap hf | call hf | ret hf | throw hf | cleanup hf | newLocal hf | createThrows hf | withThrowsHere hf | catchUser hf | propCall hf | propOntopUser hf | leaveCall hf | dropLoc hf | dropHeap hf | tickLocal hf
  | swallow hf =>
    refine .one rfl (fun d h => ?_) (fun m h => ?_) (fun x f h => ?_) rfl
    · simp [Alters] at h <;> grind
    · simp [hf] at h ⊢; grind
    · simp at h ⊢; grind
  | moveHeap hf ha | moveLocal hf ha | retHandle hf ha =>
    have : NearS s c _ := .inl (handle_acc ha)
    refine .one rfl (fun d h => ?_) (fun m h => ?_) (fun x f h => ?_) rfl
    · simp [Alters] at h <;> grind
    · simp [hf] at h ⊢; grind
    · simp at h ⊢; grind
  | moveSelf hf => exact .one rfl (fun d h => by simp [Alters] at h) (fun _ h => h) (fun x f h => .inl ⟨h, rfl⟩) rfl
  | moveAssign hf ha hb | swap hf ha hb =>
    have h1 := handle_acc ha; have h2 := handle_acc hb
    have := handle_kind h1; have := handle_kind h2
    have : NearS s c _ := .inl h1; have : NearS s c _ := .inl h2
    refine .one rfl (fun d h => ?_) (fun m h => ?_) (fun x f h => ?_) rfl
    · simp [Alters] at h
    · simp [hf] at h ⊢; grind
    · simp at h ⊢; grind
  | @exitCap n rest x xs hf hcap hv =>
    refine .two (d0 := n) (fun t' d h => .inr h) (.inr (by simp [Alters, hcap])) (fun d h => ?_) (.inr (.inr (.inl (by simp [hf])))) (fun m d h => .inl h) (fun x f h => ?_) rfl
    · simp [Alters] at h; exact .inr (.inl h.1)
    · simp at h ⊢; grind
  | @resume k ls rest x f s' hf ha hv hd =>
    obtain ⟨v1, v2, v3⟩ := hval _ _ hv
    have hh := handle_acc ha
    have hnx : x ≠ s.nextVar := fun e => by rw [e, hfv] at hv; cases hv
    have key : ∃ fs, s'.cur = upd s.cur t (some f.ctx) ∧ s'.status = upd (upd s.status c .suspended) f.ctx (.running t) ∧ s'.seq = upd s.seq c (s.seq c + 1) ∧ s'.caps = s.caps ∧ s'.nextCtx = s.nextCtx ∧
        s'.frames = upd (upd s.frames c (.resume :: s.frames c)) f.ctx fs ∧ (∀ m, 0 < Fiber.exits m fs → 0 < Fiber.exits m (s.frames f.ctx)) ∧
        s'.val = upd (upd s.val x none) s.nextVar (some ⟨c, s.seq c + 1⟩) ∧ s'.kind = upd s.kind s.nextVar (.loc f.ctx) := by
      cases hd with
      | entry h | resume h =>
        simp [sw, v3] at h
        refine ⟨_, rfl, rfl, rfl, rfl, rfl, rfl, ?_, rfl, rfl⟩
        intro m; simp [h]
      | dtor h =>
        simp [sw, v3] at h
        exfalso
        have := hi.vi.nonExc x f (fun d => (handle_kind hh d).1) hv
        rw [h] at this; exact this _ rfl
    obtain ⟨fs, e1, e2, e3, e4, e5, e6, e7, e8, e9⟩ := key
    refine .two (d0 := f.ctx) (fun t' d h => ?_) (.inr ?_) (fun d h => ?_) ?_ (fun m d h => ?_) (fun y g h => ?_) e5
    · rw [e1, upd_apply] at h; split at h
      · cases h; exact .inl ⟨by assumption, .inr rfl⟩
      · exact .inr h
    · simp [Alters, e2, v1]
    · simp only [Alters, e2, e3, e4, e6, upd_apply] at h; grind
    · exact .inr (.inr (.inr ⟨x, f, hv, rfl, by rw [e8, hv]; simp [hnx], .inl hh⟩))
    · rw [e6] at h; simp only [upd_apply] at h
      split at h
      · next e => subst e; exact .inl (e7 m h)
      · split at h
        · next e => subst e; exact .inl (by simpa using h)
        · exact .inl h
    · rw [e8] at h; rw [e9]; simp only [upd_apply] at h ⊢; grind
  | @resumeWith k ls rest x f hf ha hv =>
    obtain ⟨v1, v2, v3⟩ := hval _ _ hv
    have hh := handle_acc ha
    have hnx : x ≠ s.nextVar := fun e => by rw [e, hfv] at hv; cases hv
    refine .two (d0 := f.ctx) (fun t' d h => ?_) (.inr ?_) (fun d h => ?_) ?_ (fun m d h => ?_) (fun y g h => ?_) rfl
    · simp only [upd_apply] at h; split at h
      · cases h; exact .inl ⟨by assumption, .inr rfl⟩
      · exact .inr h
    · simp [Alters, v1]
    · simp only [Alters, upd_apply] at h; grind
    · exact .inr (.inr (.inr ⟨x, f, hv, rfl, by rw [hv]; simp [hnx], .inl hh⟩))
    · simp only [upd_apply] at h; grind
    · simp only [upd_apply] at h ⊢; grind
  | @withThrows k ls rest x n f k' ls' m' rest' hf ha hv hf' =>
    obtain ⟨v1, v2, v3⟩ := hval _ _ hv
    have hh := handle_acc ha
    have hf2 : s.frames f.ctx = .resume :: .user k' ls' m' :: rest' := by simpa [v3] using hf'
    refine .two (d0 := f.ctx) (fun t' d h => ?_) (.inr ?_) (fun d h => ?_) ?_ (fun m d h => ?_) (fun y g h => ?_) rfl
    · simp only [upd_apply] at h; split at h
      · cases h; exact .inl ⟨by assumption, .inr rfl⟩
      · exact .inr h
    · simp [Alters, v1]
    · simp only [Alters, upd_apply] at h; grind
    · exact .inr (.inr (.inr ⟨x, f, hv, rfl, by rw [hv]; simp, .inl hh⟩))
    · simp only [upd_apply] at h; grind
    · simp only [upd_apply] at h ⊢; grind
  | spawn hf =>
    have hft := hi.ci.tids _ (Nat.le_refl s.nextTid)
    have hal : Alters s { s with
        cur := upd s.cur s.nextTid (some s.nextCtx), status := upd s.status s.nextCtx (.running s.nextTid),
        seq := upd s.seq s.nextCtx 0, frames := upd s.frames s.nextCtx [.user .main [] .normal],
        nextCtx := s.nextCtx + 1, nextTid := s.nextTid + 1 } s.nextCtx := by simp [Alters, hab]
    refine ⟨fun d h => ?_, fun x f h => .inl ⟨h, rfl⟩, fun m d h => ?_, fun t' d h => ?_, Nat.le_succ _⟩
    · refine .inr (.inl ⟨?_, Nat.lt_succ_self _⟩)
      simp only [Alters, upd_apply] at h; grind
    · simp only [upd_apply] at h; grind
    · simp only [upd_apply] at h; split at h
      · next e => cases h; exact .inl ⟨.inr hal, .inr (e ▸ hft)⟩
      · exact .inr h
  | leaveMain hf =>
    refine .two (d0 := c) (fun t' d h => ?_) (.inl rfl) (fun d h => ?_) (.inl rfl) (fun m d h => ?_) (fun y g h => .inl ⟨h, rfl⟩) rfl
    · simp only [upd_apply] at h; split at h
      · cases h
      · exact .inr h
    · simp only [Alters, upd_apply] at h; grind
    · simp only [upd_apply] at h; grind
  | @propFn x f rest hf hv | @leaveFn x f rest hf hv =>
    obtain ⟨v1, v2, v3⟩ := hval _ _ hv
    have hk : s.kind x = .exc c ∨ s.kind x = .ret c := by
      have h1 := hi.oi.excs c x
      have h2 := hi.oi.rets c x
      rw [hf] at h1 h2
      simp [evars, rvars, Frame.evars, Frame.rvars] at h1 h2
      first | exact .inl h1 | exact .inr h2
    refine .two (d0 := f.ctx) (fun t' d h => ?_) (.inr ?_) (fun d h => ?_) ?_ (fun m d h => ?_) (fun y g h => ?_) rfl
    · simp only [fin, upd_apply, State.kill] at h; split at h
      · cases h; exact .inl ⟨by assumption, .inr rfl⟩
      · exact .inr h
    · simp [Alters, v1, fin, State.kill]
    · simp only [Alters, fin, State.kill, upd_apply] at h; grind
    · exact .inr (.inr (.inr ⟨x, f, hv, rfl, by rw [hv]; simp [fin, State.kill], .inr hk⟩))
    · simp only [fin, State.kill, upd_apply] at h; grind
    · simp only [fin, State.kill, upd_apply] at h ⊢; grind
  | @propOntopForced i x f rest s' hf hv hr =>
    obtain ⟨v1, v2, v3⟩ := hval _ _ hv
    have hk : s.kind x = .exc c := (hi.oi.excs c x).1 (by simp [hf, evars, Frame.evars])
    cases hr with
    | entry h =>
      refine .two (d0 := f.ctx) (fun t' d h => ?_) (.inr ?_) (fun d h => ?_) ?_ (fun m d h => ?_) (fun y g h => ?_) rfl
      · simp only [fin, upd_apply, State.kill, State.setFrames] at h; split at h
        · cases h; exact .inl ⟨by assumption, .inr rfl⟩
        · exact .inr h
      · simp [Alters, v1, fin, State.kill, State.setFrames]
      · simp only [Alters, fin, State.kill, State.setFrames, upd_apply] at h; grind
      · exact .inr (.inr (.inr ⟨x, f, hv, rfl, by rw [hv]; simp [fin, State.kill, State.setFrames], .inr (.inl hk)⟩))
      · simp only [fin, State.kill, State.setFrames, upd_apply] at h; grind
      · simp only [fin, State.kill, State.setFrames, upd_apply] at h ⊢; grind
    | resume h =>
      simp [State.setFrames, State.kill] at h
      have hnx : x ≠ s.nextVar := fun e => by rw [e, hfv] at hv; cases hv
      refine .one rfl (fun d h => ?_) (fun m h => ?_) (fun y g h => ?_) rfl
      · simp only [Alters, State.kill, State.setFrames, upd_apply] at h; grind
      · simp [State.kill, State.setFrames] at h; simp [hf, h]; grind
      · simp only [State.kill, State.setFrames, upd_apply] at h ⊢
        by_cases e : y = s.nextVar
        · subst e; simp at h; subst h
          exact .inr ⟨⟨x, hnx, hv, .inr (.inl hk)⟩, by simp⟩
        · grind
  | @leaveOntop i x rest s' hf hd =>
    have hk : s.kind x = .ret c := (hi.oi.rets c x).1 (by simp [hf, rvars, Frame.rvars])
    have hnx : x ≠ s.nextVar := fun e => by rw [e, hfr] at hk; cases hk
    have key : s'.cur = s.cur ∧ s'.status = s.status ∧ s'.seq = s.seq ∧ s'.caps = s.caps ∧ s'.nextCtx = s.nextCtx ∧ (∀ d, d ≠ c → s'.frames d = s.frames d) ∧
        (∀ m, 0 < Fiber.exits m (s'.frames c) → 0 < Fiber.exits m (s.frames c)) ∧
        ∀ y g, s'.val y = some g → (s.val y = some g ∧ s'.kind y = s.kind y) ∨ (y = s.nextVar ∧ s.val x = some g ∧ ∃ d, s'.kind y = .loc d) := by
      cases hd with
      | entry h | resume h =>
        simp [State.setFrames, State.kill] at h
        refine ⟨rfl, rfl, rfl, rfl, rfl, fun d hd => by simp [State.kill, State.setFrames, hd], fun m hm => ?_, fun y g hy => ?_⟩
        · simp [State.kill, State.setFrames] at hm; simp [hf, h]; grind
        · simp only [State.kill, State.setFrames, upd_apply] at hy ⊢; grind
      | dtor h =>
        simp [State.setFrames, State.kill] at h
        refine ⟨rfl, rfl, rfl, rfl, rfl, fun d hd => by simp [State.kill, State.setFrames, hd], fun m hm => ?_, fun y g hy => ?_⟩
        · simp [State.kill, State.setFrames] at hm; simp [hf, h]; grind
        · simp only [State.kill, State.setFrames, upd_apply] at hy ⊢; grind
    obtain ⟨e1, e2, e3, e4, e5, e6, e7, e8⟩ := key
    refine .one e1 (fun d h => ?_) e7 (fun y g h => ?_) e5
    · simp only [Alters, e2, e3, e4] at h
      exact Classical.byContradiction fun hn => by rw [e6 d hn] at h; simp at h
    · refine (e8 y g h).imp id ?_
      rintro ⟨rfl, h2, d, h3⟩
      exact ⟨⟨x, hnx, h2, .inr (.inr hk)⟩, by simp [h3]⟩
  | @exitDone n rest s' hf hcap hst hd =>
    have hnc : n ≠ c := by rintro rfl; simp_all
    have key : s'.cur = s.cur ∧ s'.status = upd s.status n .freed ∧ s'.seq = s.seq ∧ s'.caps = s.caps ∧ s'.nextCtx = s.nextCtx ∧ (∀ d, d ≠ c → s'.frames d = upd s.frames n [] d) ∧
        (∀ m, 0 < Fiber.exits m (s'.frames c) → 0 < Fiber.exits m (s.frames c)) ∧
        ∀ y g, s'.val y = some g → s.val y = some g ∧ s'.kind y = s.kind y := by
      cases hd with
      | entry h | resume h =>
        simp at h
        refine ⟨rfl, rfl, rfl, rfl, rfl, fun d hd => by simp [hd], fun m hm => ?_, fun y g hy => ?_⟩
        · simp at hm; simp [hf, h]; grind
        · simp only [upd_apply] at hy ⊢; grind
      | dtor h =>
        simp at h
        refine ⟨rfl, rfl, rfl, rfl, rfl, fun d hd => by simp [hd], fun m hm => ?_, fun y g hy => ?_⟩
        · simp at hm; simp [hf, h]; grind
        · exact ⟨hy, rfl⟩
    obtain ⟨e1, e2, e3, e4, e5, e6, e7, e8⟩ := key
    refine .two (d0 := n) (fun t' d h => .inr (e1 ▸ h)) (.inr ?_) (fun d h => ?_) (.inr (.inr (.inl (by simp [hf])))) (fun m d h => ?_) (fun y g h => .inl (e8 y g h)) e5
    · exact .inr (.inl (by rw [e2, hst]; simp))
    · by_cases h1 : d = c
      · exact .inl h1
      · by_cases h2 : d = n
        · exact .inr (.inl h2)
        · simp [Alters, e2, e3, e4, e6 d h1, h2] at h
    · by_cases h1 : d = c
      · subst h1; exact .inl (e7 m h)
      · rw [e6 d h1] at h; simp only [upd_apply] at h; split at h
        · simp at h
        · exact .inl h
  | @create k ls rest xs hf ha s2 h2 =>
    have hsame := capture_same ({ s with nextCtx := s.nextCtx + 1 }.addLog (.alloc s.nextCtx)) s.nextCtx xs
    have hcap := cap_facts (n := s.nextCtx) (xs := xs) (s := { s with nextCtx := s.nextCtx + 1 }.addLog (.alloc s.nextCtx))
      (fun y hy => ⟨hi.oi.fresh y hy, hi.vi.deadNone _ (hi.oi.fresh y hy)⟩) ha
    rw [← h2] at hsame hcap
    obtain ⟨e1, e2, e3, e4, e5, -⟩ := hsame
    obtain ⟨c1, c2, c3⟩ := hcap
    replace e1 : s2.cur = s.cur := e1
    replace e2 : s2.status = s.status := e2
    replace e3 : s2.seq = s.seq := e3
    replace e4 : s2.frames = s.frames := e4
    replace e5 : s2.nextCtx = s.nextCtx + 1 := e5
    replace c1 : ∀ d, d ≠ s.nextCtx → s2.caps d = s.caps d := c1
    replace c2 : s.nextVar ≤ s2.nextVar := c2
    replace c3 : ∀ y g, s2.val y = some g → (s.val y = some g ∧ s2.kind y = s.kind y) ∨
      (s2.kind y = .cap s.nextCtx ∧ s.nextVar ≤ y ∧ y < s2.nextVar ∧ ∃ z, z < s.nextVar ∧ s.val z = some g ∧ Handle s z) := c3
    obtain ⟨s', hs'⟩ : ∃ s' : State, s' = { s2 with
                  status := upd s2.status s.nextCtx .suspended,
                  frames := upd (upd s2.frames s.nextCtx [.entryJump]) c (.user k (s2.nextVar :: ls) .normal :: rest),
                  seq := upd (upd s2.seq s.nextCtx 1) c (s2.seq c + 1),
                  kind := upd s2.kind s2.nextVar (.loc c), val := upd s2.val s2.nextVar (some ⟨s.nextCtx, 1⟩),
                  nextVar := s2.nextVar + 1 } := ⟨_, rfl⟩
    rw [← hs']
    have f1 : s'.cur = s.cur := by rw [hs']; exact e1
    have f2 : s'.status = upd s.status s.nextCtx .suspended := by rw [hs', ← e2]
    have f3 : s'.seq = upd (upd s.seq s.nextCtx 1) c (s.seq c + 1) := by rw [hs', ← e3]
    have f4 : s'.frames = upd (upd s.frames s.nextCtx [.entryJump]) c (.user k (s2.nextVar :: ls) .normal :: rest) := by rw [hs', ← e4]
    have f5 : s'.caps = s2.caps := by rw [hs']
    have f6 : s'.kind = upd s2.kind s2.nextVar (.loc c) := by rw [hs']
    have f7 : s'.val = upd s2.val s2.nextVar (some ⟨s.nextCtx, 1⟩) := by rw [hs']
    have f8 : s'.nextCtx = s.nextCtx + 1 := by rw [hs']; exact e5
    have hal : Alters s s' s.nextCtx := .inr (.inl (by rw [f2, hab]; simp))
    refine ⟨fun d h => ?_, fun x f h => ?_, fun m d h => ?_, fun t' d h => .inr (f1 ▸ h), by rw [f8]; exact Nat.le_succ _⟩
    · by_cases h1 : d = c
      · exact .inl h1
      · by_cases h2 : d = s.nextCtx
        · exact .inr (.inl ⟨h2, by rw [f8]; exact Nat.lt_succ_self _⟩)
        · simp [Alters, f2, f3, f4, f5, h1, h2, c1 d h2] at h
    · rw [f7] at h; rw [f6]
      simp only [upd_apply] at h ⊢
      split at h
      · next e => cases h; exact .inr ⟨.inl (.inr hal), by simp [e]⟩
      · next e =>
        rw [if_neg e]
        rcases c3 x f h with h1 | ⟨h1, h2, h3, z, h4, h5, h6⟩
        · exact .inl h1
        · refine .inr ⟨.inr ⟨z, fun e => ?_, h5, .inl h6⟩, by simp [h1]⟩
          subst e; exact absurd h4 (Nat.not_lt_of_le h2)
    · rw [f4] at h; simp only [upd_apply] at h; split at h
      · next e => subst e; exact .inl (by simpa [hf] using h)
      · split at h
        · simp at h
        · exact .inl h
  | @destroy op s1 f s' h1 h2 =>
    have key : ∃ x g, s.val x = some f ∧ Handle s x ∧ s1.cur = s.cur ∧ s1.status = s.status ∧ s1.seq = s.seq ∧ s1.nextCtx = s.nextCtx ∧ s1.nextVar = s.nextVar ∧ s1.frames = upd s.frames c g ∧
        (∀ m, 0 < Fiber.exits m g → 0 < Fiber.exits m (s.frames c)) ∧ (∀ d, s1.caps d ≠ s.caps d → 0 < Fiber.exits d (s.frames c)) ∧ s1.val x ≠ s.val x ∧
        ∀ y g, s1.val y = some g → (s.val y = some g ∧ s1.kind y = s.kind y) ∨ ((∃ z, z ≠ y ∧ s.val z = some g ∧ Handle s z) ∧ s1.kind y = s.kind y ∧ Handle s y) := by
      cases h1 with
      | @moveAssign k ls rest x y hf ha hb hn hv =>
        have k1 := handle_acc ha
        have k2 := handle_acc hb
        refine ⟨y, s.frames c, hv, k2, rfl, rfl, rfl, rfl, rfl, ?_, fun _ h => h, fun _ h => absurd rfl h, ?_, fun z g hz => ?_⟩
        · funext d; simp only [upd_apply]; split
          · next e => rw [e]
          · rfl
        · intro h
          simp [hn] at h
          exact hn (hi.vi.inj y x f f hv (h.trans hv) rfl)
        · simp only [upd_apply] at hz ⊢
          split at hz
          · cases hz
          · split at hz
            · next e1 e2 => subst e2; exact .inr ⟨⟨x, Ne.symm hn, hz, k1⟩, trivial, k2⟩
            · exact .inl ⟨hz, trivial⟩
      | @dropLoc k ls rest x hf hx hv =>
        have hk : s.kind x = .loc c := (hi.oi.locs c x).1 (by simp [hf, lvars, Frame.lvars, hx])
        refine ⟨x, _, hv, handle_loc hk, rfl, rfl, rfl, rfl, rfl, rfl, fun m => by simp [hf], fun _ h => absurd rfl h, by simp [hv], fun z g hz => ?_⟩
        simp only [upd_apply] at hz ⊢; grind
      | @dropHeap k ls rest x hf hx hv =>
        refine ⟨x, s.frames c, hv, .inl hx, rfl, rfl, rfl, rfl, rfl, ?_, fun _ h => h, fun _ h => absurd rfl h, by simp [hv], fun z g hz => ?_⟩
        · funext d; simp only [upd_apply]; split
          · next e => rw [e]
          · rfl
        · simp only [upd_apply] at hz ⊢; grind
      | @tick k ls m rest x hf hm hv =>
        have hk : s.kind x = .loc c := (hi.oi.locs c x).1 (by simp [hf, lvars, Frame.lvars])
        refine ⟨x, _, hv, handle_loc hk, rfl, rfl, rfl, rfl, rfl, rfl, fun m => by simp [hf], fun _ h => absurd rfl h, by simp [hv], fun z g hz => ?_⟩
        simp only [upd_apply] at hz ⊢; grind
      | @exit n rest x xs hf hcap hv =>
        have hk : s.kind x = .cap n := (hi.oi.capv n x).1 (by simp [hcap])
        refine ⟨x, s.frames c, hv, .inr (.inr ⟨n, hk⟩), rfl, rfl, rfl, rfl, rfl, ?_, fun _ h => h, fun d h => ?_, by simp [hv], fun z g hz => ?_⟩
        · funext d; simp only [upd_apply]; split
          · next e => rw [e]
          · rfl
        · simp at h; rw [hf]; simp [h.1]
        · simp only [upd_apply] at hz ⊢; grind
    obtain ⟨x, g, hv, hh, e1, e2, e3, e4, e5, e6, e7, e8, e9, e10⟩ := key
    obtain ⟨v1, v2, v3⟩ := hval _ _ hv
    have hnx : x ≠ s.nextVar := fun e => by rw [e, hfv] at hv; cases hv
    have hx1 : s1.val x ≠ s.val x := e9
    obtain ⟨h2⟩ := h2
    have key2 : (∀ t' d, s'.cur t' = some d → (t' = t ∧ (d = c ∨ d = f.ctx)) ∨ s.cur t' = some d) ∧ s'.status f.ctx ≠ s.status f.ctx ∧
        (∀ d, d ≠ c → d ≠ f.ctx → s'.frames d = s.frames d ∧ s'.status d = s.status d ∧ s'.seq d = s.seq d ∧ s'.caps d = s1.caps d) ∧ s'.nextCtx = s.nextCtx ∧
        (∀ m d, 0 < Fiber.exits m (s'.frames d) → 0 < Fiber.exits m (s.frames d) ∨ ((m = c ∨ m = f.ctx) ∧ (d = c ∨ d = f.ctx))) ∧
        (∀ y g, s'.val y = some g → (s1.val y = some g ∧ s'.kind y = s1.kind y) ∨ (y = s.nextVar ∧ g.ctx = c ∧ s'.kind y = .exc f.ctx)) ∧ s'.val x ≠ s.val x := by
      cases h2 with
      | @entry rest hf =>
        refine ⟨fun t' d h => ?_, ?_, fun d d1 d2 => ?_, e4, fun m d h => ?_, fun y g h => .inl ⟨h, rfl⟩, hx1⟩
        · simp only [fin, sw, State.setFrames, upd_apply, e1] at h; split at h
          · cases h; exact .inl ⟨by assumption, .inl rfl⟩
          · exact .inr h
        · simp [fin, sw, State.setFrames, v1, v3]
        · simp [fin, sw, State.setFrames, d1, d2, e2, e3, e6]
        · simp only [fin, sw, State.setFrames, upd_apply, e6] at h; grind
      | @resume k ls m rest hf =>
        have hf' : s.frames f.ctx = .resume :: .user k ls m :: rest := by simpa [sw, State.setFrames, v3, e6] using hf
        refine ⟨fun t' d h => ?_, ?_, fun d d1 d2 => ?_, e4, fun m d h => ?_, fun y g h => ?_, ?_⟩
        · simp only [sw, State.setFrames, upd_apply, e1] at h; split at h
          · cases h; exact .inl ⟨by assumption, .inr rfl⟩
          · exact .inr h
        · simp [sw, State.setFrames, v1]
        · simp [sw, State.setFrames, d1, d2, e2, e3, e6]
        · simp only [sw, State.setFrames, upd_apply, e6] at h; grind
        · simp only [sw, State.setFrames, upd_apply, e5] at h ⊢; grind
        · simpa [sw, State.setFrames, e5, hnx] using hx1
    obtain ⟨k1, k2, k3, k4, k5, k6, k7⟩ := key2
    refine .two (d0 := f.ctx) k1 (.inr (.inr (.inl k2))) (fun d h => ?_) (.inr (.inr (.inr ⟨x, f, hv, rfl, k7, .inl hh⟩))) k5 (fun y g h => ?_) k4
    · by_cases d1 : d = c
      · exact .inl d1
      · by_cases d2 : d = f.ctx
        · exact .inr (.inl d2)
        · obtain ⟨a1, a2, a3, a4⟩ := k3 d d1 d2
          rcases h with h | h | h | h
          · exact absurd a1 h
          · exact absurd a2 h
          · exact absurd a3 h
          · exact .inr (.inr (e8 d (a4 ▸ h)))
    · rcases k6 y g h with ⟨a1, a2⟩ | ⟨a1, a2, a3⟩
      · rcases e10 y g a1 with ⟨b1, b2⟩ | ⟨⟨z, b1, b2, b3⟩, b4, b5⟩
        · exact .inl ⟨b1, a2.trans b2⟩
        · refine .inr ⟨.inr (.inr ⟨z, b1, b2, .inl b3⟩), fun d hd => ?_⟩
          rw [a2, b4] at hd
          have := handle_kind b5 d
          rcases hd with hd | hd
          · exact absurd hd this.1
          · exact absurd hd this.2
      · refine .inr ⟨.inl a2, fun d hd => ?_⟩
        rw [a3] at hd; simp at hd; exact .inr hd.symm
end Verif.Sync
