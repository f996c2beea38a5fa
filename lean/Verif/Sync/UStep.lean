import Verif.Sync.USpec
import Verif.Sync.Gen
import Verif.UFiber.Log

/-! # What a step of the ucontext machine uses (proofs) -/

namespace Verif.Sync.U
open Verif.UFiber
open Verif.Fiber (CtxId Var Tid Op Kind Frame Fctx exits upd upd_apply lvars evars rvars Frame.lvars Frame.evars Frame.rvars exits_cons exits_nil)

/-- the step uses `d` -/
def US (s s' : State) (t : Tid) (d : CtxId) : Prop := s.cur t = some d ∨ Alters s s' d ∨ Consumes s s' d

def uview (s : State) : View := ⟨s.cur, s.nextCtx, fun x => (s.val x).map fun c => ⟨c, 0⟩, s.kind, fun m d => 0 < exits m (s.frames d)⟩

theorem uview_val {s : State} {x : Var} {f : Fctx} : (uview s).val x = some f ↔ s.val x = some f.ctx ∧ f.seq = 0 := by
  obtain ⟨c, n⟩ := f
  simp only [uview, Option.map_eq_some_iff, Fctx.mk.injEq]
  constructor
  · rintro ⟨a, h, rfl, rfl⟩; exact ⟨h, rfl⟩
  · rintro ⟨h, h'⟩; exact ⟨c, h, rfl, h'.symm⟩

theorem handle_acc {s : State} {x : Var} (h : s.accessible x = true) : PKind (s.kind x) := by
  unfold State.accessible at h; unfold PKind
  split at h <;> simp_all

theorem pkind_not {k : Kind} (h : PKind k) (d : CtxId) : k ≠ .exc d ∧ k ≠ .ret d := by
  rcases h with h | ⟨_, h⟩ | ⟨_, h⟩ <;> simp [h]

/-- nothing but contexts `c` and `d0` is used -/
theorem two {s s' : State} {t : Tid} {c d0 : CtxId} (hc : s.cur t = some c) (hcur : ∀ t' d, s'.cur t' = some d → (t' = t ∧ (d = c ∨ d = d0)) ∨ s.cur t' = some d)
    (ha0 : US s s' t d0) (hA : ∀ d, Alters s s' d → d = c ∨ d = d0 ∨ 0 < exits d (s.frames c)) (hG : ∀ x d, s.val x = some d → (∃ y, s'.val y = some d) ∨ d = d0)
    (hw : d0 = c ∨ 0 < exits d0 (s.frames c) ∨ ∃ x, s.val x = some d0 ∧ s'.val x ≠ some d0 ∧ Near (s.kind x) c)
    (hex : ∀ m d, 0 < exits m (s'.frames d) → 0 < exits m (s.frames d) ∨ ((m = c ∨ m = d0) ∧ (d = c ∨ d = d0)))
    (hv : ∀ x d, s'.val x = some d → (s.val x = some d ∧ s'.kind x = s.kind x) ∨
      ((d = c ∨ d = d0 ∨ ∃ y, y ≠ x ∧ s.val y = some d ∧ Near (s.kind y) c) ∧ ∀ e, s'.kind x = .exc e ∨ s'.kind x = .ret e → e = c ∨ e = d0))
    (hm : s'.nextCtx = s.nextCtx) : Facts (uview s) (uview s') t c (US s s' t) := by
  have us : ∀ {d}, d = c ∨ d = d0 → US s s' t d := by
    rintro d (rfl | rfl)
    · exact .inl hc
    · exact ha0
  have hW : d0 = c ∨ ((uview s).nextCtx ≤ d0 ∧ d0 < (uview s').nextCtx) ∨ (uview s).ex d0 c ∨ ∃ x f, (uview s).val x = some f ∧ f.ctx = d0 ∧ (uview s').val x ≠ some f ∧ Near ((uview s).kind x) c := by
    rcases hw with h | h | ⟨x, h1, h2, h3⟩
    · exact .inl h
    · exact .inr (.inr (.inl h))
    · exact .inr (.inr (.inr ⟨x, ⟨d0, 0⟩, uview_val.2 ⟨h1, rfl⟩, rfl, fun e => h2 (uview_val.1 e).1, h3⟩))
  refine ⟨fun d h => ?_, fun x f h => ?_, fun m d h => (hex m d h).imp id fun ⟨a, b⟩ => ⟨us a, us b⟩, fun t' d h => (hcur t' d h).imp (fun ⟨a, b⟩ => ⟨us b, .inl a⟩) id, Nat.le_of_eq hm.symm⟩
  · rcases h with h | h | ⟨⟨x, h⟩, h'⟩
    · rw [hc] at h; cases h; exact .inl rfl
    · rcases hA d h with rfl | rfl | h
      · exact .inl rfl
      · exact hW
      · exact .inr (.inr (.inl h))
    · rcases hG x d h with ⟨y, h2⟩ | rfl
      · exact absurd h2 (h' y)
      · exact hW
  · obtain ⟨h1, h2⟩ := uview_val.1 h
    refine (hv x f.ctx h1).imp (fun ⟨a, b⟩ => ⟨uview_val.2 ⟨a, h2⟩, b⟩) fun ⟨a, b⟩ => ⟨?_, fun e he => us (b e he)⟩
    rcases a with a | a | ⟨y, a1, a2, a3⟩
    · exact .inl (us (.inl a))
    · exact .inl (us (.inr a))
    · exact .inr ⟨y, a1, uview_val.2 ⟨a2, h2⟩, a3⟩

/-- nothing but context `c` is used -/
theorem one {s s' : State} {t : Tid} {c : CtxId} (hc : s.cur t = some c) (h1 : s'.cur = s.cur) (hA : ∀ d, Alters s s' d → d = c) (hG : ∀ x d, s.val x = some d → ∃ y, s'.val y = some d)
    (hex : ∀ m, 0 < exits m (s'.frames c) → 0 < exits m (s.frames c))
    (hv : ∀ x d, s'.val x = some d → (s.val x = some d ∧ s'.kind x = s.kind x) ∨
      ((∃ y, y ≠ x ∧ s.val y = some d ∧ Near (s.kind y) c) ∧ ∀ e, s'.kind x = .exc e ∨ s'.kind x = .ret e → e = c))
    (hm : s'.nextCtx = s.nextCtx) : Facts (uview s) (uview s') t c (US s s' t) := by
  refine two (d0 := c) hc (fun t' d h => .inr (h1 ▸ h)) (.inl hc) (fun d h => .inl (hA d h)) (fun x d h => .inl (hG x d h)) (.inl rfl) (fun m d h => ?_)
    (fun x f h => (hv x f h).imp id fun ⟨a, b⟩ => ⟨.inr (.inr a), fun d hd => .inl (b d hd)⟩) hm
  by_cases e : d = c
  · subst e; exact .inl (hex m h)
  · refine .inl ?_
    have : s'.frames d = s.frames d := Classical.byContradiction fun hn => e (hA d (.inl hn))
    rwa [this] at h

/-- a switch from `c` to `w` and the arrival there -/
theorem arr_facts {s s' : State} {t : Tid} {c w : CtxId} {lv : Verif.Fiber.Status} (h : Arr (sw s t c w lv) w s') :
    s'.cur = upd s.cur t (some w) ∧ s'.status = upd (upd s.status c lv) w (.running t) ∧ s'.nextCtx = s.nextCtx ∧ s'.caps = s.caps ∧
    (∀ d, d ≠ w → s'.frames d = s.frames d ∧ s'.root d = s.root d ∧ s'.frm d = s.frm d ∧ s'.ontop d = s.ontop d ∧ s'.term d = s.term d ∧ s'.unw d = s.unw d) ∧
    (∀ m, 0 < exits m (s'.frames w) → 0 < exits m (s.frames w) ∨ ∃ rest, s.frames w = .dtor m :: rest) ∧
    (∀ y, y ≠ s.nextVar → s'.val y = s.val y ∧ s'.kind y = s.kind y) ∧
    ((s'.val s.nextVar = s.val s.nextVar ∧ s'.kind s.nextVar = s.kind s.nextVar) ∨ (s'.val s.nextVar = some c ∧ (s'.kind s.nextVar = .loc w ∨ s'.kind s.nextVar = .exc w))) := by
  cases h with
  | entry hf | unwind hf | ontop hf | ret hf =>
    simp only [sw] at hf
    refine ⟨rfl, rfl, rfl, rfl, fun d hd => by simp [sw, hd], fun m h => ?_, fun y hy => by simp [sw, hy], .inr ⟨by simp [sw], by simp [sw]⟩⟩
    simp [sw] at h; simp [hf]; grind
  | @dtor v rest hf hs ht =>
    simp only [sw] at hf
    refine ⟨rfl, rfl, rfl, rfl, fun d hd => by simp [sw, hd], fun m h => ?_, fun y hy => ⟨rfl, rfl⟩, .inl ⟨rfl, rfl⟩⟩
    simp [sw] at h; simp [hf]; grind

/-- context `c` switches to `w`, the value of `x`; `s1` is the state just before the switch -/
theorem switched {s s1 s' : State} {t : Tid} {c w : CtxId} {x : Var} {lv : Verif.Fiber.Status} (hi : Inv s) (hc : s.cur t = some c) (hv : s.val x = some w) (hk : Near (s.kind x) c) (hs : s.status w = .suspended)
    (hd : Arr (sw s1 t c w lv) w s') (e1 : s1.cur = s.cur) (e2 : s1.status = s.status) (e3 : s1.nextCtx = s.nextCtx) (e4 : s1.caps = s.caps) (e5 : s1.nextVar = s.nextVar)
    (e6 : ∀ d, d ≠ c → d ≠ w → s1.frames d = s.frames d ∧ s1.root d = s.root d ∧ s1.frm d = s.frm d ∧ s1.ontop d = s.ontop d ∧ s1.term d = s.term d ∧ s1.unw d = s.unw d)
    (e7 : ∀ m d, d = c ∨ d = w → 0 < exits m (s1.frames d) → 0 < exits m (s.frames d)) (e8 : s1.val x = none) (e9 : ∀ y, y ≠ x → s1.val y = s.val y ∧ s1.kind y = s.kind y)
    (e10 : ∀ m rest, s1.frames w = .dtor m :: rest → m = c) : Facts (uview s) (uview s') t c (US s s' t) := by
  obtain ⟨a1, a2, a3, a4, a5, a6, a7, a8⟩ := arr_facts hd
  have hst := (hi.ci.curRun _ _).1 hc
  have hwc : w ≠ c := fun e => by rw [e, hst] at hs; cases hs
  have hfr : s.kind s.nextVar = .dead := hi.oi.fresh _ (Nat.le_refl _)
  have hfv : s.val s.nextVar = none := hi.vi.deadNone _ hfr
  have hnx : x ≠ s.nextVar := fun e => by rw [e, hfv] at hv; cases hv
  rw [e5] at a7 a8
  refine two (d0 := w) hc (fun t' d h => ?_) (.inr (.inl (.inr (.inl ?_)))) (fun d h => ?_) (fun y d h => ?_) (.inr (.inr ⟨x, hv, ?_, hk⟩)) (fun m d h => ?_) (fun y d h => ?_) (a3.trans e3)
  · rw [a1, e1, upd_apply] at h; split at h
    · cases h; exact .inl ⟨by assumption, .inr rfl⟩
    · exact .inr h
  · rw [a2, hs]; simp
  · by_cases h1 : d = c
    · exact .inl h1
    · by_cases h2 : d = w
      · exact .inr (.inl h2)
      · obtain ⟨b1, b2, b3, b4, b5, b6⟩ := a5 d h2
        obtain ⟨c1, c2, c3, c4, c5, c6⟩ := e6 d h1 h2
        simp [Alters, a2, a4, e2, e4, h1, h2, b1, b2, b3, b4, b5, b6, c1, c2, c3, c4, c5, c6] at h
  · by_cases e : y = x
    · subst e; rw [hv] at h; cases h; exact .inr rfl
    · refine .inl ⟨y, ?_⟩
      have : y ≠ s.nextVar := fun e => by rw [e, hfv] at h; cases h
      rw [(a7 y this).1, (e9 y e).1]; exact h
  · rw [(a7 x hnx).1, e8]; simp
  · by_cases h2 : d = w
    · subst h2
      rcases a6 m h with h | ⟨rest, h⟩
      · exact .inl (e7 m d (.inr rfl) h)
      · exact .inr ⟨.inl (e10 m rest h), .inr rfl⟩
    · rw [(a5 d h2).1] at h
      by_cases h1 : d = c
      · exact .inl (e7 m d (.inl h1) h)
      · rw [(e6 d h1 h2).1] at h; exact .inl h
  · by_cases e : y = s.nextVar
    · subst e
      rw [(e9 _ (Ne.symm hnx)).1, hfv] at a8
      rcases a8 with ⟨b1, -⟩ | ⟨b1, b2⟩
      · rw [b1] at h; cases h
      · rw [b1] at h; cases h
        refine .inr ⟨.inl rfl, fun e he => ?_⟩
        rcases b2 with b2 | b2 <;> rw [b2] at he <;> simp at he
        exact .inr he.symm
    · rw [(a7 y e).1] at h; rw [(a7 y e).2]
      by_cases e' : y = x
      · subst e'; rw [e8] at h; cases h
      · exact .inl ⟨(e9 y e').1 ▸ h, (e9 y e').2⟩

theorem cap_facts {n : CtxId} {xs : List Var} {s : State} (hfr : ∀ y, s.nextVar ≤ y → s.kind y = .dead ∧ s.val y = none) (ha : ∀ x ∈ xs, s.accessible x = true) :
    (∀ d, d ≠ n → (s.capture n xs).caps d = s.caps d) ∧ s.nextVar ≤ (s.capture n xs).nextVar ∧
    ∀ y g, (s.capture n xs).val y = some g → (s.val y = some g ∧ (s.capture n xs).kind y = s.kind y) ∨
      ((s.capture n xs).kind y = .cap n ∧ s.nextVar ≤ y ∧ y < (s.capture n xs).nextVar ∧ ∃ z, z < s.nextVar ∧ s.val z = some g ∧ PKind (s.kind z)) := by
  induction xs generalizing s with
  | nil => exact ⟨fun _ _ => rfl, Nat.le_refl _, fun y g h => .inl ⟨h, rfl⟩⟩
  | cons x xs ih =>
    have hx := ha x (by simp)
    have hlt : x < s.nextVar := Nat.lt_of_not_le fun h => by simp [State.accessible, (hfr x h).1] at hx
    simp only [State.capture]
    obtain ⟨s1, hs1⟩ : ∃ s1 : State, s1 = { (s.setVal x none).newVar (.cap n) (s.val x) with
        caps := upd ((s.setVal x none).newVar (.cap n) (s.val x)).caps n (s.nextVar :: ((s.setVal x none).newVar (.cap n) (s.val x)).caps n) } := ⟨_, rfl⟩
    rw [← hs1]
    have hk1 : s1.kind = upd s.kind s.nextVar (.cap n) := by rw [hs1]; rfl
    have hv1 : s1.val = upd (upd s.val x none) s.nextVar (s.val x) := by rw [hs1]; rfl
    have hn1 : s1.nextVar = s.nextVar + 1 := by rw [hs1]; rfl
    have hc1 : s1.caps = upd s.caps n (s.nextVar :: s.caps n) := by rw [hs1]; rfl
    obtain ⟨i1, i2, i3⟩ := ih (s := s1) (fun y hy => by
      have hy' : s.nextVar + 1 ≤ y := hn1 ▸ hy
      have h1 : y ≠ s.nextVar := Nat.ne_of_gt hy'
      have h2 : y ≠ x := fun e => absurd (Nat.lt_trans hlt hy') (by rw [e]; exact Nat.lt_irrefl _)
      simp only [hk1, hv1, upd_apply, if_neg h1, if_neg h2]; exact hfr y (Nat.le_of_succ_le hy')) (fun z hz => by
      have hz' := ha z (by simp [hz])
      have : z ≠ s.nextVar := fun h => by subst h; simp [State.accessible, (hfr _ (Nat.le_refl _)).1] at hz'
      simpa [State.accessible, hk1, this] using hz')
    refine ⟨fun d hd => by rw [i1 d hd, hc1, upd_apply, if_neg hd], Nat.le_trans (by rw [hn1]; exact Nat.le_succ _) i2, fun y g h => ?_⟩
    rcases i3 y g h with ⟨h1, h2⟩ | ⟨h1, h2, h3, z, h4, h5, h6⟩
    · rw [hv1] at h1
      simp only [upd_apply] at h1
      split at h1
      · next e =>
        subst e
        refine .inr ⟨by rw [h2, hk1]; simp, Nat.le_refl _, Nat.lt_of_lt_of_le (by rw [hn1]; exact Nat.lt_succ_self _) i2, x, hlt, h1, handle_acc hx⟩
      · next e =>
        split at h1
        · cases h1
        · exact .inl ⟨h1, by rw [h2, hk1, upd_apply, if_neg e]⟩
    · refine .inr ⟨h1, Nat.le_trans (by rw [hn1]; exact Nat.le_succ _) h2, h3, ?_⟩
      rw [hv1] at h5
      simp only [upd_apply] at h5
      split at h5
      · exact ⟨x, hlt, h5, handle_acc hx⟩
      · next e =>
        split at h5
        · cases h5
        · refine ⟨z, ?_, h5, ?_⟩
          · exact Nat.lt_of_not_le fun hh => by rw [(hfr z hh).2] at h5; cases h5
          · rw [hk1] at h6; simp only [upd_apply, if_neg e] at h6; exact h6

/-- captured values are not lost -/
theorem cap_keeps {n : CtxId} {xs : List Var} {s : State} (hfr : ∀ y, s.nextVar ≤ y → s.val y = none) {x : Var} {d : CtxId} (h : s.val x = some d) : ∃ y, y < (s.capture n xs).nextVar ∧ (s.capture n xs).val y = some d := by
  induction xs generalizing s x with
  | nil => exact ⟨x, Nat.lt_of_not_le fun hl => (by rw [hfr x hl] at h; cases h), h⟩
  | cons z xs ih =>
    simp only [State.capture]
    have hx : x < s.nextVar := Nat.lt_of_not_le fun hl => by rw [hfr x hl] at h; cases h
    have hz : ∀ y, s.nextVar + 1 ≤ y → upd (upd s.val z none) s.nextVar (s.val z) y = none := fun y hy => by
      have h1 : y ≠ s.nextVar := Nat.ne_of_gt hy
      simp only [upd_apply, if_neg h1]
      split
      · rfl
      · exact hfr y (Nat.le_of_succ_le hy)
    by_cases e : x = z
    · subst e; exact ih hz (x := s.nextVar) (by simpa using h)
    · exact ih hz (x := x) (by simpa [e, Nat.ne_of_lt hx] using h)

theorem ustep_facts {s s' : State} {t : Tid} {op : Op} (hi : Inv s) (hs : step s t op = .ok s') : ∃ c, s.cur t = some c ∧ Facts (uview s) (uview s') t c (US s s' t) := by
  obtain ⟨c, hc, he⟩ := step_eff hs
  refine ⟨c, hc, ?_⟩
  have hst := (hi.ci.curRun _ _).1 hc
  have hab : s.status s.nextCtx = .absent := (hi.ci.absent _).2 (Nat.le_refl _)
  have hfr : s.kind s.nextVar = .dead := hi.oi.fresh _ (Nat.le_refl _)
  have hfv : s.val s.nextVar = none := hi.vi.deadNone _ hfr
  have hval : ∀ {x d}, s.val x = some d → d ≠ c := fun h e => by
    have := (hi.vi.valid _ _ h).1; rw [e, hst] at this; simp at this
  clear hs
  have hvk : ∀ {x f}, s.val x = some f → s.kind x ≠ .dead := fun h1 h2 => by rw [hi.vi.deadNone _ h2] at h1; cases h1
  cases he with
  | newHeap hf | call hf | ret hf | throw hf | cleanup hf | newLocal hf | createThrows hf | catchUser hf | propCall hf | propOntop hf | leaveCall hf | dropLoc hf | dropHeap hf | tickLocal hf | swallowNone hf =>
    refine one hc rfl (fun d h => ?_) (fun x d h => ⟨x, ?_⟩) (fun m h => ?_) (fun x f h => ?_) rfl
    · simp [Alters] at h <;> grind
    · simp at h ⊢; grind
    · simp [hf] at h ⊢; grind
    · simp at h ⊢; grind
  | @moveHeap k ls rest x hf ha | @moveLocal k ls rest x hf ha | @retHandle k ls rest x hf ha =>
    have hn : Near (s.kind x) c := .inl (handle_acc ha)
    have hnx : x ≠ s.nextVar := fun e => by rw [e, State.accessible, hfr] at ha; cases ha
    refine one hc rfl (fun d h => ?_) (fun y d h => ?_) (fun m h => ?_) (fun x f h => ?_) rfl
    · simp [Alters] at h <;> grind
    · by_cases e : y = x
      · subst e; exact ⟨s.nextVar, by simpa using h⟩
      · exact ⟨y, by have : y ≠ s.nextVar := fun e => by rw [e, hfv] at h; cases h
                     simpa [e, this] using h⟩
    · simp [hf] at h ⊢; grind
    · simp at h ⊢; grind
  | moveSelf hf => exact one hc rfl (fun d h => by simp [Alters] at h) (fun x d h => ⟨x, h⟩) (fun _ h => h) (fun x f h => .inl ⟨h, rfl⟩) rfl
  | @moveAssign k ls rest x y hf ha hb hyx hv =>
    have h1 := handle_acc ha; have h2 := handle_acc hb
    have := pkind_not h1; have := pkind_not h2
    have : Near _ c := .inl h1
    refine one hc rfl (fun d h => ?_) (fun z d h => ?_) (fun m h => ?_) (fun x f h => ?_) rfl
    · simp [Alters] at h
    · by_cases e : z = x
      · subst e; exact ⟨y, by simpa [hyx] using h⟩
      · exact ⟨z, by have : z ≠ y := fun e => by rw [e, hv] at h; cases h
                     simpa [e, this] using h⟩
    · simp [hf] at h ⊢; grind
    · simp at h ⊢; grind
  | @swap k ls rest x y hf ha hb =>
    have h1 := handle_acc ha; have h2 := handle_acc hb
    have := pkind_not h1; have := pkind_not h2
    have : Near _ c := .inl h1; have : Near _ c := .inl h2
    refine one hc rfl (fun d h => ?_) (fun z d h => ?_) (fun m h => ?_) (fun x f h => ?_) rfl
    · simp [Alters] at h
    · by_cases e : z = x
      · subst e; exact ⟨y, by simpa using h⟩
      · by_cases e2 : z = y
        · subst e2; exact ⟨x, by have : x ≠ z := Ne.symm e
                                 simpa [this] using h⟩
        · exact ⟨z, by simpa [e, e2] using h⟩
    · simp [hf] at h ⊢; grind
    · simp at h ⊢; grind
  | @swallow rest x v hf hv =>
    have hk : s.kind x = .exc c := (hi.oi.excs c x).1 (by simp [hf, evars, Frame.evars])
    refine two (d0 := v) hc (fun t' d h => .inr h) (.inr (.inr ⟨⟨x, hv⟩, fun y h => ?_⟩)) (fun d h => ?_) (fun y d h => ?_) (.inr (.inr ⟨x, hv, by simp [State.kill], .inr (.inl hk)⟩)) (fun m d h => ?_) (fun y f h => ?_) rfl
    · simp only [State.kill, State.setFrames, upd_apply] at h; split at h
      · cases h
      · next e => exact e (hi.vi.inj y x v h hv)
    · simp only [Alters, State.kill, State.setFrames, upd_apply] at h; grind
    · by_cases e : y = x
      · subst e; rw [hv] at h; cases h; exact .inr rfl
      · exact .inl ⟨y, by simpa [State.kill, State.setFrames, e] using h⟩
    · simp only [State.kill, State.setFrames, upd_apply] at h; grind
    · simp only [State.kill, State.setFrames, upd_apply] at h ⊢; grind
  | @exitCap n rest x xs hf hcap hv =>
    refine two (d0 := n) hc (fun t' d h => .inr h) (.inr (.inl (by simp [Alters, hcap]))) (fun d h => ?_) (fun y d h => .inl ⟨y, ?_⟩) (.inr (.inl (by simp [hf]))) (fun m d h => .inl h) (fun x f h => ?_) rfl
    · simp [Alters] at h; exact .inr (.inl h.1)
    · simp; grind
    · simp at h ⊢; grind
  | spawn hf =>
    have hft := hi.ci.tids _ (Nat.le_refl s.nextTid)
    have hal : Alters s { s with
        cur := upd s.cur s.nextTid (some s.nextCtx), status := upd s.status s.nextCtx (.running s.nextTid),
        frames := upd s.frames s.nextCtx [.user .main [] .normal], root := upd s.root s.nextCtx true,
        frm := upd s.frm s.nextCtx none, ontop := upd s.ontop s.nextCtx none, term := upd s.term s.nextCtx false,
        unw := upd s.unw s.nextCtx false, nextCtx := s.nextCtx + 1, nextTid := s.nextTid + 1 } s.nextCtx := by simp [Alters, hab]
    refine ⟨fun d h => ?_, fun x f h => .inl ⟨h, rfl⟩, fun m d h => ?_, fun t' d h => ?_, Nat.le_succ _⟩
    · rcases h with h | h | ⟨⟨x, h⟩, h'⟩
      · rw [hc] at h; cases h; exact .inl rfl
      · have : d = s.nextCtx := by simp only [Alters, upd_apply] at h; grind
        subst this
        exact .inr (.inl ⟨Nat.le_refl _, Nat.lt_succ_self _⟩)
      · exact absurd h (h' x)
    · simp only [uview, upd_apply] at h ⊢; grind
    · simp only [uview, upd_apply] at h; split at h
      · next e => cases h; exact .inl ⟨.inr (.inl hal), .inr (e ▸ hft)⟩
      · exact .inr h
  | leaveMain hf =>
    refine two (d0 := c) hc (fun t' d h => ?_) (.inl hc) (fun d h => ?_) (fun x d h => .inl ⟨x, h⟩) (.inl rfl) (fun m d h => ?_) (fun y g h => .inl ⟨h, rfl⟩) rfl
    · simp only [upd_apply] at h; split at h
      · cases h
      · exact .inr h
    · simp only [Alters, upd_apply] at h; grind
    · simp only [upd_apply] at h; grind
  | @leaveOntop i x k ls m rest hf =>
    have hk : s.kind x = .ret c := (hi.oi.rets c x).1 (by simp [hf, rvars, Frame.rvars])
    have hnx : x ≠ s.nextVar := fun e => by rw [e, hfr] at hk; cases hk
    refine one hc rfl (fun d h => ?_) (fun y d h => ?_) (fun m h => ?_) (fun y f h => ?_) rfl
    · simp only [Alters, upd_apply] at h; grind
    · by_cases e : y = x
      · subst e; exact ⟨s.nextVar, by simpa using h⟩
      · exact ⟨y, by have : y ≠ s.nextVar := fun e => by rw [e, hfv] at h; cases h
                     simpa [e, this] using h⟩
    · simp [hf] at h ⊢; grind
    · simp only [upd_apply] at h ⊢
      by_cases e : y = s.nextVar
      · subst e; simp at h ⊢
        exact .inr ⟨x, hnx, h, .inr (.inr hk)⟩
      · grind
  | @exitDtor n v rest hf hcap hs | @exitDone n rest hf hcap hs hn =>
    refine two (d0 := n) hc (fun t' d h => .inr h) (.inr (.inl (.inr (.inl (by simp [hs]))))) (fun d h => ?_) (fun y d h => .inl ⟨y, h⟩) (.inr (.inl (by simp [hf]))) (fun m d h => ?_) (fun x f h => .inl ⟨h, rfl⟩) rfl
    · simp only [Alters, upd_apply] at h; grind
    · simp only [upd_apply] at h
      split at h
      · next e => subst e; simp [hf]; grind
      · split at h
        · simp at h
        · exact .inl h
  | @resume k ls rest x w s' hf ha hv hs hd | @resumeWith k ls rest x w s' hf ha hv hs hd =>
    have hh := handle_acc ha
    have hwc := hval hv
    refine switched hi hc hv (.inl hh) hs hd rfl rfl rfl rfl rfl (fun d h1 h2 => by simp [State.setFrames, State.setVal, h1, h2]) (fun m d h1 h2 => ?_) (by simp) (fun y hy => by simp [State.setFrames, State.setVal, hy]) (fun m rest h => ?_)
    · rcases h1 with rfl | rfl
      · simpa [State.setFrames, State.setVal] using h2
      · simpa [State.setFrames, State.setVal, hwc] using h2
    · exact absurd (show s.frames w = _ by simpa [State.setFrames, State.setVal, hwc] using h) fun h => hi.vi.nonExc x w (fun d => (pkind_not hh d).1) hv m (by rw [h]; rfl)
  | @propFn x rest s' hf hd | @leaveFn x rest s' hf hd =>
    have hk : s.kind x = .exc c ∨ s.kind x = .ret c := by
      have h1 := hi.oi.excs c x
      have h2 := hi.oi.rets c x
      rw [hf] at h1 h2
      simp [evars, rvars, Frame.evars, Frame.rvars] at h1 h2
      first | exact .inl h1 | exact .inr h2
    obtain ⟨hv, hs, ha⟩ := hd
    rename_i w
    have hwc := hval hv
    refine switched hi hc hv (.inr hk) hs ha rfl rfl rfl rfl rfl (fun d h1 h2 => by simp [State.kill, h1]) (fun m d h1 h2 => ?_) (by simp [State.kill]) (fun y hy => by simp [State.kill, hy]) (fun m rest h => ?_)
    · rcases h1 with rfl | rfl
      · simp [State.kill] at h2
      · simpa [State.kill, hwc] using h2
    · replace h : s.frames w = .dtor m :: rest := by simpa [State.kill, hwc] using h
      rcases hk with hk | hk
      · exact hi.vi.excTop x c w m hk hv (by rw [h]; rfl)
      · exact absurd (by rw [h]; rfl) (hi.vi.nonExc x w (fun d => by rw [hk]; simp) hv m)
  | @create k ls rest xs hf ha s2 h2 =>
    have hsame := capture_same ({ s with nextCtx := s.nextCtx + 1 }.addLog (.alloc s.nextCtx)) s.nextCtx xs
    have hcap := cap_facts (n := s.nextCtx) (xs := xs) (s := { s with nextCtx := s.nextCtx + 1 }.addLog (.alloc s.nextCtx))
      (fun y hy => ⟨hi.oi.fresh y hy, hi.vi.deadNone _ (hi.oi.fresh y hy)⟩) ha
    have hkeep : ∀ x d, s.val x = some d → ∃ y, y < s2.nextVar ∧ s2.val y = some d := fun x d h => h2 ▸ cap_keeps (s := { s with nextCtx := s.nextCtx + 1 }.addLog (.alloc s.nextCtx))
      (fun y hy => hi.vi.deadNone _ (hi.oi.fresh y hy)) h
    rw [← h2] at hsame hcap
    obtain ⟨e1, e2, e3, e4, -, -, -, -, g1, g2, g3, g4, g5, -⟩ := hsame
    obtain ⟨c1, c2, c3⟩ := hcap
    replace e1 : s2.cur = s.cur := e1
    replace e2 : s2.status = s.status := e2
    replace e3 : s2.frames = s.frames := e3
    replace e4 : s2.nextCtx = s.nextCtx + 1 := e4
    replace g1 : s2.root = s.root := g1
    replace g2 : s2.frm = s.frm := g2
    replace g3 : s2.ontop = s.ontop := g3
    replace g4 : s2.term = s.term := g4
    replace g5 : s2.unw = s.unw := g5
    replace c1 : ∀ d, d ≠ s.nextCtx → s2.caps d = s.caps d := c1
    replace c2 : s.nextVar ≤ s2.nextVar := c2
    replace c3 : ∀ y g, s2.val y = some g → (s.val y = some g ∧ s2.kind y = s.kind y) ∨
      (s2.kind y = .cap s.nextCtx ∧ s.nextVar ≤ y ∧ y < s2.nextVar ∧ ∃ z, z < s.nextVar ∧ s.val z = some g ∧ PKind (s.kind z)) := c3
    obtain ⟨s', hs'⟩ : ∃ s' : State, s' = { s2 with
                  status := upd s2.status s.nextCtx .suspended,
                  frames := upd (upd s2.frames s.nextCtx [.entryJump]) c (.user k (s2.nextVar :: ls) .normal :: rest),
                  root := upd s2.root s.nextCtx false, frm := upd s2.frm s.nextCtx none,
                  ontop := upd s2.ontop s.nextCtx none,
                  term := upd s2.term s.nextCtx false, unw := upd s2.unw s.nextCtx false,
                  kind := upd s2.kind s2.nextVar (.loc c), val := upd s2.val s2.nextVar (some s.nextCtx),
                  nextVar := s2.nextVar + 1 } := ⟨_, rfl⟩
    rw [← hs']
    have f1 : s'.cur = s.cur := by rw [hs']; exact e1
    have f2 : s'.status = upd s.status s.nextCtx .suspended := by rw [hs', ← e2]
    have f4 : s'.frames = upd (upd s.frames s.nextCtx [.entryJump]) c (.user k (s2.nextVar :: ls) .normal :: rest) := by rw [hs', ← e3]
    have f5 : s'.caps = s2.caps := by rw [hs']
    have f6 : s'.kind = upd s2.kind s2.nextVar (.loc c) := by rw [hs']
    have f7 : s'.val = upd s2.val s2.nextVar (some s.nextCtx) := by rw [hs']
    have f8 : s'.nextCtx = s.nextCtx + 1 := by rw [hs']; exact e4
    have f9 : s'.root = upd s.root s.nextCtx false := by rw [hs', ← g1]
    have f10 : s'.frm = upd s.frm s.nextCtx none := by rw [hs', ← g2]
    have f11 : s'.ontop = upd s.ontop s.nextCtx none := by rw [hs', ← g3]
    have f12 : s'.term = upd s.term s.nextCtx false := by rw [hs', ← g4]
    have f13 : s'.unw = upd s.unw s.nextCtx false := by rw [hs', ← g5]
    have hal : US s s' t s.nextCtx := .inr (.inl (.inr (.inl (by rw [f2, hab]; simp))))
    refine ⟨fun d h => ?_, fun x f h => ?_, fun m d h => ?_, fun t' d h => .inr (show s.cur t' = some d by rw [← f1]; exact h), by simp only [uview]; rw [f8]; exact Nat.le_succ _⟩
    · rcases h with h | h | ⟨⟨x, h⟩, h'⟩
      · rw [hc] at h; cases h; exact .inl rfl
      · by_cases h1 : d = c
        · exact .inl h1
        · by_cases h2 : d = s.nextCtx
          · exact .inr (.inl ⟨Nat.le_of_eq h2.symm, by simp only [uview]; rw [f8, h2]; exact Nat.lt_succ_self _⟩)
          · simp [Alters, f2, f4, f5, f9, f10, f11, f12, f13, h1, h2, c1 d h2] at h
      · obtain ⟨y, hy, h2⟩ := hkeep x d h
        exact absurd (by rw [f7]; simpa [Nat.ne_of_lt hy] using h2) (h' y)
    · obtain ⟨h1, h2⟩ := uview_val.1 h
      rw [f7] at h1; simp only [uview]; rw [f6]
      simp only [upd_apply] at h1 ⊢
      split at h1
      · next e => exact .inr ⟨.inl (Option.some.inj h1 ▸ hal), by simp [e]⟩
      · next e =>
        rw [if_neg e]
        rcases c3 x f.ctx h1 with h3 | ⟨h3, h4, h5, z, h6, h7, h8⟩
        · exact .inl ⟨uview_val.2 ⟨h3.1, h2⟩, h3.2⟩
        · refine .inr ⟨.inr ⟨z, fun e => ?_, uview_val.2 ⟨h7, h2⟩, .inl h8⟩, by simp [h3]⟩
          subst e; exact absurd h6 (Nat.not_lt_of_le h4)
    · simp only [uview] at h ⊢
      rw [f4] at h; simp only [upd_apply] at h; split at h
      · next e => subst e; exact .inl (by simpa [hf] using h)
      · split at h
        · simp at h
        · exact .inl h
  | @destroy op s1 v s' h1 h2 =>
    have key : ∃ x g, s.val x = some v ∧ PKind (s.kind x) ∧ s1.cur = s.cur ∧ s1.status = s.status ∧ s1.nextCtx = s.nextCtx ∧ s1.nextVar = s.nextVar ∧
        (s1.root = s.root ∧ s1.frm = s.frm ∧ s1.ontop = s.ontop ∧ s1.term = s.term ∧ s1.unw = s.unw) ∧ s1.frames = upd s.frames c g ∧
        (∀ m, 0 < exits m g → 0 < exits m (s.frames c)) ∧ (∀ d, s1.caps d ≠ s.caps d → 0 < exits d (s.frames c)) ∧ (∀ y, s1.val y ≠ some v) ∧
        (∀ y d, s.val y = some d → d ≠ v → ∃ z, z < s.nextVar ∧ s1.val z = some d) ∧
        ∀ y g, s1.val y = some g → (s.val y = some g ∧ s1.kind y = s.kind y) ∨ ((∃ z, z ≠ y ∧ s.val z = some g ∧ PKind (s.kind z)) ∧ s1.kind y = s.kind y ∧ PKind (s.kind y)) := by
      have lt : ∀ {y d}, s.val y = some d → y < s.nextVar := fun {y d} h => Nat.lt_of_not_le fun hl => by rw [hi.vi.deadNone _ (hi.oi.fresh y hl)] at h; cases h
      have gone : ∀ {x}, s.val x = some v → ∀ y, upd s.val x none y ≠ some v := fun {x} hv y h => by
        simp only [upd_apply] at h; split at h
        · cases h
        · next e => exact e (hi.vi.inj y x v h hv)
      have same : s.frames = upd s.frames c (s.frames c) := by
        funext d; simp only [upd_apply]; split
        · next e => rw [e]
        · rfl
      cases h1 with
      | @moveAssign k ls rest x y hf ha hb hn hv =>
        have k1 := handle_acc ha
        have k2 := handle_acc hb
        refine ⟨y, s.frames c, hv, k2, rfl, rfl, rfl, rfl, ⟨rfl, rfl, rfl, rfl, rfl⟩, same, fun _ h => h, fun _ h => absurd rfl h, ?_, fun z d h hd => ?_, fun z g hz => ?_⟩
        · intro z h
          simp only [upd_apply] at h
          split at h
          · cases h
          · split at h
            · exact hn (hi.vi.inj y x v hv h)
            · next e => exact e (hi.vi.inj z y v h hv)
        · by_cases e : z = x
          · subst e; exact ⟨y, lt hv, by simpa [hn] using h⟩
          · refine ⟨z, lt h, ?_⟩
            have : z ≠ y := fun e => by rw [e, hv] at h; cases h; exact hd rfl
            simpa [e, this] using h
        · simp only [upd_apply] at hz ⊢
          split at hz
          · cases hz
          · split at hz
            · next e1 e2 => subst e2; exact .inr ⟨⟨x, Ne.symm hn, hz, k1⟩, trivial, k2⟩
            · exact .inl ⟨hz, trivial⟩
      | @dropLoc k ls rest x hf hx hv =>
        have hk : s.kind x = .loc c := (hi.oi.locs c x).1 (by simp [hf, lvars, Frame.lvars, hx])
        refine ⟨x, _, hv, .inr (.inl ⟨c, hk⟩), rfl, rfl, rfl, rfl, ⟨rfl, rfl, rfl, rfl, rfl⟩, rfl, fun m => by simp [hf], fun _ h => absurd rfl h, gone hv, fun z d h hd => ⟨z, lt h, ?_⟩, fun z g hz => ?_⟩
        · simp only [upd_apply]; grind
        · simp only [upd_apply] at hz ⊢; grind
      | @dropHeap k ls rest x hf hx hv =>
        refine ⟨x, s.frames c, hv, .inl hx, rfl, rfl, rfl, rfl, ⟨rfl, rfl, rfl, rfl, rfl⟩, same, fun _ h => h, fun _ h => absurd rfl h, gone hv, fun z d h hd => ⟨z, lt h, ?_⟩, fun z g hz => ?_⟩
        · simp only [upd_apply]; grind
        · simp only [upd_apply] at hz ⊢; grind
      | @tick k ls m rest x hf hm hv =>
        have hk : s.kind x = .loc c := (hi.oi.locs c x).1 (by simp [hf, lvars, Frame.lvars])
        refine ⟨x, _, hv, .inr (.inl ⟨c, hk⟩), rfl, rfl, rfl, rfl, ⟨rfl, rfl, rfl, rfl, rfl⟩, rfl, fun m => by simp [hf], fun _ h => absurd rfl h, gone hv, fun z d h hd => ⟨z, lt h, ?_⟩, fun z g hz => ?_⟩
        · simp only [upd_apply]; grind
        · simp only [upd_apply] at hz ⊢; grind
      | @exit n rest x xs hf hcap hv =>
        have hk : s.kind x = .cap n := (hi.oi.capv n x).1 (by simp [hcap])
        refine ⟨x, s.frames c, hv, .inr (.inr ⟨n, hk⟩), rfl, rfl, rfl, rfl, ⟨rfl, rfl, rfl, rfl, rfl⟩, same, fun _ h => h, fun d h => ?_, gone hv, fun z d h hd => ⟨z, lt h, ?_⟩, fun z g hz => ?_⟩
        · simp at h; rw [hf]; simp [h.1]
        · simp only [upd_apply]; grind
        · simp only [upd_apply] at hz ⊢; grind
    obtain ⟨x, g, hv, hh, e1, e2, e3, e4, ⟨e5, e6, e7, e8, e9⟩, e10, e11, e12, e13, e14, e15⟩ := key
    have hvc := hval hv
    have hnx : x ≠ s.nextVar := fun e => by rw [e, hfv] at hv; cases hv
    have hn1 : s1.val s.nextVar = none := by
      cases h : s1.val s.nextVar with
      | none => rfl
      | some d =>
        rcases e15 _ _ h with ⟨b, -⟩ | ⟨-, -, b⟩
        · rw [hfv] at b; cases b
        · rw [hfr] at b; simp [PKind] at b
    have hcon := e13
    have ex1 : ∀ m d, 0 < exits m (s1.frames d) → 0 < exits m (s.frames d) := fun m d h => by
      rw [e10] at h; simp only [upd_apply] at h; split at h
      · next e => subst e; exact e11 m h
      · exact h
    have val1 : ∀ y d, s1.val y = some d → (s.val y = some d ∧ s1.kind y = s.kind y) ∨
        ((d = c ∨ d = v ∨ ∃ z, z ≠ y ∧ s.val z = some d ∧ Near (s.kind z) c) ∧ ∀ e, s1.kind y = .exc e ∨ s1.kind y = .ret e → e = c ∨ e = v) := fun y d h => by
      rcases e15 y d h with b | ⟨⟨z, b1, b2, b3⟩, b4, b5⟩
      · exact .inl b
      · refine .inr ⟨.inr (.inr ⟨z, b1, b2, .inl b3⟩), fun e he => ?_⟩
        rw [b4] at he; exact absurd he (by have := pkind_not b5 e; simp [this])
    have al1 : ∀ {s2 : State} {d}, d ≠ c → s2.frames d = s1.frames d → s2.status d = s1.status d → s2.caps = s1.caps → s2.root d = s1.root d → s2.frm d = s1.frm d → s2.ontop d = s1.ontop d → s2.term d = s1.term d →
        s2.unw d = s1.unw d → Alters s s2 d → d = c ∨ d = v ∨ 0 < exits d (s.frames c) := fun {s2 d} hdc b1 b2 b3 b4 b5 b6 b7 b8 h => by
      simp only [Alters, b1, b2, b3, b4, b5, b6, b7, b8, e2, e5, e6, e7, e8, e9, e10, upd_apply, if_neg hdc] at h
      simp at h
      exact .inr (.inr (e12 d h))
    have kp : ∀ y d, s.val y = some d → (∃ z, s1.val z = some d) ∨ d = v := fun y d h => by
      by_cases hd : d = v
      · exact .inr hd
      · obtain ⟨z, -, hz⟩ := e14 y d h hd; exact .inl ⟨z, hz⟩
    cases h2 with
    | root hr =>
      refine two (d0 := v) hc (fun t' d h => .inr (e1 ▸ h)) (.inr (.inr ⟨⟨x, hv⟩, hcon⟩)) (fun d h => ?_) kp (.inr (.inr ⟨x, hv, e13 x, .inl hh⟩)) (fun m d h => .inl (ex1 m d h)) val1 e3
      by_cases hdc : d = c
      · exact .inl hdc
      · exact al1 hdc rfl rfl rfl rfl rfl rfl rfl rfl h
    | term hr ht hs =>
      refine two (d0 := v) hc (fun t' d h => .inr (e1 ▸ h)) (.inr (.inr ⟨⟨x, hv⟩, hcon⟩)) (fun d h => ?_) kp (.inr (.inr ⟨x, hv, e13 x, .inl hh⟩)) (fun m d h => ?_) val1 e3
      · by_cases hdc : d = c
        · exact .inl hdc
        · exact al1 (s2 := s1.setFrames c (.exiting v :: s1.frames c)) hdc (by simp [State.setFrames, hdc]) rfl rfl rfl rfl rfl rfl rfl h
      · simp only [State.setFrames, upd_apply] at h; split at h
        · next e =>
          by_cases hm : m = v
          · exact .inr ⟨.inr hm, .inl e⟩
          · refine .inl (ex1 m d ?_)
            rw [e]; rw [exits_cons] at h
            simpa [Ne.symm hm, hm] using h
        · exact .inl (ex1 m d h)
    | unwind hr ht hs ha =>
      obtain ⟨a1, a2, a3, a4, a5, a6, a7, a8⟩ := arr_facts ha
      replace a7 : ∀ y, y ≠ s.nextVar → s'.val y = s1.val y ∧ s'.kind y = s1.kind y := e4 ▸ a7
      replace a8 : (s'.val s.nextVar = s1.val s.nextVar ∧ s'.kind s.nextVar = s1.kind s.nextVar) ∨ (s'.val s.nextVar = some c ∧ (s'.kind s.nextVar = .loc v ∨ s'.kind s.nextVar = .exc v)) := e4 ▸ a8
      have nv : ∀ {z d}, s1.val z = some d → z ≠ s.nextVar := fun h e => by rw [e, hn1] at h; cases h
      refine two (d0 := v) hc (fun t' d h => ?_) (.inr (.inl (.inr (.inl ?_)))) (fun d h => ?_) (fun y d h => ?_) (.inr (.inr ⟨x, hv, ?_, .inl hh⟩)) (fun m d h => ?_) (fun y d h => ?_) (a3.trans e3)
      · rw [a1, upd_apply] at h; split at h
        · cases h; exact .inl ⟨by assumption, .inr rfl⟩
        · exact .inr (by rw [← e1]; exact h)
      · rw [a2, ← e2, hs]; simp
      · by_cases hdc : d = c
        · exact .inl hdc
        · by_cases hdv : d = v
          · exact .inr (.inl hdv)
          · obtain ⟨b1, b2, b3, b4, b5, b6⟩ := a5 d hdv
            exact al1 hdc (b1.trans (by simp [hdc])) (by rw [a2]; simp [hdc, hdv]) a4 b2 b3 b4 b5 (b6.trans (by simp [hdv])) h
      · refine (kp y d h).imp (fun ⟨z, hz⟩ => ⟨z, ?_⟩) id
        rw [(a7 z (nv hz)).1]; exact hz
      · rw [(a7 x hnx).1]; exact e13 x
      · by_cases hdv : d = v
        · subst hdv
          rcases a6 m h with h | ⟨rest, h⟩
          · exact .inl (ex1 m d (by simpa [hvc] using h))
          · exfalso
            have h3 : s.frames d = .dtor m :: rest := by simpa [e10, hvc] using h
            exact hi.vi.nonExc x d (fun d => (pkind_not hh d).1) hv m (by rw [h3]; rfl)
        · rw [(a5 d hdv).1] at h
          refine .inl (ex1 m d ?_)
          simp only [upd_apply] at h; split at h
          · next e => rw [e]; simpa using h
          · exact h
      · by_cases e : y = s.nextVar
        · subst e
          rcases a8 with ⟨b1, -⟩ | ⟨b1, b2⟩
          · rw [b1, hn1] at h; cases h
          · rw [b1] at h; cases h
            refine .inr ⟨.inl rfl, fun e he => ?_⟩
            rcases b2 with b2 | b2 <;> rw [b2] at he <;> simp at he
            exact .inr he.symm
        · rw [(a7 y e).1] at h; rw [(a7 y e).2]; exact val1 y d h

end Verif.Sync.U
