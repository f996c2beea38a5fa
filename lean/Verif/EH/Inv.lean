import Verif.EH.Flight

/-! # Invariants of the exception state (proofs) -/

namespace Verif.EH
open Verif.Fiber

theorem dlv_tid {s s' : State} {c : CtxId} {v : Option Fctx} (hd : Dlv s c v s') : s'.nextTid = s.nextTid := by cases hd <;> rfl
theorem rsd_tid {s s' : State} {t : Tid} {c : CtxId} {f : Fctx} (hd : Rsd s t c f s') : s'.nextTid = s.nextTid := by cases hd <;> rfl

theorem step_nextTid {s s' : State} {t : Tid} {op : Op} (hi : Fiber.Inv s) (hs : step s t op = .ok s') : s.nextTid ≤ s'.nextTid := by
  obtain ⟨c, hc, he⟩ := step_eff hi hs
  clear hs
  cases he
  case create k ls rest xs hf ha s2 h2 =>
    have hsame := capture_same ({ s with nextCtx := s.nextCtx + 1 }.addLog (.alloc s.nextCtx)) s.nextCtx xs
    rw [← h2] at hsame
    exact Nat.le_of_eq (by simpa using hsame.2.2.2.2.2.1.symm)
  all_goals first
    | exact Nat.le_refl _
    | exact Nat.le_succ _
    | (next h1 h2 => cases h1 <;> (obtain ⟨h2⟩ := h2; exact Nat.le_of_eq (rsd_tid h2).symm))
    | (next h1 => exact Nat.le_of_eq (dlv_tid h1).symm)
    | (next h1 => exact Nat.le_of_eq (rsd_tid h1).symm)

theorem hist_reach {R} {a : EState} (h : Hist R a) : Reachable a.st := by
  induction h with
  | init => exact .init
  | step _ hs _ ih =>
    cases hs with
    | lib _ hs => exact .step ih hs
    | endCatch => exact ih

theorem hist_own {R} {a : EState} (h : Hist R a) : ∀ c, (a.own c).uncaught = inflight (a.st.frames c) := by
  induction h with
  | init => intro c; show (0 : Int) = inflight (init.frames c); unfold init; simp only [upd_apply]; split <;> simp [inflight]
  | @step a b t ha hs _ ih =>
    intro c
    cases hs with
    | @lib op s' ho hs =>
      have := step_fl (reachable_inv (hist_reach ha)) ho hs c
      unfold Fl at this
      simp only [EState.after]
      rw [own_uncaught, ih]; exact this.symm
    | endCatch hc hn =>
      simp only [EState.after]
      rw [own_uncaught, ih]; simp [net, netP]

/-! ## who waits for whom -/

theorem unw_top {s : State} (hi : Fiber.Inv s) {d w : CtxId} (h : UnwoundFor s d w) : s.status w = .suspended ∧ DtorTop d (s.frames w) := by
  obtain ⟨x, f, h1, h2, rfl⟩ := h
  exact ⟨(hi.vi.valid _ _ h2).1, hi.vi.excTop _ _ _ h1 h2⟩

theorem unw_inj {s : State} (hi : Fiber.Inv s) {d d' w : CtxId} (h : UnwoundFor s d w) (h' : UnwoundFor s d' w) : d = d' := by
  have h1 := (unw_top hi h).2
  have h2 := (unw_top hi h').2
  obtain ⟨r1, h1⟩ := dtorTop_iff.1 h1
  obtain ⟨r2, h2⟩ := dtorTop_iff.1 h2
  rw [h1] at h2; cases h2; rfl

theorem evars_of_inflight {fs : List Frame} (h : inflight fs = 0) : evars fs = [] := by
  induction fs with
  | nil => rfl
  | cons f fs ih =>
    cases f with
    | user k ls m =>
      cases m with
      | unwinding e => simp [inflight] at h
      | normal => simpa [evars, Frame.evars] using ih (by simpa [inflight] using h)
      | returning v => simpa [evars, Frame.evars] using ih (by simpa [inflight] using h)
    | _ => simpa [evars, Frame.evars] using ih (by simpa [inflight] using h)

theorem unw_inflight {s : State} (hi : Fiber.Inv s) {c : CtxId} (h : inflight (s.frames c) = 0) (w : CtxId) : ¬ UnwoundFor s c w := by
  rintro ⟨x, f, h1, _, _⟩
  have := (hi.oi.excs c x).2 h1
  rw [evars_of_inflight h] at this; cases this

theorem chain_mem {s : State} {c w : CtxId} {l : List CtxId} (h : Chain s c l) (hw : w ∈ l) : ∃ d, UnwoundFor s d w := by
  induction h with
  | nil => cases hw
  | @cons c w' l h hl ih =>
    rcases List.mem_cons.1 hw with rfl | hw
    · exact ⟨_, h⟩
    · exact ih hw

theorem chain_congr {s s' : State} {c : CtxId} {l : List CtxId} (h : Chain s c l) (he : ∀ d ∈ c :: l, ∀ w, UnwoundFor s' d w ↔ UnwoundFor s d w) : Chain s' c l := by
  induction h with
  | nil h => exact .nil fun w hw => h w ((he _ (by simp) w).1 hw)
  | cons h hl ih => exact .cons ((he _ (by simp) _).2 h) (ih fun d hd => he d (by simp at hd ⊢; exact .inr hd))

theorem stack_congr {o o' : CtxId → Glob} {l : List CtxId} (h : ∀ d ∈ l, o' d = o d) : stack o' l = stack o l := by
  induction l with
  | nil => rfl
  | cons c l ih => simp only [stack]; rw [h c (by simp), ih fun d hd => h d (by simp [hd])]

theorem chain_unique {s : State} (hu : ∀ c w w', UnwoundFor s c w → UnwoundFor s c w' → w = w') {c : CtxId} {l l' : List CtxId} (h : Chain s c l) (h' : Chain s c l') : l = l' := by
  induction h generalizing l' with
  | nil h => cases h' with
    | nil => rfl
    | cons h2 => exact absurd h2 (h _)
  | cons h hl ih => cases h' with
    | nil h2 => exact absurd h (h2 _)
    | cons h2 hl2 =>
      have := hu _ _ _ h h2; subst this
      rw [ih hl2]

theorem Glob.ext' {a b : Glob} (h1 : a.caught = b.caught) (h2 : a.uncaught = b.uncaught) : a = b := by cases a; cases b; simp_all
@[simp] theorem none_on (g : Glob) : Glob.none.on g = g := Glob.ext' rfl (by simp [Glob.on, Glob.none])
@[simp] theorem on_none (g : Glob) : g.on .none = g := Glob.ext' (by simp [Glob.on, Glob.none]) (by simp [Glob.on, Glob.none])

theorem app_on (p : Prim) (g r : Glob) (h : p = .endCatch → g.caught ≠ []) : p.app (g.on r) = (p.app g).on r := by
  cases p with
  | throw => exact Glob.ext' rfl (by simp [Prim.app, Glob.on]; omega)
  | beginCatch e => exact Glob.ext' rfl (by simp [Prim.app, Glob.on]; omega)
  | endCatch =>
    refine Glob.ext' ?_ rfl
    have := h rfl
    cases hc : g.caught with
    | nil => exact absurd hc this
    | cons e l => simp [Prim.app, Glob.on, hc]

/-! ## rule A -/

structure AInv (a : EState) : Prop where
  r : Reachable a.st
  run : ∀ t c, a.st.cur t = some c → (a.g t).caught = (a.own c).caught
  idle : ∀ c, (∀ t, a.st.cur t ≠ some c) → (a.own c).caught = []
  new : ∀ t, a.st.nextTid ≤ t → (a.g t).caught = []

theorem ainv {a : EState} (h : Hist NoJumpInCatch a) : AInv a := by
  induction h with
  | init => exact ⟨.init, fun _ _ _ => rfl, fun _ _ => rfl, fun _ _ => rfl⟩
  | @step a b t ha hs hR ih =>
    obtain ⟨hr, hrun, hidle, hnew⟩ := ih
    have hi := reachable_inv hr
    have uni : ∀ t t' c, a.st.cur t = some c → a.st.cur t' = some c → t = t' := by
      intro t t' c h1 h2
      have h1 := (hi.ci.curRun t c).1 h1
      have h2 := (hi.ci.curRun t' c).1 h2
      rw [h1] at h2; cases h2; rfl
    have sus : ∀ v, a.st.status v = .suspended → (a.own v).caught = [] := by
      intro v hv
      refine hidle v fun t' h' => ?_
      rw [(hi.ci.curRun t' v).1 h'] at hv; cases hv
    have sne : ∀ v t', a.st.status v = .suspended → a.st.cur t' ≠ some v := by
      intro v t' hv h'
      rw [(hi.ci.curRun t' v).1 h'] at hv; cases hv
    cases hs with
    | @endCatch c hc hn =>
      refine ⟨hr, fun t' c' h' => ?_, fun c' h' => ?_, fun t' h' => ?_⟩
      · replace h' : a.st.cur t' = some c' := h'
        simp only [EState.after, List.foldl_cons, List.foldl_nil, upd_apply]
        by_cases e : t' = t
        · subst e; rw [hc] at h'; cases h'; simp [Prim.app, hrun _ _ hc]
        · have : c' ≠ c := fun e2 => e (uni _ _ _ h' (e2 ▸ hc))
          simp [e, this, hrun _ _ h']
      · replace h' : ∀ t, a.st.cur t ≠ some c' := h'
        have : c' ≠ c := fun e => h' t (e ▸ hc)
        simp [EState.after, this, hidle _ h']
      · replace h' : a.st.nextTid ≤ t' := h'
        have : t' ≠ t := by rintro rfl; rw [hi.ci.tids _ h'] at hc; cases hc
        simp [EState.after, this, hnew _ h']
    | @lib op s' ho hs =>
      obtain ⟨c, hc, hsum⟩ := step_sum hi ho hs
      have hmono := step_nextTid hi hs
      have hlt : a.st.nextTid ≤ t → False := fun h => by rw [hi.ci.tids _ h] at hc; cases hc
      generalize hps : prims a.st t op = ps at *
      refine ⟨.step hr hs, ?_, ?_, fun t' h' => ?_⟩
      · cases hsum with
        | quiet h1 hx hp =>
          intro t' c' h'
          replace h' : s'.cur t' = some c' := h'
          rw [h1] at h'
          by_cases e : t' = t
          · subst e; rw [hc] at h'; cases h'
            rcases hp with rfl | rfl | ⟨ex, rfl⟩ <;> simp [EState.after, Prim.app, hrun _ _ hc]
          · have : c' ≠ c := fun e2 => e (uni _ _ _ h' (e2 ▸ hc))
            rcases hp with rfl | rfl | ⟨ex, rfl⟩ <;> simp [EState.after, Prim.app, hrun _ _ h', e, this]
        | @early v e h1 hx h2 =>
          intro t' c' h'
          replace h' : s'.cur t' = some c' := h'
          rw [h1] at h'
          have hcv : c' ≠ v := fun e => sne _ _ h2 (e ▸ h')
          by_cases e : t' = t
          · subst e; rw [hc] at h'; cases h'; simp [EState.after, Prim.app, hcv, hrun _ _ hc]
          · simp [EState.after, Prim.app, hrun _ _ h', e, hcv]
        | spawn h1 hx =>
          intro t' c' h'
          replace h' : s'.cur t' = some c' := h'
          rw [h1, upd_apply] at h'
          simp only [EState.after, List.foldl_nil, upd_apply, ite_self]
          split at h'
          · next e =>
            subst e; cases h'
            have e1 : a.st.nextTid ≠ t := fun e => hlt (Nat.le_of_eq e)
            rw [if_neg e1, hnew _ (Nat.le_refl _), hidle]
            intro t' h'
            have := (hi.ci.curRun _ _).1 h'
            rw [(hi.ci.absent _).2 (Nat.le_refl _)] at this; cases this
          · by_cases e : t' = t
            · subst e; simp [hrun _ _ h']
            · simp [e, hrun _ _ h']
        | @push v rest rest' h1 hx h2 hf hrr =>
          intro t' c' h'
          replace h' : s'.cur t' = some c' := h'
          rw [h1, upd_apply] at h'
          have hcv : c ≠ v := fun e => sne _ _ h2 (e ▸ hc)
          have hz : (a.own c).caught = [] := by
            exact hR c hc (by show s'.cur t ≠ _; rw [h1]; simp [Ne.symm hcv])
          split at h'
          · next e =>
            subst e; cases h'
            simp [EState.after, Prim.app, sus _ h2, hrun _ _ hc, hz]
          · next e =>
            have : c' ≠ v := fun e => sne _ _ h2 (e ▸ h')
            simp [EState.after, e, this, hrun _ _ h']
        | @pop w e h1 hw hu hx hf =>
          intro t' c' h'
          replace h' : s'.cur t' = some c' := h'
          rw [h1, upd_apply] at h'
          have hws := (unw_top hi hw).1
          have hcw : c ≠ w := fun e => sne _ _ hws (e ▸ hc)
          have hz : (a.own c).caught = [] := by
            exact hR c hc (by show s'.cur t ≠ _; rw [h1]; simp [Ne.symm hcw])
          split at h'
          · next e =>
            subst e; cases h'
            simp [EState.after, Prim.app, sus _ hws, hrun _ _ hc, hz, Ne.symm hcw]
          · next e =>
            have : c' ≠ c := fun e2 => e (uni _ _ _ h' (e2 ▸ hc))
            simp [EState.after, e, this, hrun _ _ h']
        | @jump d ps h1 hx h2 hn hf hp =>
          intro t' c' h'
          replace h' : s'.cur t' = some c' := h'
          rw [h1, upd_apply] at h'
          have hcv : c ≠ d := fun e => sne _ _ h2 (e ▸ hc)
          have hz : (a.own c).caught = [] := by
            exact hR c hc (by show s'.cur t ≠ _; rw [h1]; simp [Ne.symm hcv])
          split at h'
          · next e =>
            subst e; cases h'
            rcases hp with rfl | rfl <;> simp [EState.after, Prim.app, sus _ h2, hrun _ _ hc, hz]
          · next e =>
            have : c' ≠ d := fun e => sne _ _ h2 (e ▸ h')
            rcases hp with rfl | rfl <;> simp [EState.after, e, this, hrun _ _ h']
        | ended h1 hx hf =>
          intro t' c' h'
          replace h' : s'.cur t' = some c' := h'
          rw [h1, upd_apply] at h'
          split at h'
          · cases h'
          · next e => simp [EState.after, e, hrun _ _ h']
      · intro c' h'
        replace h' : ∀ t, s'.cur t ≠ some c' := h'
        by_cases ecc : c' = c
        · subst ecc
          have hz := hR c' hc (h' t)
          cases hsum with
          | quiet h1 hx hp => exact absurd (by rw [h1]; exact hc) (h' t)
          | early h1 => exact absurd (by rw [h1]; exact hc) (h' t)
          | spawn h1 hx => exact hz
          | @push v rest rest' h1 hx h2 hf hrr =>
            have : c' ≠ v := fun e => sne _ _ h2 (e ▸ hc)
            simpa [EState.after, this] using hz
          | pop => simpa [EState.after, Prim.app] using hz
          | @jump d ps h1 hx h2 hn hf hp =>
            have : c' ≠ d := fun e => sne _ _ h2 (e ▸ hc)
            rcases hp with rfl | rfl <;> simpa [EState.after, this] using hz
          | ended => exact hz
        · have hmem : ∀ t', a.st.cur t' ≠ some c' ∨ a.st.cur t' = some c' := fun t' => (Classical.em _).symm
          cases hsum with
          | quiet h1 hx hp =>
            rw [h1] at h'
            rcases hp with rfl | rfl | ⟨ex, rfl⟩ <;> simp [EState.after, ecc, hidle _ h']
          | @early v e h1 hx h2 =>
            rw [h1] at h'
            by_cases e : c' = v
            · subst e; simp [EState.after, Prim.app, hidle _ h']
            · simp [EState.after, e, hidle _ h']
          | spawn h1 hx =>
            refine hidle _ fun t' h2 => h' t' ?_
            rw [h1, upd_apply, if_neg]; exact h2
            rintro rfl; rw [hi.ci.tids _ (Nat.le_refl _)] at h2; cases h2
          | @push v rest rest' h1 hx h2 hf hrr =>
            have hne : c' ≠ v := fun e => h' t (by rw [h1]; simp [e])
            simp only [EState.after, List.foldl_cons, List.foldl_nil, upd_apply, if_neg hne]
            refine hidle _ fun t' h2 => h' t' ?_
            rw [h1, upd_apply, if_neg]; exact h2
            rintro rfl; rw [hc] at h2; cases h2; exact ecc rfl
          | @pop w e h1 hw hu hx hf =>
            simp only [EState.after, List.foldl_cons, List.foldl_nil, upd_apply, if_neg ecc]
            refine hidle _ fun t' h2 => h' t' ?_
            rw [h1, upd_apply, if_neg]; exact h2
            rintro rfl; rw [hc] at h2; cases h2; exact ecc rfl
          | @jump d ps h1 hx h2 hn hf hp =>
            have hne : c' ≠ d := fun e => h' t (by rw [h1]; simp [e])
            have : (a.own c').caught = [] := by
              refine hidle _ fun t' h2 => h' t' ?_
              rw [h1, upd_apply, if_neg]; exact h2
              rintro rfl; rw [hc] at h2; cases h2; exact ecc rfl
            rcases hp with rfl | rfl <;> simpa [EState.after, hne] using this
          | ended h1 hx hf =>
            refine hidle _ fun t' h2 => h' t' ?_
            rw [h1, upd_apply, if_neg]; exact h2
            rintro rfl; rw [hc] at h2; cases h2; exact ecc rfl
      · replace h' : s'.nextTid ≤ t' := h'
        have e1 := Nat.le_trans hmono h'
        have : t' ≠ t := fun e => hlt (e ▸ e1)
        simp [EState.after, this, hnew _ e1]

end Verif.EH
