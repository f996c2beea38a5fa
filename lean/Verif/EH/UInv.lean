import Verif.EH.UFlight

/-! # ucontext: invariants of the exception state (proofs) -/

namespace Verif.EH.U
open Verif.UFiber Verif.UFiber.State
open Verif.Fiber (CtxId Var Tid Kind Exc Mode UKind Frame Status Op CreateOutcome upd upd_apply lvars evars rvars DtorTop Frame.lvars Frame.evars Frame.rvars RunTop SuspTop ModeOK dtorTop_iff)

theorem step_nextTid {s s' : State} {t : Tid} {op : Op} (hs : step s t op = .ok s') : s.nextTid ≤ s'.nextTid := by
  obtain ⟨c, hc, he⟩ := step_eff hs
  clear hs
  cases he with
  | create hf ha h2 =>
    have hsame := capture_same ({ s with nextCtx := s.nextCtx + 1 }.addLog (.alloc s.nextCtx)) s.nextCtx
    rename_i xs _; have hsame := hsame xs
    rw [← h2] at hsame
    exact Nat.le_of_eq hsame.2.2.2.2.1.symm
  | resume _ _ _ _ hd => exact Nat.le_of_eq (tid_arr hd).symm
  | resumeWith _ _ _ _ hd => exact Nat.le_of_eq (tid_arr hd).symm
  | propFn _ hd => obtain ⟨_, _, ha⟩ := hd; exact Nat.le_of_eq (tid_arr ha).symm
  | leaveFn _ hd => obtain ⟨_, _, ha⟩ := hd; exact Nat.le_of_eq (tid_arr ha).symm
  | destroy h1 h2 =>
    cases h2 with
    | root => cases h1 <;> exact Nat.le_refl _
    | term => cases h1 <;> exact Nat.le_refl _
    | unwind _ _ _ ha => have := tid_arr ha; cases h1 <;> exact Nat.le_of_eq this.symm
  | spawn => exact Nat.le_succ _
  | _ => exact Nat.le_refl _

/-- a suspended context that is not switched to keeps its stack -/
theorem step_frames {s s' : State} {t : Tid} {op : Op} {w : CtxId} (hi : Inv s) (hs : step s t op = .ok s') (hw : s.status w = .suspended) (hn : s'.cur t ≠ some w) : s'.frames w = s.frames w := by
  obtain ⟨c, hc, he⟩ := step_eff hs
  have hrun := (hi.ci.curRun t c).1 hc
  have hwc : w ≠ c := by rintro rfl; rw [hrun] at hw; cases hw
  have hwn : w ≠ s.nextCtx := by rintro rfl; rw [(hi.ci.absent _).2 (Nat.le_refl _)] at hw; cases hw
  have hwt : ∀ {n}, s.status n = .terminated → w ≠ n := by rintro n h rfl; rw [hw] at h; cases h
  have arr : ∀ {s1 : State} {d}, Arr s1 d s' → s1.cur t = some d → w ≠ d := by
    rintro s1 d h h1 rfl; rw [cur_arr h] at hn; exact hn h1
  clear hs
  cases he with
  | create hf ha h2 =>
    have hsame := capture_same ({ s with nextCtx := s.nextCtx + 1 }.addLog (.alloc s.nextCtx)) s.nextCtx
    rename_i xs _; have hsame := hsame xs
    rw [← h2] at hsame
    simp only [upd_apply, hwc, hwn, if_false]; rw [hsame.2.2.1]; rfl
  | resume _ _ _ _ hd => rw [frames_arr hd (arr hd (by simp [sw]))]; simp [sw, State.setFrames, State.setVal, hwc]
  | resumeWith _ _ _ _ hd => rw [frames_arr hd (arr hd (by simp [sw]))]; simp [sw, hwc]
  | propFn _ hd => obtain ⟨_, _, ha⟩ := hd; rw [frames_arr ha (arr ha (by simp [sw]))]; simp [sw, State.kill, hwc]
  | leaveFn _ hd => obtain ⟨_, _, ha⟩ := hd; rw [frames_arr ha (arr ha (by simp [sw]))]; simp [sw, State.kill, hwc]
  | destroy h1 h2 =>
    have h0 : ∀ {s1 : State} {v op}, PreDst s c v op s1 → s1.frames w = s.frames w := by
      intro s1 v op h; cases h <;> simp [hwc]
    cases h2 with
    | root => exact (h0 h1 :)
    | term => simpa [State.setFrames, hwc] using h0 h1
    | unwind _ _ _ ha => rw [frames_arr ha (arr ha (by simp [sw]))]; simpa [sw, hwc] using h0 h1
  | exitDtor hf hcap hst => simp [hwc, hwt hst]
  | exitDone hf hcap hst _ => simp [hwc, hwt hst]
  | _ => simp [State.newVar, State.setVal, State.setFrames, State.kill, hwc, hwn]

theorem estep_early {a b : EState} {t : Tid} (h : EStep a t b) (he : b.st.early = false) : a.st.early = false := by
  cases h with
  | lib _ hs => exact step_early hs he
  | endCatch => exact he

theorem hist_reach {R} {a : EState} (h : Hist R a) : Reachable a.st := by
  induction h with
  | init => exact .init
  | step _ hs _ ih =>
    cases hs with
    | lib _ hs => exact .step ih hs
    | endCatch => exact ih

theorem hist_own {R} {a : EState} (h : Hist R a) (he : a.st.early = false) : ∀ c, (a.own c).uncaught = inflight (a.st.frames c) := by
  induction h with
  | init => intro c; show (0 : Int) = inflight (init.frames c); unfold init; simp only []; split <;> simp [inflight]
  | @step a b t ha hs _ ih =>
    have he0 := estep_early hs he
    intro c
    cases hs with
    | @lib op s' ho hs =>
      have := step_fl (reachable_inv (hist_reach ha) he0) ho hs c
      unfold Fl at this
      simp only [EState.after]
      rw [own_uncaught, ih he0]; exact this.symm
    | endCatch hc hn =>
      simp only [EState.after]
      rw [own_uncaught, ih he0]; simp [net, netP]

theorem hist_uinv {R} {a : EState} (h : Hist R a) (he : a.st.early = false) : UInv a.st := by
  induction h with
  | init => intro d hd; cases hd
  | @step a b t ha hs _ ih =>
    have he0 := estep_early hs he
    cases hs with
    | lib ho hs => exact step_uinv (reachable_inv (hist_reach ha) he0) ho hs he (ih he0)
    | endCatch => exact ih he0

theorem unw_inflight {s : State} (hi : UFiber.Inv s) {c : CtxId} (h : inflight (s.frames c) = 0) (w : CtxId) : ¬ UnwoundFor s c w := by
  rintro ⟨x, h1, _⟩
  have := (hi.oi.excs c x).2 h1
  rw [evars_of_inflight h] at this; cases this

theorem arr_cases (s : State) (d : CtxId) : arrPrims s d = [] ∨ arrPrims s d = [(d, .throw)] := by
  unfold arrPrims; split
  · split
    · exact .inr rfl
    · exact .inl rfl
  · exact .inl rfl

theorem chain_mem {s : State} {c w : CtxId} {l : List CtxId} (h : Chain s c l) (hw : w ∈ l) : ∃ d, UnwoundFor s d w := by
  induction h with
  | nil => cases hw
  | @cons c w' l h hl ih =>
    rcases List.mem_cons.1 hw with rfl | hw
    · exact ⟨_, h⟩
    · exact ih hw

theorem chain_congr {s s' : State} {c : CtxId} {l : List CtxId} (h : Chain s c l) (he : ∀ d ∈ c :: l, ∀ w, UnwoundFor s' d w ↔ UnwoundFor s d w) : Chain s' c l := by
  induction h with
  | nil h => exact .nil fun w hw => h w ((he _ (by simp) w).1 hw)
  | cons h hl ih => exact .cons ((he _ (by simp) _).2 h) (ih fun d hd => he d (by simp at hd ⊢; exact .inr hd))

theorem chain_unique {s : State} (hu : ∀ c w w', UnwoundFor s c w → UnwoundFor s c w' → w = w') {c : CtxId} {l l' : List CtxId} (h : Chain s c l) (h' : Chain s c l') : l = l' := by
  induction h generalizing l' with
  | nil h => cases h' with
    | nil => rfl
    | cons h2 => exact absurd h2 (h _)
  | cons h hl ih => cases h' with
    | nil h2 => exact absurd h (h2 _)
    | cons h2 hl2 =>
      have := hu _ _ _ h h2; subst this
      rw [ih hl2]

/-! ## rule A -/

structure AInv (a : EState) : Prop where
  r : Reachable a.st
  run : ∀ t c, a.st.cur t = some c → (a.g t).caught = (a.own c).caught
  idle : ∀ c, (∀ t, a.st.cur t ≠ some c) → (a.own c).caught = []
  new : ∀ t, a.st.nextTid ≤ t → (a.g t).caught = []

theorem ainv {a : EState} (h : Hist NoJumpInCatch a) (he : a.st.early = false) : AInv a := by
  induction h with
  | init => exact ⟨.init, fun _ _ _ => rfl, fun _ _ => rfl, fun _ _ => rfl⟩
  | @step a b t ha hs hR ih =>
    have he0 := estep_early hs he
    obtain ⟨hr, hrun, hidle, hnew⟩ := ih he0
    have hi := reachable_inv hr he0
    have uni : ∀ t t' c, a.st.cur t = some c → a.st.cur t' = some c → t = t' := by
      intro t t' c h1 h2
      have h1 := (hi.ci.curRun t c).1 h1
      have h2 := (hi.ci.curRun t' c).1 h2
      rw [h1] at h2; cases h2; rfl
    have sus : ∀ v, a.st.status v = .suspended → (a.own v).caught = [] := by
      intro v hv
      refine hidle v fun t' h' => ?_
      rw [(hi.ci.curRun t' v).1 h'] at hv; cases hv
    have sne : ∀ v t', a.st.status v = .suspended → a.st.cur t' ≠ some v := by
      intro v t' hv h'
      rw [(hi.ci.curRun t' v).1 h'] at hv; cases hv
    cases hs with
    | @endCatch c hc hn =>
      refine ⟨hr, fun t' c' h' => ?_, fun c' h' => ?_, fun t' h' => ?_⟩
      · replace h' : a.st.cur t' = some c' := h'
        simp only [EState.after, List.foldl_cons, List.foldl_nil, upd_apply]
        by_cases e : t' = t
        · subst e; rw [hc] at h'; cases h'; simp [Prim.app, hrun _ _ hc]
        · have : c' ≠ c := fun e2 => e (uni _ _ _ h' (e2 ▸ hc))
          simp [e, this, hrun _ _ h']
      · replace h' : ∀ t, a.st.cur t ≠ some c' := h'
        have : c' ≠ c := fun e => h' t (e ▸ hc)
        simp [EState.after, this, hidle _ h']
      · replace h' : a.st.nextTid ≤ t' := h'
        have : t' ≠ t := by rintro rfl; rw [hi.ci.tids _ h'] at hc; cases hc
        simp [EState.after, this, hnew _ h']
    | @lib op s' ho hs =>
      obtain ⟨c, hc, hsum⟩ := step_sum hi ho hs he
      have hmono := step_nextTid hs
      have hlt : a.st.nextTid ≤ t → False := fun h => by rw [hi.ci.tids _ h] at hc; cases hc
      generalize hps : prims a.st t op = ps at *
      refine ⟨.step hr hs, ?_, ?_, fun t' h' => ?_⟩
      · cases hsum with
        | quiet h1 hx hp =>
          intro t' c' h'
          replace h' : s'.cur t' = some c' := h'
          rw [h1] at h'
          by_cases e : t' = t
          · subst e; rw [hc] at h'; cases h'
            rcases hp with rfl | rfl | ⟨ex, rfl⟩ <;> simp [EState.after, Prim.app, hrun _ _ hc]
          · have : c' ≠ c := fun e2 => e (uni _ _ _ h' (e2 ▸ hc))
            rcases hp with rfl | rfl | ⟨ex, rfl⟩ <;> simp [EState.after, Prim.app, hrun _ _ h', e, this]
        | spawn h1 hx =>
          intro t' c' h'
          replace h' : s'.cur t' = some c' := h'
          rw [h1, upd_apply] at h'
          simp only [EState.after, List.foldl_nil, upd_apply, ite_self]
          split at h'
          · next e =>
            subst e; cases h'
            have e1 : a.st.nextTid ≠ t := fun e => hlt (Nat.le_of_eq e)
            rw [if_neg e1, hnew _ (Nat.le_refl _), hidle]
            intro t' h'
            have := (hi.ci.curRun _ _).1 h'
            rw [(hi.ci.absent _).2 (Nat.le_refl _)] at this; cases this
          · by_cases e : t' = t
            · subst e; simp [hrun _ _ h']
            · simp [e, hrun _ _ h']
        | @push v rest rest' h1 hx h2 hf hrr =>
          intro t' c' h'
          replace h' : s'.cur t' = some c' := h'
          rw [h1, upd_apply] at h'
          have hcv : c ≠ v := fun e => sne _ _ h2 (e ▸ hc)
          have hz : (a.own c).caught = [] := by
            exact hR c hc (by show s'.cur t ≠ _; rw [h1]; simp [Ne.symm hcv])
          split at h'
          · next e =>
            subst e; cases h'
            simp [EState.after, Prim.app, sus _ h2, hrun _ _ hc, hz]
          · next e =>
            have : c' ≠ v := fun e => sne _ _ h2 (e ▸ h')
            simp [EState.after, e, this, hrun _ _ h']
        | @pop w e h1 hw hu hws hx hf =>
          intro t' c' h'
          replace h' : s'.cur t' = some c' := h'
          rw [h1, upd_apply] at h'
          have hcw : c ≠ w := fun e => sne _ _ hws (e ▸ hc)
          have hz : (a.own c).caught = [] := by
            exact hR c hc (by show s'.cur t ≠ _; rw [h1]; simp [Ne.symm hcw])
          split at h'
          · next e =>
            subst e; cases h'
            rcases arr_cases a.st w with hp | hp <;> simp [hp, EState.after, Prim.app, sus _ hws, hrun _ _ hc, hz, Ne.symm hcw]
          · next e =>
            have : c' ≠ c := fun e2 => e (uni _ _ _ h' (e2 ▸ hc))
            have : c' ≠ w := fun e => sne _ _ hws (e ▸ h')
            rcases arr_cases a.st w with hp | hp <;> simp [hp, EState.after, *, hrun _ _ h']
        | @jump d h1 hx h2 hn hf =>
          intro t' c' h'
          replace h' : s'.cur t' = some c' := h'
          rw [h1, upd_apply] at h'
          have hcv : c ≠ d := fun e => sne _ _ h2 (e ▸ hc)
          have hz : (a.own c).caught = [] := by
            exact hR c hc (by show s'.cur t ≠ _; rw [h1]; simp [Ne.symm hcv])
          split at h'
          · next e =>
            subst e; cases h'
            rcases arr_cases a.st d with hp | hp <;> simp [hp, EState.after, Prim.app, sus _ h2, hrun _ _ hc, hz]
          · next e =>
            have : c' ≠ d := fun e => sne _ _ h2 (e ▸ h')
            rcases arr_cases a.st d with hp | hp <;> simp [hp, EState.after, e, this, hrun _ _ h']
        | ended h1 hx hf =>
          intro t' c' h'
          replace h' : s'.cur t' = some c' := h'
          rw [h1, upd_apply] at h'
          split at h'
          · cases h'
          · next e => simp [EState.after, e, hrun _ _ h']
      · intro c' h'
        replace h' : ∀ t, s'.cur t ≠ some c' := h'
        by_cases ecc : c' = c
        · subst ecc
          have hz := hR c' hc (h' t)
          cases hsum with
          | quiet h1 hx hp => exact absurd (by rw [h1]; exact hc) (h' t)
          | spawn h1 hx => exact hz
          | @push v rest rest' h1 hx h2 hf hrr =>
            have : c' ≠ v := fun e => sne _ _ h2 (e ▸ hc)
            simpa [EState.after, this] using hz
          | @pop w e h1 hw hu hws hx hf =>
            have : c' ≠ w := fun e => sne _ _ hws (e ▸ hc)
            rcases arr_cases a.st w with hp | hp <;> simpa [hp, EState.after, Prim.app, this] using hz
          | @jump d h1 hx h2 hn hf =>
            have : c' ≠ d := fun e => sne _ _ h2 (e ▸ hc)
            rcases arr_cases a.st d with hp | hp <;> simpa [hp, EState.after, this] using hz
          | ended => exact hz
        · have hmem : ∀ t', a.st.cur t' ≠ some c' ∨ a.st.cur t' = some c' := fun t' => (Classical.em _).symm
          cases hsum with
          | quiet h1 hx hp =>
            rw [h1] at h'
            rcases hp with rfl | rfl | ⟨ex, rfl⟩ <;> simp [EState.after, ecc, hidle _ h']
          | spawn h1 hx =>
            refine hidle _ fun t' h2 => h' t' ?_
            rw [h1, upd_apply, if_neg]; exact h2
            rintro rfl; rw [hi.ci.tids _ (Nat.le_refl _)] at h2; cases h2
          | @push v rest rest' h1 hx h2 hf hrr =>
            have hne : c' ≠ v := fun e => h' t (by rw [h1]; simp [e])
            simp only [EState.after, List.foldl_cons, List.foldl_nil, upd_apply, if_neg hne]
            refine hidle _ fun t' h2 => h' t' ?_
            rw [h1, upd_apply, if_neg]; exact h2
            rintro rfl; rw [hc] at h2; cases h2; exact ecc rfl
          | @pop w e h1 hw hu hws hx hf =>
            have hne : c' ≠ w := fun e => h' t (by rw [h1]; simp [e])
            have : (a.own c').caught = [] := by
              refine hidle _ fun t' h2 => h' t' ?_
              rw [h1, upd_apply, if_neg]; exact h2
              rintro rfl; rw [hc] at h2; cases h2; exact ecc rfl
            rcases arr_cases a.st w with hp | hp <;> simpa [hp, EState.after, ecc, hne] using this
          | @jump d h1 hx h2 hn hf =>
            have hne : c' ≠ d := fun e => h' t (by rw [h1]; simp [e])
            have : (a.own c').caught = [] := by
              refine hidle _ fun t' h2 => h' t' ?_
              rw [h1, upd_apply, if_neg]; exact h2
              rintro rfl; rw [hc] at h2; cases h2; exact ecc rfl
            rcases arr_cases a.st d with hp | hp <;> simpa [hp, EState.after, hne] using this
          | ended h1 hx hf =>
            refine hidle _ fun t' h2 => h' t' ?_
            rw [h1, upd_apply, if_neg]; exact h2
            rintro rfl; rw [hc] at h2; cases h2; exact ecc rfl
      · replace h' : s'.nextTid ≤ t' := h'
        have e1 := Nat.le_trans hmono h'
        have : t' ≠ t := fun e => hlt (e ▸ e1)
        simp [EState.after, this, hnew _ e1]


/-! ## rule B -/

structure BInv (a : EState) : Prop where
  r : Reachable a.st
  e : a.st.early = false
  u : UInv a.st
  wait : ∀ d w, UnwoundFor a.st d w → DtorTop d (a.st.frames w)
  fl : ∀ c, (a.own c).uncaught = inflight (a.st.frames c)
  run : ∀ t c, a.st.cur t = some c → ∃ l, Chain a.st c l ∧ a.g t = (a.own c).on (stack a.own l)
  idle : ∀ c, (∀ t, a.st.cur t ≠ some c) → a.own c = .none ∨ ∃ d, UnwoundFor a.st d c
  uniq : ∀ c w w', UnwoundFor a.st c w → UnwoundFor a.st c w' → w = w'
  new : ∀ t, a.st.nextTid ≤ t → a.g t = .none

/-- Classification of the steps under rule B. -/
inductive SumB (s : State) (t : Tid) (c : CtxId) (s' : State) : List (CtxId × Prim) → Prop
  | quiet {ps} (hc : s'.cur = s.cur) (hx : ∀ d w, UnwoundFor s' d w ↔ UnwoundFor s d w) (hp : ps = [] ∨ ps = [(c, .throw)] ∨ ∃ e, ps = [(c, .beginCatch e)]) : SumB s t c s' ps
  | spawn (hc : s'.cur = upd s.cur s.nextTid (some s.nextCtx)) (hx : ∀ d w, UnwoundFor s' d w ↔ UnwoundFor s d w) : SumB s t c s' []
  | push {v rest rest'} (hc : s'.cur = upd s.cur t (some v)) (hx : ∀ d w, UnwoundFor s' d w ↔ UnwoundFor s d w ∨ (d = v ∧ w = c)) (hs : s.status v = .suspended) (hf : s'.frames c = .dtor v :: rest)
      (hr : s.frames v = .resume :: rest') : SumB s t c s' [(v, .throw)]
  | pop {w e} (hc : s'.cur = upd s.cur t (some w)) (hw : UnwoundFor s c w) (hu : ∀ w', UnwoundFor s c w' → w' = w) (hx : ∀ d w, UnwoundFor s' d w ↔ UnwoundFor s d w ∧ d ≠ c) (hf : s'.frames c = [.exitJump]) :
      SumB s t c s' [(c, .beginCatch e), (c, .endCatch)]
  | jump {d ps} (hc : s'.cur = upd s.cur t (some d)) (hx : ∀ d w, UnwoundFor s' d w ↔ UnwoundFor s d w) (hs : s.status d = .suspended) (hn : ∀ v, ¬ DtorTop v (s.frames d))
      (hf : ∀ v, ¬ DtorTop v (s'.frames c)) (hp : ps = []) : SumB s t c s' ps
  | ended (hc : s'.cur = upd s.cur t none) (hx : ∀ d w, UnwoundFor s' d w ↔ UnwoundFor s d w) (hf : s'.frames c = []) : SumB s t c s' []

theorem BInv.top {a : EState} (h : BInv a) {d w : CtxId} (hu : UnwoundFor a.st d w) : a.st.status w = .suspended ∧ DtorTop d (a.st.frames w) := by
  have hi := reachable_inv h.r h.e
  have ht := h.wait d w hu
  refine ⟨?_, ht⟩
  obtain ⟨x, _, h2⟩ := hu
  rcases (hi.vi.valid _ _ h2).1 with h3 | h3
  · exact h3
  · rw [hi.ci.fTerm _ h3] at ht; exact absurd ht (by simp [DtorTop])

theorem BInv.sum {a : EState} (ha : BInv a) {t : Tid} {op : Op} {s' : State} (ho : op ≠ .swallow) (hs : step a.st t op = .ok s') (he : s'.early = false) :
    ∃ c, a.st.cur t = some c ∧ SumB a.st t c s' (prims a.st t op) := by
  have hi := reachable_inv ha.r ha.e
  obtain ⟨c, hc, hsum⟩ := step_sum hi ho hs he
  refine ⟨c, hc, ?_⟩
  generalize prims a.st t op = ps at *
  cases hsum with
  | quiet h1 h2 h3 => exact .quiet h1 h2 h3
  | spawn h1 h2 => exact .spawn h1 h2
  | push h1 h2 h3 h4 h5 => exact .push h1 h2 h3 h4 h5
  | @pop w e h1 h2 h3 h4 h5 h6 =>
    have hz : arrPrims a.st w = [] := by
      obtain ⟨r, hr⟩ := dtorTop_iff.1 (ha.top h2).2
      simp [arrPrims, hr]
    rw [hz]
    exact .pop h1 h2 h3 (h5 hz) h6
  | @jump d h1 h2 h3 h4 h5 =>
    have hd0 : a.own d = .none := by
      rcases ha.idle d (fun t' h' => by rw [(hi.ci.curRun t' d).1 h'] at h3; cases h3) with h | ⟨d', hd⟩
      · exact h
      · exact absurd (ha.top hd).2 (h4 _)
    have hfl := ha.fl d
    rw [hd0] at hfl
    simp only [Glob.none] at hfl
    have hev : evars (a.st.frames d) = [] := evars_of_inflight (by omega)
    have hz : arrPrims a.st d = [] := by
      unfold arrPrims; split
      · split
        · next hu => exact absurd hev (ha.u d hu)
        · rfl
      · rfl
    exact .jump h1 (h2 hz) h3 h4 h5 hz
  | ended h1 h2 h3 => exact .ended h1 h2 h3

/-- a step of thread `t`, which executed `c` with the waiting contexts `l` -/
inductive Sw (a b : EState) (t : Tid) (c : CtxId) (l : List CtxId) : Prop
  | stay (h : b.st.cur t = some c) (hl : Chain b.st c l) (ho : ∀ x ∈ l, b.own x = a.own x) (hg : b.g t = (b.own c).on (stack b.own l))
  | push {v} (h : b.st.cur t = some v) (hl : Chain b.st v (c :: l)) (ho : ∀ x ∈ c :: l, b.own x = a.own x) (hg : b.g t = (b.own v).on (stack b.own (c :: l)))
  | pop {w l'} (e : l = w :: l') (h : b.st.cur t = some w) (hl : Chain b.st w l') (ho : ∀ x ∈ w :: l', b.own x = a.own x) (hz : b.own c = .none) (hf : ∀ v, ¬ DtorTop v (b.st.frames c))
      (hg : b.g t = (b.own w).on (stack b.own l'))
  | jump {d} (e : l = []) (h : b.st.cur t = some d) (hd : ∀ v, ¬ DtorTop v (a.st.frames d)) (hl : Chain b.st d []) (hz : b.own c = .none) (hf : ∀ v, ¬ DtorTop v (b.st.frames c)) (hg : b.g t = b.own d)
  | ended (e : l = []) (h : b.st.cur t = none) (hz : b.own c = .none) (hf : ∀ v, ¬ DtorTop v (b.st.frames c))

theorem step_B {a b : EState} {t : Tid} (ha : BInv a) (hs : EStep a t b) (hR : CleanSwitches a t b) (heb : b.st.early = false) : ∃ c, a.st.cur t = some c ∧ (∃ l, Chain a.st c l ∧ Sw a b t c l) ∧
    (∀ t' c', t' ≠ t → a.st.cur t' = some c' → ∀ l, Chain a.st c' l → b.st.cur t' = some c' ∧ b.g t' = a.g t' ∧ Chain b.st c' l ∧ ∀ x ∈ c' :: l, b.own x = a.own x) := by
  have top : ∀ {d w}, UnwoundFor a.st d w → a.st.status w = .suspended ∧ DtorTop d (a.st.frames w) := ha.top
  have sumB : ∀ {op s'}, op ≠ Op.swallow → step a.st t op = .ok s' → s'.early = false → ∃ c, a.st.cur t = some c ∧ SumB a.st t c s' (prims a.st t op) := ha.sum
  obtain ⟨hr, he, hui, hwait, hfl, hrun, hidle, huniq, hnew⟩ := ha
  have hi := reachable_inv hr he
  have uni : ∀ t t' c, a.st.cur t = some c → a.st.cur t' = some c → t = t' := by
    intro t t' c h1 h2
    have h1 := (hi.ci.curRun t c).1 h1
    have h2 := (hi.ci.curRun t' c).1 h2
    rw [h1] at h2; cases h2; rfl
  have sne : ∀ v t', a.st.status v = .suspended → a.st.cur t' ≠ some v := by
    intro v t' hv h'
    rw [(hi.ci.curRun t' v).1 h'] at hv; cases hv
  have quietC : ∀ c, a.own c = .none → ∀ w, ¬ UnwoundFor a.st c w := by
    intro c h w
    refine unw_inflight hi ?_ w
    have := hfl c
    rw [h] at this
    simp only [Glob.none] at this
    omega
  have chainMem : ∀ {c l x}, Chain a.st c l → x ∈ l → a.st.status x = .suspended ∧ ∃ v, DtorTop v (a.st.frames x) := by
    intro c l x h hx
    obtain ⟨d, hd⟩ := chain_mem h hx
    exact ⟨(top hd).1, d, (top hd).2⟩
  have chainRun : ∀ {c l x t'}, Chain a.st c l → a.st.cur t' = some x → x ∉ l := by
    intro c l x t' h hx hm
    exact sne _ _ (chainMem h hm).1 hx
  cases hs with
  | @endCatch c hc hn =>
    obtain ⟨l, hl, hg⟩ := hrun t c hc
    refine ⟨c, hc, ⟨l, hl, .stay hc hl (fun x hx => ?_) ?_⟩, fun t' c' ht h' l' hl' => ⟨h', ?_, hl', fun x hx => ?_⟩⟩
    · have : x ≠ c := fun e => chainRun hl hc (e ▸ hx)
      simp [EState.after, this]
    · have : stack (a.after a.st t [(c, .endCatch)]).own l = stack a.own l := stack_congr fun x hx => by
        have : x ≠ c := fun e => chainRun hl hc (e ▸ hx)
        simp [EState.after, this]
      rw [this]
      simp only [EState.after, List.foldl_cons, List.foldl_nil, upd_apply, if_true, hg]
      exact app_on _ _ _ fun _ => hn
    · simp [EState.after, ht]
    · have : x ≠ c := by
        rintro rfl
        rcases List.mem_cons.1 hx with rfl | hx
        · exact ht (uni _ _ _ h' hc)
        · exact chainRun hl' hc hx
      simp [EState.after, this]
  | @lib op s' ho hs =>
    obtain ⟨c, hc, hsum⟩ := sumB ho hs heb
    generalize hps : prims a.st t op = ps at *
    obtain ⟨l, hl, hg⟩ := hrun t c hc
    have hcl : c ∉ l := chainRun hl hc
    have hflb : ∀ c, ((a.after s' t ps).own c).uncaught = inflight (s'.frames c) := by
      intro c
      have := step_fl hi ho hs c
      unfold Fl at this
      simp only [EState.after]
      rw [own_uncaught, hfl, this, hps]
    have gz : ∀ {c}, ((a.after s' t ps).own c).caught = [] → inflight (s'.frames c) = 0 → (a.after s' t ps).own c = .none := by
      intro c h1 h2
      refine Glob.ext' h1 ?_
      rw [hflb, h2]; rfl
    refine ⟨c, hc, ⟨l, hl, ?_⟩, ?_⟩
    · cases hsum with
      | quiet h1 hx hp =>
        have ho : ∀ x ∈ l, (a.after s' t ps).own x = a.own x := fun x hm => by
          have : x ≠ c := fun e => hcl (e ▸ hm)
          rcases hp with rfl | rfl | ⟨ex, rfl⟩ <;> simp [EState.after, this]
        refine .stay (by show s'.cur t = _; rw [h1]; exact hc) (chain_congr hl fun d _ w => hx d w) ho ?_
        rw [stack_congr ho]
        rcases hp with rfl | rfl | ⟨ex, rfl⟩ <;> simp only [EState.after, List.foldl_cons, List.foldl_nil, upd_apply, if_true, hg]
        · exact app_on _ _ _ (by simp)
        · exact app_on _ _ _ (by simp)
      | spawn h1 hx =>
        refine .stay (l := l) ?_ (chain_congr hl fun d _ w => hx d w) (fun x _ => rfl) ?_
        · show s'.cur t = _
          rw [h1, upd_apply, if_neg]; exact hc
          rintro rfl; rw [hi.ci.tids _ (Nat.le_refl _)] at hc; cases hc
        · simpa [EState.after] using hg
      | @push v rest rest' h1 hx h2 hf hrr =>
        have hcv : c ≠ v := fun e => sne _ _ h2 (e ▸ hc)
        have hvn : a.own v = .none := by
          rcases hidle v (fun t' => sne v t' h2) with h | ⟨d, hd⟩
          · exact h
          · have := (top hd).2; rw [hrr] at this; exact absurd this (by simp [DtorTop])
        have hvl : v ∉ l := fun hm => by
          obtain ⟨_, w, hw⟩ := chainMem hl hm
          rw [hrr] at hw; exact absurd hw (by simp [DtorTop])
        have ho : ∀ x ∈ c :: l, (a.after s' t [(v, .throw)]).own x = a.own x := fun x hm => by
          have : x ≠ v := by rintro rfl; rcases List.mem_cons.1 hm with rfl | hm; exact hcv rfl; exact hvl hm
          simp [EState.after, this]
        refine .push (v := v) (by show s'.cur t = _; rw [h1]; simp) (.cons ((hx v c).2 (.inr ⟨rfl, rfl⟩)) (chain_congr hl fun d hd w => ?_)) ho ?_
        · rw [show ((a.after s' t [(v, Prim.throw)]).st) = s' from rfl, hx]
          have : d ≠ v := by rintro rfl; rcases List.mem_cons.1 hd with rfl | hm; exact hcv rfl; exact hvl hm
          simp [this]
        · rw [stack_congr ho]
          simp only [EState.after, List.foldl_cons, List.foldl_nil, upd_apply, if_true, hvn, stack, ← hg]
          exact (congrArg _ (none_on _).symm).trans (app_on _ _ _ (by simp))
      | @pop w e h1 hw hu hx hf =>
        have hcw : c ≠ w := fun e => sne _ _ (top hw).1 (e ▸ hc)
        have hz : (a.after s' t [(c, .beginCatch e), (c, .endCatch)]).own c = .none := by
          rcases hR c hc (by show s'.cur t ≠ _; rw [h1]; simp [Ne.symm hcw]) with h | ⟨v, rest, h⟩
          · exact gz (by simpa [EState.after, Prim.app] using h.1) h.2
          · have h : s'.frames c = _ := h
            rw [hf] at h; simp at h
        cases hl with
        | nil h => exact absurd hw (h w)
        | @cons _ w' l' hw' hl' =>
          have := hu _ hw'; subst this
          have ho : ∀ x ∈ w' :: l', (a.after s' t [(c, .beginCatch e), (c, .endCatch)]).own x = a.own x := fun x hm => by
            have : x ≠ c := fun e => hcl (e ▸ hm)
            simp [EState.after, this]
          refine .pop rfl (by show s'.cur t = _; rw [h1]; simp) (chain_congr hl' fun d hd w => ?_) ho hz (fun v hv => by
            replace hv : DtorTop v (s'.frames c) := hv
            rw [hf] at hv; exact hv) ?_
          · rw [show ((a.after s' t [(c, .beginCatch e), (c, .endCatch)]).st) = s' from rfl, hx]
            have : d ≠ c := fun e => hcl (e ▸ hd)
            simp [this]
          · have h1 : (a.after s' t [(c, .beginCatch e), (c, .endCatch)]).g t = ((a.after s' t [(c, .beginCatch e), (c, .endCatch)]).own c).on (stack a.own (w' :: l')) := by
              simp only [EState.after, List.foldl_cons, List.foldl_nil, upd_apply, if_true, hg]
              rw [app_on (.beginCatch e) _ _ (by simp), app_on .endCatch _ _ (by simp [Prim.app])]
            rw [h1, hz, none_on]
            exact (stack_congr ho).symm
      | @jump d ps h1 hx h2 hn hf hp =>
        have hcv : c ≠ d := fun e => sne _ _ h2 (e ▸ hc)
        have hz : (a.after s' t ps).own c = .none := by
          rcases hR c hc (by show s'.cur t ≠ _; rw [h1]; simp [Ne.symm hcv]) with h | ⟨v, rest, h⟩
          · refine gz ?_ h.2
            subst hp; simpa [EState.after, hcv] using h.1
          · exact absurd (dtorTop_iff.2 ⟨rest, h⟩) (hf v)
        have hz0 : a.own c = .none := by
          rw [← hz]; subst hp; simp [EState.after, hcv]
        have hl0 : l = [] := by
          cases hl with
          | nil => rfl
          | cons h => exact absurd h (quietC _ hz0 _)
        have hd0 : a.own d = .none := by
          rcases hidle d (fun t' => sne d t' h2) with h | ⟨d', hd⟩
          · exact h
          · exact absurd (top hd).2 (hn _)
        subst hl0
        refine .jump rfl (by show s'.cur t = _; rw [h1]; simp) hn (.nil fun w h => quietC d hd0 w ((hx d w).1 h)) hz hf ?_
        have : a.g t = .none := by rw [hg, hz0]; simp [stack]
        subst hp; simp [EState.after, this, hd0]
      | ended h1 hx hf =>
        have hz : (a.after s' t []).own c = .none := by
          rcases hR c hc (by show s'.cur t ≠ _; rw [h1]; simp) with h | ⟨v, rest, h⟩
          · exact gz h.1 h.2
          · have h : s'.frames c = _ := h
            rw [hf] at h; simp at h
        have hl0 : l = [] := by
          cases hl with
          | nil => rfl
          | cons h => exact absurd h (quietC _ hz _)
        exact .ended hl0 (by show s'.cur t = _; rw [h1]; simp) hz (fun v hv => by
          replace hv : DtorTop v (s'.frames c) := hv
          rw [hf] at hv; exact hv)
    · intro t' c' ht h' l' hl'
      have hcl' : ∀ x ∈ c' :: l', x ≠ c := by
        rintro x hx rfl
        rcases List.mem_cons.1 hx with rfl | hx
        · exact ht (uni _ _ _ h' hc)
        · exact chainRun hl' hc hx
      have hgt : (a.after s' t ps).g t' = a.g t' := by simp [EState.after, ht]
      cases hsum with
      | quiet h1 hx hp =>
        refine ⟨by show s'.cur t' = _; rw [h1]; exact h', hgt, chain_congr hl' fun d _ w => hx d w, fun x hm => ?_⟩
        have := hcl' x hm
        rcases hp with rfl | rfl | ⟨ex, rfl⟩ <;> simp [EState.after, this]
      | spawn h1 hx =>
        refine ⟨?_, hgt, chain_congr hl' fun d _ w => hx d w, fun x hm => rfl⟩
        show s'.cur t' = _
        rw [h1, upd_apply, if_neg]; exact h'
        rintro rfl; rw [hi.ci.tids _ (Nat.le_refl _)] at h'; cases h'
      | @push v rest rest' h1 hx h2 hf hrr =>
        have hvl : ∀ x ∈ c' :: l', x ≠ v := by
          rintro x hm rfl
          rcases List.mem_cons.1 hm with rfl | hm
          · exact sne _ _ h2 h'
          · obtain ⟨_, w, hw⟩ := chainMem hl' hm
            rw [hrr] at hw; exact absurd hw (by simp [DtorTop])
        refine ⟨by show s'.cur t' = _; rw [h1]; simp [ht, h'], hgt, chain_congr hl' fun d hd w => ?_, fun x hm => ?_⟩
        · rw [show ((a.after s' t [(v, Prim.throw)]).st) = s' from rfl, hx]
          simp [hvl d hd]
        · simp [EState.after, hvl x hm]
      | @pop w e h1 hw hu hx hf =>
        refine ⟨by show s'.cur t' = _; rw [h1]; simp [ht, h'], hgt, chain_congr hl' fun d hd w => ?_, fun x hm => ?_⟩
        · rw [show ((a.after s' t [(c, .beginCatch e), (c, .endCatch)]).st) = s' from rfl, hx]
          simp [hcl' d hd]
        · simp [EState.after, hcl' x hm]
      | @jump d ps h1 hx h2 hn hf hp =>
        have hvl : ∀ x ∈ c' :: l', x ≠ d := by
          rintro x hm rfl
          rcases List.mem_cons.1 hm with rfl | hm
          · exact sne _ _ h2 h'
          · obtain ⟨_, w, hw⟩ := chainMem hl' hm
            exact hn _ hw
        refine ⟨by show s'.cur t' = _; rw [h1]; simp [ht, h'], hgt, chain_congr hl' fun d _ w => hx d w, fun x hm => ?_⟩
        subst hp; simp [EState.after, hvl x hm]
      | ended h1 hx hf =>
        exact ⟨by show s'.cur t' = _; rw [h1]; simp [ht, h'], hgt, chain_congr hl' fun d _ w => hx d w, fun x hm => rfl⟩

theorem binv {a : EState} (h : Hist CleanSwitches a) (heb : a.st.early = false) : BInv a := by
  induction h with
  | init =>
    refine ⟨.init, rfl, fun d h => (by cases h), fun d w h => ?_, hist_own (R := CleanSwitches) .init rfl, fun t c h => ⟨[], .nil ?_, rfl⟩, fun _ _ => .inl rfl, ?_, fun _ _ => rfl⟩
    · obtain ⟨x, h, _⟩ := h; cases h
    · exact unw_inflight (reachable_inv .init rfl) (by
        have := hist_own (R := CleanSwitches) .init rfl c
        change (0 : Int) = inflight (init.frames c) at this
        omega)
    · rintro c w w' ⟨x, h1, _⟩; cases h1
  | @step a b t ha hs hR ih =>
    have he0 := estep_early hs heb
    have ih := ih he0
    have hB := step_B ih hs hR heb
    have top : ∀ {d w}, UnwoundFor a.st d w → a.st.status w = .suspended ∧ DtorTop d (a.st.frames w) := ih.top
    have sumB : ∀ {op s'}, op ≠ Op.swallow → step a.st t op = .ok s' → s'.early = false → ∃ c, a.st.cur t = some c ∧ SumB a.st t c s' (prims a.st t op) := ih.sum
    obtain ⟨c, hc, ⟨l, hl, hsw⟩, hoth⟩ := hB
    obtain ⟨hr, _, hui, hwait, hfl, hrun, hidle, huniq, hnew⟩ := ih
    have hi := reachable_inv hr he0
    refine ⟨hist_reach (R := CleanSwitches) (.step ha hs hR), heb, hist_uinv (R := CleanSwitches) (.step ha hs hR) heb, ?_, hist_own (R := CleanSwitches) (.step ha hs hR) heb, fun t' c' h' => ?_, ?_, ?_, ?_⟩
    · cases hs with
      | endCatch => exact hwait
      | @lib op s' ho hs =>
        obtain ⟨c2, hc2, hsum⟩ := sumB ho hs heb
        rw [hc] at hc2; cases hc2
        generalize prims a.st t op = ps at *
        show ∀ d w, UnwoundFor s' d w → DtorTop d (s'.frames w)
        have keep : ∀ {d w}, UnwoundFor a.st d w → s'.cur t ≠ some w → DtorTop d (s'.frames w) := by
          intro d w h hn
          rw [step_frames hi hs (top h).1 hn]; exact (top h).2
        have nrun : ∀ {d w}, UnwoundFor a.st d w → w ≠ c := by
          rintro d w h rfl
          have := (top h).1
          rw [(hi.ci.curRun _ _).1 hc] at this; cases this
        intro d w h
        cases hsum with
        | quiet h1 hx => have h := (hx _ _).1 h; exact keep h (by rw [h1, hc]; simpa using Ne.symm (nrun h))
        | spawn h1 hx =>
          have h := (hx _ _).1 h
          refine keep h ?_
          rw [h1, upd_apply, if_neg, hc]
          · simpa using Ne.symm (nrun h)
          · rintro rfl; rw [hi.ci.tids _ (Nat.le_refl _)] at hc; cases hc
        | @push v rest rest' h1 hx hsu hf hrr =>
          rcases (hx _ _).1 h with h | ⟨rfl, rfl⟩
          · refine keep h ?_
            rw [h1]; simp only [upd_apply, if_true, ne_eq, Option.some.injEq]
            rintro rfl
            have := (top h).2; rw [hrr] at this; exact absurd this (by simp [DtorTop])
          · rw [hf]; exact dtorTop_iff.2 ⟨_, rfl⟩
        | @pop w0 e h1 hw hu hx hf =>
          obtain ⟨h, hd⟩ := (hx _ _).1 h
          refine keep h ?_
          rw [h1]; simp only [upd_apply, if_true, ne_eq, Option.some.injEq]
          rintro rfl
          obtain ⟨r1, e1⟩ := dtorTop_iff.1 (top h).2
          obtain ⟨r2, e2⟩ := dtorTop_iff.1 (top hw).2
          rw [e1] at e2; cases e2; exact hd rfl
        | @jump d0 ps h1 hx hsu hn hf hp =>
          have h := (hx _ _).1 h
          refine keep h ?_
          rw [h1]; simp only [upd_apply, if_true, ne_eq, Option.some.injEq]
          rintro rfl
          exact hn _ (top h).2
        | ended h1 hx hf => exact keep ((hx _ _).1 h) (by rw [h1]; simp)
    · by_cases e : t' = t
      · subst e
        cases hsw with
        | stay h hl ho hg => rw [h] at h'; cases h'; exact ⟨l, hl, hg⟩
        | push h hl ho hg => rw [h] at h'; cases h'; exact ⟨_, hl, hg⟩
        | pop e h hl ho hz hf hg => rw [h] at h'; cases h'; exact ⟨_, hl, hg⟩
        | jump e h hd hl hz hf hg => rw [h] at h'; cases h'; exact ⟨_, hl, by rw [hg]; simp [stack]⟩
        | ended e h hz hf => rw [h] at h'; cases h'
      · cases hs with
        | endCatch hc2 hn =>
          obtain ⟨l', hl', hg'⟩ := hrun _ _ h'
          obtain ⟨_, h2, h3, h4⟩ := hoth t' c' e h' l' hl'
          refine ⟨l', h3, ?_⟩
          rw [h2, hg', h4 c' (by simp), stack_congr fun x hx => h4 x (by simp [hx])]
        | @lib op s' ho hs =>
          obtain ⟨c2, hc2, hsum⟩ := sumB ho hs heb
          rw [hc] at hc2; cases hc2
          by_cases en : a.st.cur t' = some c'
          · obtain ⟨l', hl', hg'⟩ := hrun _ _ en
            obtain ⟨_, h2, h3, h4⟩ := hoth t' c' e en l' hl'
            refine ⟨l', h3, ?_⟩
            rw [h2, hg', h4 c' (by simp), stack_congr fun x hx => h4 x (by simp [hx])]
          · generalize prims a.st t op = ps at *
            have key : t' = a.st.nextTid ∧ c' = a.st.nextCtx ∧ ps = [] ∧ (∀ d w, UnwoundFor s' d w ↔ UnwoundFor a.st d w) := by
              replace h' : s'.cur t' = some c' := h'
              cases hsum with
              | quiet h1 => rw [h1] at h'; exact absurd h' en
              | spawn h1 hx =>
                rw [h1, upd_apply] at h'
                split at h'
                · cases h'; exact ⟨by assumption, rfl, rfl, hx⟩
                · exact absurd h' en
              | push h1 | pop h1 | jump h1 | ended h1 => rw [h1, upd_apply, if_neg e] at h'; exact absurd h' en
            obtain ⟨rfl, rfl, rfl, hx⟩ := key
            have hab : a.st.status a.st.nextCtx = .absent := (hi.ci.absent _).2 (Nat.le_refl _)
            have h0 : a.own a.st.nextCtx = .none := by
              rcases hidle a.st.nextCtx (fun t' h => by rw [(hi.ci.curRun _ _).1 h] at hab; cases hab) with h | ⟨d, hd⟩
              · exact h
              · have := (top hd).1; rw [hab] at this; cases this
            refine ⟨[], .nil fun w hw => ?_, ?_⟩
            · exact unw_inflight hi (by rw [hi.ci.fAbsent _ hab]; rfl) w ((hx _ w).1 hw)
            · show upd a.g t _ _ = (a.own _).on _
              rw [h0, upd_apply, if_neg e, hnew _ (Nat.le_refl _)]; rfl
    · intro c' h'
      cases hs with
      | @endCatch c2 hc2 hn =>
        replace h' : ∀ t, a.st.cur t ≠ some c' := h'
        rcases hidle c' h' with h | h
        · have : c' ≠ c2 := fun e => h' t (e ▸ hc2)
          exact .inl (by simp [EState.after, this, h])
        · exact .inr h
      | @lib op s' ho hs =>
        obtain ⟨c2, hc2, hsum⟩ := sumB ho hs heb
        rw [hc] at hc2; cases hc2
        generalize prims a.st t op = ps at *
        replace h' : ∀ t, s'.cur t ≠ some c' := h'
        by_cases ecc : c' = c
        · subst ecc
          cases hsw with
          | stay h => exact absurd h (h' t)
          | push h hl ho hg => cases hl with | cons h _ => exact .inr ⟨_, h⟩
          | pop e h hl ho hz hf hg => exact .inl hz
          | jump e h hd hl hz hf hg => exact .inl hz
          | ended e h hz hf => exact .inl hz
        · have hold : ∀ t', a.st.cur t' ≠ some c' := by
            intro t' h2
            by_cases e : t' = t
            · subst e; rw [hc] at h2; cases h2; exact ecc rfl
            · obtain ⟨l', hl', _⟩ := hrun _ _ h2
              exact h' t' (hoth t' c' e h2 l' hl').1
          have hid := hidle c' hold
          cases hsum with
          | quiet h1 hx hp =>
            refine hid.imp (fun h => ?_) fun ⟨d, hd⟩ => ⟨d, (hx d c').2 hd⟩
            rcases hp with rfl | rfl | ⟨ex, rfl⟩ <;> simp [EState.after, ecc, h]
          | spawn h1 hx => exact hid.imp id fun ⟨d, hd⟩ => ⟨d, (hx d c').2 hd⟩
          | @push v rest rest' h1 hx h2 hf hrr =>
            have hne : c' ≠ v := fun e => h' t (by rw [h1]; simp [e])
            exact hid.imp (fun h => by simp [EState.after, hne, h]) fun ⟨d, hd⟩ => ⟨d, (hx d c').2 (.inl hd)⟩
          | @pop w e h1 hw hu hx hf =>
            refine hid.imp (fun h => by simp [EState.after, ecc, h]) fun ⟨d, hd⟩ => ⟨d, (hx d c').2 ⟨hd, ?_⟩⟩
            rintro rfl
            exact h' t (by rw [h1, hu _ hd]; simp)
          | @jump d ps h1 hx h2 hn hf hp =>
            have hne : c' ≠ d := fun e => h' t (by rw [h1]; simp [e])
            refine hid.imp (fun h => ?_) fun ⟨d, hd⟩ => ⟨d, (hx d c').2 hd⟩
            subst hp; simp [EState.after, hne, h]
          | ended h1 hx hf => exact hid.imp id fun ⟨d, hd⟩ => ⟨d, (hx d c').2 hd⟩
    · cases hs with
      | endCatch => exact huniq
      | @lib op s' ho hs =>
        obtain ⟨c2, hc2, hsum⟩ := sumB ho hs heb
        generalize prims a.st t op = ps at *
        show ∀ c w w', UnwoundFor s' c w → UnwoundFor s' c w' → w = w'
        intro d w w' h1 h2
        cases hsum with
        | quiet _ hx | spawn _ hx | jump _ hx | ended _ hx => exact huniq d w w' ((hx _ _).1 h1) ((hx _ _).1 h2)
        | pop _ _ _ hx => exact huniq d w w' ((hx _ _).1 h1).1 ((hx _ _).1 h2).1
        | @push v rest rest' hcu hx hsu hf hrr =>
          have hvn : ∀ w, ¬ UnwoundFor a.st v w := by
            refine unw_inflight hi ?_
            have := hfl v
            rcases hidle v (fun t' h => by rw [(hi.ci.curRun _ _).1 h] at hsu; cases hsu) with h | ⟨d, hd⟩
            · rw [h] at this; simp only [Glob.none] at this; omega
            · have := (top hd).2; rw [hrr] at this; exact absurd this (by simp [DtorTop])
          rcases (hx _ _).1 h1 with h1 | ⟨e1, rfl⟩ <;> rcases (hx _ _).1 h2 with h2 | ⟨e2, rfl⟩
          · exact huniq d w w' h1 h2
          · exact absurd (e2 ▸ h1) (hvn _)
          · exact absurd (e1 ▸ h2) (hvn _)
          · rfl
    · intro t' h'
      have hlt : a.st.nextTid ≤ t → False := fun h => by rw [hi.ci.tids _ h] at hc; cases hc
      have e1 : a.st.nextTid ≤ t' := by
        cases hs with
        | endCatch => exact h'
        | lib ho hs => exact Nat.le_trans (step_nextTid hs) h'
      have : t' ≠ t := fun e => hlt (e ▸ e1)
      cases hs <;> simp [EState.after, this, hnew _ e1]

end Verif.EH.U
