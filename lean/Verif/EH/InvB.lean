import Verif.EH.Inv

/-! # Invariants of the exception state if contexts are left without exceptions (proofs) -/

namespace Verif.EH
open Verif.Fiber

structure BInv (a : EState) : Prop where
  r : Reachable a.st
  fl : ∀ c, (a.own c).uncaught = inflight (a.st.frames c)
  run : ∀ t c, a.st.cur t = some c → ∃ l, Chain a.st c l ∧ a.g t = (a.own c).on (stack a.own l)
  idle : ∀ c, (∀ t, a.st.cur t ≠ some c) → a.own c = .none ∨ ∃ d, UnwoundFor a.st d c
  uniq : ∀ c w w', UnwoundFor a.st c w → UnwoundFor a.st c w' → w = w'
  new : ∀ t, a.st.nextTid ≤ t → a.g t = .none

/-- a step of thread `t`, which executed `c` with the waiting contexts `l` -/
inductive Sw (a b : EState) (t : Tid) (c : CtxId) (l : List CtxId) : Prop
  | stay (h : b.st.cur t = some c) (hl : Chain b.st c l) (ho : ∀ x ∈ l, b.own x = a.own x) (hg : b.g t = (b.own c).on (stack b.own l))
  | push {v} (h : b.st.cur t = some v) (hl : Chain b.st v (c :: l)) (ho : ∀ x ∈ c :: l, b.own x = a.own x) (hg : b.g t = (b.own v).on (stack b.own (c :: l)))
  | pop {w l'} (e : l = w :: l') (h : b.st.cur t = some w) (hl : Chain b.st w l') (ho : ∀ x ∈ w :: l', b.own x = a.own x) (hz : b.own c = .none) (hf : ∀ v, ¬ DtorTop v (b.st.frames c))
      (hg : b.g t = (b.own w).on (stack b.own l'))
  | jump {d} (e : l = []) (h : b.st.cur t = some d) (hd : ∀ v, ¬ DtorTop v (a.st.frames d)) (hl : Chain b.st d []) (hz : b.own c = .none) (hf : ∀ v, ¬ DtorTop v (b.st.frames c)) (hg : b.g t = b.own d)
  | ended (e : l = []) (h : b.st.cur t = none) (hz : b.own c = .none) (hf : ∀ v, ¬ DtorTop v (b.st.frames c))

theorem step_B {a b : EState} {t : Tid} (ha : BInv a) (hs : EStep a t b) (hR : CleanSwitches a t b) : ∃ c, a.st.cur t = some c ∧ (∃ l, Chain a.st c l ∧ Sw a b t c l) ∧
    (∀ t' c', t' ≠ t → a.st.cur t' = some c' → ∀ l, Chain a.st c' l → b.st.cur t' = some c' ∧ b.g t' = a.g t' ∧ Chain b.st c' l ∧ ∀ x ∈ c' :: l, b.own x = a.own x) := by
  obtain ⟨hr, hfl, hrun, hidle, huniq, hnew⟩ := ha
  have hi := reachable_inv hr
  have uni : ∀ t t' c, a.st.cur t = some c → a.st.cur t' = some c → t = t' := by
    intro t t' c h1 h2
    have h1 := (hi.ci.curRun t c).1 h1
    have h2 := (hi.ci.curRun t' c).1 h2
    rw [h1] at h2; cases h2; rfl
  have sne : ∀ v t', a.st.status v = .suspended → a.st.cur t' ≠ some v := by
    intro v t' hv h'
    rw [(hi.ci.curRun t' v).1 h'] at hv; cases hv
  have quietC : ∀ c, a.own c = .none → ∀ w, ¬ UnwoundFor a.st c w := by
    intro c h w
    refine unw_inflight hi ?_ w
    have := hfl c
    rw [h] at this
    simp only [Glob.none] at this
    omega
  have chainMem : ∀ {c l x}, Chain a.st c l → x ∈ l → a.st.status x = .suspended ∧ ∃ v, DtorTop v (a.st.frames x) := by
    intro c l x h hx
    obtain ⟨d, hd⟩ := chain_mem h hx
    exact ⟨(unw_top hi hd).1, d, (unw_top hi hd).2⟩
  have chainRun : ∀ {c l x t'}, Chain a.st c l → a.st.cur t' = some x → x ∉ l := by
    intro c l x t' h hx hm
    exact sne _ _ (chainMem h hm).1 hx
  cases hs with
  | @endCatch c hc hn =>
    obtain ⟨l, hl, hg⟩ := hrun t c hc
    refine ⟨c, hc, ⟨l, hl, .stay hc hl (fun x hx => ?_) ?_⟩, fun t' c' ht h' l' hl' => ⟨h', ?_, hl', fun x hx => ?_⟩⟩
    · have : x ≠ c := fun e => chainRun hl hc (e ▸ hx)
      simp [EState.after, this]
    · have : stack (a.after a.st t [(c, .endCatch)]).own l = stack a.own l := stack_congr fun x hx => by
        have : x ≠ c := fun e => chainRun hl hc (e ▸ hx)
        simp [EState.after, this]
      rw [this]
      simp only [EState.after, List.foldl_cons, List.foldl_nil, upd_apply, if_true, hg]
      exact app_on _ _ _ fun _ => hn
    · simp [EState.after, ht]
    · have : x ≠ c := by
        rintro rfl
        rcases List.mem_cons.1 hx with rfl | hx
        · exact ht (uni _ _ _ h' hc)
        · exact chainRun hl' hc hx
      simp [EState.after, this]
  | @lib op s' ho hs =>
    obtain ⟨c, hc, hsum⟩ := step_sum hi ho hs
    generalize hps : prims a.st t op = ps at *
    obtain ⟨l, hl, hg⟩ := hrun t c hc
    have hcl : c ∉ l := chainRun hl hc
    have hflb : ∀ c, ((a.after s' t ps).own c).uncaught = inflight (s'.frames c) := by
      intro c
      have := step_fl hi ho hs c
      unfold Fl at this
      simp only [EState.after]
      rw [own_uncaught, hfl, this, hps]
    have gz : ∀ {c}, ((a.after s' t ps).own c).caught = [] → inflight (s'.frames c) = 0 → (a.after s' t ps).own c = .none := by
      intro c h1 h2
      refine Glob.ext' h1 ?_
      rw [hflb, h2]; rfl
    refine ⟨c, hc, ⟨l, hl, ?_⟩, ?_⟩
    · cases hsum with
      | quiet h1 hx hp =>
        have ho : ∀ x ∈ l, (a.after s' t ps).own x = a.own x := fun x hm => by
          have : x ≠ c := fun e => hcl (e ▸ hm)
          rcases hp with rfl | rfl | ⟨ex, rfl⟩ <;> simp [EState.after, this]
        refine .stay (by show s'.cur t = _; rw [h1]; exact hc) (chain_congr hl fun d _ w => hx d w) ho ?_
        rw [stack_congr ho]
        rcases hp with rfl | rfl | ⟨ex, rfl⟩ <;> simp only [EState.after, List.foldl_cons, List.foldl_nil, upd_apply, if_true, hg]
        · exact app_on _ _ _ (by simp)
        · exact app_on _ _ _ (by simp)
      | @early v e h1 hx h2 =>
        have ho : (a.after s' t [(v, .throw), (v, .beginCatch e), (v, .endCatch)]).own = a.own := by
          funext x; by_cases e : x = v
          · subst e; simp [EState.after, Prim.app]
          · simp [EState.after, e]
        refine .stay (by show s'.cur t = _; rw [h1]; exact hc) (chain_congr hl fun d _ w => hx d w) (fun x _ => by rw [ho]) ?_
        rw [ho, ← hg]; simp [EState.after, Prim.app]
      | spawn h1 hx =>
        refine .stay (l := l) ?_ (chain_congr hl fun d _ w => hx d w) (fun x _ => rfl) ?_
        · show s'.cur t = _
          rw [h1, upd_apply, if_neg]; exact hc
          rintro rfl; rw [hi.ci.tids _ (Nat.le_refl _)] at hc; cases hc
        · simpa [EState.after] using hg
      | @push v rest rest' h1 hx h2 hf hrr =>
        have hcv : c ≠ v := fun e => sne _ _ h2 (e ▸ hc)
        have hvn : a.own v = .none := by
          rcases hidle v (fun t' => sne v t' h2) with h | ⟨d, hd⟩
          · exact h
          · have := (unw_top hi hd).2; rw [hrr] at this; exact absurd this (by simp [DtorTop])
        have hvl : v ∉ l := fun hm => by
          obtain ⟨_, w, hw⟩ := chainMem hl hm
          rw [hrr] at hw; exact absurd hw (by simp [DtorTop])
        have ho : ∀ x ∈ c :: l, (a.after s' t [(v, .throw)]).own x = a.own x := fun x hm => by
          have : x ≠ v := by rintro rfl; rcases List.mem_cons.1 hm with rfl | hm; exact hcv rfl; exact hvl hm
          simp [EState.after, this]
        refine .push (v := v) (by show s'.cur t = _; rw [h1]; simp) (.cons ((hx v c).2 (.inr ⟨rfl, rfl⟩)) (chain_congr hl fun d hd w => ?_)) ho ?_
        · rw [show ((a.after s' t [(v, Prim.throw)]).st) = s' from rfl, hx]
          have : d ≠ v := by rintro rfl; rcases List.mem_cons.1 hd with rfl | hm; exact hcv rfl; exact hvl hm
          simp [this]
        · rw [stack_congr ho]
          simp only [EState.after, List.foldl_cons, List.foldl_nil, upd_apply, if_true, hvn, stack, ← hg]
          exact (congrArg _ (none_on _).symm).trans (app_on _ _ _ (by simp))
      | @pop w e h1 hw hu hx hf =>
        have hcw : c ≠ w := fun e => sne _ _ (unw_top hi hw).1 (e ▸ hc)
        have hz : (a.after s' t [(c, .beginCatch e), (c, .endCatch)]).own c = .none := by
          rcases hR c hc (by show s'.cur t ≠ _; rw [h1]; simp [Ne.symm hcw]) with h | ⟨v, rest, h⟩
          · exact gz (by simpa [EState.after, Prim.app] using h.1) h.2
          · have h : s'.frames c = _ := h
            rw [hf] at h; simp at h
        cases hl with
        | nil h => exact absurd hw (h w)
        | @cons _ w' l' hw' hl' =>
          have := hu _ hw'; subst this
          have ho : ∀ x ∈ w' :: l', (a.after s' t [(c, .beginCatch e), (c, .endCatch)]).own x = a.own x := fun x hm => by
            have : x ≠ c := fun e => hcl (e ▸ hm)
            simp [EState.after, this]
          refine .pop rfl (by show s'.cur t = _; rw [h1]; simp) (chain_congr hl' fun d hd w => ?_) ho hz (fun v hv => by
            replace hv : DtorTop v (s'.frames c) := hv
            rw [hf] at hv; exact hv) ?_
          · rw [show ((a.after s' t [(c, .beginCatch e), (c, .endCatch)]).st) = s' from rfl, hx]
            have : d ≠ c := fun e => hcl (e ▸ hd)
            simp [this]
          · have h1 : (a.after s' t [(c, .beginCatch e), (c, .endCatch)]).g t = ((a.after s' t [(c, .beginCatch e), (c, .endCatch)]).own c).on (stack a.own (w' :: l')) := by
              simp only [EState.after, List.foldl_cons, List.foldl_nil, upd_apply, if_true, hg]
              rw [app_on (.beginCatch e) _ _ (by simp), app_on .endCatch _ _ (by simp [Prim.app])]
            rw [h1, hz, none_on]
            exact (stack_congr ho).symm
      | @jump d ps h1 hx h2 hn hf hp =>
        have hcv : c ≠ d := fun e => sne _ _ h2 (e ▸ hc)
        have hz : (a.after s' t ps).own c = .none := by
          rcases hR c hc (by show s'.cur t ≠ _; rw [h1]; simp [Ne.symm hcv]) with h | ⟨v, rest, h⟩
          · refine gz ?_ h.2
            rcases hp with rfl | rfl <;> simpa [EState.after, hcv] using h.1
          · exact absurd (dtorTop_iff.2 ⟨rest, h⟩) (hf v)
        have hz0 : a.own c = .none := by
          rw [← hz]; rcases hp with rfl | rfl <;> simp [EState.after, hcv]
        have hl0 : l = [] := by
          cases hl with
          | nil => rfl
          | cons h => exact absurd h (quietC _ hz0 _)
        have hd0 : a.own d = .none := by
          rcases hidle d (fun t' => sne d t' h2) with h | ⟨d', hd⟩
          · exact h
          · exact absurd (unw_top hi hd).2 (hn _)
        subst hl0
        refine .jump rfl (by show s'.cur t = _; rw [h1]; simp) hn (.nil fun w h => quietC d hd0 w ((hx d w).1 h)) hz hf ?_
        have : a.g t = .none := by rw [hg, hz0]; simp [stack]
        rcases hp with rfl | rfl <;> simp [EState.after, this, hd0]
      | ended h1 hx hf =>
        have hz : (a.after s' t []).own c = .none := by
          rcases hR c hc (by show s'.cur t ≠ _; rw [h1]; simp) with h | ⟨v, rest, h⟩
          · exact gz h.1 h.2
          · have h : s'.frames c = _ := h
            rw [hf] at h; simp at h
        have hl0 : l = [] := by
          cases hl with
          | nil => rfl
          | cons h => exact absurd h (quietC _ hz _)
        exact .ended hl0 (by show s'.cur t = _; rw [h1]; simp) hz (fun v hv => by
          replace hv : DtorTop v (s'.frames c) := hv
          rw [hf] at hv; exact hv)
    · intro t' c' ht h' l' hl'
      have hcl' : ∀ x ∈ c' :: l', x ≠ c := by
        rintro x hx rfl
        rcases List.mem_cons.1 hx with rfl | hx
        · exact ht (uni _ _ _ h' hc)
        · exact chainRun hl' hc hx
      have hgt : (a.after s' t ps).g t' = a.g t' := by simp [EState.after, ht]
      cases hsum with
      | quiet h1 hx hp =>
        refine ⟨by show s'.cur t' = _; rw [h1]; exact h', hgt, chain_congr hl' fun d _ w => hx d w, fun x hm => ?_⟩
        have := hcl' x hm
        rcases hp with rfl | rfl | ⟨ex, rfl⟩ <;> simp [EState.after, this]
      | @early v e h1 hx h2 =>
        refine ⟨by show s'.cur t' = _; rw [h1]; exact h', hgt, chain_congr hl' fun d _ w => hx d w, fun x hm => ?_⟩
        by_cases e : x = v
        · subst e; simp [EState.after, Prim.app]
        · simp [EState.after, e]
      | spawn h1 hx =>
        refine ⟨?_, hgt, chain_congr hl' fun d _ w => hx d w, fun x hm => rfl⟩
        show s'.cur t' = _
        rw [h1, upd_apply, if_neg]; exact h'
        rintro rfl; rw [hi.ci.tids _ (Nat.le_refl _)] at h'; cases h'
      | @push v rest rest' h1 hx h2 hf hrr =>
        have hvl : ∀ x ∈ c' :: l', x ≠ v := by
          rintro x hm rfl
          rcases List.mem_cons.1 hm with rfl | hm
          · exact sne _ _ h2 h'
          · obtain ⟨_, w, hw⟩ := chainMem hl' hm
            rw [hrr] at hw; exact absurd hw (by simp [DtorTop])
        refine ⟨by show s'.cur t' = _; rw [h1]; simp [ht, h'], hgt, chain_congr hl' fun d hd w => ?_, fun x hm => ?_⟩
        · rw [show ((a.after s' t [(v, Prim.throw)]).st) = s' from rfl, hx]
          simp [hvl d hd]
        · simp [EState.after, hvl x hm]
      | @pop w e h1 hw hu hx hf =>
        refine ⟨by show s'.cur t' = _; rw [h1]; simp [ht, h'], hgt, chain_congr hl' fun d hd w => ?_, fun x hm => ?_⟩
        · rw [show ((a.after s' t [(c, .beginCatch e), (c, .endCatch)]).st) = s' from rfl, hx]
          simp [hcl' d hd]
        · simp [EState.after, hcl' x hm]
      | @jump d ps h1 hx h2 hn hf hp =>
        have hvl : ∀ x ∈ c' :: l', x ≠ d := by
          rintro x hm rfl
          rcases List.mem_cons.1 hm with rfl | hm
          · exact sne _ _ h2 h'
          · obtain ⟨_, w, hw⟩ := chainMem hl' hm
            exact hn _ hw
        refine ⟨by show s'.cur t' = _; rw [h1]; simp [ht, h'], hgt, chain_congr hl' fun d _ w => hx d w, fun x hm => ?_⟩
        rcases hp with rfl | rfl <;> simp [EState.after, hvl x hm]
      | ended h1 hx hf =>
        exact ⟨by show s'.cur t' = _; rw [h1]; simp [ht, h'], hgt, chain_congr hl' fun d _ w => hx d w, fun x hm => rfl⟩

theorem binv {a : EState} (h : Hist CleanSwitches a) : BInv a := by
  induction h with
  | init =>
    refine ⟨.init, hist_own (R := CleanSwitches) .init, fun t c h => ⟨[], .nil ?_, rfl⟩, fun _ _ => .inl rfl, ?_, fun _ _ => rfl⟩
    · exact unw_inflight (reachable_inv .init) (by
        have := hist_own (R := CleanSwitches) .init c
        change (0 : Int) = inflight (init.frames c) at this
        omega)
    · rintro c w w' ⟨x, f, h1, _⟩; cases h1
  | @step a b t ha hs hR ih =>
    have hB := step_B ih hs hR
    obtain ⟨c, hc, ⟨l, hl, hsw⟩, hoth⟩ := hB
    obtain ⟨hr, hfl, hrun, hidle, huniq, hnew⟩ := ih
    have hi := reachable_inv hr
    refine ⟨hist_reach (R := CleanSwitches) (.step ha hs hR), hist_own (R := CleanSwitches) (.step ha hs hR), fun t' c' h' => ?_, ?_, ?_, ?_⟩
    · by_cases e : t' = t
      · subst e
        cases hsw with
        | stay h hl ho hg => rw [h] at h'; cases h'; exact ⟨l, hl, hg⟩
        | push h hl ho hg => rw [h] at h'; cases h'; exact ⟨_, hl, hg⟩
        | pop e h hl ho hz hf hg => rw [h] at h'; cases h'; exact ⟨_, hl, hg⟩
        | jump e h hd hl hz hf hg => rw [h] at h'; cases h'; exact ⟨_, hl, by rw [hg]; simp [stack]⟩
        | ended e h hz hf => rw [h] at h'; cases h'
      · cases hs with
        | endCatch hc2 hn =>
          obtain ⟨l', hl', hg'⟩ := hrun _ _ h'
          obtain ⟨_, h2, h3, h4⟩ := hoth t' c' e h' l' hl'
          refine ⟨l', h3, ?_⟩
          rw [h2, hg', h4 c' (by simp), stack_congr fun x hx => h4 x (by simp [hx])]
        | @lib op s' ho hs =>
          obtain ⟨c2, hc2, hsum⟩ := step_sum hi ho hs
          rw [hc] at hc2; cases hc2
          by_cases en : a.st.cur t' = some c'
          · obtain ⟨l', hl', hg'⟩ := hrun _ _ en
            obtain ⟨_, h2, h3, h4⟩ := hoth t' c' e en l' hl'
            refine ⟨l', h3, ?_⟩
            rw [h2, hg', h4 c' (by simp), stack_congr fun x hx => h4 x (by simp [hx])]
          · generalize prims a.st t op = ps at *
            have key : t' = a.st.nextTid ∧ c' = a.st.nextCtx ∧ ps = [] ∧ (∀ d w, UnwoundFor s' d w ↔ UnwoundFor a.st d w) := by
              replace h' : s'.cur t' = some c' := h'
              cases hsum with
              | quiet h1 | early h1 => rw [h1] at h'; exact absurd h' en
              | spawn h1 hx =>
                rw [h1, upd_apply] at h'
                split at h'
                · cases h'; exact ⟨by assumption, rfl, rfl, hx⟩
                · exact absurd h' en
              | push h1 | pop h1 | jump h1 | ended h1 => rw [h1, upd_apply, if_neg e] at h'; exact absurd h' en
            obtain ⟨rfl, rfl, rfl, hx⟩ := key
            have hab : a.st.status a.st.nextCtx = .absent := (hi.ci.absent _).2 (Nat.le_refl _)
            have h0 : a.own a.st.nextCtx = .none := by
              rcases hidle a.st.nextCtx (fun t' h => by rw [(hi.ci.curRun _ _).1 h] at hab; cases hab) with h | ⟨d, hd⟩
              · exact h
              · have := (unw_top hi hd).1; rw [hab] at this; cases this
            refine ⟨[], .nil fun w hw => ?_, ?_⟩
            · exact unw_inflight hi (by rw [hi.ci.fAbsent _ hab]; rfl) w ((hx _ w).1 hw)
            · show upd a.g t _ _ = (a.own _).on _
              rw [h0, upd_apply, if_neg e, hnew _ (Nat.le_refl _)]; rfl
    · intro c' h'
      cases hs with
      | @endCatch c2 hc2 hn =>
        replace h' : ∀ t, a.st.cur t ≠ some c' := h'
        rcases hidle c' h' with h | h
        · have : c' ≠ c2 := fun e => h' t (e ▸ hc2)
          exact .inl (by simp [EState.after, this, h])
        · exact .inr h
      | @lib op s' ho hs =>
        obtain ⟨c2, hc2, hsum⟩ := step_sum hi ho hs
        rw [hc] at hc2; cases hc2
        generalize prims a.st t op = ps at *
        replace h' : ∀ t, s'.cur t ≠ some c' := h'
        by_cases ecc : c' = c
        · subst ecc
          cases hsw with
          | stay h => exact absurd h (h' t)
          | push h hl ho hg => cases hl with | cons h _ => exact .inr ⟨_, h⟩
          | pop e h hl ho hz hf hg => exact .inl hz
          | jump e h hd hl hz hf hg => exact .inl hz
          | ended e h hz hf => exact .inl hz
        · have hold : ∀ t', a.st.cur t' ≠ some c' := by
            intro t' h2
            by_cases e : t' = t
            · subst e; rw [hc] at h2; cases h2; exact ecc rfl
            · obtain ⟨l', hl', _⟩ := hrun _ _ h2
              exact h' t' (hoth t' c' e h2 l' hl').1
          have hid := hidle c' hold
          cases hsum with
          | quiet h1 hx hp =>
            refine hid.imp (fun h => ?_) fun ⟨d, hd⟩ => ⟨d, (hx d c').2 hd⟩
            rcases hp with rfl | rfl | ⟨ex, rfl⟩ <;> simp [EState.after, ecc, h]
          | @early v e h1 hx h2 =>
            refine hid.imp (fun h => ?_) fun ⟨d, hd⟩ => ⟨d, (hx d c').2 hd⟩
            by_cases e : c' = v
            · subst e; simp [EState.after, Prim.app, h]
            · simp [EState.after, e, h]
          | spawn h1 hx => exact hid.imp id fun ⟨d, hd⟩ => ⟨d, (hx d c').2 hd⟩
          | @push v rest rest' h1 hx h2 hf hrr =>
            have hne : c' ≠ v := fun e => h' t (by rw [h1]; simp [e])
            exact hid.imp (fun h => by simp [EState.after, hne, h]) fun ⟨d, hd⟩ => ⟨d, (hx d c').2 (.inl hd)⟩
          | @pop w e h1 hw hu hx hf =>
            refine hid.imp (fun h => by simp [EState.after, ecc, h]) fun ⟨d, hd⟩ => ⟨d, (hx d c').2 ⟨hd, ?_⟩⟩
            rintro rfl
            exact h' t (by rw [h1, hu _ hd]; simp)
          | @jump d ps h1 hx h2 hn hf hp =>
            have hne : c' ≠ d := fun e => h' t (by rw [h1]; simp [e])
            refine hid.imp (fun h => ?_) fun ⟨d, hd⟩ => ⟨d, (hx d c').2 hd⟩
            rcases hp with rfl | rfl <;> simp [EState.after, hne, h]
          | ended h1 hx hf => exact hid.imp id fun ⟨d, hd⟩ => ⟨d, (hx d c').2 hd⟩
    · cases hs with
      | endCatch => exact huniq
      | @lib op s' ho hs =>
        obtain ⟨c2, hc2, hsum⟩ := step_sum hi ho hs
        generalize prims a.st t op = ps at *
        show ∀ c w w', UnwoundFor s' c w → UnwoundFor s' c w' → w = w'
        intro d w w' h1 h2
        cases hsum with
        | quiet _ hx | early _ hx | spawn _ hx | jump _ hx | ended _ hx => exact huniq d w w' ((hx _ _).1 h1) ((hx _ _).1 h2)
        | pop _ _ _ hx => exact huniq d w w' ((hx _ _).1 h1).1 ((hx _ _).1 h2).1
        | @push v rest rest' hcu hx hsu hf hrr =>
          have hvn : ∀ w, ¬ UnwoundFor a.st v w := by
            refine unw_inflight hi ?_
            have := hfl v
            rcases hidle v (fun t' h => by rw [(hi.ci.curRun _ _).1 h] at hsu; cases hsu) with h | ⟨d, hd⟩
            · rw [h] at this; simp only [Glob.none] at this; omega
            · have := (unw_top hi hd).2; rw [hrr] at this; exact absurd this (by simp [DtorTop])
          rcases (hx _ _).1 h1 with h1 | ⟨e1, rfl⟩ <;> rcases (hx _ _).1 h2 with h2 | ⟨e2, rfl⟩
          · exact huniq d w w' h1 h2
          · exact absurd (e2 ▸ h1) (hvn _)
          · exact absurd (e1 ▸ h2) (hvn _)
          · rfl
    · intro t' h'
      have hlt : a.st.nextTid ≤ t → False := fun h => by rw [hi.ci.tids _ h] at hc; cases hc
      have e1 : a.st.nextTid ≤ t' := by
        cases hs with
        | endCatch => exact h'
        | lib ho hs => exact Nat.le_trans (step_nextTid hi hs) h'
      have : t' ≠ t := fun e => hlt (e ▸ e1)
      cases hs <;> simp [EState.after, this, hnew _ e1]

end Verif.EH
