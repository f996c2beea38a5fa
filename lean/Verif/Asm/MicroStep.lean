import Verif.Asm.MicroSim

/-! # Switches instruction by instruction: every step is simulated (C82) -/

namespace Verif.Asm
namespace Micro
open Many

variable {A : Arch} {P : Port A} {X : Extra P} {D : Reads A} {e : Env A} {M M' : MCfg A} {c c' : Cfg A}

theorem CtxRel.mono {k : Nat} {x : Option (MCtx A)} (h : CtxRel P e c k x) (hx : c'.ctx k = c.ctx k) (h1 : k ≠ c.cur) (h2 : k ≠ c'.cur) : CtxRel P e c' k x := by
  have hp : ∀ t g q, parAt c k t g q → parAt c' k t g q := by
    rintro t g q (h3 | ⟨h3, -⟩)
    · exact .inl (hx.trans h3)
    · exact absurd h3 h1
  cases x with
  | none => exact ⟨h2, hx.trans h.2⟩
  | some y =>
    cases y with
    | born => exact ⟨h2, hx.trans h.2⟩
    | fresh f => obtain ⟨σ, h3, h4⟩ := h; exact ⟨σ, hx.trans h3, h4⟩
    | susp f => obtain ⟨σ, h3, h4⟩ := h; exact ⟨σ, hx.trans h3, h4⟩
    | user t r => exact hp _ _ _ h
    | busy t l σ p r rs => exact hp _ _ _ h

theorem micAcc_prog {x : Acc} {cs : List (Code A)} {s : St A} {a : A.W} (h : micAcc x cs s a) : progAccs x e cs s a := by
  match cs with
  | [] => exact h.elim
  | .jmp (i :: is) r :: cs => exact .inl (.inl h)
  | [.jmp [] r] => exact h.elim
  | .jmp [] r :: c :: cs => exact h.elim
  | .brz (i :: is) r z nz :: cs => exact .inl (.inl (.inl h))
  | .brz [] r z nz :: cs => exact h.elim

theorem micAcc_same {S : A.W → Prop} {s s' : St A} (h : Same S s s') (x : Acc) (cs : List (Code A)) (a : A.W) : micAcc x cs s a ↔ micAcc x cs s' a := by
  match cs with
  | [] => exact Iff.rfl
  | .jmp (i :: is) r :: cs => exact acc_same h i x a
  | [.jmp [] r] => exact Iff.rfl
  | .jmp [] r :: c :: cs => exact Iff.rfl
  | .brz (i :: is) r z nz :: cs => exact acc_same h i x a
  | .brz [] r z nz :: cs => exact Iff.rfl

/-- what the steps of the atomic system have to do with a step of the instruction level -/
def Abs (X : Extra P) (D : Reads A) (e : Env A) (M M' : MCfg A) (c₁ : Cfg A) : Lab A → Cfg A → Prop
  | .tau, c' => c' = c₁
  | .run, c' => Step X e c₁ .run c' ∧ ∀ a, c'.s.mem a ≠ c₁.s.mem a → M'.mem a ≠ M.mem a
  | .done i l σ, c' => Step X e c₁ l c' ∧ c₁.cur = i ∧ ∃ t p r q, M.ctx i = some (.busy t l σ p r [.jmp [] q]) ∧ Ready X D e M i σ l p ∧ Same (uses X D e l σ p) σ c₁.s ∧
      c'.s = (execs e p c₁.s).1 ∧ c'.s.gpr = r.gpr ∧ c'.s.fpr = r.fpr ∧ (execs e p c₁.s).2 = r.gpr q
  | .drop j, c' => Step X e c₁ (.drop j) c'
  | .spawn j, c' => Step X e c₁ (.spawn j) c'

/-- a call of a switching routine is a call in the atomic system -/
theorem call_at (L : Local X D) (h : Sim X D e M c) {i : Nat} {σ : St A} (hc : c.cur = i) (hs : Same (fun a => InR a (P.fctx σ) X.fp) σ c.s)
    (hk : CallAt X M i σ) : CallOk X c ∧ P.argF c.s = P.argF σ ∧ P.fctx c.s = P.fctx σ ∧ ∀ a, P.slot c.s a ↔ P.slot σ a := by
  obtain ⟨l1, l2, -, -, -, l6, l7, -⟩ := L.call (e := e) hs
  have hst : c.stk c.cur = M.stk i := by rw [(h.live_stk (.inl rfl)).2, hc]
  refine ⟨⟨fun a ha => ?_, fun a ha => ?_, l7 hk.nn⟩, l2, l1, l6⟩
  · rw [hst]; rw [l1] at ha; exact hk.foot a ha
  · rw [hst, l1]; exact hk.slot a ((l6 a).1 ha)

/-- what a call accesses -/
theorem ready_foot (F : Footprint X D) (L : Local X D) (h : Sim X D e M c) {i t : Nat}
    {r : Regs A} {l : Act} {p : List (Code A)} (hi : M.ctx i = some (.user t r)) (hc : c.cur = i) (hcs : c.s = ⟨r.gpr, r.fpr, c.s.mem⟩)
    (hr : Ready X D e M i (r.on M.mem) l p) (hq : ∀ a, (∀ k, M.ctx k ≠ none → M.stk k a → k = i ∨ tgt l = some k) → c.s.mem a = M.mem a) :
    (∀ a, progAccs .wr e p (r.on M.mem) a → M.stk i a ∨ ∃ k, tgt l = some k ∧ M.stk k a) ∧
    (∀ a, progAccs .wr e p (r.on M.mem) a → M.stk i a → InR a (P.fctx (r.on M.mem)) P.frame ∨ ∃ j, l = .make j) ∧
    (∀ a, progAccs .rd e p (r.on M.mem) a → M.stk i a ∨ (∃ k, tgt l = some k ∧ M.stk k a) ∨ ∀ j, M.ctx j ≠ none → ¬ M.stk j a) := by
  have hin : M.ctx i ≠ none := by rw [hi]; simp
  have hqi : ∀ a, M.stk i a → c.s.mem a = M.mem a := fun a ha => hq a fun k hk h1 => .inl (Classical.byContradiction fun hh => h.disj k i a hk hin hh h1 ha)
  have hqn : ∀ a, (∀ j, M.ctx j ≠ none → ¬ M.stk j a) → c.s.mem a = M.mem a := fun a ha => hq a fun k hk h1 => absurd h1 (ha k hk)
  have sm : ∀ S : A.W → Prop, (∀ a, S a → c.s.mem a = M.mem a) → Same S (r.on M.mem) c.s := fun S hS =>
    ⟨by rw [hcs]; rfl, by rw [hcs]; rfl, fun a ha => (hS a ha).symm⟩
  have hcall := fun (hk : CallAt X M i (r.on M.mem)) => call_at L h hc (sm _ fun a ha => hqi a (hk.foot a ha)) hk
  have switch : ∀ (k : Nat) (o : A.W → Prop), tgt l = some k → (∃ x, c.ctx k = some x) → i ≠ k → c.stk k = M.stk k → (∀ a, o a → ∀ j, M.ctx j ≠ none → ¬ M.stk j a) →
      CallOk X c → P.fctx c.s = P.fctx (r.on M.mem) →
      (∀ a, progAccs .rd e p c.s a → InR a (P.fctx c.s) X.fp ∨ c.stk k a ∨ o a) →
      (∀ a, progAccs .wr e p c.s a → InR a (P.fctx c.s) P.frame ∨ c.stk k a) →
      (∀ a, progAccs .wr e p (r.on M.mem) a → M.stk i a ∨ ∃ k, tgt l = some k ∧ M.stk k a) ∧
      (∀ a, progAccs .wr e p (r.on M.mem) a → M.stk i a → InR a (P.fctx (r.on M.mem)) P.frame ∨ ∃ j, l = .make j) ∧
      (∀ a, progAccs .rd e p (r.on M.mem) a → M.stk i a ∨ (∃ k, tgt l = some k ∧ M.stk k a) ∨ ∀ j, M.ctx j ≠ none → ¬ M.stk j a) := by
    intro k o hk ⟨x, hx⟩ hik hst ho hok hf hrd hwr
    have hkn : M.ctx k ≠ none := (hr.tgt_live hk).1
    have hfs : ∀ a, InR a (P.fctx c.s) X.fp → M.stk i a := fun a ha => by
      have := hok.foot a ha
      rwa [(h.live_stk (.inl rfl)).2, hc] at this
    have hqk : ∀ a, M.stk k a → c.s.mem a = M.mem a := fun a ha => hq a fun j hj h1 => .inr (by
      have hjk : j = k := Classical.byContradiction fun hh => h.disj j k a hj hkn hh h1 ha
      rw [hk, hjk])
    obtain ⟨-, -, x3⟩ := execs_same L.sane (e := e) p (sm (progAccs .rd e p c.s) fun a ha => by
      rcases hrd a ha with h1 | h1 | h1
      · exact hqi a (hfs a h1)
      · exact hqk a (hst ▸ h1)
      · exact hqn a (ho a h1)).symm (fun a ha => ha)
    refine ⟨fun a ha => ?_, fun a ha h2 => ?_, fun a ha => ?_⟩
    · rcases hwr a ((x3 _ a).2 ha) with h1 | h1
      · exact .inl (hfs a (inR_mono h1 X.frame))
      · exact .inr ⟨k, hk, hst ▸ h1⟩
    · rcases hwr a ((x3 _ a).2 ha) with h1 | h1
      · exact .inl (hf ▸ h1)
      · exact absurd (hst ▸ h1) (h.disj i k a hin hkn hik h2)
    · rcases hrd a ((x3 _ a).2 ha) with h1 | h1 | h1
      · exact .inl (hfs a h1)
      · exact .inr (.inl ⟨k, hk, hst ▸ h1⟩)
      · exact .inr (.inr (ho a h1))
  have hr0 := hr
  cases hr with
  | @resume k f hx hf hk =>
    obtain ⟨σ, k1, k2⟩ := (show ∃ σ, c.ctx k = some (.susp σ) ∧ P.fctx σ = f by have := h.ctx k; rw [hx] at this; exact this)
    obtain ⟨c1, c2, c3, -⟩ := hcall hk
    have hsi := h.inv.susp k σ k1
    obtain ⟨⟨m, m1, m2⟩, -⟩ := intact h.inv k1 (by rw [c2, hf, k2]) c1
    have hst := h.stk k _ hx (by simp)
    have hik : i ≠ k := fun hh => by subst hh; rw [hi] at hx; cases hx
    refine switch k (fun _ => False) rfl ⟨_, k1⟩ hik hst (fun _ h => h.elim) c1 c3 (fun a ha => ?_) (fun a ha => ?_)
    · rcases F.jump_rd m1 m2 (by rw [c2, hf, k2]) (ha.resolve_right id) with h1 | h1 | h1
      · exact .inl h1
      · exact .inr (.inl (hsi.foot a h1))
      · exact .inr (.inl (hsi.slot a h1).1)
    · rcases F.jump_wr m1 m2 (by rw [c2, hf, k2]) (ha.resolve_right id) with h1 | h1
      · exact .inl h1
      · exact .inr (hsi.slot a h1).1
  | @start k f hx hf hk =>
    obtain ⟨σ, k1, k2⟩ := (show ∃ σ, c.ctx k = some (.fresh σ) ∧ P.resM (exec e P.make σ).1 = f by have := h.ctx k; rw [hx] at this; exact this)
    obtain ⟨c1, c2, c3, -⟩ := hcall hk
    have hsi := h.inv.fresh k σ k1
    have hst := h.stk k _ hx (by simp)
    have hik : i ≠ k := fun hh => by subst hh; rw [hi] at hx; cases hx
    have ha0 : P.argF c.s = P.resM (exec e P.make σ).1 := by rw [c2, hf, k2]
    have hfo : ∀ a, InR a (P.argF c.s) P.mkeep → c.stk k a := fun a ha => hsi.foot a (ha0 ▸ ha)
    have hm1 : ∀ a, InR a (P.argF c.s) P.mkeep → c.s.mem a = (exec e P.make σ).1.mem a := fun a ha => hsi.mem a (ha0 ▸ ha)
    have hm2 : ∀ a, InR a (P.argF c.s) P.mkeep → ¬ InR a (P.fctx c.s) P.frame := fun a ha hb =>
      h.inv.disj c.cur k a (.inl rfl) (.inr (by rw [k1]; simp)) (hc ▸ hik) (c1.foot a (inR_mono hb X.frame)) (hfo a ha)
    refine switch k (fun _ => False) rfl ⟨_, k1⟩ hik hst (fun _ h => h.elim) c1 c3 (fun a ha => ?_) (fun a ha => ?_)
    · rcases F.start_rd hsi.mok hsi.pre ha0 hm1 hm2 ha with h1 | h1
      · exact .inl h1
      · exact .inr (.inl (hfo a h1))
    · rcases F.start_wr hsi.mok hsi.pre ha0 hm1 hm2 ha with h1 | h1
      · exact .inl h1
      · exact .inr (hfo a (L.mslot _ _ h1))
  | @ontop k f hx hf hk ho hd =>
    obtain ⟨σ, k1, k2⟩ := (show ∃ σ, c.ctx k = some (.susp σ) ∧ P.fctx σ = f by have := h.ctx k; rw [hx] at this; exact this)
    obtain ⟨c1, c2, c3, -⟩ := hcall hk
    have hds := (L.call (e := e) (sm _ fun a ha => hqi a (hk.foot a ha))).2.2.2.2.2.2.2
    have hsi := h.inv.susp k σ k1
    obtain ⟨⟨m, m1, m2⟩, -⟩ := intact h.inv k1 (by rw [c2, hf, k2]) c1
    have hst := h.stk k _ hx (by simp)
    have hik : i ≠ k := fun hh => by subst hh; rw [hi] at hx; cases hx
    refine switch k (D.desc e (r.on M.mem)) rfl ⟨_, k1⟩ hik hst (fun a h1 j hj => hd j a hj h1) c1 c3 (fun a ha => ?_) (fun a ha => ?_)
    · rcases F.ontop_rd ho m1 m2 (by rw [c2, hf, k2]) (ha.resolve_right id) with h1 | h1 | h1 | h1
      · exact .inl h1
      · exact .inr (.inl (hsi.foot a h1))
      · exact .inr (.inl (hsi.slot a h1).1)
      · exact .inr (.inr ((hds a).1 h1))
    · rcases F.ontop_wr ho m1 m2 (by rw [c2, hf, k2]) (ha.resolve_right id) with h1 | h1 | h1
      · exact .inl h1
      · exact .inr (hsi.slot a h1).1
      · exact .inr (hsi.foot a (X.oarea σ a h1))
  | @make j hx h1 h2 h3 h4 =>
    have hij : j ≠ i := fun hh => by subst hh; rw [hi] at hx; cases hx
    have hjn : M.ctx j ≠ none := by rw [hx]; simp
    have hpre : ∀ a, InR a (P.resM (exec e P.make (r.on M.mem)).1) (P.argTop (r.on M.mem) - P.resM (exec e P.make (r.on M.mem)).1).toNat →
        ¬ InR a ((r.on M.mem).gpr P.sp - off A P.mscratch) (P.mscratch + A.k) := fun a ha hb => h.disj j i a hjn hin hij (h1 a ha) (h2 a hb)
    refine ⟨fun a ha => ?_, fun a ha _ => .inr ⟨j, rfl⟩, fun a ha => ?_⟩
    · rcases F.make_wr h3 hpre (ha.resolve_right id) with h5 | h5
      · exact .inr ⟨j, rfl, h1 a h5⟩
      · exact .inl (h2 a (inR_mono h5 (by omega)))
    · rcases F.make_rd h3 hpre (ha.resolve_right id) with h5 | h5 | h5
      · exact .inr (.inl ⟨j, rfl, h1 a h5⟩)
      · exact .inl (h2 a h5)
      · have := hr0.area (X := X) (D := D) (a := a) h5
        exact this.elim .inl fun h6 => .inr (.inr h6)

/-- the atomic system has not begun the call -/
theorem sim_begin (F : Footprint X D) (L : Local X D) (h : Sim X D e M c) {i t k : Nat}
    {r : Regs A} {l : Act} {p : List (Code A)} (hi : M.ctx i = some (.user t r)) (hc : c.cur = i) (ht : c.thr = t) (hcs : c.s = ⟨r.gpr, r.fpr, c.s.mem⟩)
    (hk : tgt l = some k) (hcl : ¬ Claimed M k)
    (hr : Ready X D e M i (r.on M.mem) l p) : Sim X D e { M with ctx := upd M.ctx i (some (.busy t l (r.on M.mem) p r p)) } c := by
  have hin : M.ctx i ≠ none := by rw [hi]; simp
  have htg : ∀ {j t' l' σ' p' r' rs'}, M.ctx j = some (.busy t' l' σ' p' r' rs') → ∀ k', tgt l' = some k' → k' ≠ i := fun hj k' hk' hh =>
    ((h.busy _ _ _ _ _ _ _ hj).ready.tgt_live hk').2.1 t r (hh ▸ hi)
  have hki : k ≠ i := fun hh => (hr.tgt_live hk).2.1 t r (hh ▸ hi)
  have hq : ∀ a, (∀ k, M.ctx k ≠ none → M.stk k a → k = i ∨ tgt l = some k) → c.s.mem a = M.mem a := by
    intro a ha
    refine (h.quiet fun k' h1 h2 => ?_).symm
    rcases ha k' h1 h2 with rfl | h3
    · exact ⟨fun _ _ _ _ _ _ => by rw [hi]; simp, fun ⟨j, t', l', σ', p', r', rs', h4, h5⟩ => htg h4 _ h5 rfl⟩
    · rw [hk] at h3; injection h3 with h3; subst h3
      exact ⟨(hr.tgt_live hk).2.2, hcl⟩
  obtain ⟨f1, f2, f3⟩ := ready_foot F L h hi hc hcs hr hq
  have old : ∀ {j x}, j ≠ i → upd M.ctx i (some (.busy t l (r.on M.mem) p r p)) j = some x → M.ctx j = some x := fun hj hx => by rwa [upd_ne _ _ hj] at hx
  have non : ∀ {j}, upd M.ctx i (some (.busy t l (r.on M.mem) p r p)) j ≠ none → M.ctx j ≠ none := fun {j} hj => by
    by_cases hji : j = i
    · rw [hji]; exact hin
    · rwa [upd_ne _ _ hji] at hj
  have trg : ∀ k', k' ≠ i → upd M.ctx i (some (.busy t l (r.on M.mem) p r p)) k' = M.ctx k' := fun k' hk' => upd_ne _ _ hk'
  refine ⟨h.inv, fun j => ?_, fun j x hx hb => ?_, ?_, fun j j' a h1 h2 => h.disj j j' a (non h1) (non h2), fun j a h1 => h.null j a (non h1), ?_, fun a ha => ?_⟩
  · by_cases hji : j = i
    · subst hji
      show CtxRel P e c j (upd M.ctx j _ j)
      rw [upd_same]
      exact .inr ⟨hc.symm, ht, by rw [hcs]; rfl, by rw [hcs]; rfl⟩
    · show CtxRel P e c j (upd M.ctx i _ j)
      rw [upd_ne _ _ hji]
      exact h.ctx j
  · by_cases hji : j = i
    · subst hji; exact h.stk j _ hi (by simp)
    · exact h.stk j x (old hji hx) hb
  · intro j j' t1 t2 l1 l2 σ1 σ2 p1 p2 r1 r2 rs1 rs2 k' h1 h2 h3 h4
    by_cases hj : j = i
    · by_cases hj' : j' = i
      · rw [hj, hj']
      · subst hj
        simp only [upd_same, Option.some.injEq, MCtx.busy.injEq] at h1
        obtain ⟨-, rfl, -⟩ := h1
        rw [hk] at h3; injection h3 with h3; subst h3
        exact absurd ⟨j', _, _, _, _, _, _, old hj' h2, h4⟩ hcl
    · by_cases hj' : j' = i
      · subst hj'
        simp only [upd_same, Option.some.injEq, MCtx.busy.injEq] at h2
        obtain ⟨-, rfl, -⟩ := h2
        rw [hk] at h4; injection h4 with h4; subst h4
        exact absurd ⟨j, _, _, _, _, _, _, old hj h1, h3⟩ hcl
      · exact h.claim _ _ _ _ _ _ _ _ _ _ _ _ _ _ _ (old hj h1) (old hj' h2) h3 h4
  · intro j t' l' σ' p' r' rs' hj
    by_cases hji : j = i
    · subst hji
      simp only [upd_same, Option.some.injEq, MCtx.busy.injEq] at hj
      obtain ⟨rfl, rfl, rfl, rfl, rfl, rfl⟩ := hj
      refine ⟨hr.transfer (fun k' hk' => ?_) (fun _ _ => rfl) hin (fun k' a h1 h2 => absurd h2 (non h1)), fun a ha => ?_, f1, f2,
        fun a ha => (f3 a ha).imp id (Or.imp id fun h1 k' hk' => h1 k' (non hk')), ⟨r.on M.mem, .refl, rfl, rfl, fun _ _ => rfl⟩⟩
      · rw [hk] at hk'; injection hk' with hk'; subst hk'; exact trg k hki
      · refine hq a fun k' hk' hs => ?_
        have key : M.stk j a ∨ (∃ k, tgt l = some k ∧ M.stk k a) ∨ ∀ j, M.ctx j ≠ none → ¬ M.stk j a := by
          rcases ha with h1 | h1 | h1
          · exact (hr.area h1).imp id .inr
          · exact f3 a h1
          · exact (f1 a h1).imp id .inl
        rcases key with h1 | ⟨m, h1, h2⟩ | h1
        · exact .inl (Classical.byContradiction fun hh => h.disj k' j a hk' hin hh hs h1)
        · right
          have : k' = m := Classical.byContradiction fun hh => h.disj k' m a hk' (hr.tgt_live h1).1 hh hs h2
          rw [h1, this]
        · exact absurd hs (h1 k' hk')
    · have hj := old hji hj
      exact (h.busy j _ _ _ _ _ _ hj).transfer (fun k' hk' => trg k' (htg hj k' hk')) (fun _ _ => rfl) (by rw [hj]; simp)
        (fun k' a h1 h2 => absurd h2 (non h1)) (fun _ _ => rfl) (fun _ _ => rfl)
  · refine h.mem a fun j t' l' σ' p' r' rs' hj => ha j t' l' σ' p' r' rs' ?_
    have hji : j ≠ i := fun hh => by subst hh; rw [hi] at hj; cases hj
    show upd M.ctx i _ j = _
    rw [upd_ne _ _ hji]; exact hj

/-- a stack for a new context -/
theorem sim_born (h : Sim X D e M c) {j : Nat} {R : A.W → Prop} (hj : M.ctx j = none) (h1 : ∀ k a, M.ctx k ≠ none → M.stk k a → ¬ R a) (h2 : ∀ a, R a → ¬ X.null a)
    (h3 : ∀ k x a, M.ctx k = some x → used X D e x a → ¬ R a) : Sim X D e { M with stk := upd M.stk j R, ctx := upd M.ctx j (some .born) } c := by
  have hlj : ∀ {k}, M.ctx k ≠ none → k ≠ j := fun hk hh => hk (hh ▸ hj)
  have old : ∀ {k x}, upd M.ctx j (some .born) k = some x → x ≠ .born → M.ctx k = some x := fun {k x} hx hb => by
    by_cases hkj : k = j
    · subst hkj; rw [upd_same] at hx; injection hx with hx; exact absurd hx.symm hb
    · rwa [upd_ne _ _ hkj] at hx
  have stk : ∀ {k}, M.ctx k ≠ none → upd M.stk j R k = M.stk k := fun hk => upd_ne _ _ (hlj hk)
  have ctx : ∀ {k}, M.ctx k ≠ none → upd M.ctx j (some .born) k = M.ctx k := fun hk => upd_ne _ _ (hlj hk)
  have non : ∀ {k}, upd M.ctx j (some .born) k ≠ none → k ≠ j → M.ctx k ≠ none := fun hk hkj => by rwa [upd_ne _ _ hkj] at hk
  refine ⟨h.inv, fun k => ?_, fun k x hx hb => ?_, ?_, fun k k' a hk hk' hne => ?_, fun k a hk => ?_, ?_, fun a ha => ?_⟩
  · show CtxRel P e c k (upd M.ctx j _ k)
    by_cases hkj : k = j
    · have := h.ctx k
      rw [hkj, hj] at this
      rw [hkj, upd_same]; exact this
    · rw [upd_ne _ _ hkj]; exact h.ctx k
  · have hx := old hx hb
    rw [h.stk k x hx hb]
    exact (stk (by rw [hx]; simp)).symm
  · intro i i' t t' l l' σ σ' p p' r r' rs rs' k g1 g2
    exact h.claim _ _ _ _ _ _ _ _ _ _ _ _ _ _ _ (old g1 (by simp)) (old g2 (by simp))
  · show upd M.stk j R k a → ¬ upd M.stk j R k' a
    by_cases hkj : k = j
    · have hkj' : k' ≠ j := fun hh => hne (hkj.trans hh.symm)
      rw [hkj, upd_same, upd_ne _ _ hkj']
      exact fun g1 g2 => h1 k' a (non hk' hkj') g2 g1
    · rw [upd_ne _ _ hkj]
      by_cases hkj' : k' = j
      · rw [hkj', upd_same]; exact h1 k a (non hk hkj)
      · rw [upd_ne _ _ hkj']; exact h.disj k k' a (non hk hkj) (non hk' hkj') hne
  · show upd M.stk j R k a → _
    by_cases hkj : k = j
    · rw [hkj, upd_same]; exact h2 a
    · rw [upd_ne _ _ hkj]; exact h.null k a (non hk hkj)
  · intro i t l σ p r rs hi
    have hi := old hi (by simp)
    have hb := h.busy i _ _ _ _ _ _ hi
    refine hb.transfer (fun k hk => ctx (hb.ready.tgt_live hk).1) (fun k hk => stk hk) (by rw [hi]; simp) (fun k a g1 g2 g3 => ?_) (fun _ _ => rfl) (fun _ _ => rfl)
    have hkj : k = j := Classical.byContradiction fun hh => non g1 hh g2
    show ¬ upd M.stk j R k a
    rw [hkj, upd_same]
    exact h3 i _ a hi g3
  · refine h.mem a fun i t l σ p r rs hi => ha i t l σ p r rs ?_
    show upd M.ctx j _ i = _
    rw [ctx (by rw [hi]; simp)]; exact hi

/-- own code -/
theorem sim_run {f : Env A → St A → A.W} (hJ : P.JumpSpec) (hO : X.OntopS f) (hM : X.MakeS) (h : Sim X D e M c) {i t : Nat}
    {r r' : Regs A} {m' : Mem A} (hi : M.ctx i = some (.user t r)) (hc : c.cur = i) (ht : c.thr = t)
    (hm : ∀ j x a, M.ctx j = some x → used X D e x a → m' a = M.mem a) :
    ∃ c', Step X e c .run c' ∧ (∀ a, c'.s.mem a ≠ c.s.mem a → m' a ≠ M.mem a) ∧ Sim X D e { M with mem := m', ctx := upd M.ctx i (some (.user t r')) } c' := by
  let B : A.W → Prop := fun a => ∃ i t l σ p r rs, M.ctx i = some (.busy t l σ p r rs) ∧ progAccs .wr e p σ a
  have hB : ∀ a, ¬ B a → M.mem a = c.s.mem a := fun a ha => h.mem a fun i t l σ p r rs h1 h2 => ha ⟨i, t, l, σ, p, r, rs, h1, h2⟩
  obtain ⟨m1, g1, g2⟩ : ∃ m1 : Mem A, (∀ a, B a → m1 a = c.s.mem a) ∧ ∀ a, ¬ B a → m1 a = m' a := by
    classical
    exact ⟨fun a => if B a then c.s.mem a else m' a, fun a ha => if_pos ha, fun a ha => if_neg ha⟩
  have hu : ∀ j x a, M.ctx j = some x → used X D e x a → m1 a = c.s.mem a := fun j x a h1 h2 => by
    by_cases hb : B a
    · exact g1 a hb
    · rw [g2 a hb, hm j x a h1 h2, hB a hb]
  have hs : Step X e c .run { c with s := ⟨r'.gpr, r'.fpr, m1⟩ } := .run _ fun k x a h1 h2 => by
    obtain ⟨y, h3, h4⟩ := h.held_used h1 h2
    exact hu k y a h3 h4
  have hin : M.ctx i ≠ none := by rw [hi]; simp
  have htg : ∀ {j t' l' σ' p' r' rs'}, M.ctx j = some (.busy t' l' σ' p' r' rs') → ∀ k', tgt l' = some k' → k' ≠ i := fun hj k' hk' hh =>
    ((h.busy _ _ _ _ _ _ _ hj).ready.tgt_live hk').2.1 t r (hh ▸ hi)
  have old : ∀ {j x}, (∀ t r, x ≠ .user t r) → upd M.ctx i (some (.user t r')) j = some x → M.ctx j = some x := fun {j x} hu hx => by
    by_cases hji : j = i
    · subst hji; rw [upd_same] at hx; injection hx with hx; exact absurd hx.symm (hu _ _)
    · rwa [upd_ne _ _ hji] at hx
  have non : ∀ {j}, upd M.ctx i (some (.user t r')) j ≠ none → M.ctx j ≠ none := fun {j} hj => by
    by_cases hji : j = i
    · rw [hji]; exact hin
    · rwa [upd_ne _ _ hji] at hj
  refine ⟨_, hs, fun a ha hd => ?_, inv_step hJ hO hM h.inv hs, fun k => ?_, fun k x hx hb => ?_, ?_, fun j j' a h1 h2 => h.disj j j' a (non h1) (non h2),
    fun j a h1 => h.null j a (non h1), ?_, fun a ha => ?_⟩
  · refine ha (show m1 a = c.s.mem a from ?_)
    by_cases hb : B a
    · exact g1 a hb
    · rw [g2 a hb, hd, hB a hb]
  · show CtxRel P e _ k (upd M.ctx i _ k)
    by_cases hk : k = i
    · rw [hk, upd_same]; exact .inr ⟨hc.symm, ht, rfl, rfl⟩
    · rw [upd_ne _ _ hk]; exact (h.ctx k).mono rfl (hc ▸ hk) (hc ▸ hk)
  · by_cases hk : k = i
    · rw [hk]; exact h.stk i _ hi (by simp)
    · exact h.stk k x ((upd_ne _ _ hk).symm.trans hx) hb
  · intro i i' t t' l l' σ σ' p p' r r' rs rs' k g1 g2
    exact h.claim _ _ _ _ _ _ _ _ _ _ _ _ _ _ _ (old (by simp) g1) (old (by simp) g2)
  · intro j t' l σ p r rs hj
    have hj := old (by simp) hj
    have hb := h.busy j _ _ _ _ _ _ hj
    exact hb.transfer (fun k hk => upd_ne _ _ (htg hj k hk)) (fun _ _ => rfl) (by rw [hj]; simp) (fun k a h1 h2 => absurd h2 (non h1)) (fun a ha => hu j _ a hj ha)
      (fun a ha => hm j _ a hj (.inr ha))
  · show m' a = m1 a
    refine (g2 a ?_).symm
    rintro ⟨j, t', l, σ, p, r, rs, h1, h2⟩
    refine ha j t' l σ p r rs ?_ h2
    have hji : j ≠ i := fun hh => by subst hh; rw [hi] at h1; cases h1
    exact (upd_ne _ _ hji).trans h1

/-- one instruction -/
theorem sim_mic (L : Local X D) (h : Sim X D e M c) {i t : Nat} {l : Act} {σ : St A} {p rest rest' : List (Code A)} {r : Regs A} {s' : St A}
    (hi : M.ctx i = some (.busy t l σ p r rest)) (hm : mic e rest (r.on M.mem) = some (rest', s')) :
    Sim X D e { M with mem := s'.mem, ctx := upd M.ctx i (some (.busy t l σ p ⟨s'.gpr, s'.fpr⟩ rest')) } c := by
  have hb := h.busy i _ _ _ _ _ _ hi
  have hin : M.ctx i ≠ none := by rw [hi]; simp
  obtain ⟨s, s1, s2, s3, s4⟩ := hb.part
  have hsm : Same (fun a => progAccs .rd e p σ a ∨ progAccs .wr e p σ a) (r.on M.mem) s := ⟨s2.symm, s3.symm, s4⟩
  obtain ⟨q1, -, -⟩ := s1.rest
  have hacc : ∀ x a, micAcc x rest (r.on M.mem) a → progAccs x e p σ a := fun x a ha => q1 x a (micAcc_prog ((micAcc_same hsm x rest a).1 ha))
  obtain ⟨s1', u1, u2⟩ := mic_same L.sane hsm (fun a ha => .inl (hacc .rd a ha)) hm
  have hout : ∀ a, ¬ progAccs .wr e p σ a → s'.mem a = M.mem a := fun a ha => mic_out hm a fun hh => ha (hacc .wr a hh)
  have old : ∀ {j x}, j ≠ i → upd M.ctx i (some (.busy t l σ p ⟨s'.gpr, s'.fpr⟩ rest')) j = some x → M.ctx j = some x := fun hj hx => by rwa [upd_ne _ _ hj] at hx
  have non : ∀ {j}, upd M.ctx i (some (.busy t l σ p ⟨s'.gpr, s'.fpr⟩ rest')) j ≠ none → M.ctx j ≠ none := fun {j} hj => by
    by_cases hji : j = i
    · rw [hji]; exact hin
    · rwa [upd_ne _ _ hji] at hj
  have bus : ∀ {j t' l' σ' p' r' rs'}, upd M.ctx i (some (.busy t l σ p ⟨s'.gpr, s'.fpr⟩ rest')) j = some (.busy t' l' σ' p' r' rs') →
      ∃ r'' rs'', M.ctx j = some (.busy t' l' σ' p' r'' rs'') := fun {j t' l' σ' p' r' rs'} hj => by
    by_cases hji : j = i
    · subst hji
      simp only [upd_same, Option.some.injEq, MCtx.busy.injEq] at hj
      obtain ⟨rfl, rfl, rfl, rfl, -, -⟩ := hj
      exact ⟨_, _, hi⟩
    · exact ⟨_, _, old hji hj⟩
  have htg : ∀ {j t' l' σ' p' r' rs'}, M.ctx j = some (.busy t' l' σ' p' r' rs') → ∀ k', tgt l' = some k' → k' ≠ i := fun hj k' hk' hh =>
    ((h.busy _ _ _ _ _ _ _ hj).ready.tgt_live hk').2.2 _ _ _ _ _ _ (hh ▸ hi)
  refine ⟨h.inv, fun k => ?_, fun k x hx hb => ?_, ?_, fun j j' a h1 h2 => h.disj j j' a (non h1) (non h2), fun j a h1 => h.null j a (non h1), ?_, fun a ha => ?_⟩
  · show CtxRel P e c k (upd M.ctx i _ k)
    have hk := h.ctx k
    by_cases hki : k = i
    · rw [hki, upd_same]; rw [hki, hi] at hk; exact hk
    · rw [upd_ne _ _ hki]; exact hk
  · by_cases hk : k = i
    · rw [hk]; exact h.stk i _ hi (by simp)
    · exact h.stk k x (old hk hx) hb
  · intro i i' t t' l l' σ σ' p p' r r' rs rs' k g1 g2
    obtain ⟨_, _, g1⟩ := bus g1
    obtain ⟨_, _, g2⟩ := bus g2
    exact h.claim _ _ _ _ _ _ _ _ _ _ _ _ _ _ _ g1 g2
  · intro j t' l' σ' p' r' rs' hj
    by_cases hji : j = i
    · subst hji
      simp only [upd_same, Option.some.injEq, MCtx.busy.injEq] at hj
      obtain ⟨rfl, rfl, rfl, rfl, rfl, rfl⟩ := hj
      have ht := hb.transfer (M' := { M with ctx := upd M.ctx j (some (.busy t l σ p ⟨s'.gpr, s'.fpr⟩ rest')) }) (c' := c) (fun k hk => upd_ne _ _ (htg hi k hk)) (fun _ _ => rfl) hin
        (fun k a h1 h2 => absurd h2 (non h1)) (fun _ _ => rfl) (fun _ _ => rfl)
      refine ⟨ht.ready.transfer (fun _ _ => rfl) (fun _ _ => rfl) (by simp [upd]) (fun k a h1 h2 => absurd h2 h1), ht.agree, ht.wr, ht.own, ht.rd, s1', s1.tail u1, u2.1.symm, u2.2.1.symm, fun a ha => u2.2.2 a (.inl ha)⟩
    · have hj := old hji hj
      have hb' := h.busy j _ _ _ _ _ _ hj
      exact hb'.transfer (fun k hk => upd_ne _ _ (htg hj k hk)) (fun _ _ => rfl) (by rw [hj]; simp) (fun k a h1 h2 => absurd h2 (non h1)) (fun _ _ => rfl)
        (fun a ha => hout a fun hh => h.apart hi hj (Ne.symm hji) hh (.inr ha))
  · show s'.mem a = _
    rw [hout a (ha i t l σ p _ rest' (upd_same _ _ _))]
    refine h.mem a fun j t' l' σ' p' r' rs' hj => ?_
    by_cases hji : j = i
    · subst hji
      rw [hi] at hj
      simp only [Option.some.injEq, MCtx.busy.injEq] at hj
      obtain ⟨rfl, rfl, rfl, rfl, rfl, rfl⟩ := hj
      exact ha j t l σ p _ rest' (upd_same _ _ _)
    · exact ha j t' l' σ' p' r' rs' ((upd_ne _ _ hji).trans hj)

/-- a call in progress has come to its end -/
theorem ended (L : Local X D) {l : Act} {σ s1 : St A} {p : List (Code A)} {r : Regs A} {q : A.R} (hs : Same (uses X D e l σ p) σ s1)
    (hp : ∃ s, Mics e p σ [.jmp [] q] s ∧ s.gpr = r.gpr ∧ s.fpr = r.fpr ∧ ∀ a, (progAccs .rd e p σ a ∨ progAccs .wr e p σ a) → M.mem a = s.mem a) :
    (execs e p s1).1.gpr = r.gpr ∧ (execs e p s1).1.fpr = r.fpr ∧ (execs e p s1).2 = r.gpr q ∧ (∀ a, progAccs .wr e p σ a → (execs e p s1).1.mem a = M.mem a) ∧
    (∀ a, ¬ progAccs .wr e p σ a → (execs e p s1).1.mem a = s1.mem a) ∧ (execs e p σ).1.gpr = r.gpr ∧ (execs e p σ).1.fpr = r.fpr ∧ (execs e p σ).2 = r.gpr q := by
  obtain ⟨s, m1, m2, m3, m4⟩ := hp
  obtain ⟨-, e1, -⟩ := m1.rest
  obtain ⟨x1, x2, x3⟩ := execs_same L.sane (e := e) p hs (fun a ha => .inr (.inl ha))
  have e2 : execs e p σ = (s, s.gpr q) := e1
  rw [e2] at x1 x2
  refine ⟨x1.1.symm.trans m2, x1.2.1.symm.trans m3, x2.symm.trans (congrFun m2 q), fun a ha => ?_, fun a ha => ?_, by rw [e2]; exact m2, by rw [e2]; exact m3, by rw [e2]; exact congrFun m2 q⟩
  · rw [← x1.2.2 a (.inr ha)]; exact (m4 a (.inr ha)).symm
  · exact execs_out e p s1 a fun hh => ha ((x3 _ a).2 hh)

/-- a switch has come to its end -/
theorem sim_switch {f : Env A → St A → A.W} (hJ : P.JumpSpec) (hO : X.OntopS f) (hM : X.MakeS) (L : Local X D) (h : Sim X D e M c) {i t k : Nat}
    {l : Act} {σ : St A} {p : List (Code A)} {r : Regs A} {q : A.R} (hi : M.ctx i = some (.busy t l σ p r [.jmp [] q])) (hl : l = .jump k ∨ l = .ontop k)
    (hc : c.cur = i) (ht : c.thr = t) (hcs : c.s = ⟨σ.gpr, σ.fpr, c.s.mem⟩) :
    Step X e c l (Many.switch c k (execs e p c.s).1) ∧
    Sim X D e { M with ctx := upd (upd M.ctx k (some (.user t r))) i (some (.susp (P.fctx σ))) } (Many.switch c k (execs e p c.s).1) := by
  have hb := h.busy i _ _ _ _ _ _ hi
  have hin : M.ctx i ≠ none := by rw [hi]; simp
  have hk : tgt l = some k := by rcases hl with rfl | rfl <;> rfl
  have hkl := hb.ready.tgt_live hk
  have hki : k ≠ i := fun hh => hkl.2.2 _ _ _ _ _ _ (hh ▸ hi)
  have hs : Same (uses X D e l σ p) σ c.s := ⟨by rw [hcs], by rw [hcs], fun a ha => (hb.agree a ha).symm⟩
  have hst : Step X e c l (Many.switch c k (execs e p c.s).1) ∧ P.fctx c.s = P.fctx σ ∧ live c k := by
    have hr := hb.ready
    cases hr with
    | @resume k' f hx hf hcl =>
      have : k' = k := by injection hk
      subst this
      obtain ⟨σ', k1, k2⟩ := (show ∃ σ, c.ctx k' = some (.susp σ) ∧ P.fctx σ = f by have := h.ctx k'; rw [hx] at this; exact this)
      obtain ⟨c1, c2, c3, -⟩ := call_at L h hc (hs.mono fun a ha => .inl ha) hcl
      exact ⟨.resume k' σ' k1 (by rw [c2, hf, k2]) c1, c3, .inr (by rw [k1]; simp)⟩
    | @start k' f hx hf hcl =>
      have : k' = k := by injection hk
      subst this
      obtain ⟨σ', k1, k2⟩ := (show ∃ σ, c.ctx k' = some (.fresh σ) ∧ P.resM (exec e P.make σ).1 = f by have := h.ctx k'; rw [hx] at this; exact this)
      obtain ⟨c1, c2, c3, -⟩ := call_at L h hc (hs.mono fun a ha => .inl ha) hcl
      refine ⟨?_, c3, .inr (by rw [k1]; simp)⟩
      rw [← P.enter_execs]
      exact .start k' σ' k1 (by rw [c2, hf, k2]) c1
    | @ontop k' f hx hf hcl ho hd =>
      have : k' = k := by injection hk
      subst this
      obtain ⟨σ', k1, k2⟩ := (show ∃ σ, c.ctx k' = some (.susp σ) ∧ P.fctx σ = f by have := h.ctx k'; rw [hx] at this; exact this)
      obtain ⟨c1, c2, c3, -⟩ := call_at L h hc (hs.mono fun a ha => .inl (.inl ha)) hcl
      exact ⟨.ontop k' σ' k1 (by rw [c2, hf, k2]) c1 ho, c3, .inr (by rw [k1]; simp)⟩
    | make => rcases hl with hl | hl <;> cases hl
  obtain ⟨hst, hfc, hlk⟩ := hst
  obtain ⟨e1, e2, -, e4, e5, -⟩ := ended (M := M) L hs hb.part
  obtain ⟨s', hs'⟩ : ∃ s', s' = (execs e p c.s).1 := ⟨_, rfl⟩
  rw [← hs'] at hst e1 e2 e4 e5 ⊢
  refine ⟨hst, ?_⟩
  have oth : ∀ {j}, j ≠ i → j ≠ k → upd (upd M.ctx k (some (.user t r))) i (some (.susp (P.fctx σ))) j = M.ctx j := fun h1 h2 => by rw [upd_ne _ _ h1, upd_ne _ _ h2]
  have non : ∀ {j}, upd (upd M.ctx k (some (.user t r))) i (some (.susp (P.fctx σ))) j ≠ none → M.ctx j ≠ none := fun {j} hj => by
    by_cases hji : j = i
    · rw [hji]; exact hin
    · by_cases hjk : j = k
      · rw [hjk]; exact hkl.1
      · rwa [oth hji hjk] at hj
  have old : ∀ {j t' l' σ' p' r' rs'}, upd (upd M.ctx k (some (.user t r))) i (some (.susp (P.fctx σ))) j = some (.busy t' l' σ' p' r' rs') →
      j ≠ i ∧ M.ctx j = some (.busy t' l' σ' p' r' rs') := fun {j t' l' σ' p' r' rs'} hj => by
    by_cases hji : j = i
    · rw [hji, upd_same] at hj; cases hj
    · by_cases hjk : j = k
      · rw [upd_ne _ _ hji, hjk, upd_same] at hj; cases hj
      · rw [oth hji hjk] at hj; exact ⟨hji, hj⟩
  refine ⟨inv_step hJ hO hM h.inv hst, fun j => ?_, fun j x hx hb' => ?_, ?_, fun j j' a h1 h2 => h.disj j j' a (non h1) (non h2), fun j a h1 => h.null j a (non h1),
    fun j t' l' σ' p' r' rs' hj => ?_, fun a ha => ?_⟩
  · show CtxRel P e (Many.switch c k s') j (upd (upd M.ctx k _) i _ j)
    by_cases hji : j = i
    · rw [hji, upd_same]
      exact ⟨c.s, by simp [Many.switch, hc], hfc⟩
    · by_cases hjk : j = k
      · rw [hjk, upd_ne _ _ hki, upd_same]
        exact .inr ⟨rfl, ht, e1, e2⟩
      · rw [oth hji hjk]
        exact (h.ctx j).mono (by simp [Many.switch, hc, hji, hjk]) (hc ▸ hji) hjk
  · show c.stk j = M.stk j
    by_cases hji : j = i
    · rw [hji]; exact h.stk i _ hi (by simp)
    · by_cases hjk : j = k
      · rw [hjk]; exact (h.live_stk hlk).2
      · exact h.stk j x ((oth hji hjk).symm.trans hx) hb'
  · intro i i' t t' l l' σ σ' p p' r r' rs rs' k g1 g2
    exact h.claim _ _ _ _ _ _ _ _ _ _ _ _ _ _ _ (old g1).2 (old g2).2
  · obtain ⟨hji, hj0⟩ := old hj
    clear hj
    have hj := hj0
    have hb' := h.busy j _ _ _ _ _ _ hj
    refine hb'.transfer (fun k' hk' => oth (fun hh => ?_) (fun hh => ?_)) (fun _ _ => rfl) (by rw [hj]; simp) (fun k a h1 h2 => absurd h2 (non h1)) (fun a ha => ?_)
      (fun _ _ => rfl)
    · subst hh; exact (hb'.ready.tgt_live hk').2.2 _ _ _ _ _ _ hi
    · exact hji (h.claim _ _ _ _ _ _ _ _ _ _ _ _ _ _ _ hj hi hk' (hh ▸ hk))
    · exact e5 a fun hh => h.apart hi hj (Ne.symm hji) hh ha
  · show M.mem a = s'.mem a
    by_cases hw : progAccs .wr e p σ a
    · exact (e4 a hw).symm
    · rw [e5 a hw]
      refine h.mem a fun j t' l' σ' p' r' rs' hj => ?_
      by_cases hji : j = i
      · subst hji
        rw [hi] at hj
        simp only [Option.some.injEq, MCtx.busy.injEq] at hj
        obtain ⟨rfl, rfl, rfl, rfl, rfl, rfl⟩ := hj
        exact hw
      · have hjk : j ≠ k := fun hh => hkl.2.2 _ _ _ _ _ _ (hh ▸ hj)
        exact ha j t' l' σ' p' r' rs' ((oth hji hjk).trans hj)

/-- `make_fcontext` has come to its end -/
theorem sim_made {f : Env A → St A → A.W} (hJ : P.JumpSpec) (hO : X.OntopS f) (hM : X.MakeS) (L : Local X D) (h : Sim X D e M c) {i t k : Nat}
    {σ : St A} {p : List (Code A)} {r : Regs A} {q : A.R} (hi : M.ctx i = some (.busy t (.make k) σ p r [.jmp [] q]))
    (hc : c.cur = i) (ht : c.thr = t) (hcs : c.s = ⟨σ.gpr, σ.fpr, c.s.mem⟩) :
    ∃ c', Step X e c (.make k) c' ∧ c'.s = (execs e p c.s).1 ∧
    Sim X D e { M with ctx := upd (upd M.ctx k (some (.fresh (P.resM (r.on M.mem))))) i (some (.user t r)) } c' := by
  have hb := h.busy i _ _ _ _ _ _ hi
  have hin : M.ctx i ≠ none := by rw [hi]; simp
  have hkl := hb.ready.tgt_live (k := k) rfl
  have hki : k ≠ i := fun hh => hkl.2.2 _ _ _ _ _ _ (by rw [hh]; exact hi)
  have hs : Same (uses X D e (.make k) σ p) σ c.s := ⟨by rw [hcs], by rw [hcs], fun a ha => (hb.agree a ha).symm⟩
  obtain ⟨e1, e2, -, e4, e5, e6, -⟩ := ended (M := M) L hs hb.part
  have hr := hb.ready
  cases hr with
  | make hx h1 h2 h3 h4 =>
  have hcx : k ≠ c.cur ∧ c.ctx k = none := by have := h.ctx k; rw [hx] at this; exact this
  obtain ⟨l1, l2, l3, l4⟩ := L.make h3 (hs.mono fun a ha => .inr (.inl (.inl ha)))
  have e1' : (exec e P.make c.s).1.gpr = r.gpr := e1
  have e6' : (exec e P.make σ).1.gpr = r.gpr := e6
  have hres : P.resM (exec e P.make c.s).1 = P.resM (exec e P.make σ).1 := L.resM (e1'.trans e6'.symm)
  have hres2 : P.resM (exec e P.make c.s).1 = P.resM (r.on M.mem) := L.resM e1'
  have hlk : ¬ live c k := fun hh => hh.elim hcx.1 fun h5 => h5 hcx.2
  have hst := Step.make (X := X) (e := e) (c := c) k (M.stk k) hlk
    (fun j a hj hja hka => by
      obtain ⟨j1, j2⟩ := h.live_stk hj
      exact h.disj j k a j1 hkl.1 (fun hh => hlk (hh ▸ hj)) (j2 ▸ hja) hka)
    (fun a ha => h.null k a hkl.1 ha)
    (fun a ha => h1 a (by rw [← hres, ← l2]; exact ha))
    (fun a ha => by
      rw [(h.live_stk (.inl rfl)).2, hc]
      refine h2 a ?_
      rw [hcs] at ha; exact ha) l1
  have oth : ∀ {j}, j ≠ i → j ≠ k → upd (upd M.ctx k (some (.fresh (P.resM (r.on M.mem))))) i (some (.user t r)) j = M.ctx j := fun h1 h2 => by rw [upd_ne _ _ h1, upd_ne _ _ h2]
  have non : ∀ {j}, upd (upd M.ctx k (some (.fresh (P.resM (r.on M.mem))))) i (some (.user t r)) j ≠ none → M.ctx j ≠ none := fun {j} hj => by
    by_cases hji : j = i
    · rw [hji]; exact hin
    · by_cases hjk : j = k
      · rw [hjk]; exact hkl.1
      · rwa [oth hji hjk] at hj
  have old : ∀ {j t' l' σ' p' r' rs'}, upd (upd M.ctx k (some (.fresh (P.resM (r.on M.mem))))) i (some (.user t r)) j = some (.busy t' l' σ' p' r' rs') →
      j ≠ i ∧ M.ctx j = some (.busy t' l' σ' p' r' rs') := fun {j t' l' σ' p' r' rs'} hj => by
    by_cases hji : j = i
    · rw [hji, upd_same] at hj; cases hj
    · by_cases hjk : j = k
      · rw [upd_ne _ _ hji, hjk, upd_same] at hj; cases hj
      · rw [oth hji hjk] at hj; exact ⟨hji, hj⟩
  have hinv := inv_step hJ hO hM h.inv hst
  obtain ⟨s', hs'⟩ : ∃ s', s' = (exec e P.make c.s).1 := ⟨_, rfl⟩
  have hs'' : s' = (execs e [P.make] c.s).1 := hs'
  rw [← hs''] at e1 e2 e4 e5
  rw [← hs'] at hst hinv
  refine ⟨_, hst, hs'', hinv, fun j => ?_, fun j x hx hb' => ?_, ?_, fun j j' a h1 h2 => h.disj j j' a (non h1) (non h2), fun j a h1 => h.null j a (non h1),
    fun j t' l' σ' p' r' rs' hj => ?_, fun a ha => ?_⟩
  · show CtxRel P e _ j (upd (upd M.ctx k _) i _ j)
    by_cases hji : j = i
    · rw [hji, upd_same]
      exact .inr ⟨hc.symm, ht, e1, e2⟩
    · by_cases hjk : j = k
      · rw [hjk, upd_ne _ _ hki, upd_same]
        exact ⟨c.s, by simp, hres2⟩
      · rw [oth hji hjk]
        exact (h.ctx j).mono (by simp [hjk]) (hc ▸ hji) (hc ▸ hji)
  · show (if j = k then M.stk k else c.stk j) = M.stk j
    by_cases hjk : j = k
    · rw [if_pos hjk, hjk]
    · rw [if_neg hjk]
      by_cases hji : j = i
      · rw [hji]; exact h.stk i _ hi (by simp)
      · exact h.stk j x ((oth hji hjk).symm.trans hx) hb'
  · intro i i' t t' l l' σ σ' p p' r r' rs rs' k g1 g2
    exact h.claim _ _ _ _ _ _ _ _ _ _ _ _ _ _ _ (old g1).2 (old g2).2
  · obtain ⟨hji, hj0⟩ := old hj
    clear hj
    have hj := hj0
    have hb' := h.busy j _ _ _ _ _ _ hj
    refine hb'.transfer (fun k' hk' => oth (fun hh => ?_) (fun hh => ?_)) (fun _ _ => rfl) (by rw [hj]; simp) (fun k a h1 h2 => absurd h2 (non h1)) (fun a ha => ?_)
      (fun _ _ => rfl)
    · subst hh; exact (hb'.ready.tgt_live hk').2.2 _ _ _ _ _ _ hi
    · exact hji (h.claim _ _ _ _ _ _ _ _ _ _ _ _ _ _ _ hj hi hk' (by rw [hh]; rfl))
    · exact e5 a fun hh => h.apart hi hj (Ne.symm hji) hh ha
  · show M.mem a = s'.mem a
    by_cases hw : progAccs .wr e [P.make] σ a
    · exact (e4 a hw).symm
    · rw [e5 a hw]
      refine h.mem a fun j t' l' σ' p' r' rs' hj => ?_
      by_cases hji : j = i
      · subst hji
        rw [hi] at hj
        simp only [Option.some.injEq, MCtx.busy.injEq] at hj
        obtain ⟨rfl, rfl, rfl, rfl, rfl, rfl⟩ := hj
        exact hw
      · have hjk : j ≠ k := fun hh => hkl.2.2 _ _ _ _ _ _ (hh ▸ hj)
        exact ha j t' l' σ' p' r' rs' ((oth hji hjk).trans hj)

/-- a context is given up -/
theorem sim_drop {f : Env A → St A → A.W} (hJ : P.JumpSpec) (hO : X.OntopS f) (hM : X.MakeS) (h : Sim X D e M c) {j : Nat}
    (h2 : ∀ t l σ p r rs, M.ctx j ≠ some (.busy t l σ p r rs)) (h3 : ¬ Claimed M j) (hc : c.cur ≠ j) :
    Step X e c (.drop j) { c with ctx := fun k => if k = j then none else c.ctx k } ∧
    Sim X D e { M with ctx := upd M.ctx j none } { c with ctx := fun k => if k = j then none else c.ctx k } := by
  have hst : Step X e c (.drop j) _ := .drop j
  have non : ∀ {k}, upd M.ctx j none k ≠ none → M.ctx k ≠ none := fun {k} hk => by
    by_cases hkj : k = j
    · rw [hkj, upd_same] at hk; exact absurd rfl hk
    · rwa [upd_ne _ _ hkj] at hk
  have old : ∀ {k x}, upd M.ctx j none k = some x → M.ctx k = some x := fun {k x} hk => by
    by_cases hkj : k = j
    · rw [hkj, upd_same] at hk; cases hk
    · rwa [upd_ne _ _ hkj] at hk
  refine ⟨hst, inv_step hJ hO hM h.inv hst, fun k => ?_, fun k x hx hb => h.stk k x (old hx) hb, ?_, fun j j' a h1 h2 => h.disj j j' a (non h1) (non h2),
    fun j a h1 => h.null j a (non h1), fun k t' l' σ' p' r' rs' hk => ?_, fun a ha => ?_⟩
  · show CtxRel P e _ k (upd M.ctx j none k)
    by_cases hkj : k = j
    · rw [hkj, upd_same]; exact ⟨Ne.symm hc, by simp⟩
    · rw [upd_ne _ _ hkj]
      have hk := h.ctx k
      have hp : ∀ t g q, parAt c k t g q → parAt { c with ctx := fun k => if k = j then none else c.ctx k } k t g q := by
        rintro t g q (h4 | h4)
        · exact .inl (by simp [hkj, h4])
        · exact .inr h4
      cases hx : M.ctx k with
      | none => rw [hx] at hk; exact ⟨hk.1, by simp [hkj, hk.2]⟩
      | some y =>
        rw [hx] at hk
        cases y with
        | born => exact ⟨hk.1, by simp [hkj, hk.2]⟩
        | fresh f => obtain ⟨σ, h4, h5⟩ := hk; exact ⟨σ, by simp [hkj, h4], h5⟩
        | susp f => obtain ⟨σ, h4, h5⟩ := hk; exact ⟨σ, by simp [hkj, h4], h5⟩
        | user t r => exact hp _ _ _ hk
        | busy t l σ p r rs => exact hp _ _ _ hk
  · intro i i' t t' l l' σ σ' p p' r r' rs rs' k g1 g2
    exact h.claim _ _ _ _ _ _ _ _ _ _ _ _ _ _ _ (old g1) (old g2)
  · have hk := old hk
    have hb' := h.busy k _ _ _ _ _ _ hk
    refine hb'.transfer (fun k' hk' => upd_ne _ _ fun hh => ?_) (fun _ _ => rfl) (by rw [hk]; simp) (fun k a h1 h2 => absurd h2 (non h1)) (fun _ _ => rfl) (fun _ _ => rfl)
    exact h3 ⟨k, _, _, _, _, _, _, hk, hh ▸ hk'⟩
  · refine h.mem a fun k t' l' σ' p' r' rs' hk => ha k t' l' σ' p' r' rs' ?_
    have hkj : k ≠ j := fun hh => h2 _ _ _ _ _ _ (hh ▸ hk)
    exact (upd_ne _ _ hkj).trans hk

/-- a thread starts -/
theorem sim_spawn {f : Env A → St A → A.W} (hJ : P.JumpSpec) (hO : X.OntopS f) (hM : X.MakeS) (h : Sim X D e M c) {j t : Nat} {R : A.W → Prop} {r : Regs A}
    (hj : M.ctx j = none) (h1 : ∀ k a, M.ctx k ≠ none → M.stk k a → ¬ R a) (h2 : ∀ a, R a → ¬ X.null a)
    (h3 : ∀ k x a, M.ctx k = some x → used X D e x a → ¬ R a) (h4 : ∀ k r, M.ctx k ≠ some (.user t r)) (h5 : ∀ k l σ p r rs, M.ctx k ≠ some (.busy t l σ p r rs)) :
    ∃ c', Step X e c (.spawn j) c' ∧ Sim X D e { M with stk := upd M.stk j R, ctx := upd M.ctx j (some (.user t r)) } c' := by
  have hlj : ¬ live c j := fun hh => (h.live_stk hh).1 hj
  have hst : Step X e c (.spawn j) _ := Step.spawn j t R r.gpr r.fpr hlj
    (fun k a hk hka => by obtain ⟨k1, k2⟩ := h.live_stk hk; exact h1 k a k1 (k2 ▸ hka)) h2
    (fun ht => by
      obtain ⟨t', h6, ⟨r', h7⟩ | ⟨l, σ, p, r', rs, h7⟩⟩ := h.cur_run
      · exact h4 c.cur r' (by rw [ht, h6]; exact h7)
      · exact h5 c.cur l σ p r' rs (by rw [ht, h6]; exact h7))
    (fun k g q hk => by
      rcases h.par_run hk with ⟨r', h7⟩ | ⟨l, σ, p, r', rs, h7⟩
      · exact h4 _ _ h7
      · exact h5 _ _ _ _ _ _ h7)
  have hlv : ∀ {k}, M.ctx k ≠ none → k ≠ j := fun hk hh => hk (hh ▸ hj)
  have old : ∀ {k x}, upd M.ctx j (some (.user t r)) k = some x → k ≠ j → M.ctx k = some x := fun {k x} hx hkj => by rwa [upd_ne _ _ hkj] at hx
  have bus : ∀ {k t' l σ p r' rs}, upd M.ctx j (some (.user t r)) k = some (.busy t' l σ p r' rs) → M.ctx k = some (.busy t' l σ p r' rs) := fun {k t' l σ p r' rs} hx => by
    by_cases hkj : k = j
    · rw [hkj, upd_same] at hx; cases hx
    · exact old hx hkj
  have stk : ∀ {k}, M.ctx k ≠ none → upd M.stk j R k = M.stk k := fun hk => upd_ne _ _ (hlv hk)
  have ctx : ∀ {k}, M.ctx k ≠ none → upd M.ctx j (some (.user t r)) k = M.ctx k := fun hk => upd_ne _ _ (hlv hk)
  have non : ∀ {k}, upd M.ctx j (some (.user t r)) k ≠ none → k ≠ j → M.ctx k ≠ none := fun hk hkj => by rwa [upd_ne _ _ hkj] at hk
  refine ⟨_, hst, inv_step hJ hO hM h.inv hst, fun k => ?_, fun k x hx hb => ?_, ?_, fun k k' a hk hk' hne => ?_, fun k a hk => ?_, ?_, fun a ha => ?_⟩
  · show CtxRel P e _ k (upd M.ctx j _ k)
    by_cases hkj : k = j
    · rw [hkj, upd_same]; exact .inl (by simp)
    · rw [upd_ne _ _ hkj]
      have hk := h.ctx k
      have hp : ∀ t' g q, parAt c k t' g q → parAt (⟨c.thr, c.cur, c.s, fun k => if k = j then R else c.stk k, fun k => if k = j then some (.par t r.gpr r.fpr) else c.ctx k⟩ : Cfg A) k t' g q := by
        rintro t' g q (h4 | h4)
        · exact .inl (by simp [hkj, h4])
        · exact .inr h4
      cases hx : M.ctx k with
      | none => rw [hx] at hk; exact ⟨hk.1, by simp [hkj, hk.2]⟩
      | some y =>
        rw [hx] at hk
        cases y with
        | born => exact ⟨hk.1, by simp [hkj, hk.2]⟩
        | fresh f => obtain ⟨σ, h4, h5⟩ := hk; exact ⟨σ, by simp [hkj, h4], h5⟩
        | susp f => obtain ⟨σ, h4, h5⟩ := hk; exact ⟨σ, by simp [hkj, h4], h5⟩
        | user t r => exact hp _ _ _ hk
        | busy t l σ p r rs => exact hp _ _ _ hk
  · show (if k = j then R else c.stk k) = upd M.stk j R k
    by_cases hkj : k = j
    · rw [if_pos hkj, hkj, upd_same]
    · rw [if_neg hkj, upd_ne _ _ hkj]; exact h.stk k x (old hx hkj) hb
  · intro i i' t t' l l' σ σ' p p' r r' rs rs' k g1 g2
    exact h.claim _ _ _ _ _ _ _ _ _ _ _ _ _ _ _ (bus g1) (bus g2)
  · show upd M.stk j R k a → ¬ upd M.stk j R k' a
    by_cases hkj : k = j
    · have hkj' : k' ≠ j := fun hh => hne (hkj.trans hh.symm)
      rw [hkj, upd_same, upd_ne _ _ hkj']
      exact fun g1 g2 => h1 k' a (non hk' hkj') g2 g1
    · rw [upd_ne _ _ hkj]
      by_cases hkj' : k' = j
      · rw [hkj', upd_same]; exact h1 k a (non hk hkj)
      · rw [upd_ne _ _ hkj']; exact h.disj k k' a (non hk hkj) (non hk' hkj') hne
  · show upd M.stk j R k a → _
    by_cases hkj : k = j
    · rw [hkj, upd_same]; exact h2 a
    · rw [upd_ne _ _ hkj]; exact h.null k a (non hk hkj)
  · intro i t l σ p r rs hi
    have hi := bus hi
    have hb := h.busy i _ _ _ _ _ _ hi
    refine hb.transfer (fun k hk => ctx (hb.ready.tgt_live hk).1) (fun k hk => stk hk) (by rw [hi]; simp) (fun k a g1 g2 g3 => ?_) (fun _ _ => rfl) (fun _ _ => rfl)
    have hkj : k = j := Classical.byContradiction fun hh => non g1 hh g2
    show ¬ upd M.stk j R k a
    rw [hkj, upd_same]
    exact h3 i _ a hi g3
  · refine h.mem a fun i t l σ p r rs hi => ha i t l σ p r rs ?_
    show upd M.ctx j _ i = _
    rw [ctx (by rw [hi]; simp)]; exact hi

/-- **every step of the instruction level is a step of the atomic system, or none** -/
theorem sim_step {f : Env A → St A → A.W} (hJ : P.JumpSpec) (hO : X.OntopS f) (hM : X.MakeS) (F : Footprint X D) (L : Local X D) {l : Lab A} (hs : MStep X D e M l M')
    (h : Sim X D e M c) : ∃ c₁ c', (c₁ = c ∨ ∃ i, Step X e c (.sched i) c₁) ∧ Abs X D e M M' c₁ l c' ∧ Sim X D e M' c' ∧ c₁.s.mem = c.s.mem ∧ Sim X D e M c₁ := by
  have foc : ∀ {i t g q}, parAt c i t g q → ∃ c₁, (c₁ = c ∨ ∃ i, Step X e c (.sched i) c₁) ∧ Sim X D e M c₁ ∧ c₁.cur = i ∧ c₁.thr = t ∧ c₁.s = ⟨g, q, c₁.s.mem⟩ ∧
      c₁.s.gpr = g ∧ c₁.s.fpr = q ∧ c₁.s.mem = c.s.mem := by
    intro i t g q hp
    obtain ⟨c1, h1, h2, h3, h4, h5, h6⟩ := h.focus hJ hO hM hp
    exact ⟨c1, h1.imp id fun hh => ⟨i, hh⟩, h2, h3, h4, by rw [h5], by rw [h5], by rw [h5], by rw [h5]⟩
  have focU : ∀ {i t r}, M.ctx i = some (.user t r) → _ := fun {i t r} hi => foc (i := i) (t := t) (g := r.gpr) (q := r.fpr) (by have := h.ctx i; rw [hi] at this; exact this)
  have focB : ∀ {i t l σ p r rs}, M.ctx i = some (.busy t l σ p r rs) → _ := fun {i t l σ p r rs} hi =>
    foc (i := i) (t := t) (g := σ.gpr) (q := σ.fpr) (by have := h.ctx i; rw [hi] at this; exact this)
  cases hs with
  | run i t r r' m' hi hm =>
    obtain ⟨c1, h1, h2, h3, h4, h5, h6, h7, h8⟩ := focU hi
    obtain ⟨c', k1, k2, k3⟩ := sim_run hJ hO hM h2 (r' := r') hi h3 h4 hm
    exact ⟨c1, c', h1, ⟨k1, k2⟩, k3, h8, h2⟩
  | call i t k l r p hi hl hcl hr =>
    obtain ⟨c1, h1, h2, h3, h4, h5, h6, h7, h8⟩ := focU hi
    exact ⟨c1, c1, h1, rfl, sim_begin F L h2 hi h3 h4 h5 (k := k) (by rcases hl with rfl | rfl <;> rfl) hcl hr, h8, h2⟩
  | make i t j r R p hi hj g1 g2 g3 hr =>
    obtain ⟨c1, h1, h2, h3, h4, h5, h6, h7, h8⟩ := focU hi
    have hij : i ≠ j := fun hh => by rw [hh, hj] at hi; cases hi
    have hb := sim_born h2 hj g1 g2 g3
    refine ⟨c1, c1, h1, rfl, sim_begin F L hb (k := j) ((upd_ne _ _ hij).trans hi) h3 h4 h5 rfl ?_ hr, h8, h2⟩
    rintro ⟨i', t', l', σ', p', r', rs', q1, q2⟩
    have hij' : i' ≠ j := fun hh => by rw [hh] at q1; simp only [upd_same] at q1; cases q1
    exact ((h.busy i' _ _ _ _ _ _ ((upd_ne _ _ hij').symm.trans q1)).ready.tgt_live q2).1 hj
  | mic i t l σ p r rest rest' s' hi hm => exact ⟨c, c, .inl rfl, rfl, sim_mic L h hi hm, rfl, h⟩
  | switch i t k l σ p r q hi hl =>
    obtain ⟨c1, h1, h2, h3, h4, h5, h6, h7, h8⟩ := focB hi
    obtain ⟨k1, k2⟩ := sim_switch hJ hO hM L h2 hi hl h3 h4 h5
    have hb := h2.busy i _ _ _ _ _ _ hi
    have hsm : Same (uses X D e l σ p) σ c1.s := ⟨h6.symm, h7.symm, fun a ha => (hb.agree a ha).symm⟩
    obtain ⟨e1, e2, e3, -⟩ := ended (M := M) L hsm hb.part
    exact ⟨c1, _, h1, ⟨k1, h3, t, p, r, q, hi, hb.ready, hsm, rfl, e1, e2, e3⟩, k2, h8, h2⟩
  | made i t j σ p r q hi =>
    obtain ⟨c1, h1, h2, h3, h4, h5, h6, h7, h8⟩ := focB hi
    obtain ⟨c', k1, k3, k2⟩ := sim_made hJ hO hM L h2 hi h3 h4 h5
    have hb := h2.busy i _ _ _ _ _ _ hi
    have hsm : Same (uses X D e (.make j) σ p) σ c1.s := ⟨h6.symm, h7.symm, fun a ha => (hb.agree a ha).symm⟩
    obtain ⟨e1, e2, e3, -⟩ := ended (M := M) L hsm hb.part
    exact ⟨c1, c', h1, ⟨k1, h3, t, p, r, q, hi, hb.ready, hsm, k3, by rw [k3]; exact e1, by rw [k3]; exact e2, e3⟩, k2, h8, h2⟩
  | drop j k g1 g2 g3 hkj hrun =>
    obtain ⟨c1, h1, h2, h3, h8⟩ : ∃ c₁, (c₁ = c ∨ ∃ i, Step X e c (.sched i) c₁) ∧ Sim X D e M c₁ ∧ c₁.cur = k ∧ c₁.s.mem = c.s.mem := by
      rcases hrun with ⟨t, r, hk⟩ | ⟨t, l, σ, p, r, rs, hk⟩
      · obtain ⟨c1, h1, h2, h3, h4, h5, h6, h7, h8⟩ := focU hk
        exact ⟨c1, h1, h2, h3, h8⟩
      · obtain ⟨c1, h1, h2, h3, h4, h5, h6, h7, h8⟩ := focB hk
        exact ⟨c1, h1, h2, h3, h8⟩
    obtain ⟨k1, k2⟩ := sim_drop hJ hO hM h2 g2 g3 (by rw [h3]; exact hkj)
    exact ⟨c1, _, h1, k1, k2, h8, h2⟩
  | spawn j t R r hj g1 g2 g3 g4 g5 =>
    obtain ⟨c', k1, k2⟩ := sim_spawn hJ hO hM h (r := r) hj g1 g2 g3 g4 g5
    exact ⟨c, c', .inl rfl, k1, k2, rfl, h⟩

end Micro
end Verif.Asm
