import Verif.Asm.MicroStep

/-! # Switches instruction by instruction: what holds for every port whose routines stay within their footprints (C82) -/

namespace Verif.Asm
namespace Micro
open Many

variable {A : Arch} {P : Port A}

/-- address `a` is not written by a call in progress -/
def Still (e : Env A) (M : MCfg A) (a : A.W) : Prop := ∀ i t l σ p r rs, M.ctx i = some (.busy t l σ p r rs) → ¬ progAccs .wr e p σ a

/-- **C82**, for a port.

`atomic`: whatever state is reached when threads execute the routines instruction by instruction, interleaved in any order, is reached by the system in which a
call is one step, up to the calls in progress, which have not begun there: same contexts with the same handles, stacks, registers, same memory where no call in progress writes.

`alone`: a call in progress is, in registers and in every byte it accesses, exactly as far as if it had been executed alone from its entry state.

`apart`: no call in progress writes a byte that another one reads or writes.

`resume`, `ontop`, `start`: the round trips of C40, with the calls overlapping in time. -/
structure Spec (X : Extra P) (D : Reads A) (f : Env A → St A → A.W) : Prop where
  atomic : ∀ {e : Env A} {M : MCfg A}, MReach X D e M → ∃ c, Reachable X e c ∧ (∀ i, CtxRel P e c i (M.ctx i)) ∧
    (∀ i x, M.ctx i = some x → x ≠ .born → c.stk i = M.stk i) ∧ ∀ a, Still e M a → c.s.mem a = M.mem a
  alone : ∀ {e : Env A} {M : MCfg A} {i t l σ p r rs}, MReach X D e M → M.ctx i = some (.busy t l σ p r rs) →
    ∃ s, Mics e p σ rs s ∧ s.gpr = r.gpr ∧ s.fpr = r.fpr ∧ ∀ a, (progAccs .rd e p σ a ∨ progAccs .wr e p σ a) → M.mem a = s.mem a
  apart : ∀ {e : Env A} {M : MCfg A} {i j t t' l l' σ σ' p p' r r' rs rs'}, MReach X D e M → M.ctx i = some (.busy t l σ p r rs) →
    M.ctx j = some (.busy t' l' σ' p' r' rs') → i ≠ j → ∀ a, progAccs .wr e p σ a → ¬ progAccs .rd e p' σ' a ∧ ¬ progAccs .wr e p' σ' a
  resume : ∀ {e : Env A} {M₀ M₁ M₂ M₃ : MCfg A} {i i' k : Nat} {l : Act} {σ τ : St A} {W : A.W → Prop}, MReach X D e M₀ → MStep X D e M₀ (.done i l σ) M₁ →
    (l = .jump k ∨ l = .ontop k) → MAway X D e i W M₁ M₂ → MStep X D e M₂ (.done i' (.jump i) τ) M₃ →
    ∃ t r q, M₂.ctx i' = some (.busy t (.jump i) τ [P.jump] r [.jmp [] q]) ∧ M₃.ctx i = some (.user t r) ∧
    P.Returned σ (r.on M₃.mem) (r.gpr q) ∧ P.resF σ (r.on M₃.mem) = P.fctx τ ∧ P.resD σ (r.on M₃.mem) = P.argD τ ∧ P.also σ (r.on M₃.mem) ∧
    ∀ a, M₁.stk i a → M₃.mem a ≠ M₁.mem a → P.slot σ a ∨ W a
  ontop : ∀ {e : Env A} {M₀ M₁ M₂ M₃ : MCfg A} {i i' k : Nat} {l : Act} {σ τ : St A} {W : A.W → Prop}, MReach X D e M₀ → MStep X D e M₀ (.done i l σ) M₁ →
    (l = .jump k ∨ l = .ontop k) → MAway X D e i W M₁ M₂ → MStep X D e M₂ (.done i' (.ontop i) τ) M₃ →
    ∃ t r q, M₂.ctx i' = some (.busy t (.ontop i) τ [P.ontop] r [.jmp [] q]) ∧ M₃.ctx i = some (.user t r) ∧
    (∃ τ', Same (fun a => InR a (P.fctx τ) X.fp ∨ D.desc e τ a) τ τ' ∧ r.gpr q = f e τ') ∧
    (∃ s, Same (fun a => M₃.stk i a ∨ Still e M₃ a) s (r.on M₃.mem) ∧ P.CalledAs σ s (P.fctx τ) (P.argD τ)) ∧
    ∀ a, M₁.stk i a → M₃.mem a ≠ M₁.mem a → P.slot σ a ∨ P.oarea σ a ∨ W a
  start : ∀ {e : Env A} {M₀ M₁ M₂ M₃ : MCfg A} {i i' j : Nat} {σ τ : St A} {W : A.W → Prop}, MReach X D e M₀ → MStep X D e M₀ (.done i (.make j) σ) M₁ →
    MAway X D e j W M₁ M₂ → MStep X D e M₂ (.done i' (.jump j) τ) M₃ →
    ∃ d t r q, M₁.ctx j = some (.fresh d) ∧ M₂.ctx i' = some (.busy t (.jump j) τ (P.jump :: P.stub) r [.jmp [] q]) ∧ M₃.ctx j = some (.user t r) ∧
    (∀ l cc, P.tramp = some (l, cc) → (exec e P.jump τ).2 = e l) ∧ r.gpr q = P.argMFn σ ∧
    (∃ s, Same (fun a => M₃.stk j a ∨ Still e M₃ a) s (r.on M₃.mem) ∧ P.inF s = P.fctx τ ∧ P.inD s = P.argD τ ∧ P.ra s = e P.finish) ∧
    P.aligned (r.gpr P.sp) ∧ (r.gpr P.sp - d).toNat ≤ (P.argTop σ - d).toNat ∧
    ∀ a, M₁.stk j a → M₃.mem a ≠ M₁.mem a → P.mslot d a ∨ W a

variable {X : Extra P} {D : Reads A} {e : Env A} {M M' : MCfg A} {c c' : Cfg A}

theorem sched_reach (hr : Reachable X e c) (h : c' = c ∨ ∃ i, Step X e c (.sched i) c') : Reachable X e c' := by
  rcases h with rfl | ⟨i, h⟩
  · exact hr
  · exact .step hr h

theorem abs_reach {l : Lab A} (hr : Reachable X e c) (h : Abs X D e M M' c l c') : Reachable X e c' := by
  cases l with
  | tau => rw [show c' = c from h]; exact hr
  | run => exact .step hr h.1
  | done i l σ => exact .step hr h.1
  | drop j => exact .step hr h
  | spawn j => exact .step hr h

/-- every reachable state is simulated -/
theorem reach_sim {f : Env A → St A → A.W} (hJ : P.JumpSpec) (hO : X.OntopS f) (hM : X.MakeS) (F : Footprint X D) (L : Local X D) (h : MReach X D e M) :
    ∃ c, Reachable X e c ∧ Sim X D e M c := by
  induction h with
  | init M i t r h1 h2 =>
    have hn : ∀ {k}, M.ctx k ≠ none → k = i := fun {k} hk => by
      by_cases hki : k = i
      · exact hki
      · rw [h1, upd_ne _ _ hki] at hk; exact absurd rfl hk
    have hb : ∀ k t' l σ p r' rs, M.ctx k ≠ some (.busy t' l σ p r' rs) := fun k t' l σ p r' rs hk => by
      have hki : k = i := hn (by rw [hk]; simp)
      rw [hki, h1, upd_same] at hk; cases hk
    have hr : Reachable X e (⟨t, i, ⟨r.gpr, r.fpr, M.mem⟩, M.stk, fun _ => none⟩ : Cfg A) := .init _ (fun _ => rfl) h2
    refine ⟨_, hr, inv_reachable hJ hO hM hr, fun k => ?_, fun k x _ _ => rfl, fun i' j' _ _ _ _ _ _ _ _ _ _ _ _ _ hi => absurd hi (hb _ _ _ _ _ _ _),
      fun k k' a hk hk' hne => absurd ((hn hk).trans (hn hk').symm) hne, fun k a hk => by rw [hn hk]; exact h2 a, fun _ _ _ _ _ _ _ hi => absurd hi (hb _ _ _ _ _ _ _), fun _ _ => rfl⟩
    by_cases hki : k = i
    · rw [hki, h1, upd_same]; exact .inr ⟨rfl, rfl, rfl, rfl⟩
    · rw [h1, upd_ne _ _ hki]; exact ⟨hki, rfl⟩
  | step _ hs ih =>
    obtain ⟨c, i1, i2⟩ := ih
    obtain ⟨c1, c', h1, h2, h3, -, -⟩ := sim_step hJ hO hM F L hs i2
    exact ⟨c', abs_reach (sched_reach i1 h1) h2, h3⟩

theorem away_sim {f : Env A → St A → A.W} (hJ : P.JumpSpec) (hO : X.OntopS f) (hM : X.MakeS) (F : Footprint X D) (L : Local X D) {i : Nat} {W : A.W → Prop}
    (h : MAway X D e i W M M') (hs : Sim X D e M c) : ∃ c', Away X e i W c c' ∧ Sim X D e M' c' := by
  induction h with
  | refl => exact ⟨c, .refl c, hs⟩
  | @step M1 M2 l _ hst n1 n2 n3 ih =>
    obtain ⟨c1, i1, i2⟩ := ih
    obtain ⟨c2, c3, h1, h2, h3, -⟩ := sim_step hJ hO hM F L hst i2
    have a1 : Away X e i W c c2 := by
      rcases h1 with rfl | ⟨k, h1⟩
      · exact i1
      · exact .step i1 h1 (by simp) (by simp) (by simp) (by simp)
    refine ⟨c3, ?_, h3⟩
    cases l with
    | tau => rw [show c3 = c2 from h2]; exact a1
    | run => exact .step a1 h2.1 (by simp) (by simp) (by simp) fun _ a ha => n3 rfl a (h2.2 a ha)
    | done k l' σ =>
      refine .step a1 h2.1 ?_ ?_ ?_ ?_
      · rintro rfl; exact (n1 k σ).1 rfl
      · rintro rfl; exact (n1 k σ).2 rfl
      · rintro rfl; cases hst with | switch i t k l σ p r q hi hl => rcases hl with hl | hl <;> cases hl
      · rintro rfl; cases hst with | switch i t k l σ p r q hi hl => rcases hl with hl | hl <;> cases hl
    | drop j => exact .step a1 h2 (by simp) (by simp) (fun hh => n2 (by injection hh with hh; rw [hh])) (by simp)
    | spawn j => exact .step a1 h2 (by simp) (by simp) (by simp) (by simp)

/-- memory of the stack of a context no call is about -/
theorem Sim.stk_mem (h : Sim X D e M c) {k : Nat} (hk : M.ctx k ≠ none) (hb : ∀ t l σ p r rs, M.ctx k ≠ some (.busy t l σ p r rs)) (hc : ¬ Claimed M k) {a : A.W}
    (ha : M.stk k a) : M.mem a = c.s.mem a :=
  h.quiet fun k' h1 h2 => by
    have : k' = k := Classical.byContradiction fun hh => h.disj k' k a h1 hk hh h2 ha
    subst this
    exact ⟨hb, hc⟩

theorem Sim.user_mem (h : Sim X D e M c) {k t : Nat} {r : Regs A} (hk : M.ctx k = some (.user t r)) {a : A.W} (ha : M.stk k a) : M.mem a = c.s.mem a :=
  h.stk_mem (by rw [hk]; simp) (by rw [hk]; simp)
    (fun ⟨i, _, _, _, _, _, _, h1, h2⟩ => ((h.busy i _ _ _ _ _ _ h1).ready.tgt_live h2).2.1 _ _ hk) ha

/-- a context leaves -/
theorem left_sim {f : Env A → St A → A.W} (hJ : P.JumpSpec) (hO : X.OntopS f) (hM : X.MakeS) (F : Footprint X D) (L : Local X D) {i k : Nat} {l : Act} {σ : St A}
    (hr : MReach X D e M) (hs : MStep X D e M (.done i l σ) M') (hl : l = .jump k ∨ l = .ontop k) :
    ∃ c c', Reachable X e c ∧ Step X e c l c' ∧ c.cur = i ∧ Same (fun a => InR a (P.fctx σ) X.fp) σ c.s ∧ Sim X D e M' c' ∧ M'.ctx i ≠ none ∧
      ∀ a, M'.stk i a → M'.mem a = c'.s.mem a := by
  obtain ⟨c0, r0, s0⟩ := reach_sim hJ hO hM F L hr
  obtain ⟨c1, c2, h1, ⟨k1, k2, t, p, r, q, k3, -, k4, -⟩, h3, -⟩ := sim_step hJ hO hM F L hs s0
  have hx : ∃ f, M'.ctx i = some (.susp f) := by
    cases hs with
    | switch i t k l σ p r q hi hl => exact ⟨_, upd_same _ _ _⟩
    | made => rcases hl with hl | hl <;> cases hl
  obtain ⟨f', hx⟩ := hx
  refine ⟨c1, c2, sched_reach r0 h1, k1, k2, k4.mono ?_, h3, by rw [hx]; simp, fun a ha => h3.stk_mem (by rw [hx]; simp) (by rw [hx]; simp) ?_ ha⟩
  · rcases hl with rfl | rfl
    · exact fun a ha => .inl ha
    · exact fun a ha => .inl (.inl ha)
  · rintro ⟨j, t', l', σ', p', r', rs', g1, g2⟩
    have hj : M.ctx j = some (.busy t' l' σ' p' r' rs') := by
      cases hs with
      | switch i t k l σ p r q hi hl =>
        have hji : j ≠ i := fun hh => by rw [hh] at g1; simp only [upd_same] at g1; cases g1
        by_cases hjk : j = k
        · rw [hjk] at g1; rw [hjk] at hji; simp only [upd_ne _ _ hji, upd_same] at g1; cases g1
        · simpa only [upd_ne _ _ hji, upd_ne _ _ hjk] using g1
      | made => rcases hl with hl | hl <;> cases hl
    exact ((s0.busy j _ _ _ _ _ _ hj).ready.tgt_live g2).2.2 _ _ _ _ _ _ k3

/-- a switch to a context -/
theorem arrive_sim {f : Env A → St A → A.W} (hJ : P.JumpSpec) (hO : X.OntopS f) (hM : X.MakeS) (F : Footprint X D) (L : Local X D) {i j : Nat} {l : Act} {σ : St A}
    (h : Sim X D e M c) (hs : MStep X D e M (.done i l σ) M') (hl : l = .jump j ∨ l = .ontop j) :
    ∃ c₁ c', (c₁ = c ∨ ∃ i, Step X e c (.sched i) c₁) ∧ c₁.s.mem = c.s.mem ∧ Step X e c₁ l c' ∧ Sim X D e M' c' ∧ ∃ t p r q,
      M.ctx i = some (.busy t l σ p r [.jmp [] q]) ∧ Ready X D e M i σ l p ∧ Same (uses X D e l σ p) σ c₁.s ∧ c'.s = (execs e p c₁.s).1 ∧
      M'.ctx j = some (.user t r) ∧ c'.s.gpr = r.gpr ∧ c'.s.fpr = r.fpr ∧ (execs e p c₁.s).2 = r.gpr q ∧ (∀ a, (M'.stk j a ∨ Still e M' a) → c'.s.mem a = M'.mem a) ∧
      Sim X D e M c₁ := by
  obtain ⟨c1, c2, h1, ⟨k1, k2, t, p, r, q, k3, k4, k5, k6, k7, k8, k9⟩, h3, h4, h9⟩ := sim_step hJ hO hM F L hs h
  have hji : j ≠ i := by
    have := (k4.tgt_live (k := j) (by rcases hl with rfl | rfl <;> rfl)).2.2
    intro hh; subst hh; exact this _ _ _ _ _ _ k3
  have hx : M'.ctx j = some (.user t r) := by
    cases hs with
    | switch i t' k l σ p' r' q' hi hl' =>
      have : k = j := by rcases hl with rfl | rfl <;> rcases hl' with hl' | hl' <;> cases hl' <;> rfl
      subst this
      rw [hi] at k3
      simp only [Option.some.injEq, MCtx.busy.injEq] at k3
      obtain ⟨rfl, -, -, rfl, rfl, -⟩ := k3
      show upd (upd M.ctx k _) i _ k = _
      rw [upd_ne _ _ hji, upd_same]
    | made => rcases hl with hl | hl <;> cases hl
  exact ⟨c1, c2, h1, h4, k1, h3, t, p, r, q, k3, k4, k5, k6, hx, k7, k8, k9, fun a ha => (ha.elim (fun ha => h3.user_mem hx ha) (h3.mem a)).symm, h9⟩

theorem round_trip {f : Env A → St A → A.W} (hJ : P.JumpSpec) (hO : X.OntopS f) (hM : X.MakeS) (F : Footprint X D) (L : Local X D)
    {M₀ M₁ M₂ M₃ : MCfg A} {i i' k : Nat} {l l' : Act} {σ τ : St A} {W : A.W → Prop} (h0 : MReach X D e M₀) (h1 : MStep X D e M₀ (.done i l σ) M₁)
    (hl : l = .jump k ∨ l = .ontop k) (h2 : MAway X D e i W M₁ M₂) (h3 : MStep X D e M₂ (.done i' l' τ) M₃) (hl' : l' = .jump i ∨ l' = .ontop i) :
    ∃ t p r q c₀ c₁ c₂ c₃, M₂.ctx i' = some (.busy t l' τ p r [.jmp [] q]) ∧ M₃.ctx i = some (.user t r) ∧ Ready X D e M₂ i' τ l' p ∧
      Reachable X e c₀ ∧ Step X e c₀ l c₁ ∧ c₀.cur = i ∧ Away X e i W c₁ c₂ ∧ Step X e c₂ l' c₃ ∧ Same (fun a => InR a (P.fctx σ) X.fp) σ c₀.s ∧
      Same (uses X D e l' τ p) τ c₂.s ∧ c₃.s = (execs e p c₂.s).1 ∧ (execs e p c₂.s).2 = r.gpr q ∧
      Same (fun a => M₃.stk i a ∨ Still e M₃ a) c₃.s (r.on M₃.mem) ∧ c₁.ctx i = some (.susp c₀.s) ∧ (∀ a, M₁.stk i a → c₂.s.mem a ≠ M₁.mem a → W a) ∧
      Inv X e c₂ ∧ c₂.stk i = M₁.stk i ∧ M₃.stk i = M₁.stk i ∧ c₂.ctx i = some (.susp c₀.s) ∧ Sim X D e M₂ c₂ := by
  obtain ⟨c0, c1, r0, t0, cur0, m0, s1, n1, mem1⟩ := left_sim hJ hO hM F L h0 h1 hl
  obtain ⟨c2, a2, s2⟩ := away_sim hJ hO hM F L h2 s1
  obtain ⟨c3, c4, g1, g2, t3, s4, t, p, r, q, g3, g4, g5, g6, g7, g8, g9, g10, g11, g12⟩ := arrive_sim hJ hO hM F L s2 h3 hl'
  have a3 : Away X e i W c1 c3 := by
    rcases g1 with rfl | ⟨k, g1⟩
    · exact a2
    · exact .step a2 g1 (by simp) (by simp) (by simp) (by simp)
  obtain ⟨l1, l2, -⟩ := leave hJ hO hM r0 t0 hl
  rw [cur0] at l1
  have hr1 := Reachable.step r0 t0
  obtain ⟨b1, b2, b3⟩ := away_susp hJ hO hM a3 hr1 l1 (by intros; simp)
  have hst1 : c1.stk i = M₁.stk i := (s1.live_stk (.inr (by rw [l1]; simp))).2
  have hst4 : c4.stk i = M₃.stk i := s4.stk i _ g7 (by simp)
  have hst34 : c4.stk = c3.stk := by rcases hl' with rfl | rfl <;> cases t3 <;> rfl
  refine ⟨t, p, r, q, c0, c1, c3, c4, g3, g7, g4, r0, t0, cur0, a3, t3, m0, g5, g6, g10, ⟨g8, g9, g11⟩, l1, fun a ha hd => ?_, inv_reachable hJ hO hM (away_reachable a3 hr1), ?_, ?_, b1, g12⟩
  · exact b3 a (hst1 ▸ ha) fun hh => hd (hh.trans (mem1 a ha).symm)
  · rw [b2, hst1]
  · rw [← hst4, hst34, b2, hst1]

/-- **C82** -/
theorem C82_of_footprints {f : Env A → St A → A.W} (hJ : P.JumpSpec) (hO : X.OntopS f) (hM : X.MakeS) (F : Footprint X D) (L : Local X D) : Spec X D f where
  atomic h := by
    obtain ⟨c, h1, h2⟩ := reach_sim hJ hO hM F L h
    exact ⟨c, h1, h2.ctx, h2.stk, fun a ha => (h2.mem a ha).symm⟩
  alone h hi := by
    obtain ⟨c, h1, h2⟩ := reach_sim hJ hO hM F L h
    exact (h2.busy _ _ _ _ _ _ _ hi).part
  apart h hi hj hne a ha := by
    obtain ⟨c, h1, h2⟩ := reach_sim hJ hO hM F L h
    have := h2.apart hi hj hne ha
    exact ⟨fun hh => this (.inr (.inl hh)), fun hh => this (.inr (.inr hh))⟩
  resume {e M₀ M₁ M₂ M₃ i i' k l σ τ W} h0 h1 hl h2 h3 := by
    obtain ⟨t, p, r, q, c0, c1, c2, c3, g1, g2, g3, r0, t0, cur0, a2, t3, m0, m2, e1, e2, m3, l1, hw, hinv, hst, hst', hx, hsim⟩ :=
      round_trip hJ hO hM F L h0 h1 hl h2 h3 (.inl rfl)
    subst cur0
    cases t3 with
    | start _ σ' hx' => rw [hx] at hx'; cases hx'
    | resume _ σ' hx' hf hc =>
      have : σ' = c0.s := by rw [hx] at hx'; injection hx' with hx'; injection hx' with hx'; exact hx'.symm
      subst this
      cases g3 with
      | start g4 => have := hsim.ctx c0.cur; rw [g4] at this; obtain ⟨s, h5, -⟩ := this; rw [hx] at h5; cases h5
      | resume g4 g5 g6 =>
        obtain ⟨⟨m, k1, k2⟩, k3⟩ := intact hinv hx hf hc
        obtain ⟨j1, j2, j3, j4, j5, j6⟩ := hJ e c0.s c2.s m k1 k2 hf
        obtain ⟨x1, x2, x3, x4, x5, x6, -⟩ := L.call (e := e) m0
        obtain ⟨y1, y2, y3, -⟩ := L.call (e := e) (m2.mono fun a ha => .inl ha)
        have hslot : ∀ a, P.slot c0.s a → c2.stk c0.cur a := fun a ha => ((hinv.susp _ _ hx).slot a ha).1
        have hs3 : Same (P.slot c0.s) (exec e P.jump c2.s).1 (r.on M₃.mem) :=
          ⟨m3.1, m3.2.1, fun a ha => m3.2.2 a (.inl (by rw [hst', ← hst]; exact hslot a ha))⟩
        have m0' : Same (fun a => InR a (P.fctx c0.s) X.fp) c0.s σ := m0.symm.mono (by rw [x1]; exact fun _ h => h)
        obtain ⟨z1, z2, z3⟩ := L.res m0' hs3
        have e2' : (exec e P.jump c2.s).2 = r.gpr q := e2
        refine ⟨t, r, q, g1, g2, ⟨?_, ?_, fun w hw => ?_, fun w hw => ?_⟩, ?_, ?_, z3 j6, fun a ha hd => ?_⟩
        · rw [← x4, ← e2']; exact j1.pc
        · rw [← x5, ← j1.sp]; exact congrFun m3.1.symm _
        · rw [m0.1, ← j1.saved w hw]; exact congrFun m3.1.symm w
        · rw [m0.2.1, ← j1.fsaved w hw]; exact congrFun m3.2.1.symm w
        · rw [z1, j2, y1]
        · rw [z2, j3, y3]
        · rw [← x6]
          have hq : (exec e P.jump c2.s).1.mem a = M₃.mem a := m3.2.2 a (.inl (hst' ▸ ha))
          rw [← hq] at hd
          by_cases q1 : (exec e P.jump c2.s).1.mem a = c2.s.mem a
          · exact .inr (hw a ha (q1 ▸ hd))
          · rcases j4 a q1 with h | h
            · have hne : c2.cur ≠ c0.cur := fun hh => by rw [← hh, hinv.cur] at hx; cases hx
              exact absurd (hst ▸ ha) (hinv.disj c2.cur c0.cur a (.inl rfl) (.inr (by rw [hx]; simp)) hne (hc.foot a (inR_mono h X.frame)))
            · exact .inl h
  ontop {e M₀ M₁ M₂ M₃ i i' k l σ τ W} h0 h1 hl h2 h3 := by
    obtain ⟨t, p, r, q, c0, c1, c2, c3, g1, g2, g3, r0, t0, cur0, a2, t3, m0, m2, e1, e2, m3, l1, hw, hinv, hst, hst', hx, hsim⟩ :=
      round_trip hJ hO hM F L h0 h1 hl h2 h3 (.inr rfl)
    subst cur0
    cases t3 with
    | ontop _ σ' hx' hf hc ho =>
      have : σ' = c0.s := by rw [hx] at hx'; injection hx' with hx'; injection hx' with hx'; exact hx'.symm
      subst this
      cases g3 with
      | ontop g4 g5 g6 =>
        obtain ⟨⟨m, k1, k2⟩, k3⟩ := intact hinv hx hf hc
        obtain ⟨j1, j2, j3, j4⟩ := hO ho e c0.s c2.s m k1 k2 hf
        obtain ⟨x1, x2, x3, x4, x5, x6, -⟩ := L.call (e := e) m0
        obtain ⟨y1, y2, y3, -⟩ := L.call (e := e) (m2.mono fun a ha => .inl (.inl ha))
        have e2' : (exec e P.ontop c2.s).2 = r.gpr q := e2
        refine ⟨t, r, q, g1, g2, ⟨c2.s, m2.mono fun a ha => .inl ha, by rw [← e2', j1]⟩, ⟨_, m3, ?_⟩, fun a ha hd => ?_⟩
        · refine ⟨j2.ra.trans x4, j2.spRet.trans x5, fun w hw => ?_, fun w hw => ?_, fun a => (j2.slot a).trans (x6 a), j2.argF.trans y1, j2.argD.trans y3⟩
          · rw [m0.1]; exact j2.saved w hw
          · rw [m0.2.1]; exact j2.fsaved w hw
        · rw [← x6]
          have hq : (exec e P.ontop c2.s).1.mem a = M₃.mem a := m3.2.2 a (.inl (hst' ▸ ha))
          rw [← hq] at hd
          by_cases q1 : (exec e P.ontop c2.s).1.mem a = c2.s.mem a
          · exact .inr (.inr (hw a ha (q1 ▸ hd)))
          · rcases j3 a q1 with h | h | h
            · have hne : c2.cur ≠ c0.cur := fun hh => by rw [← hh, hinv.cur] at hx; cases hx
              exact absurd (hst ▸ ha) (hinv.disj c2.cur c0.cur a (.inl rfl) (.inr (by rw [hx]; simp)) hne (hc.foot a (inR_mono h X.frame)))
            · exact .inl h
            · exact .inr (.inl (L.oarea m0.1.symm h))
  start {e M₀ M₁ M₂ M₃ i i' j σ τ W} h0 h1 h2 h3 := by
    obtain ⟨b0, r0, s0⟩ := reach_sim hJ hO hM F L h0
    obtain ⟨c0, c1, u1, ⟨t0, cur0, t', p', r', q', v1, v2, v3, v4, v5, -⟩, s1, -, s0'⟩ := sim_step hJ hO hM F L h1 s0
    have r0 := sched_reach r0 u1
    obtain ⟨c2', a2, s2⟩ := away_sim hJ hO hM F L h2 s1
    obtain ⟨c2, c3, w1, w2, t3, s3, t, p, r, q, g1, g3, m2, e1, g2, d1, d2, e2, d3, hsim⟩ := arrive_sim hJ hO hM F L s2 h3 (.inl rfl)
    have a3 : Away X e j W c1 c2 := by
      rcases w1 with rfl | ⟨k, w1⟩
      · exact a2
      · exact .step a2 w1 (by simp) (by simp) (by simp) (by simp)
    have hr1 := Reachable.step r0 t0
    -- the new context
    have hx1 : c1.ctx j = some (.fresh c0.s) ∧ c1.s = (exec e P.make c0.s).1 := by cases t0; simp
    have hd : M₁.ctx j = some (.fresh (P.resM (exec e P.make c0.s).1)) := by
      cases h1 with
      | switch _ _ _ _ _ _ _ _ _ hl => rcases hl with hl | hl <;> cases hl
      | made _ t'' _ _ p'' r'' q'' hi =>
        rw [hi] at v1
        simp only [Option.some.injEq, MCtx.busy.injEq] at v1
        obtain ⟨rfl, -, -, rfl, rfl, -⟩ := v1
        have hji : j ≠ i := fun hh => by subst hh; exact (v2.tgt_live rfl).2.2 _ _ _ _ _ _ hi
        show upd (upd M₀.ctx j _) i _ j = _
        rw [upd_ne _ _ hji, upd_same, ← hx1.2, L.resM (s := c1.s) (s' := r''.on M₀.mem) v5]
    have hcl : ¬ Claimed M₁ j := by
      rintro ⟨i1, t1, l1, σ1, p1, r1, rs1, z1, z2⟩
      cases h1 with
      | switch _ _ _ _ _ _ _ _ _ hl => rcases hl with hl | hl <;> cases hl
      | made _ t'' _ _ p'' r'' q'' hi =>
        have hne : i1 ≠ i := fun hh => by rw [hh] at z1; simp only [upd_same] at z1; cases z1
        have hnj : i1 ≠ j := fun hh => by rw [hh] at z1; rw [hh] at hne; simp only [upd_ne _ _ hne, upd_same] at z1; cases z1
        simp only [upd_ne _ _ hne, upd_ne _ _ hnj] at z1
        exact hne (s0.claim _ _ _ _ _ _ _ _ _ _ _ _ _ _ _ z1 hi z2 rfl)
    have mem1 : ∀ a, M₁.stk j a → M₁.mem a = c1.s.mem a := fun a ha => s1.stk_mem (by rw [hd]; simp) (by rw [hd]; simp) hcl ha
    obtain ⟨b1, b2, b3⟩ := away_susp hJ hO hM a3 hr1 hx1.1 (by intros; simp)
    have hinv := inv_reachable hJ hO hM (away_reachable a3 hr1)
    have hst1 : c1.stk j = M₁.stk j := (s1.live_stk (.inr (by rw [hx1.1]; simp))).2
    have hst3 : c3.stk j = M₃.stk j := s3.stk j _ g2 (by simp)
    have hst23 : c3.stk = c2.stk := by cases t3 <;> rfl
    have hmk : P.argTop c0.s = P.argTop σ ∧ P.argMFn c0.s = P.argMFn σ := by
      cases v2 with
      | make _ _ _ v6 =>
        obtain ⟨-, l2, l3, -⟩ := L.make v6 (v3.mono fun a ha => .inr (.inl (.inl ha)))
        exact ⟨l2, l3⟩
    cases t3 with
    | resume _ σ' hx' => rw [b1] at hx'; cases hx'
    | start _ σ' hx' hf hc =>
      have : σ' = c0.s := by rw [b1] at hx'; injection hx' with hx'; injection hx' with hx'; exact hx'.symm
      subst this
      cases g3 with
      | resume g4 => have := hsim.ctx j; rw [g4] at this; obtain ⟨s, h5, -⟩ := this; rw [b1] at h5; cases h5
      | start g4 g5 g6 =>
        obtain ⟨n1, n2, n3, n4, n5, n6, n7, n8, n9, n10, n11⟩ := started hM hinv hx' hf hc
        obtain ⟨y1, y2, y3, -⟩ := L.call (e := e) (m2.mono fun a ha => .inl ha)
        have e2' : (P.enter e c2.s).2 = r.gpr q := by rw [P.enter_execs]; exact e2
        have d1' : (P.enter e c2.s).1.gpr = r.gpr := d1
        have hne : c2.cur ≠ j := fun hh => by rw [← hh, hinv.cur] at hx'; cases hx'
        refine ⟨_, t, r, q, hd, g1, g2, fun l cc hl => ?_, by rw [← e2', n6, hmk.2], ⟨(P.enter e c2.s).1, ⟨d1, d2, d3⟩, n7.trans y1, n8.trans y3, n9⟩, by rw [← d1']; exact n10,
          by rw [← hf, ← d1', ← hmk.1]; exact n11, fun a ha hd' => ?_⟩
        · rw [← n5 l cc hl]
          exact (exec_same L.sane P.jump (m2.mono (S' := P.jump.accs .rd e τ) fun a ha => .inr (.inl (.inl ha))) fun a ha => ha).2.1
        · rw [← hf]
          have ha3 : M₃.stk j a := by rw [← hst3, hst23, b2, hst1]; exact ha
          have hq : (P.enter e c2.s).1.mem a = M₃.mem a := d3 a (.inl ha3)
          rw [← hq, mem1 a ha] at hd'
          by_cases q1 : (P.enter e c2.s).1.mem a = c2.s.mem a
          · exact .inr (b3 a (hst1 ▸ ha) (q1 ▸ hd'))
          · rcases n4 a q1 with h | h
            · exact absurd (b2.trans hst1 ▸ ha) (hinv.disj c2.cur j a (.inl rfl) (.inr (by rw [b1]; simp)) hne (hc.foot a (inR_mono h X.frame)))
            · exact .inl h.1

end Micro
end Verif.Asm
