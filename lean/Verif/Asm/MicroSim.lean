import Verif.Asm.Micro

/-! # Switches instruction by instruction: simulation by the atomic system (C82) -/

namespace Verif.Asm
namespace Micro
open Many

variable {A : Arch} {P : Port A}

/-- context `i` runs on thread `t` with the given registers -/
def parAt (c : Cfg A) (i t : Nat) (g : A.R → A.W) (q : (q : A.F) → BitVec (8 * A.fb q)) : Prop :=
  c.ctx i = some (.par t g q) ∨ (i = c.cur ∧ c.thr = t ∧ c.s.gpr = g ∧ c.s.fpr = q)

/-- a context of the instruction level and the same context of the atomic system: a call in progress has not begun there -/
def CtxRel (P : Port A) (e : Env A) (c : Cfg A) (i : Nat) : Option (MCtx A) → Prop
  | none => i ≠ c.cur ∧ c.ctx i = none
  | some .born => i ≠ c.cur ∧ c.ctx i = none
  | some (.fresh f) => ∃ σ, c.ctx i = some (.fresh σ) ∧ P.resM (exec e P.make σ).1 = f
  | some (.susp f) => ∃ σ, c.ctx i = some (.susp σ) ∧ P.fctx σ = f
  | some (.user t r) => parAt c i t r.gpr r.fpr
  | some (.busy t _ σ _ _ _) => parAt c i t σ.gpr σ.fpr

structure BusyOk (X : Extra P) (D : Reads A) (e : Env A) (M : MCfg A) (c : Cfg A) (i : Nat) (l : Act) (σ : St A) (p : List (Code A)) (r : Regs A)
    (rest : List (Code A)) : Prop where
  ready : Ready X D e M i σ l p
  agree : ∀ a, uses X D e l σ p a → c.s.mem a = σ.mem a
  wr : ∀ a, progAccs .wr e p σ a → M.stk i a ∨ ∃ k, tgt l = some k ∧ M.stk k a
  own : ∀ a, progAccs .wr e p σ a → M.stk i a → InR a (P.fctx σ) P.frame ∨ ∃ j, l = .make j
  rd : ∀ a, progAccs .rd e p σ a → M.stk i a ∨ (∃ k, tgt l = some k ∧ M.stk k a) ∨ ∀ j, M.ctx j ≠ none → ¬ M.stk j a
  part : ∃ s, Mics e p σ rest s ∧ s.gpr = r.gpr ∧ s.fpr = r.fpr ∧ ∀ a, (progAccs .rd e p σ a ∨ progAccs .wr e p σ a) → M.mem a = s.mem a

structure Sim (X : Extra P) (D : Reads A) (e : Env A) (M : MCfg A) (c : Cfg A) : Prop where
  inv : Inv X e c
  ctx : ∀ i, CtxRel P e c i (M.ctx i)
  stk : ∀ i x, M.ctx i = some x → x ≠ .born → c.stk i = M.stk i
  claim : ∀ i i' t t' l l' σ σ' p p' r r' rs rs' k, M.ctx i = some (.busy t l σ p r rs) → M.ctx i' = some (.busy t' l' σ' p' r' rs') → tgt l = some k →
    tgt l' = some k → i = i'
  disj : ∀ i j a, M.ctx i ≠ none → M.ctx j ≠ none → i ≠ j → M.stk i a → ¬ M.stk j a
  null : ∀ i a, M.ctx i ≠ none → M.stk i a → ¬ X.null a
  busy : ∀ i t l σ p r rs, M.ctx i = some (.busy t l σ p r rs) → BusyOk X D e M c i l σ p r rs
  mem : ∀ a, (∀ i t l σ p r rs, M.ctx i = some (.busy t l σ p r rs) → ¬ progAccs .wr e p σ a) → M.mem a = c.s.mem a

variable {X : Extra P} {D : Reads A} {e : Env A} {M M' : MCfg A} {c c' : Cfg A}

theorem upd_same {β : Type _} (f : Nat → β) (i : Nat) (v : β) : upd f i v i = v := by simp [upd]
theorem upd_ne {β : Type _} (f : Nat → β) {i k : Nat} (v : β) (h : k ≠ i) : upd f i v k = f k := by simp [upd, h]

theorem Ready.tgt {i : Nat} {σ : St A} {l : Act} {p : List (Code A)} (h : Ready X D e M i σ l p) : ∃ k, tgt l = some k ∧
    ((∃ f, M.ctx k = some (.susp f)) ∨ (∃ f, M.ctx k = some (.fresh f)) ∨ M.ctx k = some .born) := by
  cases h with
  | resume h => exact ⟨_, rfl, .inl ⟨_, h⟩⟩
  | start h => exact ⟨_, rfl, .inr (.inl ⟨_, h⟩)⟩
  | ontop h => exact ⟨_, rfl, .inl ⟨_, h⟩⟩
  | make h => exact ⟨_, rfl, .inr (.inr h)⟩

theorem Ready.tgt_live {i : Nat} {σ : St A} {l : Act} {p : List (Code A)} (h : Ready X D e M i σ l p) {k : Nat} (hk : Micro.tgt l = some k) :
    M.ctx k ≠ none ∧ (∀ t r, M.ctx k ≠ some (.user t r)) ∧ ∀ t l σ p r rs, M.ctx k ≠ some (.busy t l σ p r rs) := by
  obtain ⟨k', h1, h2⟩ := h.tgt
  rw [hk] at h1
  injection h1 with h1
  subst h1
  rcases h2 with ⟨f, h2⟩ | ⟨f, h2⟩ | h2 <;> rw [h2] <;> simp

/-- the part of the call outside the code lies on its own stack or on no stack -/
theorem Ready.area {i : Nat} {σ : St A} {l : Act} {p : List (Code A)} (h : Ready X D e M i σ l p) {a : A.W} (ha : area X D e l σ a) :
    M.stk i a ∨ ∀ j, M.ctx j ≠ none → ¬ M.stk j a := by
  cases h with
  | resume _ _ h => exact .inl (h.foot a ha)
  | start _ _ h => exact .inl (h.foot a ha)
  | ontop _ _ h _ hd => exact ha.elim (fun hh => .inl (h.foot a hh)) fun hh => .inr fun j hj => hd j a hj hh
  | make _ _ _ _ hd =>
    by_cases hi : M.stk i a
    · exact .inl hi
    · refine .inr fun j hj hs => ?_
      by_cases hji : j = i
      · exact hi (hji ▸ hs)
      · exact hd j a hj hji ha hs

theorem Ready.transfer {i : Nat} {σ : St A} {l : Act} {p : List (Code A)} (h : Ready X D e M i σ l p) (hk : ∀ k, Micro.tgt l = some k → M'.ctx k = M.ctx k)
    (hs : ∀ k, M.ctx k ≠ none → M'.stk k = M.stk k) (hi : M.ctx i ≠ none)
    (hl : ∀ k a, M'.ctx k ≠ none → M.ctx k = none → Micro.area X D e l σ a → ¬ M'.stk k a) : Ready X D e M' i σ l p := by
  have hc : CallAt X M i σ → CallAt X M' i σ := fun hh => ⟨by rw [hs i hi]; exact hh.foot, by rw [hs i hi]; exact hh.slot, hh.nn⟩
  have hn : ∀ (k : Nat) (a : A.W), M'.ctx k ≠ none → Micro.area X D e l σ a → (M.ctx k ≠ none → ¬ M.stk k a) → ¬ M'.stk k a := by
    intro k a h1 h2 h3
    by_cases h4 : M.ctx k = none
    · exact hl k a h1 h4 h2
    · rw [hs k h4]; exact h3 h4
  cases h with
  | resume h1 h2 h3 => exact .resume (by rw [hk _ rfl]; exact h1) h2 (hc h3)
  | start h1 h2 h3 => exact .start (by rw [hk _ rfl]; exact h1) h2 (hc h3)
  | ontop h1 h2 h3 h4 h5 => exact .ontop (by rw [hk _ rfl]; exact h1) h2 (hc h3) h4 fun j a hj ha => hn j a hj (.inr ha) fun h6 => h5 j a h6 ha
  | @make j h1 h2 h3 h4 h5 =>
    have hj : M.ctx j ≠ none := by rw [h1]; simp
    exact .make (by rw [hk _ rfl]; exact h1) (by rw [hs j hj]; exact h2) (by rw [hs i hi]; exact h3) h4
      fun k a hk hne ha => hn k a hk ha fun h6 => h5 k a h6 hne ha

theorem BusyOk.transfer {i : Nat} {σ : St A} {l : Act} {p rest : List (Code A)} {r : Regs A} (h : BusyOk X D e M c i l σ p r rest)
    (hk : ∀ k, tgt l = some k → M'.ctx k = M.ctx k) (hs : ∀ k, M.ctx k ≠ none → M'.stk k = M.stk k) (hi : M.ctx i ≠ none)
    (hl : ∀ k a, M'.ctx k ≠ none → M.ctx k = none → uses X D e l σ p a → ¬ M'.stk k a)
    (hc : ∀ a, uses X D e l σ p a → c'.s.mem a = c.s.mem a)
    (hm : ∀ a, (progAccs .rd e p σ a ∨ progAccs .wr e p σ a) → M'.mem a = M.mem a) : BusyOk X D e M' c' i l σ p r rest where
  ready := h.ready.transfer hk hs hi fun k a h1 h2 h3 => hl k a h1 h2 (.inl h3)
  agree a ha := (hc a ha).trans (h.agree a ha)
  wr a ha := by
    rcases h.wr a ha with h1 | ⟨k, h1, h2⟩
    · left; rw [hs i hi]; exact h1
    · right; exact ⟨k, h1, by rw [hs k (h.ready.tgt_live h1).1]; exact h2⟩
  own a ha := by rw [hs i hi]; exact h.own a ha
  rd a ha := by
    rcases h.rd a ha with h1 | ⟨k, h1, h2⟩ | h1
    · left; rw [hs i hi]; exact h1
    · right; left; exact ⟨k, h1, by rw [hs k (h.ready.tgt_live h1).1]; exact h2⟩
    · refine .inr (.inr fun k hk' => ?_)
      by_cases h4 : M.ctx k = none
      · exact hl k a hk' h4 (.inr (.inl ha))
      · rw [hs k h4]; exact h1 k h4
  part := by
    obtain ⟨s, s1, s2, s3, s4⟩ := h.part
    exact ⟨s, s1, s2, s3, fun a ha => (hm a ha).trans (s4 a ha)⟩

namespace Sim
variable (h : Sim X D e M c)
include h

/-- the stack on which a call in progress writes -/
theorem wr_stk {j t : Nat} {l : Act} {σ : St A} {p rs : List (Code A)} {r : Regs A} (hj : M.ctx j = some (.busy t l σ p r rs)) {a : A.W}
    (ha : progAccs .wr e p σ a) : ∃ k, (k = j ∨ tgt l = some k) ∧ M.ctx k ≠ none ∧ M.stk k a := by
  have hb := h.busy j _ _ _ _ _ _ hj
  rcases hb.wr a ha with h1 | ⟨k, h1, h2⟩
  · exact ⟨j, .inl rfl, by rw [hj]; simp, h1⟩
  · exact ⟨k, .inr h1, (hb.ready.tgt_live h1).1, h2⟩

/-- memory is that of the atomic system where no call in progress may write -/
theorem quiet {a : A.W} (hq : ∀ k, M.ctx k ≠ none → M.stk k a → (∀ t l σ p r rs, M.ctx k ≠ some (.busy t l σ p r rs)) ∧ ¬ Claimed M k) :
    M.mem a = c.s.mem a := by
  refine h.mem a fun j t l σ p r rs hj ha => ?_
  obtain ⟨k, h1, h2, h3⟩ := h.wr_stk hj ha
  obtain ⟨q1, q2⟩ := hq k h2 h3
  rcases h1 with rfl | h1
  · exact q1 _ _ _ _ _ _ hj
  · exact q2 ⟨j, t, l, σ, p, r, rs, hj, h1⟩

/-- no call in progress writes what another one uses -/
theorem apart {i j t t' : Nat} {l l' : Act} {σ σ' : St A} {p rs p' rs' : List (Code A)} {r r' : Regs A} (hi : M.ctx i = some (.busy t l σ p r rs))
    (hj : M.ctx j = some (.busy t' l' σ' p' r' rs')) (hne : i ≠ j) {a : A.W} (ha : progAccs .wr e p σ a) : ¬ uses X D e l' σ' p' a := by
  intro hu
  obtain ⟨k, k1, k2, k3⟩ := h.wr_stk hi ha
  have hb := h.busy j _ _ _ _ _ _ hj
  have hji : M.ctx j ≠ none := by rw [hj]; simp
  have key : (M.stk j a ∨ ∃ k, tgt l' = some k ∧ M.stk k a) ∨ ∀ m, M.ctx m ≠ none → ¬ M.stk m a := by
    rcases hu with h1 | h1 | h1
    · rcases hb.ready.area h1 with h2 | h2
      · exact .inl (.inl h2)
      · exact .inr h2
    · rcases hb.rd a h1 with h2 | h2 | h2
      · exact .inl (.inl h2)
      · exact .inl (.inr h2)
      · exact .inr h2
    · exact .inl (hb.wr a h1)
  rcases key with (h1 | ⟨m, h1, h2⟩) | h1
  · have hkj : k = j := Classical.byContradiction fun hh => h.disj k j a k2 hji hh k3 h1
    rcases k1 with k1 | k1
    · exact hne (k1.symm.trans hkj)
    · subst hkj; exact ((h.busy i _ _ _ _ _ _ hi).ready.tgt_live k1).2.2 _ _ _ _ _ _ hj
  · have hm := hb.ready.tgt_live h1
    have hkm : k = m := Classical.byContradiction fun hh => h.disj k m a k2 hm.1 hh k3 h2
    subst hkm
    rcases k1 with k1 | k1
    · subst k1; exact hm.2.2 _ _ _ _ _ _ hi
    · exact hne (h.claim _ _ _ _ _ _ _ _ _ _ _ _ _ _ _ hi hj k1 h1)
  · exact h1 k k2 k3

theorem cur_run : ∃ t, c.thr = t ∧ ((∃ r, M.ctx c.cur = some (.user t r)) ∨ ∃ l σ p r rs, M.ctx c.cur = some (.busy t l σ p r rs)) := by
  have h1 := h.ctx c.cur
  have h2 := h.inv.cur
  cases hx : M.ctx c.cur with
  | none => rw [hx] at h1; exact absurd rfl h1.1
  | some x =>
    rw [hx] at h1
    cases x with
    | born => exact absurd rfl h1.1
    | fresh f => obtain ⟨σ, h3, -⟩ := h1; rw [h2] at h3; cases h3
    | susp f => obtain ⟨σ, h3, -⟩ := h1; rw [h2] at h3; cases h3
    | user t r =>
      rcases h1 with h3 | ⟨-, h3, -⟩
      · rw [h2] at h3; cases h3
      · exact ⟨t, h3, .inl ⟨r, rfl⟩⟩
    | busy t l σ p r rs =>
      rcases h1 with h3 | ⟨-, h3, -⟩
      · rw [h2] at h3; cases h3
      · exact ⟨t, h3, .inr ⟨l, σ, p, r, rs, rfl⟩⟩

theorem par_run {k t : Nat} {g : A.R → A.W} {q : (q : A.F) → BitVec (8 * A.fb q)} (hk : c.ctx k = some (.par t g q)) :
    (∃ r, M.ctx k = some (.user t r)) ∨ ∃ l σ p r rs, M.ctx k = some (.busy t l σ p r rs) := by
  have h1 := h.ctx k
  have hne : k ≠ c.cur := fun hh => by rw [hh, h.inv.cur] at hk; cases hk
  cases hx : M.ctx k with
  | none => rw [hx] at h1; rw [h1.2] at hk; cases hk
  | some x =>
    rw [hx] at h1
    cases x with
    | born => rw [h1.2] at hk; cases hk
    | fresh f => obtain ⟨σ, h3, -⟩ := h1; rw [h3] at hk; cases hk
    | susp f => obtain ⟨σ, h3, -⟩ := h1; rw [h3] at hk; cases hk
    | user t' r =>
      rcases h1 with h3 | ⟨h3, -⟩
      · rw [h3] at hk; injection hk with hk; injection hk with hk; subst hk; exact .inl ⟨r, rfl⟩
      · exact absurd h3 hne
    | busy t' l σ p r rs =>
      rcases h1 with h3 | ⟨h3, -⟩
      · rw [h3] at hk; injection hk with hk; injection hk with hk; subst hk; exact .inr ⟨l, σ, p, r, rs, rfl⟩
      · exact absurd h3 hne

/-- the data of a suspended or new context -/
theorem held_used {k : Nat} {x : Ctx A} {a : A.W} (hk : c.ctx k = some x) (ha : held P e x a) : ∃ y, M.ctx k = some y ∧ used X D e y a := by
  have h1 := h.ctx k
  have hne : k ≠ c.cur := fun hh => by rw [hh, h.inv.cur] at hk; cases hk
  cases hx : M.ctx k with
  | none => rw [hx] at h1; rw [h1.2] at hk; cases hk
  | some y =>
    rw [hx] at h1
    cases y with
    | born => rw [h1.2] at hk; cases hk
    | fresh f => obtain ⟨σ, h3, rfl⟩ := h1; rw [h3] at hk; injection hk with hk; subst hk; exact ⟨_, rfl, ha⟩
    | susp f => obtain ⟨σ, h3, rfl⟩ := h1; rw [h3] at hk; injection hk with hk; subst hk; exact ⟨_, rfl, ha⟩
    | user t' r =>
      rcases h1 with h3 | ⟨h3, -⟩
      · rw [h3] at hk; injection hk with hk; subst hk; exact ha.elim
      · exact absurd h3 hne
    | busy t' l σ p r rs =>
      rcases h1 with h3 | ⟨h3, -⟩
      · rw [h3] at hk; injection hk with hk; subst hk; exact ha.elim
      · exact absurd h3 hne

theorem live_some {k : Nat} (hk : live c k) : ∃ x, M.ctx k = some x ∧ x ≠ .born := by
  rcases hk with rfl | hk
  · obtain ⟨t, -, ⟨r, h1⟩ | ⟨l, σ, p, r, rs, h1⟩⟩ := h.cur_run
    · exact ⟨_, h1, by simp⟩
    · exact ⟨_, h1, by simp⟩
  · have h1 := h.ctx k
    cases hx : M.ctx k with
    | none => rw [hx] at h1; exact absurd h1.2 hk
    | some y =>
      refine ⟨y, rfl, ?_⟩
      rintro rfl
      rw [hx] at h1; exact hk h1.2

theorem live_stk {k : Nat} (hk : live c k) : M.ctx k ≠ none ∧ c.stk k = M.stk k := by
  obtain ⟨x, h1, h2⟩ := h.live_some hk
  exact ⟨by rw [h1]; simp, h.stk k x h1 h2⟩

/-- the atomic system lets the thread of context `i` take the next step -/
theorem focus {f : Env A → St A → A.W} (hJ : P.JumpSpec) (hO : X.OntopS f) (hM : X.MakeS) {i t : Nat} {g : A.R → A.W} {q : (q : A.F) → BitVec (8 * A.fb q)}
    (hp : parAt c i t g q) : ∃ c1, (c1 = c ∨ Step X e c (.sched i) c1) ∧ Sim X D e M c1 ∧ c1.cur = i ∧ c1.thr = t ∧ c1.s = ⟨g, q, c.s.mem⟩ ∧ c1.stk = c.stk := by
  rcases hp with hp | ⟨h1, h2, h3, h4⟩
  · have hs : Step X e c (.sched i) _ := Step.sched i t g q hp
    have hne : i ≠ c.cur := fun hh => by rw [hh, h.inv.cur] at hp; cases hp
    refine ⟨_, .inr hs, ?_, rfl, rfl, rfl, rfl⟩
    have hi := inv_step hJ hO hM h.inv hs
    have hpar : ∀ k t' g' q', parAt c k t' g' q' → parAt (⟨t, i, ⟨g, q, c.s.mem⟩, c.stk,
        fun k => if k = c.cur then some (.par c.thr c.s.gpr c.s.fpr) else if k = i then none else c.ctx k⟩ : Cfg A) k t' g' q' := by
      intro k t' g' q' hk
      rcases hk with hk | ⟨k1, k2, k3, k4⟩
      · have hkc : k ≠ c.cur := fun hh => by rw [hh, h.inv.cur] at hk; cases hk
        by_cases hki : k = i
        · subst hki
          rw [hp] at hk
          injection hk with hk
          injection hk with k1 k2 k3
          exact .inr ⟨rfl, k1, k2, k3⟩
        · left; simp only [hkc, hki, if_false, hk]
      · left; subst k1 k2 k3 k4; simp only [if_true]
    have hnone : ∀ k, (k ≠ c.cur ∧ c.ctx k = none) → k ≠ i ∧ (if k = c.cur then some (Ctx.par c.thr c.s.gpr c.s.fpr) else if k = i then none else c.ctx k) = none := by
      rintro k ⟨k1, k2⟩
      have : k ≠ i := fun hh => by rw [hh, hp] at k2; cases k2
      exact ⟨this, by rw [if_neg k1, if_neg this, k2]⟩
    have hsome : ∀ k x, c.ctx k = some x → (∀ t g q, x ≠ .par t g q) → (if k = c.cur then some (Ctx.par c.thr c.s.gpr c.s.fpr) else if k = i then none else c.ctx k) = some x := by
      intro k x k1 k2
      have h1 : k ≠ c.cur := fun hh => by rw [hh, h.inv.cur] at k1; cases k1
      have h2 : k ≠ i := fun hh => by rw [hh, hp] at k1; injection k1 with k1; exact k2 _ _ _ k1.symm
      rw [if_neg h1, if_neg h2, k1]
    refine ⟨hi, fun k => ?_, h.stk, h.claim, h.disj, h.null, fun k t' l σ p r rs hk => ?_, h.mem⟩
    · have hk := h.ctx k
      cases hx : M.ctx k with
      | none => rw [hx] at hk; exact hnone k hk
      | some y =>
        rw [hx] at hk
        cases y with
        | born => exact hnone k hk
        | fresh f => obtain ⟨σ, k1, k2⟩ := hk; exact ⟨σ, hsome k _ k1 (by simp), k2⟩
        | susp f => obtain ⟨σ, k1, k2⟩ := hk; exact ⟨σ, hsome k _ k1 (by simp), k2⟩
        | user t' r => exact hpar _ _ _ _ hk
        | busy t' l σ p r rs => exact hpar _ _ _ _ hk
    · exact (h.busy k t' l σ p r rs hk).transfer (fun _ _ => rfl) (fun _ _ => rfl) (by rw [hk]; simp) (fun k a h1 h2 => absurd h2 h1) (fun _ _ => rfl) (fun _ _ => rfl)
  · refine ⟨c, .inl rfl, h, h1.symm, h2, ?_, rfl⟩
    rw [← h3, ← h4]

end Sim

end Micro
end Verif.Asm
