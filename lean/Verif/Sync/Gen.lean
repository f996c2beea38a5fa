import Verif.Sync.Spec

/-! # Happens-before of uses, for every machine whose steps use only what they run, hold, keep or make (proofs) -/

namespace Verif.Sync
open Verif.Fiber (CtxId Var Tid Kind Fctx)

/-- what of a state matters -/
structure View where
  cur : Tid → Option CtxId
  nextCtx : Nat
  val : Var → Option Fctx
  kind : Var → Kind
  /-- `ex m d`: context `d` is about to release `m` -/
  ex : CtxId → CtxId → Prop

/-- objects of the program -/
def PKind (k : Kind) : Prop := k = .heap ∨ (∃ c, k = .loc c) ∨ ∃ c, k = .cap c

/-- an object of the program, or one that the library keeps on the stack of `c` -/
def Near (k : Kind) (c : CtxId) : Prop := PKind k ∨ k = .exc c ∨ k = .ret c

/-- every context is run, held or being released once only -/
structure Good (v : View) : Prop where
  curInj : ∀ t t' d, v.cur t = some d → v.cur t' = some d → t = t'
  curNew : ∀ t d, v.cur t = some d → d < v.nextCtx
  curVal : ∀ t d x f, v.cur t = some d → v.val x = some f → f.ctx ≠ d
  curEx : ∀ t d e, v.cur t = some d → ¬ v.ex d e
  valNew : ∀ x f, v.val x = some f → f.ctx < v.nextCtx
  valInj : ∀ x y f g, v.val x = some f → v.val y = some g → f.ctx = g.ctx → x = y
  valEx : ∀ x f e, v.val x = some f → ¬ v.ex f.ctx e
  exNew : ∀ d e, v.ex d e → d < v.nextCtx
  exInj : ∀ d e e', v.ex d e → v.ex d e' → e = e'

/-- a step of thread `t` in context `c` that uses the contexts `U` -/
structure Facts (s s' : View) (t : Tid) (c : CtxId) (U : CtxId → Prop) : Prop where
  why : ∀ d, U d → d = c ∨ (s.nextCtx ≤ d ∧ d < s'.nextCtx) ∨ s.ex d c ∨ ∃ x f, s.val x = some f ∧ f.ctx = d ∧ s'.val x ≠ some f ∧ Near (s.kind x) c
  val : ∀ x f, s'.val x = some f → (s.val x = some f ∧ s'.kind x = s.kind x) ∨
    ((U f.ctx ∨ ∃ y, y ≠ x ∧ s.val y = some f ∧ Near (s.kind y) c) ∧ ∀ e, s'.kind x = .exc e ∨ s'.kind x = .ret e → U e)
  ex : ∀ m d, s'.ex m d → s.ex m d ∨ (U m ∧ U d)
  cur : ∀ t' d, s'.cur t' = some d → (U d ∧ (t' = t ∨ s.cur t' = none)) ∨ s.cur t' = some d
  mono : s.nextCtx ≤ s'.nextCtx

/-- two such steps, if they use only the context executed and new ones -/
theorem Facts.comp {s s1 s2 : View} {t : Tid} {c : CtxId} {U1 U2 U : CtxId → Prop} (h1 : Facts s s1 t c U1) (h2 : Facts s1 s2 t c U2) (hU1 : ∀ d, U1 d → U d) (hU2 : ∀ d, U2 d → U d) (hc : s1.cur = s.cur)
    (hU : ∀ d, U d → d = c ∨ (s.nextCtx ≤ d ∧ d < s2.nextCtx))
    (hv : ∀ x f, s2.val x = some f → (s1.val x = some f ∧ s2.kind x = s1.kind x) ∨ (U2 f.ctx ∧ ∀ e, s2.kind x = .exc e ∨ s2.kind x = .ret e → U2 e)) : Facts s s2 t c U := by
  refine ⟨fun d hd => (hU d hd).imp id .inl, fun x f h => ?_, fun m d h => ?_, fun t' d h => ?_, Nat.le_trans h1.mono h2.mono⟩
  · rcases hv x f h with ⟨a, b⟩ | ⟨a, b⟩
    · rcases h1.val x f a with ⟨a1, b1⟩ | ⟨a1, b1⟩
      · exact .inl ⟨a1, b.trans b1⟩
      · exact .inr ⟨a1.imp (hU1 _) id, fun e he => hU1 _ (b1 e (b ▸ he))⟩
    · exact .inr ⟨.inl (hU2 _ a), fun e he => hU2 _ (b e he)⟩
  · rcases h2.ex m d h with h | ⟨a, b⟩
    · exact (h1.ex m d h).imp id fun ⟨a, b⟩ => ⟨hU1 _ a, hU1 _ b⟩
    · exact .inr ⟨hU2 _ a, hU2 _ b⟩
  · rcases h2.cur t' d h with ⟨a, b⟩ | h
    · exact .inl ⟨hU2 _ a, hc ▸ b⟩
    · exact .inr (hc ▸ h)

/-- an execution, abstractly -/
structure Abs where
  v : Nat → View
  tid : Nat → Tid
  len : Nat
  uses : Nat → CtxId → Prop
  writes : Nat → Var → Prop
  good : ∀ n, n ≤ len → Good (v n)
  facts : ∀ n, n < len → ∃ c, (v n).cur (tid n) = some c ∧ uses n c ∧ Facts (v n) (v (n + 1)) (tid n) c (uses n)
  wr : ∀ n x, n < len → (PKind ((v n).kind x) ∧ (v n).val x ≠ none) ∨ (PKind ((v (n + 1)).kind x) ∧ (v (n + 1)).val x ≠ none) →
    (v (n + 1)).val x ≠ (v n).val x ∨ (v (n + 1)).kind x ≠ (v n).kind x → writes n x

def Abs.starts (r : Abs) (i : Nat) (t : Tid) : Prop := (r.v i).cur t = none ∧ (r.v (i + 1)).cur t ≠ none
def Abs.HB (r : Abs) : Nat → Nat → Prop := Sync.HB r.len r.tid r.starts r.writes

variable {r : Abs}

/-- `i` is `j` or ordered before it -/
def Le (r : Abs) (i j : Nat) : Prop := i = j ∨ r.HB i j

/-- what thread `t` knows after `n` steps -/
def KT (r : Abs) (t : Tid) (n i : Nat) : Prop := ∃ j, j < n ∧ (r.tid j = t ∨ r.starts j t) ∧ Le r i j
/-- what has been published through object `x` -/
def KX (r : Abs) (x : Var) (n i : Nat) : Prop := ∃ j, j < n ∧ r.writes j x ∧ Le r i j
/-- what has been done with context `c`, and what that knows -/
def KC (r : Abs) (c : CtxId) (n i : Nat) : Prop := ∃ j, j < n ∧ r.uses j c ∧ Le r i j

structure Know (r : Abs) (n : Nat) : Prop where
  old : ∀ j d, j < n → r.uses j d → d < (r.v n).nextCtx
  cur : ∀ t c, (r.v n).cur t = some c → ∀ i, KC r c n i → KT r t n i
  obj : ∀ x f, (r.v n).val x = some f → PKind ((r.v n).kind x) → ∀ i, KC r f.ctx n i → KX r x n i
  kept : ∀ x f e, (r.v n).val x = some f → (r.v n).kind x = .exc e ∨ (r.v n).kind x = .ret e → ∀ i, KC r f.ctx n i → KC r e n i
  ex : ∀ m d, (r.v n).ex m d → ∀ i, KC r m n i → KC r d n i

theorem Le.hb {i j k : Nat} (h : Le r i j) (h2 : r.HB j k) : r.HB i k := by
  rcases h with rfl | h
  · exact h2
  · exact .trans h h2

theorem KT.mono {t n i} (h : KT r t n i) : KT r t (n + 1) i := let ⟨j, a, b⟩ := h; ⟨j, Nat.lt_succ_of_lt a, b⟩
theorem KX.mono {t n i} (h : KX r t n i) : KX r t (n + 1) i := let ⟨j, a, b⟩ := h; ⟨j, Nat.lt_succ_of_lt a, b⟩
theorem KC.mono {t n i} (h : KC r t n i) : KC r t (n + 1) i := let ⟨j, a, b⟩ := h; ⟨j, Nat.lt_succ_of_lt a, b⟩

theorem KC.succ {d n i} (h : KC r d (n + 1) i) : KC r d n i ∨ (r.uses n d ∧ Le r i n) := by
  obtain ⟨j, a, b, c⟩ := h
  rcases Nat.lt_succ_iff_lt_or_eq.1 a with a | rfl
  · exact .inl ⟨j, a, b, c⟩
  · exact .inr ⟨b, c⟩

theorem KT.hb {n i} (hn : n < r.len) (h : KT r (r.tid n) n i) : r.HB i n := by
  obtain ⟨j, a, b | b, c⟩ := h
  · exact c.hb (.thread a hn b)
  · exact c.hb (.start a hn b)

theorem KX.hb {n i x} (hn : n < r.len) (hx : r.writes n x) (h : KX r x n i) : r.HB i n := by
  obtain ⟨j, a, b, c⟩ := h
  exact c.hb (.object a hn b hx)

/-- a context that step `n` uses: everything done with it is ordered before `n` -/
theorem Know.used {n : Nat} (hk : Know r n) (hn : n < r.len) {d : CtxId} (hu : r.uses n d) {i : Nat} (hi : KC r d n i) : r.HB i n := by
  obtain ⟨c, hc, -, hf⟩ := r.facts n hn
  have hcc : ∀ i, KC r c n i → r.HB i n := fun i h => (hk.cur _ _ hc i h).hb hn
  rcases hf.why d hu with rfl | ⟨h, -⟩ | h | ⟨x, f, h1, rfl, h2, h3⟩
  · exact hcc i hi
  · obtain ⟨j, a, b, -⟩ := hi
    exact absurd (hk.old j _ a b) (Nat.not_lt_of_le h)
  · exact hcc i (hk.ex d c h i hi)
  · rcases h3 with h3 | h3
    · exact (hk.obj x f h1 h3 i hi).hb hn (r.wr n x hn (.inl ⟨h3, by rw [h1]; simp⟩) (.inl (by rw [h1]; exact h2)))
    · exact hcc i (hk.kept x f c h1 h3 i hi)

theorem know_step {n : Nat} (hk : Know r n) (hn : n < r.len) : Know r (n + 1) := by
  have G := r.good n (Nat.le_of_lt hn)
  have G' := r.good (n + 1) hn
  obtain ⟨c, hc, huc, hf⟩ := r.facts n hn
  -- everything done with a context used now is before `n`
  have good : ∀ {d}, r.uses n d → ∀ i, KC r d (n + 1) i → Le r i n := fun hu i h => by
    rcases h.succ with h | h
    · exact .inr (hk.used hn hu h)
    · exact h.2
  have toC : ∀ {d i}, r.uses n d → Le r i n → KC r d (n + 1) i := fun hu h => ⟨n, Nat.lt_succ_self _, hu, h⟩
  -- a context that is held and used: the object changes
  have susp : ∀ {x f}, (r.v n).val x = some f → r.uses n f.ctx → (r.v (n + 1)).val x ≠ some f := fun {x f} hv hu e => by
    rcases hf.why _ hu with h | ⟨h, -⟩ | h | ⟨y, g, h2, h5, h4, -⟩
    · exact G.curVal _ _ _ _ hc hv h
    · exact absurd (G.valNew x f hv) (Nat.not_lt_of_le h)
    · exact G.valEx _ _ _ hv h
    · cases G.valInj x y f g hv h2 h5.symm; rw [hv] at h2; cases h2; exact h4 e
  -- a value that has been moved or made now
  have moved : ∀ {x f}, (r.v (n + 1)).val x = some f → (r.uses n f.ctx ∨ ∃ y, y ≠ x ∧ (r.v n).val y = some f ∧ Near ((r.v n).kind y) c) →
      ∀ i, KC r f.ctx (n + 1) i → Le r i n := fun {x f} hv h i hi => by
    rcases h with h | ⟨y, h1, h2, h3⟩
    · exact good h i hi
    · rcases hi.succ with hi | ⟨-, hi⟩
      · have hw : (r.v (n + 1)).val y ≠ (r.v n).val y := fun e => h1 (G'.valInj y x f f (e.trans h2) hv rfl)
        rcases h3 with h3 | h3
        · exact .inr ((hk.obj y f h2 h3 i hi).hb hn (r.wr n y hn (.inl ⟨h3, by rw [h2]; simp⟩) (.inl hw)))
        · exact .inr ((hk.cur _ _ hc i (hk.kept y f c h2 h3 i hi)).hb hn)
      · exact hi
  -- a value that stays where it was
  have stays : ∀ {x f}, (r.v (n + 1)).val x = some f → (r.v n).val x = some f → ∀ i, KC r f.ctx (n + 1) i → KC r f.ctx n i := fun {x f} hv h1 i hi => by
    rcases hi.succ with hi | ⟨hu, -⟩
    · exact hi
    · exact absurd hv (susp h1 hu)
  refine ⟨fun j d hj hu => ?_, fun t' d h i hi => ?_, fun x f hv hh i hi => ?_, fun x f e hv hd i hi => ?_, fun m d h i hi => ?_⟩
  · rcases Nat.lt_succ_iff_lt_or_eq.1 hj with hj | rfl
    · exact Nat.lt_of_lt_of_le (hk.old j d hj hu) hf.mono
    · have old' : ∀ {d}, d < (r.v j).nextCtx → d < (r.v (j + 1)).nextCtx := fun h => Nat.lt_of_lt_of_le h hf.mono
      rcases hf.why _ hu with h | ⟨-, h⟩ | h | ⟨y, g, h2, h4, -⟩
      · subst h; exact old' (G.curNew _ _ hc)
      · exact h
      · exact old' (G.exNew _ _ h)
      · exact h4 ▸ old' (G.valNew _ _ h2)
  · rcases hf.cur t' d h with ⟨h1, h2⟩ | h1
    · refine ⟨n, Nat.lt_succ_self _, ?_, good h1 i hi⟩
      rcases h2 with h2 | h2
      · exact .inl h2.symm
      · exact .inr ⟨h2, by rw [h]; simp⟩
    · rcases hi.succ with hi | ⟨hu, hi⟩
      · exact (hk.cur _ _ h1 i hi).mono
      · rcases hf.why _ hu with h | ⟨h, -⟩ | h | ⟨y, g, h2, h4, -⟩
        · subst h; exact ⟨n, Nat.lt_succ_self _, .inl (G.curInj _ _ _ hc h1), hi⟩
        · exact absurd (G.curNew _ _ h1) (Nat.not_lt_of_le h)
        · exact absurd h (G.curEx _ _ _ h1)
        · exact absurd h4 (G.curVal _ _ _ _ h1 h2)
  · by_cases h0 : (r.v n).val x = some f ∧ (r.v (n + 1)).kind x = (r.v n).kind x
    · exact (hk.obj x f h0.1 (h0.2 ▸ hh) i (stays hv h0.1 i hi)).mono
    · rcases hf.val x f hv with h1 | ⟨h1, -⟩
      · exact absurd h1 h0
      · refine ⟨n, Nat.lt_succ_self _, r.wr n x hn (.inr ⟨hh, by rw [hv]; simp⟩) ?_, moved hv h1 i hi⟩
        by_cases h2 : (r.v (n + 1)).val x = (r.v n).val x
        · exact .inr fun h3 => h0 ⟨h2 ▸ hv, h3⟩
        · exact .inl h2
  · rcases hf.val x f hv with ⟨h1, h2⟩ | ⟨h1, h2⟩
    · exact (hk.kept x f e h1 (h2 ▸ hd) i (stays hv h1 i hi)).mono
    · exact toC (h2 e hd) (moved hv h1 i hi)
  · rcases hf.ex m d h with h | ⟨h1, h2⟩
    · rcases hi.succ with hi | ⟨hu, hi⟩
      · exact (hk.ex m d h i hi).mono
      · rcases hf.why _ hu with h3 | ⟨h3, -⟩ | h3 | ⟨y, g, h2, h4, -⟩
        · subst h3; exact absurd h (G.curEx _ _ _ hc)
        · exact absurd (G.exNew _ _ h) (Nat.not_lt_of_le h3)
        · rw [G.exInj _ _ _ h h3]; exact toC huc hi
        · rw [← h4] at h; exact absurd h (G.valEx _ _ _ h2)
    · exact toC h2 (good h1 i hi)

theorem know (r : Abs) : ∀ n, n ≤ r.len → Know r n
  | 0, _ => by
    refine ⟨fun j _ h => absurd h (Nat.not_lt_zero _), ?_, ?_, ?_, ?_⟩
    · rintro _ _ _ _ ⟨_, h, _⟩; exact absurd h (Nat.not_lt_zero _)
    · rintro _ _ _ _ _ ⟨_, h, _⟩; exact absurd h (Nat.not_lt_zero _)
    · rintro _ _ _ _ _ _ ⟨_, h, _⟩; exact absurd h (Nat.not_lt_zero _)
    · rintro _ _ _ _ ⟨_, h, _⟩; exact absurd h (Nat.not_lt_zero _)
  | n + 1, h => know_step (know r n (Nat.le_of_succ_le h)) h

theorem Abs.ordered (r : Abs) {i j : Nat} {d : CtxId} (hij : i < j) (hj : j < r.len) (hi : r.uses i d) (hd : r.uses j d) : r.HB i j :=
  (know r j (Nat.le_of_lt hj)).used hj hd ⟨i, hij, hi, .inl rfl⟩

end Verif.Sync
