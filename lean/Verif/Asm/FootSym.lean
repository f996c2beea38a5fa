import Verif.Asm.Foot
import Verif.Asm.SlotTramp
import Verif.Asm.RegSym
import Verif.Asm.RegPort

/-!
# Footprints, by symbolic execution (C81)

The bytes that straight-line code accesses, from a run of the symbolic executor, and with it the footprints of the classes of ports.
(No code of `/repo` is modelled in this file.)
-/

namespace Verif.Asm
variable {A : Arch}

section
variable {C : SCfg A} {I : Itp A}

theorem SCfg.load_in (h : I.Ok C) {z : SSt A} {s : St A} (hr : Rel C I z s) {b : A.R} {o n : Nat} {v}
    (hs : C.load z (z.gpr b) o n = some v) {a : A.W} (ha : InR a (s.gpr b + off A o) n) : ∃ i, InR a (I.β i) (C.rd i) := by
  obtain ⟨i, o', r⟩ := v
  obtain ⟨e1, -, e3, -⟩ := rel_load h hr hs
  rw [e1] at ha
  exact ⟨i, inR_off ha e3 (h.rd i)⟩

theorem SCfg.store_in (h : I.Ok C) {z z' : SSt A} {s : St A} (hr : Rel C I z s) {b : A.R} {o : Nat} {v : Val A}
    (hs : C.store z (z.gpr b) o v = some z') {a : A.W} (ha : InR a (s.gpr b + off A o) v.size) :
    ∃ x ∈ z'.log, InR a (I.β x.1 + off A (C.wr x.1).1) ((C.wr x.1).2 - (C.wr x.1).1) := by
  unfold SCfg.store at hs
  split at hs
  · simp at hs
  · rename_i i w hi
    simp only at hs
    have e1 : s.gpr b + off A o = I.β i + off A (w + off A o).toNat := by
      rw [off_toNat, hr.gpr, h.addr hi, BitVec.add_assoc]
    rw [e1] at ha
    split at hs
    · rename_i hb
      generalize (w + off A o).toNat = o' at *
      simp only [Option.some.injEq] at hs
      subst hs
      refine ⟨_, List.mem_cons_self, ?_⟩
      have hw := h.wr i
      have e : I.β i + off A o' = I.β i + off A (C.wr i).1 + off A (o' - (C.wr i).1) := by
        rw [add_off_off]; congr 2; omega
      rw [e] at ha
      show InR a (I.β i + off A (C.wr i).1) ((C.wr i).2 - (C.wr i).1)
      exact inR_off ha (by omega) (by omega)
    · simp at hs

theorem SCfg.store_log {z z' : SSt A} {b : Sv A} {o : Nat} {v : Val A} (hs : C.store z b o v = some z') : ∀ x ∈ z.log, x ∈ z'.log := by
  unfold SCfg.store at hs
  split at hs
  · simp at hs
  · simp only at hs
    split at hs
    · simp only [Option.some.injEq] at hs
      subst hs
      exact fun x hx => List.mem_cons_of_mem _ hx
    · simp at hs

theorem SCfg.step_log {z z' : SSt A} {i : Instr A} (hs : C.step z i = some z') : ∀ x ∈ z.log, x ∈ z'.log := by
  cases i <;> simp only [SCfg.step] at hs
  case st => exact store_log hs
  case sti => exact store_log hs
  case fst => exact store_log hs
  all_goals
    repeat' split at hs
    all_goals first
      | (simp only [Option.some.injEq] at hs; subst hs; exact fun x hx => hx)
      | simp at hs

theorem SCfg.run_log {is : List (Instr A)} {z z' : SSt A} (hs : C.run is z = some z') : ∀ x ∈ z.log, x ∈ z'.log := by
  induction is generalizing z with
  | nil => simp only [SCfg.run, Option.some.injEq] at hs; subst hs; exact fun x hx => hx
  | cons i is ih =>
    simp only [SCfg.run] at hs
    split at hs
    · rename_i z1 h1
      exact fun x hx => ih hs x (step_log h1 x hx)
    · simp at hs

/-- code reads only what the executor finds relative to a base -/
theorem run_rd (h : I.Ok C) (is : List (Instr A)) {z z' : SSt A} {s : St A} (hr : Rel C I z s) (hs : C.run is z = some z') {a : A.W}
    (ha : accs .rd I.e is s a) : ∃ i, InR a (I.β i) (C.rd i) := by
  induction is generalizing z s with
  | nil => exact ha.elim
  | cons i is ih =>
    simp only [SCfg.run] at hs
    split at hs
    · rename_i z1 h1
      rcases ha with ha | ha
      · cases i <;> try exact ha.elim
        case ld d b o =>
          cases hl : C.load z (z.gpr b) o A.k with
          | none => simp only [SCfg.step, hl] at h1; cases h1
          | some v => exact SCfg.load_in h hr hl ha
        case fld f b o =>
          cases hl : C.load z (z.gpr b) o (A.fb f) with
          | none => simp only [SCfg.step, hl] at h1; cases h1
          | some v => exact SCfg.load_in h hr hl ha
      · exact ih (step_sound h hr i h1) hs ha
    · simp at hs

/-- code writes only what the executor puts into the log -/
theorem run_wr (h : I.Ok C) (is : List (Instr A)) {z z' : SSt A} {s : St A} (hr : Rel C I z s) (hs : C.run is z = some z') {a : A.W}
    (ha : accs .wr I.e is s a) : ∃ x ∈ z'.log, InR a (I.β x.1 + off A (C.wr x.1).1) ((C.wr x.1).2 - (C.wr x.1).1) := by
  induction is generalizing z s with
  | nil => exact ha.elim
  | cons i is ih =>
    simp only [SCfg.run] at hs
    split at hs
    · rename_i z1 h1
      rcases ha with ha | ha
      · have key : ∃ x ∈ z1.log, InR a (I.β x.1 + off A (C.wr x.1).1) ((C.wr x.1).2 - (C.wr x.1).1) := by
          cases i <;> try exact ha.elim
          all_goals exact SCfg.store_in h hr h1 ha
        obtain ⟨x, h2, h3⟩ := key
        exact ⟨x, SCfg.run_log hs x h2, h3⟩
      · exact ih (step_sound h hr i h1) hs ha
    · simp at hs

theorem fin_rd (h : I.Ok C) (is : List (Instr A)) (hs : (C.run is SSt.init).isSome = true) {a : A.W} (ha : accs .rd I.e is I.σ a) :
    ∃ i, InR a (I.β i) (C.rd i) := run_rd h is (Rel.init C I) (z' := C.fin is hs) (by simp [SCfg.fin]) ha

theorem fin_wr (h : I.Ok C) (is : List (Instr A)) (hs : (C.run is SSt.init).isSome = true) {a : A.W} (ha : accs .wr I.e is I.σ a) :
    ∃ x ∈ (C.fin is hs).log, InR a (I.β x.1 + off A (C.wr x.1).1) ((C.wr x.1).2 - (C.wr x.1).1) :=
  run_wr h is (Rel.init C I) (z' := C.fin is hs) (by simp [SCfg.fin]) ha

end

theorem accs_append (x : Acc) (e : Env A) (l l' : List (Instr A)) (s : St A) (a : A.W) : accs x e (l ++ l') s a ↔ accs x e l s a ∨ accs x e l' (steps e l s) a := by
  induction l generalizing s with
  | nil => exact ⟨.inr, fun h => h.resolve_left id⟩
  | cons i l ih => simp only [List.cons_append, accs, ih, steps, or_assoc]

theorem add_off_zero (x : A.W) : x + off A 0 = x := BitVec.add_zero x

/-! ## `make_fcontext` -/

/-- bases: 0 data of the new context (`msz` bytes below the aligned top of the stack), 1 the caller's stack (`n` bytes at the stack pointer, of which none is written) -/
def CMk (A : Arch) (top sp : A.R) (j msz n : Nat) : SCfg A where
  known := [(.msk top (mask A j), 0, off A msz), (.reg sp, 1, 0#_)]
  wr i := if i = 0 then (0, msz) else (0, 0)
  rd i := if i = 0 then msz else if i = 1 then n else 0
  D i j := i == 0 && j == 1

def IMk (top sp : A.R) (j msz : Nat) (e : Env A) (σ : St A) : Itp A where
  σ := σ
  β i := if i = 0 then (σ.gpr top &&& mask A j) - off A msz else σ.gpr sp
  e := e

theorem IMk_ok {top sp : A.R} {j msz n : Nat} (e : Env A) (σ : St A) (h1 : msz ≤ 2 ^ (8 * A.k)) (h2 : n ≤ 2 ^ (8 * A.k))
    (hd : ∀ a, InR a ((σ.gpr top &&& mask A j) - off A msz) msz → ¬ InR a (σ.gpr sp) n) : (IMk top sp j msz e σ).Ok (CMk A top sp j msz n) where
  known := by
    intro x hx
    simp only [CMk, List.mem_cons, List.not_mem_nil, or_false] at hx
    rcases hx with rfl | rfl
    · exact (sub_add_off _ _).symm
    · exact (BitVec.add_zero _).symm
  disj := by
    intro i j hD
    simp only [CMk, Bool.and_eq_true, beq_iff_eq] at hD
    obtain ⟨rfl, rfl⟩ := hD
    intro a ha hx
    have ha : InR a (((σ.gpr top &&& mask A _) - off A msz) + off A 0) msz := ha
    rw [add_off_zero] at ha
    exact hd a ha hx
  wr i := by simp only [CMk]; split <;> (try simp only) <;> omega
  rd i := by simp only [CMk]; repeat' split
             all_goals omega

/-- what `make_fcontext` accesses: the data of the new context, and `n` bytes at the stack pointer (read only) -/
theorem make_foot {top sp : A.R} {j msz n : Nat} {mi : List (Instr A)} (h1 : msz ≤ 2 ^ (8 * A.k)) (h2 : n ≤ 2 ^ (8 * A.k))
    (hs : ((CMk A top sp j msz n).run mi SSt.init).isSome = true) (e : Env A) (σ : St A)
    (hd : ∀ a, InR a ((σ.gpr top &&& mask A j) - off A msz) msz → ¬ InR a (σ.gpr sp) n) (a : A.W) :
    (accs .rd e mi σ a → InR a ((σ.gpr top &&& mask A j) - off A msz) msz ∨ InR a (σ.gpr sp) n) ∧
    (accs .wr e mi σ a → InR a ((σ.gpr top &&& mask A j) - off A msz) msz) := by
  refine ⟨fun ha => ?_, fun ha => ?_⟩
  · obtain ⟨i, hi⟩ := fin_rd (IMk_ok e σ h1 h2 hd) mi hs ha
    simp only [CMk, IMk] at hi
    split at hi
    · exact .inl hi
    · split at hi
      · exact .inr hi
      · exact absurd hi (Nat.not_lt_zero _)
  · obtain ⟨x, -, hi⟩ := fin_wr (IMk_ok e σ h1 h2 hd) mi hs ha
    simp only [CMk, IMk] at hi
    split at hi
    · rw [add_off_zero] at hi; exact hi
    · exact absurd hi (Nat.not_lt_zero _)

/-- `make_fcontext` accesses only the data of the new context and its return address -/
def Port.MakeFoot (P : Port A) (top : A.R) (j msz : Nat) : Prop := ∀ (e : Env A) (σ : St A),
  (∀ a, InR a ((σ.gpr top &&& mask A j) - off A msz) msz → ¬ InR a (σ.gpr P.sp) A.k) → ∀ a,
  (P.make.accs .rd e σ a → InR a ((σ.gpr top &&& mask A j) - off A msz) msz ∨ InR a (σ.gpr P.sp) A.k) ∧
  (P.make.accs .wr e σ a → InR a ((σ.gpr top &&& mask A j) - off A msz) msz)

theorem Port.MakeFoot.of {P : Port A} {top : A.R} {j msz : Nat} {mi : List (Instr A)} {mr : A.R} (hm : P.make = .jmp mi mr) (h1 : msz ≤ 2 ^ (8 * A.k)) (hk : A.k ≤ 2 ^ (8 * A.k))
    (hs : ((CMk A top P.sp j msz A.k).run mi SSt.init).isSome = true) : P.MakeFoot top j msz := by
  intro e σ hd a
  rw [hm]
  exact Asm.make_foot h1 hk hs e σ hd a

/-- `make_foot`, in the terms of `Footprint`, for ports whose `make_fcontext` uses at most its return address of the caller's stack -/
theorem Port.make_foot {P : Port A} {top : A.R} {j msz : Nat} (hms : P.mscratch = 0)
    (w1 : msz + 2 ^ j ≤ 2 ^ (8 * A.k)) (mf : P.MakeFoot top j msz)
    (ht : P.argTop = fun s => s.gpr top) (hres : ∀ e σ, P.resM (exec e P.make σ).1 = (σ.gpr top &&& mask A j) - off A msz) (e : Env A) (σ : St A)
    (hd : ∀ a, InR a (P.resM (exec e P.make σ).1) (P.argTop σ - P.resM (exec e P.make σ).1).toNat → ¬ InR a (σ.gpr P.sp - off A P.mscratch) (P.mscratch + A.k)) (a : A.W) :
    (P.make.accs .rd e σ a → InR a (P.resM (exec e P.make σ).1) (P.argTop σ - P.resM (exec e P.make σ).1).toNat ∨
      InR a (σ.gpr P.sp - off A P.mscratch) (P.mscratch + A.k)) ∧
    (P.make.accs .wr e σ a → InR a (P.resM (exec e P.make σ).1) (P.argTop σ - P.resM (exec e P.make σ).1).toNat) := by
  have hj : 0 < 2 ^ j := Nat.two_pow_pos _
  have hsz : (P.argTop σ - ((σ.gpr top &&& mask A j) - off A msz)).toNat = msz + (σ.gpr top).toNat % 2 ^ j := by
    rw [ht]; exact align_below (A := A) (σ.gpr top) msz j w1
  rw [hres, hsz, hms, Nat.zero_add] at hd ⊢
  have e0 : σ.gpr P.sp - off A 0 = σ.gpr P.sp := BitVec.sub_zero _
  rw [e0] at hd ⊢
  have := mf e σ (fun a ha => hd a (inR_mono ha (by omega))) a
  exact ⟨fun ha => (this.1 ha).imp (fun h => inR_mono h (by omega)) id, fun ha => inR_mono (this.2 ha) (by omega)⟩

/-! ## Ports that pass everything in registers -/

theorem RCfg.rd {K : RCfg A} (wf : K.Wf) {n : Nat} {is : List (Instr A)} (e : Env A) (τ : St A) (a : A.W) (hd : ∀ a, InR a (τ.gpr K.to) n → ¬ InR a (K.own τ) K.N)
    (hn : n ≤ 2 ^ (8 * A.k)) (mw : Nat × Nat) (hmw : mw.2 ≤ n) (hs : ((K.C n mw).run is SSt.init).isSome = true) (ha : accs .rd e is τ a) :
    InR a (K.own τ) K.N ∨ InR a (τ.gpr K.to) n := by
  obtain ⟨i, hi⟩ := fin_rd (RCfg.I_ok wf n mw hn hmw e τ hd) is hs ha
  simp only [RCfg.C, RCfg.I] at hi
  split at hi
  · exact .inl hi
  · split at hi
    · exact .inr hi
    · exact absurd hi (Nat.not_lt_zero _)

theorem RCfg.wr {K : RCfg A} (wf : K.Wf) {n : Nat} {is : List (Instr A)} (e : Env A) (τ : St A) (a : A.W) (hd : ∀ a, InR a (τ.gpr K.to) n → ¬ InR a (K.own τ) K.N)
    (hn : n ≤ 2 ^ (8 * A.k)) (mw : Nat × Nat) (hmw : mw.2 ≤ n) (hs : ((K.C n mw).run is SSt.init).isSome = true) (ha : accs .wr e is τ a) :
    InR a (K.own τ) K.N ∨ InR a (τ.gpr K.to + off A mw.1) (mw.2 - mw.1) := by
  obtain ⟨x, -, hi⟩ := fin_wr (RCfg.I_ok wf n mw hn hmw e τ hd) is hs ha
  simp only [RCfg.C, RCfg.I] at hi
  split at hi
  · rw [add_off_zero] at hi; exact .inl hi
  · split at hi
    · exact .inr hi
    · exact absurd hi (Nat.not_lt_zero _)

theorem SymMake.footprint {P : Port A} {S : SymPort P} (M : SymMake S) (X : Extra P) (D : Reads A) (hms : P.mscratch = 0) (mf : P.MakeFoot M.top M.j M.msz)
    (ht : (P.tramp = none ∧ M.ti = []) ∨ ∃ l r, P.tramp = some (l, .jmp M.ti r)) : Footprint X D := by
  obtain ⟨c1, c2, c3, c4, c5, c6, c7, c8, c9, c10, c11, c12⟩ := S.conv
  obtain ⟨d1, d3, d4, d5, d6⟩ := M.conv
  obtain ⟨w1, w2, w3, w4, w5, w6, w7, w8, w9, w10, w11, w12⟩ := M.sz
  have hj : 0 < 2 ^ M.j := Nat.two_pow_pos _
  have hw : M.msz ≤ 2 ^ (8 * A.k) := by omega
  have hres : ∀ e σ, P.resM (exec e P.make σ).1 = (σ.gpr M.top &&& mask A M.j) - off A M.msz := fun e σ => (M.make e σ _ rfl).2.1
  have mk := fun e σ => P.make_foot hms w1 mf d1 hres e σ
  have hfr := X.frame
  rw [c2] at hfr
  have rd : ∀ {n : Nat} {is : List (Instr A)} (e : Env A) (τ : St A) (a : A.W), (∀ a, InR a (τ.gpr S.K.to) n → ¬ InR a (S.K.own τ) S.K.N) → n ≤ 2 ^ (8 * A.k) →
      ∀ mw : Nat × Nat, mw.2 ≤ n → ((S.K.C n mw).run is SSt.init).isSome = true → accs .rd e is τ a → InR a (P.fctx τ) X.fp ∨ InR a (P.argF τ) n := by
    intro n is e τ a hd hn mw hmw hs ha
    rw [c1, c4]
    exact (RCfg.rd S.wf e τ a hd hn mw hmw hs ha).imp (fun h => inR_mono h hfr) id
  have wr : ∀ {n : Nat} {is : List (Instr A)} (e : Env A) (τ : St A) (a : A.W), (∀ a, InR a (τ.gpr S.K.to) n → ¬ InR a (S.K.own τ) S.K.N) → n ≤ 2 ^ (8 * A.k) →
      ∀ mw : Nat × Nat, mw.2 ≤ n → ((S.K.C n mw).run is SSt.init).isSome = true → accs .wr e is τ a →
      InR a (P.fctx τ) P.frame ∨ InR a (P.argF τ + off A mw.1) (mw.2 - mw.1) := by
    intro n is e τ a hd hn mw hmw hs ha
    rw [c1, c2, c4]
    exact RCfg.wr S.wf e τ a hd hn mw hmw hs ha
  have en : ∀ x e τ a, progAccs x e (P.jump :: P.stub) τ a → accs x e (S.ji ++ M.ti) τ a := by
    intro x e τ a ha
    rw [accs_append]
    rcases ht with ⟨h1, h2⟩ | ⟨l, r, h1⟩
    · rw [Port.stub, h1, S.jeq] at ha
      exact ha.imp id fun h => h.elim
    · rw [Port.stub, h1, S.jeq] at ha
      exact ha.imp id fun h => h.resolve_right id
  have dj : ∀ {e σ τ}, P.argF τ = P.resM (exec e P.make σ).1 → (∀ a, InR a (P.argF τ) P.mkeep → ¬ InR a (P.fctx τ) P.frame) →
      ∀ a, InR a (τ.gpr S.K.to) M.msz → ¬ InR a (S.K.own τ) S.K.N := by
    intro e σ τ _ hd
    rw [c1, c2, c4, d3] at hd
    exact hd
  constructor
  · intro e σ τ m a hl hi ha hacc
    obtain ⟨t1, -, hd⟩ := S.target hl hi ha
    rw [S.jeq] at hacc
    rw [← ha]
    exact (rd e τ a hd S.wf.N (0, 0) (Nat.zero_le _) S.j1 hacc).imp id fun h => .inl (inR_mono h hfr)
  · intro e σ τ m a hl hi ha hacc
    obtain ⟨t1, -, hd⟩ := S.target hl hi ha
    rw [S.jeq] at hacc
    exact (wr e τ a hd S.wf.N (0, 0) (Nat.zero_le _) S.j1 hacc).imp id fun h => absurd h (Nat.not_lt_zero _)
  · intro e σ τ m a _ hl hi ha hacc
    obtain ⟨t1, -, hd⟩ := S.target hl hi ha
    rw [S.oeq] at hacc
    rw [← ha]
    exact (rd e τ a hd S.wf.N (0, 0) (Nat.zero_le _) S.o1 hacc).imp id fun h => .inl (inR_mono h hfr)
  · intro e σ τ m a _ hl hi ha hacc
    obtain ⟨t1, -, hd⟩ := S.target hl hi ha
    rw [S.oeq] at hacc
    exact (wr e τ a hd S.wf.N (0, 0) (Nat.zero_le _) S.o1 hacc).imp id fun h => absurd h (Nat.not_lt_zero _)
  · intro e σ τ a _ _ ha hmem hd hacc
    rw [d3]
    exact rd e τ a (dj ha hd) hw M.mw w8 M.e1 (en _ _ _ _ hacc)
  · intro e σ τ a _ _ ha hmem hd hacc
    rw [d5]
    exact wr e τ a (dj ha hd) hw M.mw w8 M.e1 (en _ _ _ _ hacc)
  · intro e σ a _ hd hacc
    exact ((mk e σ hd a).1 hacc).imp id .inl
  · intro e σ a _ hd hacc
    exact .inl ((mk e σ hd a).2 hacc)

/-- calls whose arguments are all in registers -/
theorem Local.regsD {P : Port A} (X : Extra P) (D : Reads A) (sane : A.Sane)
    (hg : ∀ {s s' : St A}, s.gpr = s'.gpr → P.fctx s' = P.fctx s ∧ P.argF s' = P.argF s ∧ P.argD s' = P.argD s ∧ P.ra s' = P.ra s ∧
      P.spRet s' = P.spRet s ∧ (∀ a, P.slot s' a ↔ P.slot s a) ∧ (X.nn s → X.nn s'))
    (hD : ∀ {e s s'} a, s.gpr = s'.gpr → (D.desc e s' a ↔ D.desc e s a) ∧ (D.mdesc e s' a ↔ D.mdesc e s a))
    (hres : ∀ {σ σ' τ τ' : St A}, σ.gpr = σ'.gpr → Same (P.slot σ) τ τ' → P.resF σ' τ' = P.resF σ τ ∧ P.resD σ' τ' = P.resD σ τ ∧ (P.also σ τ → P.also σ' τ'))
    (hM : ∀ {e} {s s' : St A}, X.mok e s → Same (P.make.accs .rd e s) s s' → X.mok e s' ∧ P.argTop s' = P.argTop s ∧ P.argMFn s' = P.argMFn s)
    (hMr : ∀ {s s' : St A}, s.gpr = s'.gpr → P.resM s = P.resM s')
    (ho : ∀ {s s' : St A} {a}, s.gpr = s'.gpr → P.oarea s a → P.oarea s' a) (hsl : ∀ c a, P.mslot c a → InR a c P.mkeep) : Local X D where
  sane := sane
  call h := by
    obtain ⟨h1, h2, h3, h4, h5, h6, h7⟩ := hg h.1
    exact ⟨h1, h2, h3, h4, h5, h6, h7, fun a => (hD a h.1).1⟩
  res h h' := hres h.1 h'
  make hm h := by
    obtain ⟨h1, h2, h3⟩ := hM hm h
    exact ⟨h1, h2, h3, fun a => (hD a h.1).2⟩
  resM h := hMr h
  oarea h := ho h
  mslot := hsl

theorem Local.regs {P : Port A} (X : Extra P) (D : Reads A) (sane : A.Sane)
    (hg : ∀ {s s' : St A}, s.gpr = s'.gpr → P.fctx s' = P.fctx s ∧ P.argF s' = P.argF s ∧ P.argD s' = P.argD s ∧ P.ra s' = P.ra s ∧
      P.spRet s' = P.spRet s ∧ (∀ a, P.slot s' a ↔ P.slot s a) ∧ (X.nn s → X.nn s'))
    (hD : ∀ {e s s'} a, s.gpr = s'.gpr → (D.desc e s' a ↔ D.desc e s a) ∧ (D.mdesc e s' a ↔ D.mdesc e s a))
    (hres : ∀ {σ σ' τ τ' : St A}, σ.gpr = σ'.gpr → Same (P.slot σ) τ τ' → P.resF σ' τ' = P.resF σ τ ∧ P.resD σ' τ' = P.resD σ τ ∧ (P.also σ τ → P.also σ' τ'))
    (hM : ∀ {e} {s s' : St A}, s.gpr = s'.gpr → (X.mok e s → X.mok e s') ∧ P.argTop s' = P.argTop s ∧ P.argMFn s' = P.argMFn s ∧ P.resM s = P.resM s')
    (ho : ∀ {s s' : St A} {a}, s.gpr = s'.gpr → P.oarea s a → P.oarea s' a) (hsl : ∀ c a, P.mslot c a → InR a c P.mkeep) : Local X D :=
  .regsD X D sane hg hD hres (fun hm h => ⟨(hM h.1).1 hm, (hM (e := fun _ => 0#_) h.1).2.1, (hM (e := fun _ => 0#_) h.1).2.2.1⟩) (fun h => (hM (e := fun _ => 0#_) h).2.2.2) ho hsl

theorem SymMake.loc {P : Port A} {S : SymPort P} (M : SymMake S) (X : Extra P) (sane : A.Sane) (hnn : ∀ {s s' : St A}, s.gpr = s'.gpr → X.nn s → X.nn s')
    (hmok : ∀ {e} {s s' : St A}, s.gpr = s'.gpr → X.mok e s → X.mok e s')
    (hres : ∀ {s s' : St A}, s.gpr = s'.gpr → P.argMFn s' = P.argMFn s ∧ P.resM s = P.resM s')
    (ho : ∀ {s s' : St A} {a}, s.gpr = s'.gpr → P.oarea s a → P.oarea s' a) : Local X {} := by
  obtain ⟨c1, c2, c3, c4, c5, c6, c7, c8, c9, c10, c11, c12⟩ := S.conv
  obtain ⟨q1, q2, q3, q4, q5⟩ := S.res
  obtain ⟨d1, d3, d4, d5, d6⟩ := M.conv
  obtain ⟨w1, w2, w3, w4, w5, w6, w7, w8, w9, w10, w11, w12⟩ := M.sz
  have hj : 0 < 2 ^ M.j := Nat.two_pow_pos _
  refine .regs X {} sane (fun h => ?_) (fun a h => ⟨Iff.rfl, Iff.rfl⟩) (fun h h' => ?_) (fun h => ⟨hmok h, ?_, (hres h).1, (hres h).2⟩) ho ?_
  · rw [c1, c4, c5, c12, c11, c7]
    simp only [RCfg.own, h]
    exact ⟨trivial, trivial, trivial, trivial, trivial, fun _ => trivial, hnn h⟩
  · rw [q1, q2, q5]
    simp only [h'.1]
    exact ⟨trivial, trivial, id⟩
  · rw [d1]; simp only [h]
  · intro c a h
    rw [d5] at h
    rw [d3]
    exact inR_off h (by omega) (by omega)

/-- the bases of a `RegPort` -/
def RegPort.K {P : Port A} (S : RegPort P) : RCfg A where
  sp := P.sp
  to := S.a0
  d := S.a1
  fn := S.a2
  ra := S.ra
  fr := S.fr
  N := S.fr
  oPC := S.oPC
  LG := []
  LF := []

theorem RegPort.wf {P : Port A} (S : RegPort P) : S.K.Wf where
  N := S.hN
  oPC := S.frmk.2.2.1
  LG x h := by cases h
  LF x h := by cases h
  via _ := rfl

theorem RegPort.footprint {P : Port A} (S : RegPort P) (X : Extra P) (D : Reads A) {ji oi : List (Instr A)} {jr or : A.R}
    (hj : P.jump = .jmp ji jr) (ho : P.ontop = .jmp oi or) (hms : P.mscratch = 0) (mf : P.MakeFoot S.a0 4 S.mres)
    (j1 : ((S.K.C S.fr (0, 0)).run ji SSt.init).isSome = true)
    (o1 : ((S.K.C S.fr (0, 0)).run oi SSt.init).isSome = true) (e1 : ((S.K.C S.mres (0, 0)).run ji SSt.init).isSome = true) : Footprint X D := by
  obtain ⟨c1, c2, c3, c4, c5, c6, c7, c8, c9, c10, c11, c12, ok, oF, oD, msp, c13⟩ := S.conv
  have hw := S.word
  have hres : ∀ e σ, P.resM (exec e P.make σ).1 = (σ.gpr S.a0 &&& mask A 4) - off A S.mres := fun e σ => (S.make e σ).2.1
  have mk := fun e σ => P.make_foot hms (by omega) mf c10 hres e σ
  have hfr := X.frame
  rw [c2] at hfr
  have rd : ∀ {n : Nat} {is : List (Instr A)} (e : Env A) (τ : St A) (a : A.W), (∀ a, InR a (τ.gpr S.a0) n → ¬ InR a (S.K.own τ) S.fr) → n ≤ 2 ^ (8 * A.k) →
      ((S.K.C n (0, 0)).run is SSt.init).isSome = true → accs .rd e is τ a → InR a (P.fctx τ) X.fp ∨ InR a (P.argF τ) n := by
    intro n is e τ a hd hn hs ha
    rw [c1, c4]
    exact (RCfg.rd S.wf e τ a hd hn (0, 0) (Nat.zero_le _) hs ha).imp (fun h => inR_mono h hfr) id
  have wr : ∀ {n : Nat} {is : List (Instr A)} (e : Env A) (τ : St A) (a : A.W), (∀ a, InR a (τ.gpr S.a0) n → ¬ InR a (S.K.own τ) S.fr) → n ≤ 2 ^ (8 * A.k) →
      ((S.K.C n (0, 0)).run is SSt.init).isSome = true → accs .wr e is τ a → InR a (P.fctx τ) P.frame := by
    intro n is e τ a hd hn hs ha
    rw [c1, c2]
    exact (RCfg.wr S.wf e τ a hd hn (0, 0) (Nat.zero_le _) hs ha).resolve_right (Nat.not_lt_zero _)
  have en : ∀ x e τ a, progAccs x e (P.jump :: P.stub) τ a → accs x e ji τ a := by
    intro x e τ a ha
    rw [Port.stub, c12, hj] at ha
    exact ha.resolve_right id
  have dj : ∀ {e σ τ}, P.argF τ = P.resM (exec e P.make σ).1 → (∀ a, InR a (P.argF τ) P.mkeep → ¬ InR a (P.fctx τ) P.frame) →
      ∀ a, InR a (τ.gpr S.a0) S.mres → ¬ InR a (S.K.own τ) S.fr := by
    intro e σ τ _ hd
    rw [c1, c2, c4, c11] at hd
    exact hd
  constructor
  · intro e σ τ m a hl hi ha hacc
    obtain ⟨t1, -, hd⟩ := S.target hl hi ha
    rw [hj] at hacc
    rw [← ha]
    exact (rd e τ a hd S.hN j1 hacc).imp id fun h => .inl (inR_mono h hfr)
  · intro e σ τ m a hl hi ha hacc
    obtain ⟨t1, -, hd⟩ := S.target hl hi ha
    rw [hj] at hacc
    exact .inl (wr e τ a hd S.hN j1 hacc)
  · intro e σ τ m a _ hl hi ha hacc
    obtain ⟨t1, -, hd⟩ := S.target hl hi ha
    rw [ho] at hacc
    rw [← ha]
    exact (rd e τ a hd S.hN o1 hacc).imp id fun h => .inl (inR_mono h hfr)
  · intro e σ τ m a _ hl hi ha hacc
    obtain ⟨t1, -, hd⟩ := S.target hl hi ha
    rw [ho] at hacc
    exact .inl (wr e τ a hd S.hN o1 hacc)
  · intro e σ τ a _ _ ha hmem hd hacc
    rw [c11]
    exact rd e τ a (dj ha hd) (by omega) e1 (en _ _ _ _ hacc)
  · intro e σ τ a _ _ ha hmem hd hacc
    exact .inl (wr e τ a (dj ha hd) (by omega) e1 (en _ _ _ _ hacc))
  · intro e σ a _ hd hacc
    exact ((mk e σ hd a).1 hacc).imp id .inl
  · intro e σ a _ hd hacc
    exact .inl ((mk e σ hd a).2 hacc)

theorem RegPort.loc {P : Port A} (S : RegPort P) (X : Extra P) (sane : A.Sane) (hnn : ∀ {s s' : St A}, s.gpr = s'.gpr → X.nn s → X.nn s')
    (hmok : ∀ {e} {s s' : St A}, s.gpr = s'.gpr → X.mok e s → X.mok e s')
    (hres : ∀ {s s' : St A}, s.gpr = s'.gpr → P.argMFn s' = P.argMFn s ∧ P.resM s = P.resM s')
    (hr : ∀ {σ σ' τ τ' : St A}, τ.gpr = τ'.gpr → P.resF σ' τ' = P.resF σ τ ∧ P.resD σ' τ' = P.resD σ τ)
    (ho : ∀ {s s' : St A} {a}, s.gpr = s'.gpr → P.oarea s a → P.oarea s' a) : Local X {} := by
  obtain ⟨c1, c2, c3, c4, c5, c6, c7, c8, c9, c10, c11, c12, ok, oF, oD, msp, c13⟩ := S.conv
  refine .regs X {} sane (fun h => ?_) (fun a h => ⟨Iff.rfl, Iff.rfl⟩) (fun h h' => ?_) (fun h => ⟨hmok h, ?_, (hres h).1, (hres h).2⟩) ho ?_
  · rw [c1, c4, c5, S.ra_eq, S.spRet, c7]
    simp only [h]
    exact ⟨trivial, trivial, trivial, trivial, trivial, fun _ => trivial, hnn h⟩
  · obtain ⟨h1, h2⟩ := hr (σ := _) (σ' := _) h'.1
    exact ⟨h1, h2, fun _ => by rw [S.also]; trivial⟩
  · rw [c10]; simp only [h]
  · intro c a h
    rw [c9] at h
    exact h.elim

/-! ## Ports that return `transfer_t` through a result object -/

namespace SlotJump
variable {P : Port A} (S : SlotJump P)

theorem rd {b : Bool} {e : Env A} {τ : St A} (hok : (S.K.I e τ).Ok (S.K.C b)) {is : List (Instr A)} (hs : ((S.K.C b).run is SSt.init).isSome = true) {a : A.W}
    (ha : accs .rd e is τ a) : InR a (S.K.own τ) S.K.N ∨ InR a (τ.gpr S.K.to) S.K.N ∨ InR a (S.K.thid τ) (2 * A.k) := by
  obtain ⟨i, hi⟩ := fin_rd hok is hs ha
  simp only [SlotCfg.C, SlotCfg.I] at hi
  by_cases h0 : i = 0
  · simp only [h0, if_true] at hi; exact .inl hi
  by_cases h1 : i = 1
  · simp only [h1, Nat.one_ne_zero, if_true, if_false] at hi; exact .inr (.inl hi)
  by_cases h2 : i = 2
  · subst h2; exact .inr (.inr hi)
  simp only [h0, h1, h2, if_false] at hi
  exact absurd hi (Nat.not_lt_zero _)

theorem wr {b : Bool} {e : Env A} {τ : St A} (hok : (S.K.I e τ).Ok (S.K.C b)) {is : List (Instr A)} (hs : ((S.K.C b).run is SSt.init).isSome = true)
    (hw : ∀ x ∈ ((S.K.C b).fin is hs).log, x.1 = 0 ∨ x.1 = 2) {a : A.W}
    (ha : accs .wr e is τ a) : InR a (S.K.own τ) S.K.N ∨ InR a (S.K.thid τ) (2 * A.k) := by
  obtain ⟨x, hx, hi⟩ := fin_wr hok is hs ha
  rcases hw x hx with h0 | h0
  · rw [h0] at hi
    have hi : InR a (S.K.own τ + off A 0) S.K.N := hi
    rw [add_off_zero] at hi
    exact .inl hi
  · rw [h0] at hi
    have hi : InR a (S.K.thid τ + off A 0) (2 * A.k) := hi
    rw [add_off_zero] at hi
    exact .inr hi

theorem rdE {mk hid : Nat} {mw : Nat × Nat} {e : Env A} {τ : St A} (hok : (S.K.I e τ).Ok (S.K.CE mk hid mw)) {is : List (Instr A)}
    (hs : ((S.K.CE mk hid mw).run is SSt.init).isSome = true) {a : A.W} (ha : accs .rd e is τ a) : InR a (τ.gpr S.K.to) mk := by
  obtain ⟨i, hi⟩ := fin_rd hok is hs ha
  simp only [SlotCfg.CE, SlotCfg.I] at hi
  by_cases h0 : i = 0
  · simp only [h0, if_true] at hi; exact absurd hi (Nat.not_lt_zero _)
  by_cases h1 : i = 1
  · simp only [h1, Nat.one_ne_zero, if_true, if_false] at hi; exact hi
  simp only [h0, h1, if_false] at hi
  exact absurd hi (Nat.not_lt_zero _)

theorem wrE {mk hid : Nat} {mw : Nat × Nat} {e : Env A} {τ : St A} (hok : (S.K.I e τ).Ok (S.K.CE mk hid mw)) {is : List (Instr A)}
    (hs : ((S.K.CE mk hid mw).run is SSt.init).isSome = true) {a : A.W} (ha : accs .wr e is τ a) :
    InR a (S.K.own τ) S.K.N ∨ InR a (τ.gpr S.K.to + off A mw.1) (mw.2 - mw.1) := by
  obtain ⟨x, -, hi⟩ := fin_wr hok is hs ha
  simp only [SlotCfg.CE, SlotCfg.I] at hi
  by_cases h0 : x.1 = 0
  · simp only [h0, if_true] at hi; rw [add_off_zero] at hi; exact .inl hi
  by_cases h1 : x.1 = 1
  · simp only [h1, Nat.one_ne_zero, if_true, if_false] at hi; exact .inr hi
  simp only [h0, h1, if_false] at hi
  exact absurd hi (Nat.not_lt_zero _)

/-- the part of the footprint that concerns the first activation and `make_fcontext` -/
structure Fresh (X : Extra P) : Prop where
  rd : ∀ {e σ τ a}, P.argF τ = P.resM (exec e P.make σ).1 → (∀ a, InR a (P.argF τ) P.mkeep → τ.mem a = (exec e P.make σ).1.mem a) →
    (∀ a, InR a (P.argF τ) P.mkeep → ¬ InR a (P.fctx τ) P.frame) → progAccs .rd e (P.jump :: P.stub) τ a → InR a (P.argF τ) P.mkeep
  wr : ∀ {e σ τ a}, P.argF τ = P.resM (exec e P.make σ).1 → (∀ a, InR a (P.argF τ) P.mkeep → τ.mem a = (exec e P.make σ).1.mem a) →
    (∀ a, InR a (P.argF τ) P.mkeep → ¬ InR a (P.fctx τ) P.frame) → progAccs .wr e (P.jump :: P.stub) τ a → InR a (P.fctx τ) P.frame ∨ P.mslot (P.argF τ) a

/-- The footprint of a port that returns `transfer_t` through a result object.  `jacc`: a switch to a suspended context accesses what `ji` does; `on`: the same for
on-top calls, apart from the function descriptor; `mk`: what `make_fcontext` accesses. -/
theorem footprintD (X : Extra P) (D : Reads A)
    (jacc : ∀ x e τ a, (S.K.I e τ).Ok (S.K.C true) → (S.K.nz = true → S.K.thid τ ≠ 0#_) → P.jump.accs x e τ a → accs x e S.ji τ a)
    (oi : List (Instr A)) (o1 : X.oot → ∃ h : ((S.K.C true).run oi SSt.init).isSome = true, ∀ x ∈ ((S.K.C true).fin oi h).log, x.1 = 0 ∨ x.1 = 2)
    (oacc : X.oot → ∀ x e τ a, (S.K.I e τ).Ok (S.K.C true) → (S.K.nz = true → S.K.thid τ ≠ 0#_) → P.ontop.accs x e τ a → accs x e oi τ a ∨ x = .rd ∧ D.desc e τ a)
    (fr : Fresh (P := P) X)
    (mk : ∀ e σ, (∀ a, InR a (P.resM (exec e P.make σ).1) (P.argTop σ - P.resM (exec e P.make σ).1).toNat →
        ¬ InR a (σ.gpr P.sp - off A P.mscratch) (P.mscratch + A.k)) → ∀ a,
      (P.make.accs .rd e σ a → InR a (P.resM (exec e P.make σ).1) (P.argTop σ - P.resM (exec e P.make σ).1).toNat ∨
        InR a (σ.gpr P.sp - off A P.mscratch) (P.mscratch + A.k) ∨ D.mdesc e σ a) ∧
      (P.make.accs .wr e σ a → InR a (P.resM (exec e P.make σ).1) (P.argTop σ - P.resM (exec e P.make σ).1).toNat)) : Footprint X D := by
  obtain ⟨c1, c2, c3, c4, c5, c6, c7, c8, c9, c10, c11, c12⟩ := S.conv
  have hfr := X.frame
  rw [c2] at hfr
  have rdd : ∀ {e σ τ} {is : List (Instr A)} {a}, τ.gpr S.K.to = S.K.own σ → S.K.thid τ = σ.gpr S.K.h → (S.K.I e τ).Ok (S.K.C true) →
      ((S.K.C true).run is SSt.init).isSome = true → accs .rd e is τ a → InR a (P.fctx τ) X.fp ∨ InR a (P.fctx σ) X.fp ∨ P.slot σ a := by
    intro e σ τ is a t1 hh hok hs ha
    rw [c1, c7]
    rcases S.rd hok hs ha with h | h | h
    · exact .inl (inR_mono h hfr)
    · rw [t1] at h; exact .inr (.inl (inR_mono h hfr))
    · rw [hh] at h; exact .inr (.inr h)
  have wrr : ∀ {e σ τ} {is : List (Instr A)} {a}, S.K.thid τ = σ.gpr S.K.h → (S.K.I e τ).Ok (S.K.C true) →
      ∀ hs : ((S.K.C true).run is SSt.init).isSome = true, (∀ x ∈ ((S.K.C true).fin is hs).log, x.1 = 0 ∨ x.1 = 2) → accs .wr e is τ a →
      InR a (P.fctx τ) P.frame ∨ P.slot σ a := by
    intro e σ τ is a hh hok hs hw ha
    rw [c1, c2, c7]
    rcases S.wr hok hs hw ha with h | h
    · exact .inl h
    · rw [hh] at h; exact .inr h
  constructor
  · intro e σ τ m a hl hi ha hacc
    obtain ⟨t1, hf, hh, ok', ok, hd⟩ := S.target hl hi ha
    have hok := SlotCfg.I_ok S.wf true e τ ok' (fun _ => hd)
    exact rdd t1 hh hok S.j1 (jacc _ e τ a hok (fun h => by rw [hh]; exact ok.2.2.2 h) hacc)
  · intro e σ τ m a hl hi ha hacc
    obtain ⟨t1, hf, hh, ok', ok, hd⟩ := S.target hl hi ha
    have hok := SlotCfg.I_ok S.wf true e τ ok' (fun _ => hd)
    exact wrr hh hok S.j1 S.j2.w (jacc _ e τ a hok (fun h => by rw [hh]; exact ok.2.2.2 h) hacc)
  · intro e σ τ m a hx hl hi ha hacc
    obtain ⟨t1, hf, hh, ok', ok, hd⟩ := S.target hl hi ha
    have hok := SlotCfg.I_ok S.wf true e τ ok' (fun _ => hd)
    obtain ⟨o1, o2⟩ := o1 hx
    rcases oacc hx _ e τ a hok (fun h => by rw [hh]; exact ok.2.2.2 h) hacc with h | ⟨-, h⟩
    · rcases rdd t1 hh hok o1 h with h | h | h
      · exact .inl h
      · exact .inr (.inl h)
      · exact .inr (.inr (.inl h))
    · exact .inr (.inr (.inr h))
  · intro e σ τ m a hx hl hi ha hacc
    obtain ⟨t1, hf, hh, ok', ok, hd⟩ := S.target hl hi ha
    have hok := SlotCfg.I_ok S.wf true e τ ok' (fun _ => hd)
    obtain ⟨o1, o2⟩ := o1 hx
    rcases oacc hx _ e τ a hok (fun h => by rw [hh]; exact ok.2.2.2 h) hacc with h | ⟨h, -⟩
    · exact (wrr hh hok o1 o2 h).imp id .inl
    · cases h
  · intro e σ τ a _ _ ha hmem hd hacc
    exact .inr (fr.rd ha hmem hd hacc)
  · intro e σ τ a _ _ ha hmem hd hacc
    exact fr.wr ha hmem hd hacc
  · intro e σ a _ hd hacc
    exact (mk e σ hd a).1 hacc
  · intro e σ a _ hd hacc
    exact .inl ((mk e σ hd a).2 hacc)

/-- the same for a `make_fcontext` that reads nothing but its return address -/
theorem footprint (X : Extra P) (D : Reads A)
    (jacc : ∀ x e τ a, (S.K.I e τ).Ok (S.K.C true) → (S.K.nz = true → S.K.thid τ ≠ 0#_) → P.jump.accs x e τ a → accs x e S.ji τ a)
    (oi : List (Instr A)) (o1 : X.oot → ∃ h : ((S.K.C true).run oi SSt.init).isSome = true, ∀ x ∈ ((S.K.C true).fin oi h).log, x.1 = 0 ∨ x.1 = 2)
    (oacc : X.oot → ∀ x e τ a, (S.K.I e τ).Ok (S.K.C true) → P.ontop.accs x e τ a → accs x e oi τ a ∨ x = .rd ∧ D.desc e τ a)
    (fr : Fresh (P := P) X) {top : A.R} {j msz : Nat} (hms : P.mscratch = 0) (w1 : msz + 2 ^ j ≤ 2 ^ (8 * A.k))
    (mf : P.MakeFoot top j msz) (ht : P.argTop = fun s => s.gpr top)
    (hres : ∀ e σ, P.resM (exec e P.make σ).1 = (σ.gpr top &&& mask A j) - off A msz) : Footprint X D :=
  S.footprintD X D jacc oi o1 (fun hx x e τ a hok _ => oacc hx x e τ a hok) fr fun e σ hd a =>
    ⟨fun h => ((P.make_foot hms w1 mf ht hres e σ hd a).1 h).imp id .inl, (P.make_foot hms w1 mf ht hres e σ hd a).2⟩

theorem CE_ok {msz hid : Nat} {mw : Nat × Nat} (hw : msz ≤ 2 ^ (8 * A.k)) (hmw : mw.2 ≤ msz) {e : Env A} {τ : St A}
    (hth : S.K.nz = false → S.K.thid τ = τ.gpr S.K.to + off A hid) (hd : ∀ a, InR a (τ.gpr S.K.to) msz → ¬ InR a (S.K.own τ) S.K.N) :
    (S.K.I e τ).Ok (S.K.CE msz hid mw) where
  known := by
    intro x hx
    simp only [SlotCfg.CE, List.mem_cons, List.not_mem_nil, or_false, List.mem_append] at hx
    rcases hx with (rfl | rfl) | hx
    · exact (sub_add_off _ _).symm
    · exact (BitVec.add_zero _).symm
    · split at hx
      · simp at hx
      · rename_i hn
        simp only [List.mem_cons, List.not_mem_nil, or_false] at hx
        subst hx
        exact hth (by simpa using hn)
  disj := by
    intro i j hD
    simp only [SlotCfg.CE, Bool.and_eq_true, beq_iff_eq] at hD
    obtain ⟨rfl, rfl⟩ := hD
    intro a h1 h2
    have h1 : InR a (S.K.own τ + off A 0) S.K.N := h1
    rw [add_off_zero] at h1
    exact hd a h2 h1
  wr i := by
    have := S.wf.N
    simp only [SlotCfg.CE]; repeat' split
    all_goals (try simp only); omega
  rd i := by
    simp only [SlotCfg.CE]; repeat' split
    all_goals omega

/-- the first activation, from the symbolic run `ei` -/
theorem fresh_of (X : Extra P) {top : A.R} {j msz hid : Nat} {mw : Nat × Nat} {ei : List (Instr A)} (w1 : msz + 2 ^ j ≤ 2 ^ (8 * A.k)) (hmw : mw.2 ≤ msz)
    (w11 : S.K.oH + A.k ≤ msz) (hk : P.mkeep = msz) (hsl : P.mslot = fun c a => InR a (c + off A mw.1) (mw.2 - mw.1))
    (make : ∀ (e : Env A) (σ : St A) (c : A.W), c = (σ.gpr top &&& mask A j) - off A msz → P.resM (exec e P.make σ).1 = c ∧
      load (exec e P.make σ).1.mem (c + off A S.K.oH) A.k = if S.K.nz then 0#_ else c + off A hid)
    (e1 : ((S.K.CE msz hid mw).run ei SSt.init).isSome = true)
    (eacc : ∀ x e τ a, (S.K.I e τ).Ok (S.K.CE msz hid mw) → (S.K.nz = true → S.K.thid τ = 0#_) → progAccs x e (P.jump :: P.stub) τ a → accs x e ei τ a) :
    Fresh (P := P) X := by
  obtain ⟨c1, c2, c3, c4, c5, c6, c7, c8, c9, c10, c11, c12⟩ := S.conv
  have hj : 0 < 2 ^ j := Nat.two_pow_pos _
  have hw : msz ≤ 2 ^ (8 * A.k) := by omega
  have key : ∀ {e σ τ}, P.argF τ = P.resM (exec e P.make σ).1 → (∀ a, InR a (P.argF τ) P.mkeep → τ.mem a = (exec e P.make σ).1.mem a) →
      (∀ a, InR a (P.argF τ) P.mkeep → ¬ InR a (P.fctx τ) P.frame) → (S.K.I e τ).Ok (S.K.CE msz hid mw) ∧ (S.K.nz = true → S.K.thid τ = 0#_) := by
    intro e σ τ ha hmem hd
    obtain ⟨c, hcc⟩ : ∃ c, c = (σ.gpr top &&& mask A j) - off A msz := ⟨_, rfl⟩
    obtain ⟨m2, m9⟩ := make e σ c hcc
    rw [ha, m2, hk] at hmem hd
    rw [m2, c4] at ha
    have ha' : τ.gpr S.K.to = c := ha
    rw [c1, c2] at hd
    have hth : S.K.thid τ = if S.K.nz then 0#_ else c + off A hid := by
      show load τ.mem (τ.gpr S.K.to + off A S.K.oH) A.k = _
      rw [ha', ← m9]; exact load_agree hmem w11 hw
    exact ⟨S.CE_ok hw hmw (fun h => by rw [hth, ha', h]; rfl) (by rw [ha']; exact hd), fun h => by rw [hth, h]; rfl⟩
  constructor
  · intro e σ τ a ha hmem hd hacc
    obtain ⟨hok, hz⟩ := key ha hmem hd
    rw [c4, hk]
    exact S.rdE hok e1 (eacc _ e τ a hok hz hacc)
  · intro e σ τ a ha hmem hd hacc
    obtain ⟨hok, hz⟩ := key ha hmem hd
    rw [c1, c2, c4, hsl]
    exact S.wrE hok e1 (eacc _ e τ a hok hz hacc)

include S in
theorem locD (X : Extra P) (D : Reads A) (sane : A.Sane) (hnn : ∀ {s s' : St A}, s.gpr = s'.gpr → X.nn s → X.nn s')
    (hD : ∀ {e s s'} a, s.gpr = s'.gpr → (D.desc e s' a ↔ D.desc e s a) ∧ (D.mdesc e s' a ↔ D.mdesc e s a))
    (hal : ∀ {σ σ' τ τ' : St A}, σ.gpr = σ'.gpr → τ.gpr = τ'.gpr → P.also σ τ → P.also σ' τ')
    (hM : ∀ {e} {s s' : St A}, X.mok e s → Same (P.make.accs .rd e s) s s' → X.mok e s' ∧ P.argTop s' = P.argTop s ∧ P.argMFn s' = P.argMFn s)
    (hres : ∀ {s s' : St A}, s.gpr = s'.gpr → P.resM s = P.resM s')
    (ho : ∀ {s s' : St A} {a}, s.gpr = s'.gpr → P.oarea s a → P.oarea s' a) (hsl : ∀ c a, P.mslot c a → InR a c P.mkeep) : Local X D := by
  obtain ⟨c1, c2, c3, c4, c5, c6, c7, c8, c9, c10, c11, c12⟩ := S.conv
  obtain ⟨q1, q2⟩ := S.res
  refine .regsD X D sane (fun h => ?_) hD (fun {σ σ' τ τ'} h h' => ?_) hM hres ho hsl
  · rw [c1, c4, c5, c12, c11, c7]
    simp only [SlotCfg.own, h]
    exact ⟨trivial, trivial, trivial, trivial, trivial, fun _ => trivial, hnn h⟩
  · rw [q1, q2]
    rw [c7] at h'
    have w := S.wf.w
    have h2 : ∀ a, InR a (σ.gpr S.K.h) (2 * A.k) → τ'.mem a = τ.mem a := fun a ha => (h'.2.2 a ha).symm
    refine ⟨?_, ?_, hal h h'.1⟩
    · show load τ'.mem (σ'.gpr S.K.h) A.k = load τ.mem (σ.gpr S.K.h) A.k
      rw [← h]
      exact load_congr (by omega) fun x hx => h2 x (inR_mono hx (by omega))
    · show load τ'.mem (σ'.gpr S.K.h + off A A.k) A.k = load τ.mem (σ.gpr S.K.h + off A A.k) A.k
      rw [← h]
      exact load_agree h2 (by omega) w

include S in
theorem loc (X : Extra P) (D : Reads A) (sane : A.Sane) (hnn : ∀ {s s' : St A}, s.gpr = s'.gpr → X.nn s → X.nn s')
    (hmok : ∀ {e} {s s' : St A}, s.gpr = s'.gpr → X.mok e s → X.mok e s')
    (hD : ∀ {e s s'} a, s.gpr = s'.gpr → (D.desc e s' a ↔ D.desc e s a) ∧ (D.mdesc e s' a ↔ D.mdesc e s a))
    (hal : ∀ {σ σ' τ τ' : St A}, σ.gpr = σ'.gpr → τ.gpr = τ'.gpr → P.also σ τ → P.also σ' τ')
    (hres : ∀ {s s' : St A}, s.gpr = s'.gpr → P.argTop s' = P.argTop s ∧ P.argMFn s' = P.argMFn s ∧ P.resM s = P.resM s')
    (ho : ∀ {s s' : St A} {a}, s.gpr = s'.gpr → P.oarea s a → P.oarea s' a) (hsl : ∀ c a, P.mslot c a → InR a c P.mkeep) : Local X D :=
  S.locD X D sane hnn hD hal (fun hm h => ⟨hmok h.1 hm, (hres h.1).1, (hres h.1).2.1⟩) (fun h => (hres h).2.2) ho hsl

end SlotJump

theorem SlotMake.fresh {P : Port A} {S : SlotJump P} (M : SlotMake S) (X : Extra P)
    (eacc : ∀ x e τ a, (S.K.I e τ).Ok (S.K.CE M.msz M.hid M.mw) → (S.K.nz = true → S.K.thid τ = 0#_) → P.jump.accs x e τ a → accs x e M.ei τ a) :
    SlotJump.Fresh (P := P) X := by
  obtain ⟨d1, d2, d3, d4, d5, d6⟩ := M.conv
  obtain ⟨w1, w2, w3, w4, w5, w6, w7, w8, w9, w10, w11⟩ := M.sz
  refine S.fresh_of X w1 w8 w11 d3 d5 (fun e σ c hc => ⟨(M.make e σ c hc).2.1, (M.make e σ c hc).2.2.2.2.2.2.2.2⟩) M.e1 fun x e τ a hok hz ha => ?_
  rw [Port.stub, d2] at ha
  exact eacc x e τ a hok hz (ha.resolve_right id)

theorem SlotMakeT.fresh {P : Port A} {S : SlotJump P} (M : SlotMakeT S) (X : Extra P)
    (eacc : ∀ x e τ a, (S.K.I e τ).Ok (S.K.CE M.msz M.hid M.mw) → (S.K.nz = true → S.K.thid τ = 0#_) → progAccs x e [P.jump, M.tc] τ a → accs x e M.ei τ a) :
    SlotJump.Fresh (P := P) X := by
  obtain ⟨d1, d2, d3, d4, d5, d6⟩ := M.conv
  obtain ⟨w1, w2, w3, w4, w5, w6, w7, w8, w9, w10, w11, w12⟩ := M.sz
  refine S.fresh_of X w1 w8 w11 d3 d5 (fun e σ c hc => ⟨(M.make e σ c hc).2.1, (M.make e σ c hc).2.2.2.2.2.2.2.2.2⟩) M.e1 fun x e τ a hok hz ha => ?_
  rw [Port.stub, d2] at ha
  exact eacc x e τ a hok hz ha

theorem SlotMake.loc {P : Port A} {S : SlotJump P} (M : SlotMake S) (X : Extra P) (D : Reads A) (sane : A.Sane) (hnn : ∀ {s s' : St A}, s.gpr = s'.gpr → X.nn s → X.nn s')
    (hmok : ∀ {e} {s s' : St A}, s.gpr = s'.gpr → X.mok e s → X.mok e s')
    (hD : ∀ {e s s'} a, s.gpr = s'.gpr → (D.desc e s' a ↔ D.desc e s a) ∧ (D.mdesc e s' a ↔ D.mdesc e s a))
    (hal : ∀ {σ σ' τ τ' : St A}, σ.gpr = σ'.gpr → τ.gpr = τ'.gpr → P.also σ τ → P.also σ' τ')
    (hres : ∀ {s s' : St A}, s.gpr = s'.gpr → P.argMFn s' = P.argMFn s ∧ P.resM s = P.resM s')
    (ho : ∀ {s s' : St A} {a}, s.gpr = s'.gpr → P.oarea s a → P.oarea s' a) : Local X D := by
  obtain ⟨d1, d2, d3, d4, d5, d6⟩ := M.conv
  obtain ⟨w1, w2, w3, w4, w5, w6, w7, w8, w9, w10, w11⟩ := M.sz
  have hj : 0 < 2 ^ M.j := Nat.two_pow_pos _
  refine S.loc X D sane hnn hmok hD hal (fun h => ⟨by rw [d1]; simp only [h], hres h⟩) ho fun c a h => ?_
  rw [d5] at h
  rw [d3]
  exact inR_off h (by omega) (by omega)

theorem SlotMakeT.loc {P : Port A} {S : SlotJump P} (M : SlotMakeT S) (X : Extra P) (D : Reads A) (sane : A.Sane) (hnn : ∀ {s s' : St A}, s.gpr = s'.gpr → X.nn s → X.nn s')
    (hmok : ∀ {e} {s s' : St A}, s.gpr = s'.gpr → X.mok e s → X.mok e s')
    (hD : ∀ {e s s'} a, s.gpr = s'.gpr → (D.desc e s' a ↔ D.desc e s a) ∧ (D.mdesc e s' a ↔ D.mdesc e s a))
    (hal : ∀ {σ σ' τ τ' : St A}, σ.gpr = σ'.gpr → τ.gpr = τ'.gpr → P.also σ τ → P.also σ' τ')
    (hres : ∀ {s s' : St A}, s.gpr = s'.gpr → P.argMFn s' = P.argMFn s ∧ P.resM s = P.resM s')
    (ho : ∀ {s s' : St A} {a}, s.gpr = s'.gpr → P.oarea s a → P.oarea s' a) : Local X D := by
  obtain ⟨d1, d2, d3, d4, d5, d6⟩ := M.conv
  obtain ⟨w1, w2, w3, w4, w5, w6, w7, w8, w9, w10, w11, w12⟩ := M.sz
  have hj : 0 < 2 ^ M.j := Nat.two_pow_pos _
  refine S.loc X D sane hnn hmok hD hal (fun h => ⟨by rw [d1]; simp only [h], hres h⟩) ho fun c a h => ?_
  rw [d5] at h
  rw [d3]
  exact inR_off h (by omega) (by omega)

end Verif.Asm
