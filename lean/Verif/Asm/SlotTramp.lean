import Verif.Asm.SlotPort

/-!
# Ports that return `transfer_t` through a result object and enter new contexts through a stub

`SlotPort.SlotMake` for ports whose `make_fcontext` lets a new context start in a stub (`trampoline`), which calls the context function.
(No code of `/repo` is modelled in this file.)
-/

namespace Verif.Asm

open SlotCfg

/-- `make` and the first activation through a stub (`tramp`), which takes the context function from offset `oFn` of the context's data -/
structure SlotMakeT {A : Arch} {P : Port A} (S : SlotJump P) where
  /-- first argument, alignment, size of the data, offset of the result object, written part, offset of the saved return address, final stack pointer -/
  top : A.R
  j : Nat
  msz : Nat
  hid : Nat
  mw : Nat × Nat
  oRA : Nat
  oFn : Nat
  lab : A.Lab
  tc : Code A
  spo : Nat
  al : Nat
  ei : List (Instr A)
  er : A.R
  conv : P.argTop = (fun s => s.gpr top) ∧ P.tramp = some (lab, tc) ∧ P.mkeep = msz ∧ P.mspRet = (fun s => s.gpr S.K.sp) ∧
    P.mslot = (fun c a => InR a (c + off A mw.1) (mw.2 - mw.1)) ∧ P.aligned = fun w => w.toNat % 2 ^ al = 0
  sz : msz + 2 ^ j ≤ 2 ^ (8 * A.k) ∧ 2 ^ j ≤ 64 ∧ al ≤ j ∧ j ≤ 8 * A.k ∧ spo ≤ msz ∧ (msz - spo) % 2 ^ al = 0 ∧ mw.1 ≤ mw.2 ∧ mw.2 ≤ msz ∧ oRA + A.k ≤ msz ∧
    S.K.oPC + A.k ≤ msz ∧ S.K.oH + A.k ≤ msz ∧ oFn + A.k ≤ msz
  make : ∀ (e : Env A) (σ : St A) (c : A.W), c = (σ.gpr top &&& mask A j) - off A msz → (exec e P.make σ).2 = σ.gpr S.K.ra ∧ P.resM (exec e P.make σ).1 = c ∧
    (exec e P.make σ).1.gpr S.K.sp = σ.gpr S.K.sp ∧ (∀ r ∈ P.saved, (exec e P.make σ).1.gpr r = σ.gpr r) ∧
    (∀ f ∈ P.fsaved, (exec e P.make σ).1.fpr f = σ.fpr f) ∧
    (∀ a, (exec e P.make σ).1.mem a ≠ σ.mem a → InR a c msz) ∧
    load (exec e P.make σ).1.mem (c + off A oFn) A.k = P.argMFn σ ∧ load (exec e P.make σ).1.mem (c + off A S.K.oPC) A.k = e lab ∧
    load (exec e P.make σ).1.mem (c + off A oRA) A.k = e P.finish ∧
    load (exec e P.make σ).1.mem (c + off A S.K.oH) A.k = if S.K.nz then 0#_ else c + off A hid
  erun : ∀ e τ, (S.K.I e τ).Ok (S.K.CE msz hid mw) → (S.K.nz = true → S.K.thid τ = 0#_) → P.enter e τ = (steps e ei τ, (steps e ei τ).gpr er)
  jpc : ∀ e τ, (S.K.I e τ).Ok (S.K.CE msz hid mw) → (exec e P.jump τ).2 = load τ.mem (τ.gpr S.K.to + off A S.K.oPC) A.k
  e1 : ((S.K.CE msz hid mw).run ei SSt.init).isSome = true
  pc : ((S.K.CE msz hid mw).fin ei e1).gpr er = ⟨.ld 1 oFn, 0#_⟩
  sp : ((S.K.CE msz hid mw).fin ei e1).gpr S.K.sp = ⟨.reg S.K.to, off A spo⟩
  ra : ((S.K.CE msz hid mw).fin ei e1).gpr S.K.ra = ⟨.ld 1 oRA, 0#_⟩
  w : ∀ x ∈ ((S.K.CE msz hid mw).fin ei e1).log, x.1 = 0 ∨ x.1 = 1
  /-- the arguments of the context function -/
  ein : ∀ e τ s, (S.K.nz = false → S.K.thid τ = τ.gpr S.K.to + off A hid) → Rel (S.K.CE msz hid mw) (S.K.I e τ) ((S.K.CE msz hid mw).fin ei e1) s → P.inF s = S.K.own τ ∧ P.inD s = τ.gpr S.K.d

namespace SlotMakeT
variable {A : Arch} {P : Port A} {S : SlotJump P} (M : SlotMakeT S)

include M in
/-- the first activation, as seen by the symbolic executor -/
theorem entry {e : Env A} {σ τ : St A} (ha : P.argF τ = P.resM (exec e P.make σ).1)
    (hmem : ∀ a, InR a (P.argF τ) P.mkeep → τ.mem a = (exec e P.make σ).1.mem a)
    (hd : ∀ a, InR a (P.argF τ) P.mkeep → ¬ InR a (P.fctx τ) P.frame) :
    ∃ s, P.enter e τ = (s, s.gpr M.er) ∧ Rel (S.K.CE M.msz M.hid M.mw) (S.K.I e τ) ((S.K.CE M.msz M.hid M.mw).fin M.ei M.e1) s ∧
      τ.gpr S.K.to = (σ.gpr M.top &&& mask A M.j) - off A M.msz ∧ (exec e P.jump τ).2 = load τ.mem (τ.gpr S.K.to + off A S.K.oPC) A.k := by
  obtain ⟨c, hcc⟩ : ∃ c, c = (σ.gpr M.top &&& mask A M.j) - off A M.msz := ⟨_, rfl⟩
  obtain ⟨m1, m2, m3, m4, m5, m6, m7, mt, m8, m9⟩ := M.make e σ c hcc
  obtain ⟨c1, c2, c3, c4, c5, c6, c7, c8, c9, c10, c11, c12⟩ := S.conv
  obtain ⟨d1, d2, d3, d4, d5, d6⟩ := M.conv
  obtain ⟨w1, w2, w3, w4, w5, w6, w7, w8, w9, w10, w11, w12⟩ := M.sz
  have hw : M.msz ≤ 2 ^ (8 * A.k) := by have : 0 < 2 ^ M.j := Nat.two_pow_pos _; omega
  rw [ha, m2, d3] at hmem hd
  rw [m2, c4] at ha
  have ha' : τ.gpr S.K.to = c := ha
  rw [c1, c2] at hd
  have ld : ∀ o, o + A.k ≤ M.msz → load τ.mem (c + off A o) A.k = load (exec e P.make σ).1.mem (c + off A o) A.k := fun o ho => load_agree hmem ho hw
  have hth : S.K.thid τ = if S.K.nz then 0#_ else c + off A M.hid := by
    show load τ.mem (τ.gpr S.K.to + off A S.K.oH) A.k = _
    rw [ha', ld _ w11, m9]
  have hok : (S.K.I e τ).Ok (S.K.CE M.msz M.hid M.mw) := by
    constructor
    · intro x hx
      simp only [SlotCfg.CE, List.mem_cons, List.not_mem_nil, or_false, List.mem_append] at hx
      rcases hx with (rfl | rfl) | hx
      · exact (sub_add_off _ _).symm
      · exact (BitVec.add_zero _).symm
      · split at hx
        · simp at hx
        · rename_i hn
          simp only [List.mem_cons, List.not_mem_nil, or_false] at hx
          subst hx
          show S.K.thid τ = τ.gpr S.K.to + _
          rw [hth, ha']; simp [hn]
    · intro i j hD
      simp only [SlotCfg.CE, Bool.and_eq_true, beq_iff_eq] at hD
      obtain ⟨rfl, rfl⟩ := hD
      intro a h1 h2
      have h1 : InR a (S.K.own τ + off A 0) S.K.N := h1
      rw [show S.K.own τ + off A 0 = S.K.own τ from BitVec.add_zero _] at h1
      have h2 : InR a (τ.gpr S.K.to) M.msz := h2
      rw [ha'] at h2
      exact hd a h2 h1
    · intro i
      have := S.wf.N
      simp only [SlotCfg.CE]; repeat' split
      all_goals (try simp only); omega
    · intro i
      simp only [SlotCfg.CE]; repeat' split
      all_goals omega
  have hr := fin_rel hok M.ei M.e1
  obtain ⟨s, hs⟩ : ∃ s, s = steps (S.K.I e τ).e M.ei (S.K.I e τ).σ := ⟨_, rfl⟩
  have hx : P.enter e τ = (s, s.gpr M.er) := by
    rw [hs]; exact M.erun e τ hok (fun h => by rw [hth]; simp [h])
  rw [← hs] at hr
  exact ⟨s, hx, hr, ha'.trans hcc, M.jpc e τ hok⟩

include M in
theorem makeSpec : P.MakeSpec := by
  intro e σ _
  obtain ⟨c, hcc⟩ : ∃ c, c = (σ.gpr M.top &&& mask A M.j) - off A M.msz := ⟨_, rfl⟩
  obtain ⟨m1, m2, m3, m4, m5, m6, m7, mt, m8, m9⟩ := M.make e σ c hcc
  obtain ⟨c1, c2, c3, c4, c5, c6, c7, c8, c9, c10, c11, c12⟩ := S.conv
  obtain ⟨d1, d2, d3, d4, d5, d6⟩ := M.conv
  obtain ⟨w1, w2, w3, w4, w5, w6, w7, w8, w9, w10, w11, w12⟩ := M.sz
  have hw : M.msz ≤ 2 ^ (8 * A.k) := by have : 0 < 2 ^ M.j := Nat.two_pow_pos _; omega
  have hmod : (σ.gpr M.top).toNat % 2 ^ M.j < 2 ^ M.j := Nat.mod_lt _ (Nat.two_pow_pos _)
  have hsz : (P.argTop σ - c).toNat = M.msz + (σ.gpr M.top).toNat % 2 ^ M.j := by
    rw [d1, hcc]; exact align_below (A := A) (σ.gpr M.top) M.msz M.j w1
  rw [m2, hsz, d3]
  refine ⟨⟨by rw [c12]; exact m1, by rw [c10, d4]; exact m3, m4, m5⟩, ⟨by omega, by omega⟩, ?_, ?_⟩
  · intro a ha
    left
    exact inR_mono (m6 a ha) (by omega)
  · intro τ h0 hmem hd
    have ha := h0
    rw [← m2] at h0
    have h1 := hmem
    have h2 := hd
    rw [← d3] at h1 h2
    rw [ha] at hmem hd ⊢
    rw [hsz]
    rw [c4] at ha
    have ha' : τ.gpr S.K.to = c := ha
    rw [c1, c2] at hd
    have ld : ∀ o, o + A.k ≤ M.msz → load τ.mem (c + off A o) A.k = load (exec e P.make σ).1.mem (c + off A o) A.k := fun o ho => load_agree hmem ho hw
    have hth : S.K.thid τ = if S.K.nz then 0#_ else c + off A M.hid := by
      show load τ.mem (τ.gpr S.K.to + off A S.K.oH) A.k = _
      rw [ha', ld _ w11, m9]
    obtain ⟨s, hx, hr, -, hj⟩ := M.entry (σ := σ) h0 h1 h2
    rw [hx]
    have ld' : ∀ o, o + A.k ≤ M.msz → (S.K.I e τ).sv ⟨.ld 1 o, 0#_⟩ = load (exec e P.make σ).1.mem (c + off A o) A.k := by
      intro o ho
      rw [← ld o ho, sv_ld, ← ha']; rfl
    have hsp : s.gpr S.K.sp = c + off A M.spo := by rw [hr.reg M.sp, ← ha']; rfl
    obtain ⟨a1, a2⟩ := M.ein e τ s (fun h => by rw [hth, ha']; simp [h]) hr
    refine ⟨?_, ?_, ?_, ?_, ?_, ?_, ?_, ?_, ?_⟩
    · intro l cc h; rw [d2] at h; cases h; rw [hj, ha', ld _ w10, mt]
    · rw [hr.reg M.pc, ld' _ w12, m7]
    · rw [a1, c1]
    · rw [a2, c5]
    · rw [c12]; show s.gpr S.K.ra = _; rw [hr.reg M.ra, ld' _ w9, m8]
    · rw [c10, d6]
      show (s.gpr S.K.sp).toNat % 2 ^ M.al = 0
      rw [hsp]
      have h1 : c + off A M.spo = (σ.gpr M.top &&& mask A M.j) - off A (M.msz - M.spo) := by
        rw [hcc]
        have : off A M.msz = off A (M.msz - M.spo) + off A M.spo := by simp only [off, ← BitVec.ofNat_add]; congr 1; omega
        rw [this]; generalize (σ.gpr M.top &&& mask A M.j) = x; generalize off A (M.msz - M.spo) = y; generalize off A M.spo = z; grind
      have hdv : 2 ^ M.al ∣ 2 ^ M.j := Nat.pow_dvd_pow 2 w3
      have hdv' : 2 ^ M.al ∣ 2 ^ (8 * A.k) := Nat.pow_dvd_pow 2 (by omega)
      rw [h1, BitVec.toNat_sub, and_mask_toNat]
      have h2 : (off A (M.msz - M.spo)).toNat = M.msz - M.spo := by rw [off, BitVec.toNat_ofNat, Nat.mod_eq_of_lt]; have := Nat.two_pow_pos M.j; omega
      rw [h2, Nat.mod_mod_of_dvd _ hdv']
      apply Nat.mod_eq_zero_of_dvd
      apply Nat.dvd_add
      · exact Nat.dvd_sub hdv' (Nat.dvd_of_mod_eq_zero w6)
      · exact Nat.dvd_trans hdv (Nat.dvd_sub_mod _)
    · rw [c10]
      show (s.gpr S.K.sp - c).toNat ≤ _
      rw [hsp]
      have : c + off A M.spo - c = off A M.spo := by rw [BitVec.add_comm, BitVec.add_sub_cancel]
      rw [this]
      have : (off A M.spo).toNat ≤ M.spo := by rw [off, BitVec.toNat_ofNat]; exact Nat.mod_le _ _
      omega
    · intro a h
      rw [c1, c2, d5]
      obtain ⟨i, ⟨x, hx, rfl⟩, h4⟩ := hr.frame a h
      rcases M.w x hx with h0 | h0
      · rw [h0] at h4
        have h4 : InR a (S.K.own τ + off A 0) S.K.N := h4
        rw [show S.K.own τ + off A 0 = S.K.own τ from BitVec.add_zero _] at h4
        exact .inl h4
      · rw [h0] at h4
        have h4 : InR a (τ.gpr S.K.to + off A M.mw.1) (M.mw.2 - M.mw.1) := h4
        rw [ha'] at h4
        exact .inr h4
    · intro a h
      rw [d5] at h
      exact inR_off h (by omega) hw

end SlotMakeT

/-- The hypotheses of `MakeSpec` are met by a caller at `sp = 0x10000` and a stack whose top is the odd address `0xf123`. -/
theorem SlotMakeT.inhabited {A : Arch} {P : Port A} {S : SlotJump P} (M : SlotMakeT S) (e : Env A) (hk : A.k = 4 ∨ A.k = 8) (hN : S.K.N ≤ 0x800) (hfr : S.K.fr ≤ S.K.N)
    (hs : P.mscratch = 0) (h1 : M.top ≠ S.K.sp) (h2 : S.K.to ≠ S.K.sp) (hz : M.msz ≤ 0x800) (h3 : S.K.to ≠ S.K.h) :
    ∃ σ, (∀ a, InR a (P.resM (exec e P.make σ).1) (P.argTop σ - P.resM (exec e P.make σ).1).toNat →
      ¬ InR a (σ.gpr P.sp - off A P.mscratch) (P.mscratch + A.k)) ∧
    ∃ τ : St A, P.argF τ = P.resM (exec e P.make σ).1 ∧ (∀ a, InR a (P.argF τ) P.mkeep → τ.mem a = (exec e P.make σ).1.mem a) ∧
      (∀ a, InR a (P.argF τ) P.mkeep → ¬ InR a (P.fctx τ) P.frame) := by
  have pw : 2 ^ 32 ≤ 2 ^ (8 * A.k) := Nat.pow_le_pow_right (by decide) (by omega)
  have tn : ∀ x, x < 2 ^ 32 → (off A x).toNat = x := fun x hx => by rw [off, BitVec.toNat_ofNat, Nat.mod_eq_of_lt (by omega)]
  have su : ∀ x y, x < 2 ^ 32 → y ≤ x → (off A x - off A y).toNat = x - y := fun x y h1 h2 => by
    rw [BitVec.toNat_sub_of_le (by rw [BitVec.le_def, tn _ h1, tn _ (by omega)]; exact h2), tn _ h1, tn _ (by omega)]
  obtain ⟨c1, c2, c3, c4, c5, c6, c7, c8, c9, c10, c11, c12⟩ := S.conv
  obtain ⟨d1, d2, d3, d4, d5, d6⟩ := M.conv
  obtain ⟨w1, w2, -⟩ := M.sz
  obtain ⟨σ, hσ⟩ : ∃ σ : St A, σ = ⟨fun r => if r = S.K.sp then off A 0x10000 else off A 0xf123, fun _ => 0#_, fun _ => 0#_⟩ := ⟨_, rfl⟩
  have e1 : σ.gpr M.top = off A 0xf123 := by rw [hσ]; simp [h1]
  have e2 : σ.gpr S.K.sp = off A 0x10000 := by rw [hσ]; simp
  obtain ⟨c, hcc⟩ : ∃ c, c = (σ.gpr M.top &&& mask A M.j) - off A M.msz := ⟨_, rfl⟩
  obtain ⟨m1, m2, -⟩ := M.make e σ c hcc
  have hmod : (σ.gpr M.top).toNat % 2 ^ M.j < 2 ^ M.j := Nat.mod_lt _ (Nat.two_pow_pos _)
  have hsz : (P.argTop σ - c).toNat = M.msz + (σ.gpr M.top).toNat % 2 ^ M.j := by
    rw [d1, hcc]; exact align_below (A := A) (σ.gpr M.top) M.msz M.j w1
  have hc : c.toNat = 0xf123 - (σ.gpr M.top).toNat % 2 ^ M.j - M.msz := by
    have hand := and_mask_toNat (σ.gpr M.top) M.j
    rw [hcc, BitVec.toNat_sub_of_le (by rw [BitVec.le_def, tn _ (by omega), hand, e1, tn _ (by omega)]; rw [e1, tn _ (by omega)] at hmod; omega), tn _ (by omega), hand, e1, tn _ (by omega)]
  refine ⟨σ, ?_, S.K.mk' (exec e P.make σ).1.mem 0x20000 0 c.toNat 0, ?_⟩
  · rw [m2, hsz, hs, c10, e2]
    intro a ha
    have e0 : off A 0x10000 - off A 0 = off A 0x10000 := by simp [off]
    rw [e0]
    refine inR_apart ?_ ?_ ha
    · rw [hc, tn _ (by omega)]; omega
    · rw [tn _ (by omega)]; omega
  · have g1 : (S.K.mk' (exec e P.make σ).1.mem 0x20000 0 c.toNat 0).gpr S.K.to = c := by
      simp only [SlotCfg.mk', h2, h3, if_false, if_true]
      simp [off]
    rw [c4, m2, c1, c2, d3]
    simp only [g1]
    refine ⟨trivial, fun _ _ => rfl, fun a ha => ?_⟩
    have g2 : (S.K.own (S.K.mk' (exec e P.make σ).1.mem 0x20000 0 c.toNat 0)).toNat = 0x20000 - S.K.fr := by
      show ((S.K.mk' (exec e P.make σ).1.mem 0x20000 0 c.toNat 0).gpr S.K.sp - _).toNat = _
      simp only [SlotCfg.mk', if_true]
      exact su _ _ (by omega) (by omega)
    refine inR_apart ?_ ?_ ha
    · rw [g2, hc]; omega
    · rw [g2]; omega

end Verif.Asm
