import Verif.Asm.Lemmas

/-!
# Ports that pass everything in registers

Proof method shared by ARM64, RISC-V 64, LoongArch64 and MIPS64: the routines allocate a frame, save registers, remember the stack pointer in
a scratch register, take the stack pointer from the first argument, load registers, and run a short tail.  A `RegPort` is the list
of facts about the individual routines from which the specifications follow.  (No code of `/repo` is modelled in this file.)
-/

namespace Verif.Asm

structure RegPort {A : Arch} (P : Port A) where
  t : A.R
  t' : A.R
  a0 : A.R
  a1 : A.R
  a2 : A.R
  LS : List (Slot A × Nat)
  L : List (Slot A × Nat)
  T : List (Instr A)
  T' : List (Instr A)
  rj : A.R
  rj' : A.R
  fr : Nat
  mres : Nat
  oPC : Nat
  oRA : Nat
  jump_eq : P.jump = .jmp (.addi P.sp P.sp (-off A fr) :: saves P.sp LS ++ [.mov t P.sp, .mov P.sp a0] ++ loads P.sp L ++ T) rj
  ontop_eq : P.ontop = .jmp (.addi P.sp P.sp (-off A fr) :: saves P.sp LS ++ [.mov t' P.sp, .mov P.sp a0] ++ loads P.sp L ++ T') rj'
  pureT : T.all Instr.pure = true
  pureT' : T'.all Instr.pure = true
  fits : Fits A fr LS
  word : mres + 64 ≤ 2 ^ (8 * A.k)
  frmk : fr ≤ mres ∧ mres % 16 = fr % 16 ∧ oPC + A.k ≤ fr ∧ oRA + A.k ≤ fr ∧ 1 ≤ A.k
  spLS : ∀ x ∈ LS, x.1 ≠ .g P.sp
  spL : ∀ x ∈ L, x.1 ≠ .g P.sp
  sub : ∀ x ∈ L, x ∈ LS
  nodup : (L.map (·.1)).Nodup
  ne : t ≠ P.sp ∧ t' ≠ P.sp ∧ a0 ≠ P.sp ∧ a0 ≠ t ∧ a0 ≠ t' ∧ a1 ≠ P.sp ∧ a1 ≠ t ∧ a1 ≠ t' ∧ a2 ≠ P.sp ∧ a2 ≠ t'
  nt : .g t ∉ L.map (·.1) ∧ .g t' ∉ L.map (·.1) ∧ .g a1 ∉ L.map (·.1) ∧ .g a2 ∉ L.map (·.1)
  /-- calling convention -/
  conv : P.fctx = (fun s => s.gpr P.sp - off A fr) ∧ P.frame = fr ∧ P.keep = fr ∧ P.argF = (fun s => s.gpr a0) ∧ P.argD = (fun s => s.gpr a1) ∧
    P.argFn = (fun s => s.gpr a2) ∧ P.slot = (fun _ _ => False) ∧ P.tslot = (fun _ _ => False) ∧ P.mslot = (fun _ _ => False) ∧
    P.argTop = (fun s => s.gpr a0) ∧ P.mkeep = mres ∧ P.tramp = none ∧ P.ok = (fun _ => True) ∧ P.oinF = P.inF ∧ P.oinD = P.inD ∧ P.mspRet = P.spRet ∧ P.aligned = fun w => w.toNat % 16 = 0
  spRet : P.spRet = fun s => s.gpr P.sp
  also : P.also = fun _ _ => True := by rfl
  /-- the tail of `jump`, started in `s` -/
  tail : ∀ (e : Env A) (s : St A), (exec e (.jmp T rj) s).2 = load s.mem (s.gpr P.sp + off A oPC) A.k ∧
    (exec e (.jmp T rj) s).1.gpr P.sp = s.gpr P.sp + off A fr ∧ (∀ r ∈ P.saved, (exec e (.jmp T rj) s).1.gpr r = s.gpr r) ∧
    (∀ r ∈ P.fsaved, (exec e (.jmp T rj) s).1.fpr r = s.fpr r) ∧
    (∀ σ, P.resF σ (exec e (.jmp T rj) s).1 = s.gpr t) ∧ (∀ σ, P.resD σ (exec e (.jmp T rj) s).1 = s.gpr a1) ∧
    P.inF (exec e (.jmp T rj) s).1 = s.gpr t ∧ P.inD (exec e (.jmp T rj) s).1 = s.gpr a1 ∧ P.ra (exec e (.jmp T rj) s).1 = P.ra s
  tail' : ∀ (e : Env A) (s : St A), (exec e (.jmp T' rj') s).2 = s.gpr a2 ∧
    (exec e (.jmp T' rj') s).1.gpr P.sp = s.gpr P.sp + off A fr ∧ (∀ r ∈ P.saved, (exec e (.jmp T' rj') s).1.gpr r = s.gpr r) ∧
    (∀ r ∈ P.fsaved, (exec e (.jmp T' rj') s).1.fpr r = s.fpr r) ∧
    P.inF (exec e (.jmp T' rj') s).1 = s.gpr t' ∧ P.inD (exec e (.jmp T' rj') s).1 = s.gpr a1 ∧ P.ra (exec e (.jmp T' rj') s).1 = P.ra s
  inL : (∀ r ∈ P.saved, Slot.g r ∈ L.map (·.1)) ∧ ∀ r ∈ P.fsaved, Slot.f r ∈ L.map (·.1)
  ra : A.R
  ra_eq : P.ra = fun s => s.gpr ra
  raLS : (.g ra, oPC) ∈ LS ∧ (.g ra, oRA) ∈ L
  /-- `make` -/
  make : ∀ (e : Env A) (σ : St A), (exec e P.make σ).2 = P.ra σ ∧ P.resM (exec e P.make σ).1 = (σ.gpr a0 &&& mask A 4) - off A mres ∧
    (exec e P.make σ).1.gpr P.sp = σ.gpr P.sp ∧ (∀ r ∈ P.saved, (exec e P.make σ).1.gpr r = σ.gpr r) ∧
    (∀ f, (exec e P.make σ).1.fpr f = σ.fpr f) ∧
    (∀ a, (exec e P.make σ).1.mem a ≠ σ.mem a → InR a ((σ.gpr a0 &&& mask A 4) - off A mres) mres) ∧
    load (exec e P.make σ).1.mem ((σ.gpr a0 &&& mask A 4) - off A mres + off A oPC) A.k = P.argMFn σ ∧
    load (exec e P.make σ).1.mem ((σ.gpr a0 &&& mask A 4) - off A mres + off A oRA) A.k = e P.finish

namespace RegPort
variable {A : Arch} {P : Port A} (S : RegPort P)

theorem hN : S.fr ≤ 2 ^ (8 * A.k) := by have := S.word; have := S.frmk; omega

theorem save (e : Env A) (σ : St A) :
    ∃ m, steps e (.addi P.sp P.sp (-off A S.fr) :: saves P.sp S.LS) σ = { setg σ P.sp (σ.gpr P.sp - off A S.fr) with mem := m } ∧
      (∀ a, ¬ InR a (σ.gpr P.sp - off A S.fr) S.fr → m a = σ.mem a) ∧ Holds σ m (σ.gpr P.sp - off A S.fr) S.LS :=
  save_phase e P.sp S.LS S.fr S.fits S.hN S.spLS σ

theorem loads_pure (b : A.R) (l : List (Slot A × Nat)) : (loads b l).all Instr.pure = true := by
  induction l with
  | nil => rfl
  | cons x l ih => obtain ⟨x | x, o⟩ := x <;> simpa [loads, Instr.pure] using ih

theorem jump_mem (e : Env A) (σ : St A) : (exec e P.jump σ).1.mem = (steps e (.addi P.sp P.sp (-off A S.fr) :: saves P.sp S.LS) σ).mem := by
  rw [S.jump_eq]
  simp only [exec, steps_append]
  rw [steps_pure _ _ S.pureT, steps_pure _ _ (loads_pure _ _), steps_pure]
  rfl

theorem ontop_mem (e : Env A) (σ : St A) : (exec e P.ontop σ).1.mem = (steps e (.addi P.sp P.sp (-off A S.fr) :: saves P.sp S.LS) σ).mem := by
  rw [S.ontop_eq]
  simp only [exec, steps_append]
  rw [steps_pure _ _ S.pureT', steps_pure _ _ (loads_pure _ _), steps_pure]
  rfl

theorem left_holds {e : Env A} {σ : St A} {m : Mem A} (h : P.Left e σ m) : Holds σ m (σ.gpr P.sp - off A S.fr) S.LS := by
  obtain ⟨m', h1, -, h3⟩ := S.save e σ
  rcases h with h | h
  · have : m = m' := by rw [← h]; exact (S.jump_mem e σ).trans (by rw [h1])
    rw [this]; exact h3
  · have : m = m' := by rw [← h]; exact (S.ontop_mem e σ).trans (by rw [h1])
    rw [this]; exact h3

/-- what a call with entry state `τ` that targets the intact context `σ` finds -/
theorem target {e : Env A} {σ τ : St A} {m : Mem A} (hl : P.Left e σ m) (hi : P.Intact σ m τ) (ha : P.argF τ = P.fctx σ) :
    τ.gpr S.a0 = σ.gpr P.sp - off A S.fr ∧ Holds σ τ.mem (τ.gpr S.a0) S.LS ∧
    ∀ a, InR a (τ.gpr S.a0) S.fr → ¬ InR a (τ.gpr P.sp - off A S.fr) S.fr := by
  obtain ⟨c1, c2, c3, c4, -⟩ := S.conv
  rw [c1, c4] at ha
  have e1 : τ.gpr S.a0 = σ.gpr P.sp - off A S.fr := ha
  obtain ⟨-, -, -, -, i3, i4⟩ := hi
  rw [c1, c3] at i3 i4
  rw [c2] at i4
  refine ⟨e1, ?_, ?_⟩
  · rw [e1]; exact (S.left_holds hl).congr S.fits.1 S.hN i3
  · rw [e1]; exact i4

theorem mid (e : Env A) (τ : St A) (t : A.R) (h1 : t ≠ P.sp) (h2 : S.a0 ≠ t) (h3 : Slot.g t ∉ S.L.map (·.1))
    (hd : ∀ a, InR a (τ.gpr S.a0) S.fr → ¬ InR a (τ.gpr P.sp - off A S.fr) S.fr) (s : St A)
    (hs : s = steps e (loads P.sp S.L) (steps e [.mov t P.sp, .mov P.sp S.a0] (steps e (.addi P.sp P.sp (-off A S.fr) :: saves P.sp S.LS) τ))) :
    SwitchFacts P.sp t S.a0 S.LS S.L S.fr S.fr τ s :=
  switch_facts e P.sp t S.a0 S.LS S.L S.fr S.fr S.fits S.hN S.hN S.spLS S.spL S.nodup (fun x hx => S.fits.1 x (S.sub x hx)) h1 S.ne.2.2.1 h2 h3 τ
    s hs hd

theorem key {σ s : St A} {m : Mem A} {f : A.W} (hH : Holds σ m f S.LS) (f5 : ∀ y ∈ S.L, s.get y.1 = load m (f + off A y.2) y.1.size) :
    (∀ r ∈ P.saved, s.gpr r = σ.gpr r) ∧ (∀ r ∈ P.fsaved, s.fpr r = σ.fpr r) ∧ s.gpr S.ra = σ.gpr S.ra := by
  have k : ∀ y ∈ S.L, s.get y.1 = σ.get y.1 := fun y hy => (f5 y hy).trans (hH y (S.sub y hy))
  refine ⟨fun r hr => ?_, fun r hr => ?_, k _ S.raLS.2⟩
  · obtain ⟨y, hy, h1⟩ := List.mem_map.1 (S.inL.1 r hr)
    have := k y hy
    rw [h1] at this
    exact this
  · obtain ⟨y, hy, h1⟩ := List.mem_map.1 (S.inL.2 r hr)
    have := k y hy
    rw [h1] at this
    exact this

include S

theorem jumpSpec : P.JumpSpec := by
  intro e σ τ m hl hi ha
  obtain ⟨e1, hH, hd⟩ := S.target hl hi ha
  obtain ⟨n1, n2, n3, n4, n5, n6, n7, n8, n9, n10⟩ := S.ne
  obtain ⟨c1, c2, c3, c4, c5, c6, c7, c8, c9, c10, c11, c12, ok, oF, oD, msp, c13⟩ := S.conv
  obtain ⟨s, hs⟩ : ∃ s, s = steps e (loads P.sp S.L) (steps e [.mov S.t P.sp, .mov P.sp S.a0] (steps e (.addi P.sp P.sp (-off A S.fr) :: saves P.sp S.LS) τ)) := ⟨_, rfl⟩
  obtain ⟨f1, f2, f3, f4, f5, f6, -⟩ := S.mid e τ S.t n1 n4 S.nt.1 hd s hs
  have hx : exec e P.jump τ = exec e (.jmp S.T S.rj) s := by rw [S.jump_eq]; simp only [exec, steps_append, hs]
  obtain ⟨t1, t2, t3, t4, t5, t6, -, -, -⟩ := S.tail e s
  obtain ⟨k1, k2, k3⟩ := S.key hH f5
  have hD : s.gpr S.a1 = τ.gpr S.a1 := f3 (.g S.a1) (by simpa using n6) (by simpa using n7) S.nt.2.2.1
  have hmem : (exec e P.jump τ).1.mem = s.mem := by rw [hx]; exact steps_pure _ _ S.pureT s
  refine ⟨⟨?_, ?_, ?_, ?_⟩, ?_, ?_, ?_, ?_, by rw [S.also]; trivial⟩
  · rw [hx, t1, f1, f6 _ _ S.frmk.2.2.1, S.ra_eq]; exact hH _ S.raLS.1
  · rw [hx, t2, f1, e1, S.spRet]; exact sub_add_off _ _
  · rw [hx]; intro r hr; rw [t3 r hr]; exact k1 r hr
  · rw [hx]; intro r hr; rw [t4 r hr]; exact k2 r hr
  · rw [hx, t5, f2, c1]
  · rw [hx, t6, c5]; exact hD
  · intro a hne
    left
    rw [c1, c2]
    by_cases hh : InR a (τ.gpr P.sp - off A S.fr) S.fr
    · exact hh
    · rw [hmem] at hne
      exact absurd (f4 a hh) hne
  · rw [c7, c8]; exact fun _ => Iff.rfl

theorem ontopSpec : P.OntopSpec := by
  intro e σ τ m hl hi ha
  obtain ⟨e1, hH, hd⟩ := S.target hl hi ha
  obtain ⟨n1, n2, n3, n4, n5, n6, n7, n8, n9, n10⟩ := S.ne
  obtain ⟨c1, c2, c3, c4, c5, c6, c7, c8, c9, c10, c11, c12, ok, oF, oD, msp, c13⟩ := S.conv
  obtain ⟨s, hs⟩ : ∃ s, s = steps e (loads P.sp S.L) (steps e [.mov S.t' P.sp, .mov P.sp S.a0] (steps e (.addi P.sp P.sp (-off A S.fr) :: saves P.sp S.LS) τ)) := ⟨_, rfl⟩
  obtain ⟨f1, f2, f3, f4, f5, f6, -⟩ := S.mid e τ S.t' n2 n5 S.nt.2.1 hd s hs
  have hx : exec e P.ontop τ = exec e (.jmp S.T' S.rj') s := by rw [S.ontop_eq]; simp only [exec, steps_append, hs]
  obtain ⟨t1, t2, t3, t4, t5, t6, t7⟩ := S.tail' e s
  obtain ⟨k1, k2, k3⟩ := S.key hH f5
  have hD : s.gpr S.a1 = τ.gpr S.a1 := f3 (.g S.a1) (by simpa using n6) (by simpa using n8) S.nt.2.2.1
  have hF : s.gpr S.a2 = τ.gpr S.a2 := f3 (.g S.a2) (by simpa using n9) (by simpa using n10) S.nt.2.2.2
  have hmem : (exec e P.ontop τ).1.mem = s.mem := by rw [hx]; exact steps_pure _ _ S.pureT' s
  refine ⟨?_, ⟨?_, ?_, ?_, ?_, ?_, ?_, ?_⟩, ?_, ?_⟩
  · rw [hx, t1, c6]; exact hF
  · rw [hx, t7, S.ra_eq]; exact k3
  · rw [hx, S.spRet]; show (exec e (.jmp S.T' S.rj') s).1.gpr P.sp = σ.gpr P.sp; rw [t2, f1, e1]; exact sub_add_off _ _
  · rw [hx]; intro r hr; rw [t3 r hr]; exact k1 r hr
  · rw [hx]; intro r hr; rw [t4 r hr]; exact k2 r hr
  · rw [c7]; exact fun _ => Iff.rfl
  · rw [oF, hx, t5, f2, c1]
  · rw [oD, hx, t6, c5]; exact hD
  · intro a hne
    left
    rw [c1, c2]
    by_cases hh : InR a (τ.gpr P.sp - off A S.fr) S.fr
    · exact hh
    · rw [hmem] at hne
      exact absurd (f4 a hh) hne
  · rw [c7, c8]; exact fun _ => Iff.rfl

theorem makeSpec : P.MakeSpec := by
  intro e σ _
  obtain ⟨m1, m2, m3, m4, m5, m6, m7, m8⟩ := S.make e σ
  obtain ⟨n1, n2, n3, n4, n5, n6, n7, n8, n9, n10⟩ := S.ne
  obtain ⟨c1, c2, c3, c4, c5, c6, c7, c8, c9, c10, c11, c12, ok, oF, oD, msp, c13⟩ := S.conv
  obtain ⟨w1, w2, w3, w4, w5⟩ := S.frmk
  have w6 := S.word
  have hw : S.mres ≤ 2 ^ (8 * A.k) := by omega
  have hsz : (P.argTop σ - ((σ.gpr S.a0 &&& mask A 4) - off A S.mres)).toNat = S.mres + (σ.gpr S.a0).toNat % 16 := by
    rw [c10]; exact align_below (A := A) (σ.gpr S.a0) S.mres 4 (by omega)
  rw [m2, hsz, c11]
  generalize hcc : (σ.gpr S.a0 &&& mask A 4) - off A S.mres = c at *
  refine ⟨⟨m1, m3.trans (by rw [msp, S.spRet]), m4, fun f _ => m5 f⟩, ⟨by omega, by omega⟩, ?_, ?_⟩
  · intro a ha
    left
    exact inR_mono (m6 a ha) (by omega)
  · intro τ ha hmem hd
    rw [ha] at hmem hd ⊢
    rw [hsz]
    rw [c4] at ha
    rw [c1, c2] at hd
    have ha' : τ.gpr S.a0 = c := ha
    obtain ⟨s, hs⟩ : ∃ s, s = steps e (loads P.sp S.L) (steps e [.mov S.t P.sp, .mov P.sp S.a0] (steps e (.addi P.sp P.sp (-off A S.fr) :: saves P.sp S.LS) τ)) := ⟨_, rfl⟩
    obtain ⟨f1, f2, f3, f4, f5, f6, -⟩ := S.mid e τ S.t n1 n4 S.nt.1 (by rw [ha']; exact fun a h => hd a (inR_mono h w1)) s hs
    rw [ha'] at f1 f5 f6
    have hx : P.enter e τ = exec e (.jmp S.T S.rj) s := by
      rw [Port.enter, c12]; simp only; rw [S.jump_eq]; simp only [exec, steps_append, hs]
    obtain ⟨t1, t2, t3, t4, t5, t6, t7, t8, t9⟩ := S.tail e s
    have hD : s.gpr S.a1 = τ.gpr S.a1 := f3 (.g S.a1) (by simpa using n6) (by simpa using n7) S.nt.2.2.1
    have hmid : (P.enter e τ).1.mem = s.mem := by rw [hx]; exact steps_pure _ _ S.pureT s
    refine ⟨?_, ?_, ?_, ?_, ?_, ?_, ?_, ?_, ?_⟩
    · intro l cc h; rw [c12] at h; cases h
    · rw [hx, t1, f1, f6 _ _ w3, load_agree hmem (by omega) hw, m7]
    · rw [hx, t7, f2, c1]
    · rw [hx, t8, c5]; exact hD
    · rw [hx, t9, S.ra_eq]
      have := f5 _ S.raLS.2
      refine this.trans ?_
      show load τ.mem (c + off A S.oRA) A.k = _
      rw [load_agree hmem (by omega) hw, m8]
    · rw [hx, t2, f1, c13]
      have h1 : c + off A S.fr = (σ.gpr S.a0 &&& mask A 4) - off A (S.mres - S.fr) := by
        rw [← hcc]
        have : off A S.mres = off A (S.mres - S.fr) + off A S.fr := by simp only [off, ← BitVec.ofNat_add]; congr 1; omega
        rw [this]; generalize (σ.gpr S.a0 &&& mask A 4) = x; generalize off A (S.mres - S.fr) = y; generalize off A S.fr = z; grind
      have h2 : (σ.gpr S.a0 &&& mask A 4) - off A (S.mres - S.fr) = (σ.gpr S.a0 &&& mask A 4) + off A (2 ^ (8 * A.k) - (S.mres - S.fr)) := by
        rw [BitVec.sub_eq_add_neg]
        congr 1
        apply BitVec.eq_of_toNat_eq
        simp only [off, BitVec.toNat_neg, BitVec.toNat_ofNat]
        rw [Nat.mod_eq_of_lt (a := S.mres - S.fr) (by omega)]
      rw [h1, h2]
      have hp : ∃ q, 2 ^ (8 * A.k) = 16 * q := by
        refine ⟨2 ^ (8 * A.k - 4), ?_⟩
        have : 8 * A.k = (8 * A.k - 4) + 4 := by omega
        rw [this, Nat.pow_add]
        simp; omega
      obtain ⟨q, hq⟩ := hp
      exact mask_add_mod (A := A) _ _ 4 (by omega) (by omega)
    · rw [hx, t2, f1]
      have : c + off A S.fr - c = off A S.fr := by rw [BitVec.add_comm, BitVec.add_sub_cancel]
      rw [this]
      have : (off A S.fr).toNat = S.fr := by rw [off, BitVec.toNat_ofNat, Nat.mod_eq_of_lt (by omega)]
      omega
    · intro a hne
      left
      rw [c1, c2]
      by_cases hh : InR a (τ.gpr P.sp - off A S.fr) S.fr
      · exact hh
      · rw [hmid] at hne
        exact absurd (f4 a hh) hne
    · rw [c9]; intro a h; exact h.elim

/-- The hypotheses of `JumpSpec` and `OntopSpec` can be met: a context is suspended at `sp = hi`, the resumer runs at `sp = lo`, with
arbitrary values in all other registers. -/
theorem inhabited (e : Env A) (σ τ₀ : St A) (lo : A.W) (h0 : S.fr ≤ (σ.gpr P.sp).toNat) (h1 : (σ.gpr P.sp).toNat + S.fr ≤ lo.toNat) :
    ∃ τ m, P.Left e σ m ∧ P.Intact σ m τ ∧ P.argF τ = P.fctx σ ∧ τ.gpr P.sp = lo ∧ ∀ r, r ≠ P.sp → r ≠ S.a0 → τ.gpr r = τ₀.gpr r := by
  obtain ⟨c1, c2, c3, c4, c5, c6, c7, c8, c9, c10, c11, c12, ok, oF, oD, msp, c13⟩ := S.conv
  obtain ⟨n1, n2, n3, n4, n5, n6, n7, n8, n9, n10⟩ := S.ne
  have hlo := lo.isLt
  refine ⟨{ setg (setg τ₀ P.sp lo) S.a0 (P.fctx σ) with mem := (exec e P.jump σ).1.mem }, (exec e P.jump σ).1.mem, Or.inl rfl, ⟨?_, ?_, ?_, ?_, ?_, ?_⟩, ?_, ?_, ?_⟩
  · rw [ok]; trivial
  · rw [ok]; trivial
  · rw [c8]; intro a h; exact h.elim
  · rw [c7]; intro a h; exact h.elim
  · intro a _; rfl
  · rw [c1, c2, c3]
    intro a ha
    have e1 : (setg (setg τ₀ P.sp lo) S.a0 (σ.gpr P.sp - off A S.fr)).gpr P.sp = lo := by simp [setg, Ne.symm n3]
    simp only [e1]
    have hoff : (off A S.fr).toNat = S.fr := by rw [off, BitVec.toNat_ofNat, Nat.mod_eq_of_lt (by omega)]
    refine inR_apart ?_ ?_ ha
    · rw [BitVec.toNat_sub_of_le (by rw [BitVec.le_def, hoff]; omega), BitVec.toNat_sub_of_le (by rw [BitVec.le_def, hoff]; omega), hoff]; omega
    · rw [BitVec.toNat_sub_of_le (by rw [BitVec.le_def, hoff]; omega), hoff]; omega
  · rw [c4, c1]; simp [setg]
  · simp [setg, Ne.symm n3]
  · intro r h2 h3; simp [setg, h2, h3]

/-- The hypotheses of `MakeSpec` can be met: the new stack lies below the stack of the caller, the resumer runs above both. -/
theorem make_inhabited (e : Env A) (σ τ₀ : St A) (lo : A.W) (h0 : S.mres + 16 ≤ (σ.gpr S.a0).toNat) (h1 : (σ.gpr S.a0).toNat ≤ (σ.gpr P.sp).toNat)
    (h2 : (σ.gpr P.sp).toNat + A.k + S.fr ≤ lo.toNat) (hs : P.mscratch = 0) :
    (∀ a, InR a (P.resM (exec e P.make σ).1) (P.argTop σ - P.resM (exec e P.make σ).1).toNat →
      ¬ InR a (σ.gpr P.sp - off A P.mscratch) (P.mscratch + A.k)) ∧
    ∃ τ : St A, τ.gpr P.sp = lo ∧ P.argF τ = P.resM (exec e P.make σ).1 ∧ (∀ a, InR a (P.argF τ) P.mkeep → τ.mem a = (exec e P.make σ).1.mem a) ∧
      (∀ a, InR a (P.argF τ) P.mkeep → ¬ InR a (P.fctx τ) P.frame) := by
  obtain ⟨c1, c2, c3, c4, c5, c6, c7, c8, c9, c10, c11, c12, ok, oF, oD, msp, c13⟩ := S.conv
  obtain ⟨n1, n2, n3, n4, n5, n6, n7, n8, n9, n10⟩ := S.ne
  obtain ⟨m1, m2, -⟩ := S.make e σ
  have w := S.word
  obtain ⟨w1, w2, w3, w4, w5⟩ := S.frmk
  have hlo := lo.isLt
  have hsz : (P.argTop σ - ((σ.gpr S.a0 &&& mask A 4) - off A S.mres)).toNat = S.mres + (σ.gpr S.a0).toNat % 16 := by
    rw [c10]; exact align_below (A := A) (σ.gpr S.a0) S.mres 4 (by omega)
  have hmod : (σ.gpr S.a0).toNat % 16 < 16 := Nat.mod_lt _ (by omega)
  have hoff : (off A S.mres).toNat = S.mres := by rw [off, BitVec.toNat_ofNat, Nat.mod_eq_of_lt (by omega)]
  have hoff' : (off A S.fr).toNat = S.fr := by rw [off, BitVec.toNat_ofNat, Nat.mod_eq_of_lt (by omega)]
  have hand := and_mask_toNat (σ.gpr S.a0) 4
  have hc : ((σ.gpr S.a0 &&& mask A 4) - off A S.mres).toNat = (σ.gpr S.a0).toNat - (σ.gpr S.a0).toNat % 16 - S.mres := by
    rw [BitVec.toNat_sub_of_le (by rw [BitVec.le_def, hoff, hand]; omega), hoff, hand]
  refine ⟨?_, { setg (setg τ₀ P.sp lo) S.a0 (P.resM (exec e P.make σ).1) with mem := (exec e P.make σ).1.mem }, ?_, ?_, ?_, ?_⟩
  · rw [m2, hsz, hs]
    intro a ha
    have e0 : σ.gpr P.sp - off A 0 = σ.gpr P.sp := by simp [off]
    rw [e0]
    refine inR_apart ?_ ?_ ha
    · rw [hc]; omega
    · omega
  · simp [setg, Ne.symm n3]
  · rw [c4]; simp [setg]
  · intro a _; rfl
  · rw [c4, c11, c1, c2, m2]
    intro a ha
    have e1 : (setg (setg τ₀ P.sp lo) S.a0 ((σ.gpr S.a0 &&& mask A 4) - off A S.mres)).gpr P.sp = lo := by simp [setg, Ne.symm n3]
    have e2 : (setg (setg τ₀ P.sp lo) S.a0 ((σ.gpr S.a0 &&& mask A 4) - off A S.mres)).gpr S.a0 = (σ.gpr S.a0 &&& mask A 4) - off A S.mres := by simp [setg]
    simp only [e1, e2] at ha ⊢
    refine inR_apart ?_ ?_ ha
    · rw [hc, BitVec.toNat_sub_of_le (by rw [BitVec.le_def, hoff']; omega), hoff']; omega
    · rw [BitVec.toNat_sub_of_le (by rw [BitVec.le_def, hoff']; omega), hoff']; omega

end RegPort
end Verif.Asm
