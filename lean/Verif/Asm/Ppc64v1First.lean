import Verif.Asm.Ppc64v1Ontop

/-! # PowerPC 64 with function descriptors: TOC pointer and first activation of new contexts by on-top calls (C76) -/

namespace Verif.Asm.Ppc64v1

/-- the TOC word of the data of a new context -/
theorem make_toc (e : Env A) (σ : St A) (c : A.W) (hc : c = (σ.gpr (r 3) &&& mask A 4) - off A 248) (hd : ∀ a, InR a (σ.gpr (r 5) + off A 8) 8 → ¬ InR a (c + off A 176) 8) :
    load (exec e make σ).1.mem c A.k = load σ.mem (σ.gpr (r 5) + off A 8) A.k := by
  rw [make_mem e σ c hc]
  have e0 : c = c + off A 0 := (BitVec.add_zero _).symm
  generalize load σ.mem (σ.gpr (r 5)) A.k = v
  conv => lhs; arg 2; rw [e0]
  rw [load_store_off (by decide) (by decide) (by decide), load_store_off (by decide) (by decide) (by decide), load_store_off (by decide) (by decide) (by decide),
    load_store_same _ _ _ _ (by decide), load_store_out (n := A.k) (n' := A.k) (by decide) hd]

theorem make_words (e : Env A) (σ : St A) (c : A.W) (hc : c = (σ.gpr (r 3) &&& mask A 4) - off A 248) :
    load (exec e make σ).1.mem (c + off A 176) A.k = load σ.mem (σ.gpr (r 5)) A.k ∧ load (exec e make σ).1.mem (c + off A 168) A.k = e Lab.finish ∧
    load (exec e make σ).1.mem (c + off A 152) A.k = 0#_ := by
  rw [make_mem e σ c hc]
  generalize load (store σ.mem (c + off A 176) A.k (load σ.mem (σ.gpr (r 5)) A.k)) (σ.gpr (r 5) + off A 8) A.k = v
  refine ⟨?_, ?_, ?_⟩
  · rw [load_store_off (by decide) (by decide) (by decide), load_store_off (by decide) (by decide) (by decide), load_store_off (by decide) (by decide) (by decide),
      load_store_off (by decide) (by decide) (by decide), load_store_same _ _ _ _ (by decide)]
  · rw [load_store_same _ _ _ _ (by decide)]
  · rw [load_store_off (by decide) (by decide) (by decide), load_store_same _ _ _ _ (by decide)]
    rfl

theorem make_res (e : Env A) (σ : St A) : (exec e make σ).1.gpr (r 3) = (σ.gpr (r 3) &&& mask A 4) - off A 248 := by
  rw [BitVec.sub_eq_add_neg]; rfl

/-- `τ` is the entry state of a call that activates the context made by the call `σ` of `make_fcontext` for the first time. -/
structure First (x : Bool) (e : Env A) (σ τ : St A) : Prop where
  to : (port x).argF τ = (port x).resM (exec e (port x).make σ).1
  mem : ∀ a, InR a ((port x).argF τ) 248 → τ.mem a = (exec e (port x).make σ).1.mem a
  frame : ∀ a, InR a ((port x).argF τ) 248 → ¬ InR a ((port x).fctx τ) 184

theorem ce_ok {e : Env A} {τ : St A} (hd : ∀ a, InR a (τ.gpr (r 4)) 248 → ¬ InR a (τ.gpr (r 1) - off A 184) 184) : ((K true).I e τ).Ok ((K true).CE 248 0 (0, 0)) := by
  constructor
  · intro y hy
    have hy : y ∈ [(Atom.reg (r 1), 0, off A 184), (Atom.reg (r 4), 1, 0#_)] := hy
    simp only [List.mem_cons, List.not_mem_nil, or_false] at hy
    rcases hy with rfl | rfl
    · exact (sub_add_off _ _).symm
    · exact (BitVec.add_zero _).symm
  · intro i j hD
    simp only [SlotCfg.CE, Bool.and_eq_true, beq_iff_eq] at hD
    obtain ⟨rfl, rfl⟩ := hD
    intro a h1 h2
    have h1 : InR a (τ.gpr (r 1) - off A 184 + off A 0) 184 := h1
    rw [show τ.gpr (r 1) - off A 184 + off A 0 = τ.gpr (r 1) - off A 184 from BitVec.add_zero _] at h1
    exact hd a h2 h1
  · intro i
    simp only [SlotCfg.CE]; repeat' split
    all_goals decide
  · intro i
    simp only [SlotCfg.CE]; repeat' split
    all_goals decide

theorem e_r2 (x : Bool) : (((K true).CE 248 0 (0, 0)).fin (jpre x ++ jumpZIs) (e1 x)).gpr (r 2) = ⟨.ld 1 0, 0#_⟩ := by cases x <;> decide +kernel

/-- **C76**, new contexts: the context function is entered with the second word of its descriptor in r2. -/
theorem C76_ppc64v1_make_toc (x : Bool) (e : Env A) (σ τ : St A) (h : First x e σ τ) (hd : ∀ a, InR a (σ.gpr (r 5) + off A 8) 8 → ¬ InR a ((port x).argF τ + off A 176) 8) :
    (exec e (port x).jump τ).1.gpr (r 2) = load σ.mem (σ.gpr (r 5) + off A 8) A.k := by
  obtain ⟨h1, h2, h3⟩ := h
  have hok := ce_ok (e := e) h3
  have hr := fin_rel hok _ (e1 x)
  rw [make_eq] at h1 h2
  have h1 : τ.gpr (r 4) = (σ.gpr (r 3) &&& mask A 4) - off A 248 := h1.trans (make_res e σ)
  have w := make_words e σ _ h1
  have hth : (K true).thid τ = 0#_ := by
    rw [← w.2.2]; exact load_agree h2 (by decide) (by decide)
  have hx := (M x).erun e τ hok (fun _ => hth)
  have hj : (exec e (port x).jump τ).1 = steps e (jpre x ++ jumpZIs) τ := congrArg Prod.fst hx
  have e2 : τ.gpr (r 4) + off A 0 = τ.gpr (r 4) := BitVec.add_zero _
  have g : (steps e (jpre x ++ jumpZIs) τ).gpr (r 2) = load τ.mem (τ.gpr (r 4) + off A 0) A.k := (hr.reg (e_r2 x)).trans (SlotCfg.sv_ld _ _ _)
  rw [hj, g, e2, ← make_toc e σ _ h1 hd]
  have := load_agree (o := 0) (n := 8) h2 (by decide) (by decide)
  have e3 : (port x).argF τ + off A 0 = τ.gpr (r 4) := e2
  rw [e3] at this
  exact this

/-! ### First activation by an on-top call -/

/-- instructions of the first activation by an on-top call, without those that read the descriptor -/
def oz : List (Instr A) := ontopPreIs.take 50 ++ ontopZIs

theorem z1 : (((K true).CE 248 0 (0, 0)).run oz SSt.init).isSome = true := by decide +kernel
theorem z2 : (((K true).CE 248 0 (0, 0)).fin oz z1).gpr (r 1) = ⟨.reg (r 4), 0#_⟩ ∧ (((K true).CE 248 0 (0, 0)).fin oz z1).gpr (r 3) = ⟨.reg (r 4), off A 8⟩ ∧
    (((K true).CE 248 0 (0, 0)).fin oz z1).gpr (r 4) = ⟨.reg (r 1), -off A 184⟩ ∧ (((K true).CE 248 0 (0, 0)).fin oz z1).gpr (r 5) = ⟨.reg (r 5), 0#_⟩ ∧
    (((K true).CE 248 0 (0, 0)).fin oz z1).gpr lr = ⟨.lab Lab.back, 0#_⟩ := by decide +kernel
theorem z0 : ∃ h, (((K true).CE 248 0 (0, 0)).fin (ontopPreIs.take 50) h).gpr (r 3) = ⟨.ld 1 152, 0#_⟩ := ⟨by decide +kernel, by decide +kernel⟩

theorem z_mid (e : Env A) (s : St A) (q : A.R) (h : q ≠ r 7 ∧ q ≠ ctr ∧ q ≠ r 2) : (steps e ontopZIs (steps e mid s)).gpr q = (steps e ontopZIs s).gpr q := by
  by_cases h2 : q = r 3
  · subst h2; rfl
  by_cases h3 : q = lr
  · subst h3; rfl
  have key : ∀ s : St A, (steps e ontopZIs s).gpr q = s.gpr q := fun s => by simp [ontopZIs, steps, step, setg, h2, h3]
  rw [key, key, mid_gpr e s q h]

/-- the registers after a first activation by an on-top call -/
theorem ontop_z (x : Bool) (e : Env A) (σ τ : St A) (h : First x e σ τ) (q : A.R) (hq : q ≠ r 7 ∧ q ≠ ctr ∧ q ≠ r 2) : (exec e (port x).ontop τ).1.gpr q = (steps e oz τ).gpr q := by
  obtain ⟨h1, h2, h3⟩ := h
  have hok := ce_ok (e := e) h3
  rw [make_eq] at h1 h2
  have h1 : τ.gpr (r 4) = (σ.gpr (r 3) &&& mask A 4) - off A 248 := h1.trans (make_res e σ)
  have w := make_words e σ _ h1
  have hth : (K true).thid τ = 0#_ := by
    rw [← w.2.2]; exact load_agree h2 (by decide) (by decide)
  obtain ⟨z1, z2⟩ := z0
  have hr := fin_rel hok _ z1
  have h4 : (steps e (ontopPreIs.take 50) τ).gpr (r 3) = 0#_ := ((hr.reg z2).trans (SlotCfg.sv_ld _ _ _)).trans hth
  clear hr
  obtain ⟨s, hs⟩ : ∃ s, s = steps e (ontopPreIs.take 50) τ := ⟨_, rfl⟩
  have h0 : steps e ontopPreIs τ = steps e mid s := by
    conv => lhs; rw [pre_split, steps_append]
    rw [hs]
  have h5 : steps e oz τ = steps e ontopZIs s := by rw [oz, steps_append, hs]
  rw [← hs] at h4
  have h6 : (steps e mid s).gpr (r 3) = 0#_ := by rw [mid_gpr e s _ (by decide), h4]
  rw [ontop_eq, ontop, exec, h0, h5]
  clear hs h0 h5
  simp only [exec, h6, if_true]
  exact z_mid e s q hq

/-- **C76**, first activation by an on-top call: the function is entered with `transfer_t{fctx of the resuming context, data}`, returning to the end of `ontop_fcontext`, with the
result object at offset 8 of the new context's data and the stack pointer at the start of these data, which are as `make_fcontext` left them.
(Entry point and TOC: `C76_ppc64v1_ontop_function`.) -/
theorem C76_ppc64v1_first_ontop (x : Bool) (e : Env A) (σ τ : St A) (h : First x e σ τ) :
    (port x).ra (exec e (port x).ontop τ).1 = e Lab.back ∧ (exec e (port x).ontop τ).1.gpr (r 1) = (port x).argF τ ∧
    (exec e (port x).ontop τ).1.gpr (r 3) = (port x).argF τ + off A 8 ∧ (port x).oinF (exec e (port x).ontop τ).1 = (port x).fctx τ ∧
    (port x).oinD (exec e (port x).ontop τ).1 = (port x).argD τ ∧
    ∀ a, InR a ((port x).argF τ) 248 → (exec e (port x).ontop τ).1.mem a = (exec e (port x).make σ).1.mem a := by
  have g := ontop_z x e σ τ h
  have hf := C76_ppc64v1_ontop_frame x e τ
  obtain ⟨h1, h2, h3⟩ := h
  have hok := ce_ok (e := e) h3
  have hr := fin_rel hok _ z1
  obtain ⟨y1, y2, y3, y4, y5⟩ := z2
  refine ⟨?_, ?_, ?_, ?_, ?_, ?_⟩
  · exact (g lr (by decide)).trans ((hr.reg y5).trans (BitVec.add_zero _))
  · exact (g (r 1) (by decide)).trans ((hr.reg y1).trans (SlotCfg.sv_reg _ _))
  · exact (g (r 3) (by decide)).trans (hr.reg y2)
  · exact (g (r 4) (by decide)).trans ((hr.reg y3).trans (BitVec.sub_eq_add_neg _ _).symm)
  · exact (g (r 5) (by decide)).trans ((hr.reg y4).trans (SlotCfg.sv_reg _ _))
  · intro a ha
    rw [← h2 a ha]
    apply Classical.byContradiction
    intro hn
    exact h3 a ha (hf a hn)

/-- **C76**, first activation by an on-top call: when the function has returned with the stack pointer it was entered with, having written the new context's data only at its result object, the
context function is entered with the returned `transfer_t` as argument, at the first word of its descriptor, returning to `finish`. -/
theorem C76_ppc64v1_first_ontop_back (x : Bool) (e : Env A) (σ u : St A) (c : A.W) (hc : c = (port x).resM (exec e (port x).make σ).1) (hsp : u.gpr (r 1) = c)
    (hm : ∀ a, InR a c 248 → ¬ InR a (c + off A 8) 16 → u.mem a = (exec e (port x).make σ).1.mem a) :
    (exec e back u).2 = (port x).argMFn σ ∧ (port x).inF (exec e back u).1 = load u.mem (c + off A 8) A.k ∧ (port x).inD (exec e back u).1 = load u.mem (c + off A 16) A.k ∧
    (port x).ra (exec e back u).1 = e Lab.finish ∧ (exec e back u).1.gpr (r 1) = c + off A 184 ∧ (port x).aligned ((exec e back u).1.gpr (r 1)) ∧ (exec e back u).1.mem = u.mem ∧
    ((∀ a, InR a (σ.gpr (r 5) + off A 8) 8 → ¬ InR a (c + off A 176) 8) → (exec e back u).1.gpr (r 2) = load σ.mem (σ.gpr (r 5) + off A 8) A.k) := by
  rw [make_eq] at hc hm
  have hc : c = (σ.gpr (r 3) &&& mask A 4) - off A 248 := hc.trans (make_res e σ)
  obtain ⟨w1, w2, -⟩ := make_words e σ c hc
  have ld : ∀ o, (o + 8 ≤ 8 ∨ 24 ≤ o) → o + 8 ≤ 248 → load u.mem (c + off A o) A.k = load (exec e make σ).1.mem (c + off A o) A.k := by
    intro o h1 h2
    refine load_congr (by decide) fun a ha => ?_
    have h3 := inR_off ha h2 (by decide)
    refine hm a h3 fun h4 => ?_
    have e1 : 2 ^ (8 * A.k) = 18446744073709551616 := rfl
    exact inR_disj (o := o) (n := 8) (o' := 8) (n' := 16) ha (by omega) (by omega) (by omega) h4
  have b0 : ∀ v : A.W, (exec e back u).2 = load u.mem (u.gpr (r 1) + off A 176) A.k := fun _ => rfl
  have b1 : (exec e back u).1.gpr (r 3) = load u.mem (u.gpr (r 1) + off A 8) A.k := rfl
  have b2 : (exec e back u).1.gpr (r 4) = load u.mem (u.gpr (r 1) + off A 16) A.k := rfl
  have b3 : (exec e back u).1.gpr lr = load u.mem (u.gpr (r 1) + off A 168) A.k := rfl
  have b4 : (exec e back u).1.gpr (r 1) = u.gpr (r 1) + off A 184 := rfl
  have b5 : (exec e back u).1.gpr (r 2) = load u.mem (u.gpr (r 1) + off A 0) A.k := rfl
  have b6 : (exec e back u).1.mem = u.mem := rfl
  rw [hsp] at b0 b1 b2 b3 b4 b5
  refine ⟨(b0 0).trans ((ld 176 (by omega) (by omega)).trans w1), b1, b2, b3.trans ((ld 168 (by omega) (by omega)).trans w2), b4, ?_, b6, fun hd => ?_⟩
  · rw [b4, hc]
    show (_ : A.W).toNat % 16 = 0
    have := and_mask_toNat (σ.gpr (r 3)) 4
    obtain ⟨v, hv⟩ : ∃ v, v = σ.gpr (r 3) &&& mask A 4 := ⟨_, rfl⟩
    have h16 : v.toNat % 16 = 0 := by rw [hv, this]; omega
    rw [← hv]
    have : v - off A 248 + off A 184 = v - off A 64 := by
      have : off A 248 = off A 184 + off A 64 := by decide
      rw [this]; generalize off A 184 = p; generalize off A 64 = q; grind
    rw [this, BitVec.toNat_sub]
    have e1 : (off A 64).toNat = 64 := by decide
    have e2 : 2 ^ (8 * A.k) = 16 * 1152921504606846976 := rfl
    rw [e1, e2]
    omega
  · rw [b5, ld 0 (by omega) (by omega), show c + off A 0 = c from BitVec.add_zero _]
    exact make_toc e σ c hc hd

/-- **C76**, first activation by an on-top call: the stack pointer the function is entered with is not a multiple of 16. -/
theorem C76_ppc64v1_first_ontop_misaligned (x : Bool) (e : Env A) (σ τ : St A) (h : First x e σ τ) :
    ((exec e (port x).ontop τ).1.gpr (r 1)).toNat % 16 = 8 ∧ ¬ (port x).aligned ((exec e (port x).ontop τ).1.gpr (r 1)) := by
  have h1 := (C76_ppc64v1_first_ontop x e σ τ h).2.1
  have h2 := h.to
  rw [make_eq] at h2
  have h2 := h2.trans (make_res e σ)
  have key : ((exec e (port x).ontop τ).1.gpr (r 1)).toNat % 16 = 8 := by
    rw [h1, h2]
    have := and_mask_toNat (σ.gpr (r 3)) 4
    obtain ⟨v, hv⟩ : ∃ v, v = σ.gpr (r 3) &&& mask A 4 := ⟨_, rfl⟩
    have h16 : v.toNat % 16 = 0 := by rw [hv, this]; omega
    rw [← hv, BitVec.toNat_sub]
    have e1 : (off A 248).toNat = 248 := by decide
    have e2 : 2 ^ (8 * A.k) = 16 * 1152921504606846976 := rfl
    rw [e1, e2]
    omega
  refine ⟨key, fun h => ?_⟩
  have h : ((exec e (port x).ontop τ).1.gpr (r 1)).toNat % 16 = 0 := h
  omega

/-- An on-top function that returns its argument and keeps its return address, as the ABI provides, in the word at 16(r1) of its caller's frame (the way every function that itself calls
functions does).  Not part of the library. -/
def identity : Code A := .jmp [.mov (r 0) lr, .st (r 0) (r 1) 16, .st (r 4) (r 3) 0, .st (r 5) (r 3) 8, .ld (r 0) (r 1) 16, .mov lr (r 0)] lr

theorem identity_pc (e : Env A) (s : St A) : (exec e identity s).2 =
    load (store (store (store s.mem (s.gpr (r 1) + off A 16) A.k (s.gpr lr)) (s.gpr (r 3) + off A 0) A.k (s.gpr (r 4))) (s.gpr (r 3) + off A 8) A.k (s.gpr (r 5)))
      (s.gpr (r 1) + off A 16) A.k := by
  have h : ∀ n, n ≠ 0 → r n ≠ r 0 := fun n hn h => hn (by injection h)
  simp [identity, exec, steps, step, setg, h]

/-- **C76**: the function `identity` returns correctly wherever its result object does not overlap its caller's link register save word ... -/
theorem C76_ppc64v1_identity (e : Env A) (s : St A) (h : ∀ a, InR a (s.gpr (r 1) + off A 16) 8 → ¬ InR a (s.gpr (r 3)) 16) : (exec e identity s).2 = s.gpr lr := by
  rw [identity_pc, load_store_out (by decide), load_store_out (by decide), load_store_same _ _ _ _ (by decide)]
  · intro a ha hb
    exact h a ha (inR_off hb (by decide) (by decide))
  · intro a ha hb
    exact h a ha (inR_off hb (by decide) (by decide))

/-- **C76**, first activation by an on-top call: ... but entered by `ontop_fcontext` on a new context it does not return: the word is the second word of its result object, and control goes to
the address `data`. -/
theorem C76_ppc64v1_first_ontop_lost (x : Bool) (e : Env A) (σ τ : St A) (h : First x e σ τ) : (exec e identity (exec e (port x).ontop τ).1).2 = (port x).argD τ := by
  obtain ⟨-, h1, h2, -, h4, -⟩ := C76_ppc64v1_first_ontop x e σ τ h
  obtain ⟨s, hs⟩ : ∃ s, s = (exec e (port x).ontop τ).1 := ⟨_, rfl⟩
  rw [← hs] at h1 h2 h4 ⊢
  rw [identity_pc, h1, h2, add_off_off, add_off_off, load_store_same _ _ _ _ (by decide)]
  exact h4

/-! ### The hypotheses can be met -/

theorem inh (x t : Bool) (on : Code A) (ho : ∀ e σ, (exec e on σ).1.mem = (steps e oi σ).mem) (e : Env A) : ∃ σ τ m, (prt x t on).Left e σ m ∧ (prt x t on).Intact σ m τ ∧
    (prt x t on).argF τ = (prt x t on).fctx σ ∧ ∀ q, q ≠ r 1 → q ≠ r 3 → q ≠ r 4 → σ.gpr q ≠ τ.gpr q :=
  (J x t on ho).inhabited e (.inr rfl) (show (K t).N ≤ 0x800 by cases t <;> decide) (show (K t).fr ≤ (K t).N by cases t <;> decide) (show r 3 ≠ r 1 by decide) (show r 4 ≠ r 1 by decide)
    (show r 4 ≠ r 3 by decide)

/-- The hypotheses of `C76_ppc64v1_jump` can be met. -/
example (x : Bool) (e : Env A) : ∃ σ τ m, (portT x).Left e σ m ∧ (portT x).Intact σ m τ ∧ (portT x).argF τ = (portT x).fctx σ ∧ σ.gpr (r 14) ≠ τ.gpr (r 14) ∧ σ.gpr (r 2) ≠ τ.gpr (r 2) := by
  obtain ⟨σ, τ, m, h1, h2, h3, h4⟩ := inh x true _ (on_mem x) e
  exact ⟨σ, τ, m, h1, h2, h3, h4 _ (by decide) (by decide) (by decide), h4 _ (by decide) (by decide) (by decide)⟩

/-- The hypotheses of `C76_ppc64v1_ontop` can be met. -/
example (x : Bool) (e : Env A) : ∃ σ τ m, (port x).Left e σ m ∧ (port x).Intact σ m τ ∧ (port x).argF τ = (port x).fctx σ ∧ σ.gpr (r 14) ≠ τ.gpr (r 14) := by
  obtain ⟨σ, τ, m, h1, h2, h3, h4⟩ := inh x false _ (on_mem x) e
  exact ⟨σ, τ, m, h1, h2, h3, h4 _ (by decide) (by decide) (by decide)⟩

theorem minh (x : Bool) (e : Env A) : ∃ σ τ, First x e σ τ := by
  obtain ⟨σ, -, τ, h1, h2, h3⟩ := (M x).inhabited e (.inr rfl) (show (K true).N ≤ 0x800 by decide) (show (K true).fr ≤ (K true).N by decide) rfl (show r 3 ≠ r 1 by decide)
    (show r 4 ≠ r 1 by decide) (show 248 ≤ 0x800 by decide) (show r 4 ≠ r 3 by decide)
  exact ⟨σ, τ, h1, h2, h3⟩

/-- The hypotheses of `C76_ppc64v1_make` can be met. -/
example (x : Bool) (e : Env A) := (M x).inhabited e (.inr rfl) (show (K true).N ≤ 0x800 by decide) (show (K true).fr ≤ (K true).N by decide) rfl (show r 3 ≠ r 1 by decide)
  (show r 4 ≠ r 1 by decide) (show 248 ≤ 0x800 by decide) (show r 4 ≠ r 3 by decide)

/-- The hypotheses of the theorems about first activations can be met. -/
example (x : Bool) (e : Env A) : ∃ σ τ, First x e σ τ := minh x e

/-! ### Floating point registers -/

/-- `portT` with the floating point registers the ABI makes callee-saved -/
def portF (x : Bool) : Port A := { portT x with
  fsaved := [f 14, f 15, f 16, f 17, f 18, f 19, f 20, f 21, f 22, f 23, f 24, f 25, f 26, f 27, f 28, f 29, f 30, f 31] }

/-- **C76**: the routines leave all floating point registers as they are, so a resumed context finds those of the resumer. -/
theorem C76_ppc64v1_loses_fprs (x : Bool) (e : Env A) (τ : St A) (q : A.F) : (exec e (portT x).jump τ).1.fpr q = τ.fpr q := by
  have h : ∀ l : List (Instr A), (∀ i ∈ l, (match i.dest with | some (.f _) => false | _ => true) = true) → ∀ s, (steps e l s).fpr q = s.fpr q := by
    intro l hl s
    refine steps_dest e l (.f q) ?_ s
    intro i hi hq
    have := hl i hi
    rw [hq] at this
    cases this
  have hp := h (jpre x) (by cases x <;> decide) τ
  rw [jump_eq, exec]
  simp only [exec]
  obtain ⟨s, hs⟩ : ∃ s, s = steps e (jpre x) τ := ⟨_, rfl⟩
  rw [← hs] at hp ⊢
  split
  · exact (h jumpZIs (by decide) s).trans hp
  · exact (h jumpNzIs (by decide) s).trans hp

/-- **C76**: therefore switching does not preserve the callee-saved floating point registers. -/
theorem C76_ppc64v1_fprs_violated (x : Bool) : ¬ (portF x).JumpSpec := by
  intro h
  obtain ⟨e, -⟩ : ∃ e : Env A, e = fun _ => 0#_ := ⟨_, rfl⟩
  obtain ⟨σ, τ, m, h1, h2, h3, -⟩ := inh x true _ (on_mem x) e
  obtain ⟨τ', hτ'⟩ : ∃ τ' : St A, τ' = { τ with fpr := fun q => ~~~ σ.fpr q } := ⟨_, rfl⟩
  have i : (portF x).Intact σ m τ' := by
    rw [hτ']; exact ⟨h2.ok, h2.ok', h2.tslot, h2.slot, h2.mem, h2.frame⟩
  have a : (portF x).argF τ' = (portF x).fctx σ := by rw [hτ']; exact h3
  have := (h e σ τ' m h1 i a).1.fsaved (f 14) (by simp [portF])
  rw [show (exec e (portF x).jump τ').1.fpr (f 14) = τ'.fpr (f 14) from C76_ppc64v1_loses_fprs x e τ' (f 14), hτ'] at this
  have h0 : ∀ y : BitVec 64, ~~~ y ≠ y := by
    intro y hy
    have h1 := congrArg (fun v : BitVec 64 => v.getLsbD 0) hy
    simp only [BitVec.getLsbD_not] at h1
    cases h2 : y.getLsbD 0 <;> rw [h2] at h1 <;> simp at h1
  exact h0 _ this

end Verif.Asm.Ppc64v1
