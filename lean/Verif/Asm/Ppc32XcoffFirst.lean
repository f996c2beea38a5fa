import Verif.Asm.Ppc32XcoffOntop

/-! # PowerPC 32 AIX (XCOFF): TOC pointer and first activation of new contexts by on-top calls (C77) -/

namespace Verif.Asm.Ppc32Xcoff

/-- the TOC word of the data of a new context -/
theorem make_toc (e : Env A) (σ : St A) (c : A.W) (hc : c = (σ.gpr (r 3) &&& mask A 4) - off A 288) (hd : ∀ a, InR a (σ.gpr (r 5) + off A 4) 4 → ¬ InR a (c + off A 240) 4) :
    load (exec e make σ).1.mem (c + off A 20) A.k = load σ.mem (σ.gpr (r 5) + off A 4) A.k := by
  rw [make_mem e σ c hc]
  generalize load σ.mem (σ.gpr (r 5)) A.k = v
  rw [load_store_off (by decide) (by decide) (by decide), load_store_off (by decide) (by decide) (by decide), load_store_off (by decide) (by decide) (by decide),
    load_store_off (by decide) (by decide) (by decide), load_store_same _ _ _ _ (by decide), load_store_out (n := A.k) (n' := A.k) (by decide) hd]

theorem make_words (e : Env A) (σ : St A) (c : A.W) (hc : c = (σ.gpr (r 3) &&& mask A 4) - off A 288) :
    load (exec e make σ).1.mem (c + off A 240) A.k = load σ.mem (σ.gpr (r 5)) A.k ∧ load (exec e make σ).1.mem (c + off A 8) A.k = e Lab.finish ∧
    load (exec e make σ).1.mem (c + off A 244) A.k = 0#_ ∧ load (exec e make σ).1.mem (c + off A 4) A.k = load σ.mem (c + off A 4) A.k := by
  rw [make_mem e σ c hc]
  generalize load (store σ.mem (c + off A 240) A.k (load σ.mem (σ.gpr (r 5)) A.k)) (σ.gpr (r 5) + off A 4) A.k = v
  refine ⟨?_, ?_, ?_, ?_⟩
  · rw [load_store_off (by decide) (by decide) (by decide), load_store_off (by decide) (by decide) (by decide), load_store_off (by decide) (by decide) (by decide),
      load_store_off (by decide) (by decide) (by decide), load_store_off (by decide) (by decide) (by decide), load_store_same _ _ _ _ (by decide)]
  · rw [load_store_same _ _ _ _ (by decide)]
  · rw [load_store_off (by decide) (by decide) (by decide), load_store_off (by decide) (by decide) (by decide), load_store_same _ _ _ _ (by decide)]
    rfl
  · rw [load_store_off (by decide) (by decide) (by decide), load_store_off (by decide) (by decide) (by decide), load_store_off (by decide) (by decide) (by decide),
      load_store_off (by decide) (by decide) (by decide), load_store_off (by decide) (by decide) (by decide), load_store_off (by decide) (by decide) (by decide)]

theorem make_res (e : Env A) (σ : St A) : (exec e make σ).1.gpr (r 3) = (σ.gpr (r 3) &&& mask A 4) - off A 288 := by
  rw [BitVec.sub_eq_add_neg]; rfl

/-- `τ` is the entry state of a call that activates the context made by the call `σ` of `make_fcontext` for the first time. -/
structure First (e : Env A) (σ τ : St A) : Prop where
  to : port.argF τ = port.resM (exec e port.make σ).1
  mem : ∀ a, InR a (port.argF τ) 288 → τ.mem a = (exec e port.make σ).1.mem a
  frame : ∀ a, InR a (port.argF τ) 288 → ¬ InR a (port.fctx τ) 256

theorem ce_ok {e : Env A} {τ : St A} (hd : ∀ a, InR a (τ.gpr (r 4)) 288 → ¬ InR a (τ.gpr (r 1) - off A 256) 256) : ((K true).I e τ).Ok ((K true).CE 288 0 (0, 0)) := by
  constructor
  · intro y hy
    have hy : y ∈ [(Atom.reg (r 1), 0, off A 256), (Atom.reg (r 4), 1, 0#_)] := hy
    simp only [List.mem_cons, List.not_mem_nil, or_false] at hy
    rcases hy with rfl | rfl
    · exact (sub_add_off _ _).symm
    · exact (BitVec.add_zero _).symm
  · intro i j hD
    simp only [SlotCfg.CE, Bool.and_eq_true, beq_iff_eq] at hD
    obtain ⟨rfl, rfl⟩ := hD
    intro a h1 h2
    have h1 : InR a (τ.gpr (r 1) - off A 256 + off A 0) 256 := h1
    rw [show τ.gpr (r 1) - off A 256 + off A 0 = τ.gpr (r 1) - off A 256 from BitVec.add_zero _] at h1
    exact hd a h2 h1
  · intro i
    simp only [SlotCfg.CE]; repeat' split
    all_goals decide
  · intro i
    simp only [SlotCfg.CE]; repeat' split
    all_goals decide

theorem e_r2 : (((K true).CE 288 0 (0, 0)).fin (jumpPreIs ++ jumpZIs) e1).gpr (r 2) = ⟨.ld 1 20, 0#_⟩ := by decide +kernel

/-- **C77**, new contexts: the context function is entered with the second word of its descriptor in r2. -/
theorem C77_ppc32_xcoff_make_toc (e : Env A) (σ τ : St A) (h : First e σ τ) (hd : ∀ a, InR a (σ.gpr (r 5) + off A 4) 4 → ¬ InR a (port.argF τ + off A 240) 4) :
    (exec e port.jump τ).1.gpr (r 2) = load σ.mem (σ.gpr (r 5) + off A 4) A.k := by
  obtain ⟨h1, h2, h3⟩ := h
  have hok := ce_ok (e := e) h3
  have hr := fin_rel hok _ e1
  have h1 : τ.gpr (r 4) = (σ.gpr (r 3) &&& mask A 4) - off A 288 := h1.trans (make_res e σ)
  have w := make_words e σ _ h1
  have hth : (K true).thid τ = 0#_ := by
    rw [← w.2.2.1]; exact load_agree h2 (by decide) (by decide)
  have hx := M.erun e τ hok (fun _ => hth)
  have hj : (exec e port.jump τ).1 = steps e (jumpPreIs ++ jumpZIs) τ := congrArg Prod.fst hx
  have g : (steps e (jumpPreIs ++ jumpZIs) τ).gpr (r 2) = load τ.mem (τ.gpr (r 4) + off A 20) A.k := (hr.reg e_r2).trans (SlotCfg.sv_ld _ _ _)
  rw [hj, g, ← make_toc e σ _ h1 hd]
  exact load_agree (o := 20) (n := 4) h2 (by decide) (by decide)

/-! ### First activation by an on-top call -/

/-- instructions of the first activation by an on-top call, without those that read the descriptor -/
def oz : List (Instr A) := ontopPreIs.take 90 ++ ontopZIs

theorem z1 : (((K true).CE 288 0 (0, 0)).run oz SSt.init).isSome = true := by decide +kernel
theorem z2 : (((K true).CE 288 0 (0, 0)).fin oz z1).gpr (r 1) = ⟨.reg (r 4), 0#_⟩ ∧ (((K true).CE 288 0 (0, 0)).fin oz z1).gpr (r 3) = ⟨.reg (r 4), off A 8⟩ ∧
    (((K true).CE 288 0 (0, 0)).fin oz z1).gpr (r 4) = ⟨.reg (r 1), -off A 256⟩ ∧ (((K true).CE 288 0 (0, 0)).fin oz z1).gpr (r 5) = ⟨.reg (r 5), 0#_⟩ ∧
    (((K true).CE 288 0 (0, 0)).fin oz z1).gpr lr = ⟨.lab Lab.back, 0#_⟩ := by decide +kernel
theorem z0 : ∃ h, (((K true).CE 288 0 (0, 0)).fin (ontopPreIs.take 90) h).gpr (r 3) = ⟨.ld 1 244, 0#_⟩ := ⟨by decide +kernel, by decide +kernel⟩

theorem z_mid (e : Env A) (s : St A) (q : A.R) (h : q ≠ r 7 ∧ q ≠ ctr ∧ q ≠ r 2) : (steps e ontopZIs (steps e mid s)).gpr q = (steps e ontopZIs s).gpr q := by
  by_cases h2 : q = r 3
  · subst h2; rfl
  by_cases h3 : q = lr
  · subst h3; rfl
  have key : ∀ s : St A, (steps e ontopZIs s).gpr q = s.gpr q := fun s => by simp [ontopZIs, steps, step, setg, h2, h3]
  rw [key, key, mid_gpr e s q h]

/-- the registers after a first activation by an on-top call -/
theorem ontop_z (e : Env A) (σ τ : St A) (h : First e σ τ) (q : A.R) (hq : q ≠ r 7 ∧ q ≠ ctr ∧ q ≠ r 2) : (exec e port.ontop τ).1.gpr q = (steps e oz τ).gpr q := by
  obtain ⟨h1, h2, h3⟩ := h
  have hok := ce_ok (e := e) h3
  have h1 : τ.gpr (r 4) = (σ.gpr (r 3) &&& mask A 4) - off A 288 := h1.trans (make_res e σ)
  have w := make_words e σ _ h1
  have hth : (K true).thid τ = 0#_ := by
    rw [← w.2.2.1]; exact load_agree h2 (by decide) (by decide)
  obtain ⟨z1, z2⟩ := z0
  have hr := fin_rel hok _ z1
  have h4 : (steps e (ontopPreIs.take 90) τ).gpr (r 3) = 0#_ := ((hr.reg z2).trans (SlotCfg.sv_ld _ _ _)).trans hth
  clear hr
  obtain ⟨s, hs⟩ : ∃ s, s = steps e (ontopPreIs.take 90) τ := ⟨_, rfl⟩
  have h0 : steps e ontopPreIs τ = steps e mid s := by
    conv => lhs; rw [pre_split, steps_append]
    rw [hs]
  have h5 : steps e oz τ = steps e ontopZIs s := by rw [oz, steps_append, hs]
  rw [← hs] at h4
  have h6 : (steps e mid s).gpr (r 3) = 0#_ := by rw [mid_gpr e s _ (by decide), h4]
  rw [show port.ontop = ontop from rfl, ontop, exec, h0, h5]
  clear hs h0 h5
  simp only [exec, h6, if_true]
  exact z_mid e s q hq

/-- **C77**, first activation by an on-top call: the function is entered with `transfer_t{fctx of the resuming context, data}`, returning to the end of `ontop_fcontext`, with the
result object at offset 8 of the new context's data and the stack pointer at the start of these data, which are as `make_fcontext` left them.
(Entry point and TOC: `C77_ppc32_xcoff_ontop_function`.) -/
theorem C77_ppc32_xcoff_first_ontop (e : Env A) (σ τ : St A) (h : First e σ τ) :
    port.ra (exec e port.ontop τ).1 = e Lab.back ∧ (exec e port.ontop τ).1.gpr (r 1) = port.argF τ ∧
    (exec e port.ontop τ).1.gpr (r 3) = port.argF τ + off A 8 ∧ port.oinF (exec e port.ontop τ).1 = port.fctx τ ∧
    port.oinD (exec e port.ontop τ).1 = port.argD τ ∧
    ∀ a, InR a (port.argF τ) 288 → (exec e port.ontop τ).1.mem a = (exec e port.make σ).1.mem a := by
  have g := ontop_z e σ τ h
  have hf := C77_ppc32_xcoff_ontop_frame e τ
  obtain ⟨h1, h2, h3⟩ := h
  have hok := ce_ok (e := e) h3
  have hr := fin_rel hok _ z1
  obtain ⟨y1, y2, y3, y4, y5⟩ := z2
  obtain ⟨t, ht⟩ : ∃ t, t = (exec e port.ontop τ).1 := ⟨_, rfl⟩
  rw [← ht] at g hf ⊢
  clear ht h1
  obtain ⟨z, hz⟩ : ∃ z, z = steps e oz τ := ⟨_, rfl⟩
  have hr : Rel ((K true).CE 288 0 (0, 0)) ((K true).I e τ) (((K true).CE 288 0 (0, 0)).fin oz z1) z := by rw [hz]; exact hr
  rw [← hz] at g
  clear hz
  refine ⟨?_, ?_, ?_, ?_, ?_, ?_⟩
  · exact (g lr (by decide)).trans ((hr.reg y5).trans (BitVec.add_zero _))
  · exact (g (r 1) (by decide)).trans ((hr.reg y1).trans (SlotCfg.sv_reg _ _))
  · exact (g (r 3) (by decide)).trans (hr.reg y2)
  · exact (g (r 4) (by decide)).trans ((hr.reg y3).trans (BitVec.sub_eq_add_neg _ _).symm)
  · exact (g (r 5) (by decide)).trans ((hr.reg y4).trans (SlotCfg.sv_reg _ _))
  · intro a ha
    rw [← h2 a ha]
    apply Classical.byContradiction
    intro hn
    exact h3 a ha (hf a hn)

/-- **C77**, first activation by an on-top call: when the function has returned with the stack pointer it was entered with, control goes to the address found at offset 4 of the new context's
data (the word for the condition register) instead of the context function, with the first word of the returned `transfer_t` as return address instead of `finish`. -/
theorem C77_ppc32_xcoff_first_ontop_back_wrong (e : Env A) (u : St A) (c : A.W) (hsp : u.gpr (r 1) = c) :
    (exec e back u).2 = load u.mem (c + off A 4) A.k ∧ port.inF (exec e back u).1 = load u.mem (c + off A 8) A.k ∧ port.inD (exec e back u).1 = load u.mem (c + off A 12) A.k ∧
    port.ra (exec e back u).1 = port.inF (exec e back u).1 := by
  have b0 : ∀ v : A.W, (exec e back u).2 = load u.mem (u.gpr (r 1) + off A 4) A.k := fun _ => rfl
  have b1 : (exec e back u).1.gpr (r 3) = load u.mem (u.gpr (r 1) + off A 8) A.k := rfl
  have b2 : (exec e back u).1.gpr (r 4) = load u.mem (u.gpr (r 1) + off A 12) A.k := rfl
  have b3 : (exec e back u).1.gpr lr = load u.mem (u.gpr (r 1) + off A 8) A.k := rfl
  rw [hsp] at b0 b1 b2 b3
  exact ⟨b0 0, b1, b2, b3.trans b1.symm⟩

/-- **C77**, first activation by an on-top call: `make_fcontext` does not write that word; if nobody else does, control goes to an address that happened to be on the stack before the context
was made. -/
theorem C77_ppc32_xcoff_first_ontop_garbage (e : Env A) (σ u : St A) (c : A.W) (hc : c = port.resM (exec e port.make σ).1) (hsp : u.gpr (r 1) = c)
    (hm : ∀ a, InR a (c + off A 4) 4 → u.mem a = (exec e port.make σ).1.mem a) : (exec e back u).2 = load σ.mem (c + off A 4) A.k := by
  rw [(C77_ppc32_xcoff_first_ontop_back_wrong e u c hsp).1]
  have hc : c = (σ.gpr (r 3) &&& mask A 4) - off A 288 := hc.trans (make_res e σ)
  rw [← (make_words e σ c hc).2.2.2]
  exact load_congr (by decide) hm

/-- **C77**, first activation by an on-top call: the stack pointer the function is entered with is a multiple of 16. -/
theorem C77_ppc32_xcoff_first_ontop_aligned (e : Env A) (σ τ : St A) (h : First e σ τ) : port.aligned ((exec e port.ontop τ).1.gpr (r 1)) := by
  have h1 := (C77_ppc32_xcoff_first_ontop e σ τ h).2.1
  have h2 := h.to.trans (make_res e σ)
  show ((exec e port.ontop τ).1.gpr (r 1)).toNat % 16 = 0
  rw [h1, h2]
  have := and_mask_toNat (σ.gpr (r 3)) 4
  obtain ⟨v, hv⟩ : ∃ v, v = σ.gpr (r 3) &&& mask A 4 := ⟨_, rfl⟩
  have h16 : v.toNat % 16 = 0 := by rw [hv, this]; omega
  rw [← hv, BitVec.toNat_sub]
  have e1 : (off A 288).toNat = 288 := by decide
  have e2 : 2 ^ (8 * A.k) = 16 * 268435456 := rfl
  rw [e1, e2]
  omega

/-- An on-top function that returns its argument and keeps its return address, as the ABI provides, in the word at 8(r1) of its caller's frame (the way every function that itself calls
functions does).  Not part of the library. -/
def identity : Code A := .jmp [.mov (r 0) lr, .st (r 0) (r 1) 8, .st (r 4) (r 3) 0, .st (r 5) (r 3) 4, .ld (r 0) (r 1) 8, .mov lr (r 0)] lr

theorem identity_pc (e : Env A) (s : St A) : (exec e identity s).2 =
    load (store (store (store s.mem (s.gpr (r 1) + off A 8) A.k (s.gpr lr)) (s.gpr (r 3) + off A 0) A.k (s.gpr (r 4))) (s.gpr (r 3) + off A 4) A.k (s.gpr (r 5)))
      (s.gpr (r 1) + off A 8) A.k := by
  have h : ∀ n, n ≠ 0 → r n ≠ r 0 := fun n hn h => hn (by injection h)
  simp [identity, exec, steps, step, setg, h]

/-- **C77**: the function `identity` returns correctly wherever its result object does not overlap its caller's link register save word ... -/
theorem C77_ppc32_xcoff_identity (e : Env A) (s : St A) (h : ∀ a, InR a (s.gpr (r 1) + off A 8) 4 → ¬ InR a (s.gpr (r 3)) 8) : (exec e identity s).2 = s.gpr lr := by
  rw [identity_pc, load_store_out (by decide), load_store_out (by decide), load_store_same _ _ _ _ (by decide)]
  · intro a ha hb
    exact h a ha (inR_off hb (by decide) (by decide))
  · intro a ha hb
    exact h a ha (inR_off hb (by decide) (by decide))

/-- **C77**, first activation by an on-top call: ... but entered by `ontop_fcontext` on a new context it does not return: the word is the first word of its result object, and control goes to
the address of the resuming context's data. -/
theorem C77_ppc32_xcoff_first_ontop_lost (e : Env A) (σ τ : St A) (h : First e σ τ) : (exec e identity (exec e port.ontop τ).1).2 = port.fctx τ := by
  obtain ⟨-, h1, h2, h4, -, -⟩ := C77_ppc32_xcoff_first_ontop e σ τ h
  obtain ⟨s, hs⟩ : ∃ s, s = (exec e port.ontop τ).1 := ⟨_, rfl⟩
  rw [← hs] at h1 h2 h4 ⊢
  rw [identity_pc, h1, h2, add_off_off, add_off_off, load_store_off (by decide) (by decide) (by decide), load_store_same _ _ _ _ (by decide)]
  exact h4

/-! ### The hypotheses can be met -/

theorem inh (t : Bool) (on : Code A) (ho : ∀ e σ, (exec e on σ).1.mem = (steps e oi σ).mem) (e : Env A) : ∃ σ τ m, (prt t on).Left e σ m ∧ (prt t on).Intact σ m τ ∧
    (prt t on).argF τ = (prt t on).fctx σ ∧ ∀ q, q ≠ r 1 → q ≠ r 3 → q ≠ r 4 → σ.gpr q ≠ τ.gpr q :=
  (J t on ho).inhabited e (.inl rfl) (show (K t).N ≤ 0x800 by cases t <;> decide) (show (K t).fr ≤ (K t).N by cases t <;> decide) (show r 3 ≠ r 1 by decide) (show r 4 ≠ r 1 by decide)
    (show r 4 ≠ r 3 by decide)

/-- The hypotheses of `C77_ppc32_xcoff_jump` can be met. -/
example (e : Env A) : ∃ σ τ m, portT.Left e σ m ∧ portT.Intact σ m τ ∧ portT.argF τ = portT.fctx σ ∧ σ.gpr (r 14) ≠ τ.gpr (r 14) ∧ σ.gpr (r 2) ≠ τ.gpr (r 2) := by
  obtain ⟨σ, τ, m, h1, h2, h3, h4⟩ := inh true _ on_mem e
  exact ⟨σ, τ, m, h1, h2, h3, h4 _ (by decide) (by decide) (by decide), h4 _ (by decide) (by decide) (by decide)⟩

/-- The hypotheses of `C77_ppc32_xcoff_ontop` can be met. -/
example (e : Env A) : ∃ σ τ m, port.Left e σ m ∧ port.Intact σ m τ ∧ port.argF τ = port.fctx σ ∧ σ.gpr (r 14) ≠ τ.gpr (r 14) := by
  obtain ⟨σ, τ, m, h1, h2, h3, h4⟩ := inh false _ on_mem e
  exact ⟨σ, τ, m, h1, h2, h3, h4 _ (by decide) (by decide) (by decide)⟩

theorem minh (e : Env A) : ∃ σ τ, First e σ τ := by
  obtain ⟨σ, -, τ, h1, h2, h3⟩ := M.inhabited e (.inl rfl) (show (K true).N ≤ 0x800 by decide) (show (K true).fr ≤ (K true).N by decide) rfl (show r 3 ≠ r 1 by decide)
    (show r 4 ≠ r 1 by decide) (show 288 ≤ 0x800 by decide) (show r 4 ≠ r 3 by decide)
  exact ⟨σ, τ, h1, h2, h3⟩

/-- The hypotheses of `C77_ppc32_xcoff_make` can be met. -/
example (e : Env A) := M.inhabited e (.inl rfl) (show (K true).N ≤ 0x800 by decide) (show (K true).fr ≤ (K true).N by decide) rfl (show r 3 ≠ r 1 by decide)
  (show r 4 ≠ r 1 by decide) (show 288 ≤ 0x800 by decide) (show r 4 ≠ r 3 by decide)

/-- The hypotheses of the theorems about first activations can be met. -/
example (e : Env A) : ∃ σ τ, First e σ τ := minh e

/-! ### r13 -/

/-- `portT` with all general registers the AIX ABI makes callee-saved -/
def portA : Port A := { portT with saved := r 13 :: portT.saved }

/-- **C77**: the routines leave r13 as it is, so a resumed context finds that of the resumer. -/
theorem C77_ppc32_xcoff_loses_r13 (e : Env A) (τ : St A) : (exec e portT.jump τ).1.gpr (r 13) = τ.gpr (r 13) := by
  have hp := steps_dest e jumpPreIs (.g (r 13)) (by decide) τ
  simp only [get_g] at hp
  rw [show portT.jump = jump from rfl, jump, exec]
  obtain ⟨s, hs⟩ : ∃ s, s = steps e jumpPreIs τ := ⟨_, rfl⟩
  rw [← hs] at hp ⊢
  simp only [exec]
  split
  · exact (steps_dest e jumpZIs (.g (r 13)) (by decide) s).trans hp
  · exact (steps_dest e jumpNzIs (.g (r 13)) (by decide) s).trans hp

/-- **C77**: therefore switching does not preserve all callee-saved registers of the AIX ABI. -/
theorem C77_ppc32_xcoff_r13_violated : ¬ portA.JumpSpec := by
  intro h
  obtain ⟨e, -⟩ : ∃ e : Env A, e = fun _ => 0#_ := ⟨_, rfl⟩
  obtain ⟨σ, τ, m, h1, h2, h3, h4⟩ := inh true ontop on_mem e
  have := (h e σ τ m h1 ⟨h2.ok, h2.ok', h2.tslot, h2.slot, h2.mem, h2.frame⟩ h3).1.saved (r 13) (List.mem_cons_self ..)
  have hl := C77_ppc32_xcoff_loses_r13 e τ
  rw [show portA.jump = portT.jump from rfl, hl] at this
  exact h4 (r 13) (by decide) (by decide) (by decide) this.symm

end Verif.Asm.Ppc32Xcoff
