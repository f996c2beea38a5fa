import Verif.Asm.Ppc32Xcoff

/-! # PowerPC 32 AIX (XCOFF): on-top calls (C77) -/

namespace Verif.Asm.Ppc32Xcoff

/-! ### On-top calls -/

theorem mid_gpr (e : Env A) (s : St A) (q : A.R) (h : q ≠ r 7 ∧ q ≠ ctr ∧ q ≠ r 2) : (steps e mid s).gpr q = s.gpr q := by
  simp [mid, steps, step, setg, h]

/-- Reading the descriptor does not influence the remaining instructions of the switch. -/
theorem nz_mid (e : Env A) (s : St A) (q : A.R) (h : q ≠ r 7 ∧ q ≠ ctr ∧ q ≠ r 2) : (steps e ontopNzIs (steps e mid s)).gpr q = (steps e ontopNzIs s).gpr q := by
  by_cases h1 : q = r 0
  · subst h1; rfl
  by_cases h2 : q = r 1
  · subst h2; rfl
  by_cases h3 : q = lr
  · subst h3; rfl
  have key : ∀ s : St A, (steps e ontopNzIs s).gpr q = s.gpr q := fun s => by simp [ontopNzIs, steps, step, setg, h1, h2, h3]
  rw [key, key, mid_gpr e s q h]

theorem mid_ctr (e : Env A) (s : St A) : (steps e mid s).gpr ctr = load s.mem (s.gpr (r 6)) A.k := by
  have : load s.mem (s.gpr (r 6) + off A 0x0) A.k = load s.mem (s.gpr (r 6)) A.k := by rw [show s.gpr (r 6) + off A 0x0 = s.gpr (r 6) from BitVec.add_zero _]
  rw [← this]; rfl
theorem mid_r2 (e : Env A) (s : St A) : (steps e mid s).gpr (r 2) = load s.mem (s.gpr (r 6) + off A 4) A.k := rfl

/-- **C77**, on-top calls: in every case control goes to the first word of the descriptor the fourth argument designates, with its second word in r2. -/
theorem C77_ppc32_xcoff_ontop_descriptor (e : Env A) (τ : St A) :
    (exec e port.ontop τ).2 = load (exec e port.ontop τ).1.mem (port.argFn τ) 4 ∧
    (exec e port.ontop τ).1.gpr (r 2) = load (exec e port.ontop τ).1.mem (port.argFn τ + off A 4) 4 := by
  rw [show port.ontop = ontop from rfl]
  obtain ⟨s, hs⟩ : ∃ s, s = steps e (ontopPreIs.take 90) τ := ⟨_, rfl⟩
  have h6 : s.gpr (r 6) = τ.gpr (r 6) := by rw [hs]; exact steps_dest e (ontopPreIs.take 90) (.g (r 6)) (by decide) τ
  have h0 : steps e ontopPreIs τ = steps e mid s := by
    conv => lhs; rw [pre_split, steps_append]
    rw [hs]
  have key : ∀ u : St A, ∀ z : List (Instr A), z.all Instr.pure = true → (∀ i ∈ z, i.dest ≠ some (.g ctr) ∧ i.dest ≠ some (.g (r 2))) →
      (steps e z (steps e mid u)).gpr ctr = load (steps e z (steps e mid u)).mem (u.gpr (r 6)) A.k ∧
      (steps e z (steps e mid u)).gpr (r 2) = load (steps e z (steps e mid u)).mem (u.gpr (r 6) + off A 4) A.k := by
    intro u z hp hz
    rw [steps_pure e z hp, steps_pure e mid (by decide)]
    have g1 := steps_dest e z (.g ctr) (fun i hi => (hz i hi).1) (steps e mid u)
    have g2 := steps_dest e z (.g (r 2)) (fun i hi => (hz i hi).2) (steps e mid u)
    exact ⟨g1.trans (mid_ctr e u), g2.trans (mid_r2 e u)⟩
  have k1 := key s ontopZIs (by decide) (by decide)
  have k2 := key s ontopNzIs (by decide) (by decide)
  rw [h6] at k1 k2
  show (exec e ontop τ).2 = load (exec e ontop τ).1.mem (τ.gpr (r 6)) A.k ∧ (exec e ontop τ).1.gpr (r 2) = load (exec e ontop τ).1.mem (τ.gpr (r 6) + off A 4) A.k
  rw [ontop, exec, h0]
  clear hs h0 key
  simp only [exec]
  split
  · exact k1
  · exact k2

/-- the own frame as the only base -/
def C0 : SCfg A where
  known := [(.reg (r 1), 0, off A 256)]
  wr i := if i = 0 then (0, 256) else (0, 0)
  rd _ := 0
  D _ _ := false

theorem c0_run : (C0.run (ontopPreIs.take 46) SSt.init).isSome = true := by decide +kernel

theorem oi_mem (e : Env A) (τ : St A) : (steps e oi τ).mem = (steps e (ontopPreIs.take 46) τ).mem := by
  have h : ∀ l : List (Instr A), l.take 90 = l.take 46 ++ (l.take 90).drop 46 := by
    intro l
    conv => lhs; rw [← List.take_append_drop 46 (l.take 90), List.take_take]
    rfl
  rw [oi, steps_append, steps_pure e ontopNzIs (by decide), h, steps_append, steps_pure e ((ontopPreIs.take 90).drop 46) (by decide)]

/-- **C77**, on-top calls: an on-top switch writes only its own frame, whatever its arguments are. -/
theorem C77_ppc32_xcoff_ontop_frame (e : Env A) (τ : St A) (a : A.W) (h : (exec e port.ontop τ).1.mem a ≠ τ.mem a) : InR a (port.fctx τ) 256 := by
  rw [show port.ontop = ontop from rfl, on_mem, oi_mem] at h
  obtain ⟨I, hI⟩ : ∃ I : Itp A, I = ⟨τ, fun _ => τ.gpr (r 1) - off A 256, e⟩ := ⟨_, rfl⟩
  have hok : I.Ok C0 := by
    rw [hI]
    refine ⟨?_, ?_, ?_, ?_⟩
    · intro y hy
      simp only [C0, List.mem_cons, List.not_mem_nil, or_false] at hy
      subst hy
      exact (sub_add_off _ _).symm
    · intro i j hD; cases hD
    · intro i; simp only [C0]; split <;> decide
    · intro i; exact Nat.zero_le _
  have hr := fin_rel hok _ c0_run
  have e1 : I.σ = τ := by rw [hI]
  have e2 : I.e = e := by rw [hI]
  rw [e1, e2] at hr
  obtain ⟨i, -, h2⟩ := hr.frame a (by rw [e1]; exact h)
  by_cases hi : i = 0
  · subst hi
    rw [hI] at h2
    have h2 : InR a (τ.gpr (r 1) - off A 256 + off A 0) 256 := h2
    rw [show τ.gpr (r 1) - off A 256 + off A 0 = τ.gpr (r 1) - off A 256 from BitVec.add_zero _] at h2
    exact h2
  · simp only [C0, hi, if_false] at h2
    exact absurd h2 (by simp [InR])

/-- **C77**, on-top calls: if the descriptor does not overlap the caller's new frame, its content at the time of the call counts. -/
theorem C77_ppc32_xcoff_ontop_function (e : Env A) (τ : St A) (h : ∀ a, InR a (port.argFn τ) 8 → ¬ InR a (port.fctx τ) 256) :
    (exec e port.ontop τ).2 = load τ.mem (port.argFn τ) 4 ∧ (exec e port.ontop τ).1.gpr (r 2) = load τ.mem (port.argFn τ + off A 4) 4 := by
  obtain ⟨h1, h2⟩ := C77_ppc32_xcoff_ontop_descriptor e τ
  have key : ∀ a, InR a (port.argFn τ) 8 → (exec e port.ontop τ).1.mem a = τ.mem a := by
    intro a ha
    apply Classical.byContradiction
    intro hn
    exact h a ha (C77_ppc32_xcoff_ontop_frame e τ a hn)
  have l1 := load_agree (o := 0) (n := 4) key (by decide) (by decide)
  have l2 := load_agree (o := 4) (n := 4) key (by decide) (by decide)
  rw [show port.argFn τ + off A 0 = port.argFn τ from BitVec.add_zero _] at l1
  exact ⟨h1.trans l1, h2.trans l2⟩

theorem left_conv {e : Env A} {σ : St A} {m : Mem A} (h : port.Left e σ m) : port0.Left e σ m := by
  rcases h with h | h
  · exact .inl h
  · exact .inr ((on_mem e σ).symm.trans h)

theorem oi_r3 : (((K false).C true).fin oi o1).gpr (r 3) = ⟨.ld 1 244, 0#_⟩ := by decide +kernel

/-- the registers after an on-top switch to a context whose saved result address is not null -/
theorem ontop_nz (e : Env A) (τ : St A) (hok : ((K false).I e τ).Ok ((K false).C true)) (hz : (K false).thid τ ≠ 0#_) (q : A.R) (h : q ≠ r 7 ∧ q ≠ ctr ∧ q ≠ r 2) :
    (exec e port.ontop τ).1.gpr q = (steps e oi τ).gpr q := by
  have hr := fin_rel hok oi o1
  have h4 : (steps e oi τ).gpr (r 3) = (K false).thid τ := (hr.reg oi_r3).trans (SlotCfg.sv_ld _ _ _)
  clear hr
  obtain ⟨s, hs⟩ : ∃ s, s = steps e (ontopPreIs.take 90) τ := ⟨_, rfl⟩
  have h0 : steps e ontopPreIs τ = steps e mid s := by
    conv => lhs; rw [pre_split, steps_append]
    rw [hs]
  have h1 : steps e oi τ = steps e ontopNzIs s := by rw [oi, steps_append, hs]
  rw [h1] at h4 ⊢
  have h5 := steps_dest e ontopNzIs (.g (r 3)) (by decide) s
  simp only [get_g] at h5
  have h6 : (steps e mid s).gpr (r 3) ≠ 0#_ := by rw [mid_gpr e s _ (by decide), ← h5, h4]; exact hz
  rw [show port.ontop = ontop from rfl, ontop, exec, h0]
  clear hs h0 h1
  simp only [exec, h6, if_false]
  exact nz_mid e s q h

theorem ontop_fpr (e : Env A) (τ : St A) (q : A.F) : (exec e port.ontop τ).1.fpr q = (steps e oi τ).fpr q := by
  obtain ⟨s, hs⟩ : ∃ s, s = steps e (ontopPreIs.take 90) τ := ⟨_, rfl⟩
  have h0 : steps e ontopPreIs τ = steps e mid s := by
    conv => lhs; rw [pre_split, steps_append]
    rw [hs]
  have h1 : steps e oi τ = steps e ontopNzIs s := by rw [oi, steps_append, hs]
  rw [h1, show port.ontop = ontop from rfl, ontop, exec, h0]
  clear hs h0 h1
  simp only [exec]
  split
  · rfl
  · rfl

/-- **C77**, on-top calls: the function is entered, at the first word of its descriptor, as if called in place of the suspended call. -/
theorem C77_ppc32_xcoff_ontop : port.OntopSpecTo fun e τ => load (exec e port.ontop τ).1.mem (port.argFn τ) 4 := by
  intro e σ τ m hl hi ha
  obtain ⟨i0, i1, i2, i3, i4, i5⟩ := hi
  have hi0 : port0.Intact σ m τ := ⟨i0, i1, i2, i3, i4, i5⟩
  obtain ⟨t1, hf, hh, ok', ok, hd⟩ := S.target (left_conv hl) hi0 ha
  have hok := SlotCfg.I_ok S.wf true e τ ok' (fun _ => hd)
  have g := ontop_nz e τ hok (by intro h; exact ok.2.2.2 rfl (hh.symm.trans h))
  obtain ⟨-, ⟨c1, c2, c3, c4, c5, c6, c7⟩, h3, h4⟩ := S.ontopSpecTo e σ τ m (left_conv hl) hi0 ha
  have hm : (exec e port.ontop τ).1.mem = (steps e oi τ).mem := on_mem e τ
  obtain ⟨s, hs⟩ : ∃ s, s = steps e oi τ := ⟨_, rfl⟩
  have hs' : (exec e port0.ontop τ).1 = s := by rw [hs, show port0.ontop = .jmp oi (r 6) from rfl, exec]
  rw [hs'] at c1 c2 c3 c4 c5 c6 c7 h3
  rw [← hs] at g hm
  have gf := ontop_fpr e τ
  rw [← hs] at gf
  have gd := (C77_ppc32_xcoff_ontop_descriptor e τ).1
  show (exec e port.ontop τ).2 = load (exec e port.ontop τ).1.mem (port.argFn τ) 4 ∧ port.CalledAs σ (exec e port.ontop τ).1 (port.fctx τ) (port.argD τ) ∧
    (∀ a, (exec e port.ontop τ).1.mem a ≠ τ.mem a → InR a (port.fctx τ) port.frame ∨ port.slot σ a ∨ port.oarea σ a) ∧ ∀ a, port.tslot τ a ↔ port.slot σ a
  clear hs hs' hok hd t1 hf hh
  obtain ⟨t, ht⟩ : ∃ t, t = exec e port.ontop τ := ⟨_, rfl⟩
  rw [← ht] at g gf gd hm ⊢
  clear ht
  refine ⟨gd, ?_, fun a h => h3 a ?_, h4⟩
  · refine ⟨(g lr (by decide)).trans c1, (g (r 1) (by decide)).trans c2, fun q hq => ?_, fun q hq => ?_, fun a => ?_, (g (r 4) (by decide)).trans c6, (g (r 5) (by decide)).trans c7⟩
    · have hq' : ∀ q ∈ port0.saved, q ≠ r 7 ∧ q ≠ ctr ∧ q ≠ r 2 := by simp only [port0, prt]; decide
      rw [g q (hq' q hq)]; exact c3 q hq
    · rw [gf]; exact c4 q hq
    · have : port.slot t.1 a ↔ port0.slot s a := by
        show InR a (t.1.gpr (r 3)) 8 ↔ InR a (s.gpr (r 3)) 8
        rw [g (r 3) (by decide)]
      exact this.trans (c5 a)
  · rw [← hm]; exact h

end Verif.Asm.Ppc32Xcoff
