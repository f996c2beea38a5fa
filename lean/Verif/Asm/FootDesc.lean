import Verif.Asm.FootSym
import Verif.Asm.MicroSpec
import Verif.Asm.ManyMore

/-! # What the routines access, and switches instruction by instruction: PowerPC with function descriptors (C81, C82) -/

namespace Verif.Asm

namespace Ppc64v1
theorem sane : A.Sane := ⟨by decide, fun f => by cases f <;> exact Nat.le_trans (show _ ≤ 8 by first | exact Nat.le_refl _ | decide) (show 8 ≤ _ by decide)⟩

/-- what is read outside of the stacks: the descriptors of the functions -/
def reads : Reads A where
  desc _ s a := InR a (s.gpr (r 6)) 16
  mdesc _ s a := InR a (s.gpr (r 5)) 16

theorem jump_accs (x : Bool) (x' : Acc) (e : Env A) (τ : St A) (a : A.W) : (port x).jump.accs x' e τ a ↔ accs x' e (jpre x) τ a ∨
    if (steps e (jpre x) τ).gpr (r 3) = 0#_ then accs x' e jumpZIs (steps e (jpre x) τ) a else accs x' e jumpNzIs (steps e (jpre x) τ) a := by
  show (prt x false _).jump.accs x' e τ a ↔ _
  rw [jump_eq]
  simp only [Code.accs]

theorem ontop_accs (x : Bool) (x' : Acc) (e : Env A) (τ : St A) (a : A.W) : (port x).ontop.accs x' e τ a ↔ accs x' e ontopPreIs τ a ∨
    if (steps e ontopPreIs τ).gpr (r 3) = 0#_ then accs x' e ontopZIs (steps e ontopPreIs τ) a else accs x' e ontopNzIs (steps e ontopPreIs τ) a := by
  have h : (port x).ontop = ontop := by exact ontop_eq x false
  rw [h, ontop]
  simp only [Code.accs]

theorem pre_r6 (e : Env A) (τ : St A) : (steps e (ontopPreIs.take 50) τ).gpr (r 6) = τ.gpr (r 6) := steps_dest e (ontopPreIs.take 50) (.g (r 6)) (by decide) τ

theorem oacc (x : Bool) (x' : Acc) (e : Env A) (τ : St A) (a : A.W) (hok : ((K false).I e τ).Ok ((K false).C true)) (hz : (K false).thid τ ≠ 0#_) (h : (port x).ontop.accs x' e τ a) :
    accs x' e oi τ a ∨ x' = .rd ∧ InR a (τ.gpr (r 6)) 16 := by
  have h3 : (steps e ontopPreIs τ).gpr (r 3) ≠ 0#_ := by
    have hr := fin_rel hok oi o1
    have := hr.reg oi_r3
    rw [SlotCfg.sv_ld] at this
    rw [pre_split, steps_append, mid_gpr e _ _ (by decide)]
    have h4 : (steps e oi τ).gpr (r 3) = (steps e (ontopPreIs.take 50) τ).gpr (r 3) := by rw [oi, steps_append]; exact steps_dest e ontopNzIs (.g (r 3)) (by decide) _
    rw [← h4]
    exact fun hh => hz (this.symm.trans hh)
  have h := (ontop_accs x x' e τ a).1 h
  rw [if_neg h3, pre_split, accs_append, steps_append] at h
  rw [oi, accs_append]
  obtain ⟨s, hs⟩ : ∃ s, s = steps e (ontopPreIs.take 50) τ := ⟨_, rfl⟩
  have h6 := pre_r6 e τ
  rw [← hs] at h h6 ⊢
  rcases h with (h | h) | h
  · exact .inl (.inl h)
  · right
    rw [← h6]
    clear h6 h3 hok hz hs
    cases x' with
    | rd =>
      refine ⟨rfl, ?_⟩
      have h : InR a (s.gpr (r 6) + off A 0) A.k ∨ False ∨ InR a (s.gpr (r 6) + off A 8) A.k ∨ False := h
      rcases h with h | h | h | h
      · exact inR_off h (by decide) (by decide)
      · exact h.elim
      · exact inR_off h (by decide) (by decide)
      · exact h.elim
    | wr =>
      have h : False ∨ False ∨ False ∨ False := h
      rcases h with h | h | h | h <;> exact h.elim
  · left; right
    cases x' <;> exact h

theorem e1f (x : Bool) : (((K false).CE 248 0 (0, 0)).run ((jpre x) ++ jumpZIs) SSt.init).isSome = true := by cases x <;> decide +kernel
theorem pre_r3f (x : Bool) : ∃ h, (((K false).CE 248 0 (0, 0)).fin (jpre x) h).gpr (r 3) = ⟨.ld 1 152, 0#_⟩ := by cases x <;> exact ⟨by decide +kernel, by decide +kernel⟩

theorem make_foot (e : Env A) (σ : St A) (a : A.W) : (accs .rd e makeIs σ a ↔ InR a (σ.gpr (r 5) + off A 0) A.k ∨ InR a (σ.gpr (r 5) + off A 8) A.k) ∧
    (accs .wr e makeIs σ a → InR a ((σ.gpr (r 3) &&& mask A 4) - off A 248) 248) := by
  refine ⟨?_, fun h => ?_⟩
  · have n1 : r 5 ≠ r 6 := by decide
    have n2 : r 5 ≠ r 3 := by decide
    have n3 : r 5 ≠ r 4 := by decide
    simp only [makeIs, accs, Instr.acc, Instr.rd, step, setg, n1, n2, n3, if_false, false_or, or_false]
  · obtain ⟨c, hc⟩ : ∃ c, c = (σ.gpr (r 3) &&& mask A 4) - off A 248 := ⟨_, rfl⟩
    have hc' : (σ.gpr (r 3) &&& mask A 4) + -off A 248 = c := by rw [hc, BitVec.sub_eq_add_neg]
    rw [← hc]
    have n1 : r 3 ≠ r 6 := by decide
    have n2 : r 3 ≠ r 4 := by decide
    have n3 : r 3 ≠ r 0 := by decide
    have n4 : r 3 ≠ lr := by decide
    simp only [makeIs, accs, Instr.acc, Instr.wr, step, setg, n1, n2, n3, n4, if_false, if_true, false_or, or_false, hc'] at h
    rcases h with h | h | h | h | h <;> exact inR_off h (by decide) (by decide)

theorem make_sz (x : Bool) (σ : St A) : ((port x).argTop σ - ((σ.gpr (r 3) &&& mask A 4) - off A 248)).toNat = 248 + (σ.gpr (r 3)).toNat % 2 ^ 4 :=
  align_below (A := A) (σ.gpr (r 3)) 248 4 (by decide)

theorem foot_res (x : Bool) (e : Env A) (σ : St A) : (port x).resM (exec e (port x).make σ).1 = (σ.gpr (r 3) &&& mask A 4) - off A 248 := ((M x).make e σ _ rfl).2.1

theorem C81_ppc64v1 (x : Bool) : Footprint (extra x) reads :=
  (J x false _ (on_mem x)).footprintD (extra x) reads
    (fun x' e τ a hI hnz h => by
      obtain ⟨h1, h2⟩ := pre_r3 x false true
      have hr := fin_rel hI (jpre x) h1
      have h := (jump_accs x x' e τ a).1 h
      rw [if_neg] at h
      · show accs x' e ((jpre x) ++ jumpNzIs) τ a
        rw [accs_append]; exact h
      · have := hr.reg h2
        rw [SlotCfg.sv_ld] at this
        exact fun hz => hnz rfl (this.symm.trans hz))
    oi (fun _ => ⟨o1, o2.w⟩) (fun _ x' e τ a hok hz h => oacc x x' e τ a hok (hz rfl) h)
    ((J x false _ (on_mem x)).fresh_of (extra x) (top := r 3) (j := 4) (msz := 248) (hid := 0) (mw := (0, 0)) (ei := (jpre x) ++ jumpZIs) (by decide) (by decide) (show _ + _ ≤ _ by first | (show 152 + 8 ≤ _; decide) | decide) rfl rfl
      (fun e σ c hc => by
        obtain ⟨-, h1, -, -, -, -, -, -, h2⟩ := (M x).make e σ c hc
        exact ⟨h1, h2⟩) (e1f x)
      (fun x' e τ a hI hz h => by
        obtain ⟨h1, h2⟩ := pre_r3f x
        have hr := fin_rel hI (jpre x) h1
        have h := (jump_accs x x' e τ a).1 (h.resolve_right id)
        rw [if_pos] at h
        · rw [accs_append]; exact h
        · have := hr.reg h2
          rw [SlotCfg.sv_ld] at this
          exact this.trans (hz rfl)))
    (fun e σ hd a => by
      rw [foot_res, make_sz]
      have mk : (port x).make = .jmp makeIs lr := make_eq x false _
      rw [mk]
      refine ⟨fun h => .inr (.inr ?_), fun h => inR_mono ((make_foot e σ a).2 h) (by omega)⟩
      rcases (make_foot e σ a).1.1 h with h | h
      · exact inR_off h (by decide) (by decide)
      · exact inR_off h (by decide) (by decide))

theorem loc (x : Bool) : Local (extra x) reads :=
  (J x false _ (on_mem x)).locD (extra x) reads sane (fun h hn hz => h ▸ hn hz) (fun a h => by simp only [reads, h, iff_self, and_self]) (fun _ _ h => h)
    (fun {e s s'} hm h => by
      refine ⟨trivial, ?_, ?_⟩
      · show s'.gpr (r 3) = s.gpr (r 3)
        rw [h.1]
      · show load s'.mem (s'.gpr (r 5)) A.k = load s.mem (s.gpr (r 5)) A.k
        rw [← h.1]
        refine load_congr (by decide) fun y hy => (h.2.2 y ?_).symm
        have mk : (port x).make = .jmp makeIs lr := make_eq x false _
        rw [mk]
        refine (make_foot e s y).1.2 (.inl ?_)
        rwa [add_off_zero])
    (fun h => by show _ = _; exact congrFun h (r 3)) (fun _ h => h) (fun c a h => absurd h (Nat.not_lt_zero _))

/-- the on-top function is entered at the first word of its descriptor, as it is after the registers were saved -/
theorem C82_ppc64v1 (x : Bool) : Micro.Spec (extra x) reads fun e τ => load (exec e (port x).ontop τ).1.mem ((port x).argFn τ) 8 :=
  Micro.C82_of_footprints (jumpF x) (fun _ => C76_ppc64v1_ontop x) (fun e σ _ => makeF x e σ) (C81_ppc64v1 x) (loc x)
end Ppc64v1

namespace Ppc32Xcoff
theorem sane : A.Sane := ⟨by decide, fun f => by cases f <;> exact Nat.le_trans (show _ ≤ 8 by first | exact Nat.le_refl _ | decide) (show 8 ≤ _ by decide)⟩

/-- what is read outside of the stacks: the descriptors of the functions -/
def reads : Reads A where
  desc _ s a := InR a (s.gpr (r 6)) 8
  mdesc _ s a := InR a (s.gpr (r 5)) 8

theorem jump_accs (x' : Acc) (e : Env A) (τ : St A) (a : A.W) : port.jump.accs x' e τ a ↔ accs x' e jumpPreIs τ a ∨
    if (steps e jumpPreIs τ).gpr (r 3) = 0#_ then accs x' e jumpZIs (steps e jumpPreIs τ) a else accs x' e jumpNzIs (steps e jumpPreIs τ) a := by
  show (prt false _).jump.accs x' e τ a ↔ _
  rw [show (prt false ontop).jump = jump from rfl, jump]
  simp only [Code.accs]

theorem ontop_accs (x' : Acc) (e : Env A) (τ : St A) (a : A.W) : port.ontop.accs x' e τ a ↔ accs x' e ontopPreIs τ a ∨
    if (steps e ontopPreIs τ).gpr (r 3) = 0#_ then accs x' e ontopZIs (steps e ontopPreIs τ) a else accs x' e ontopNzIs (steps e ontopPreIs τ) a := by
  have h : port.ontop = ontop := by rfl
  rw [h, ontop]
  simp only [Code.accs]

theorem pre_r6 (e : Env A) (τ : St A) : (steps e (ontopPreIs.take 90) τ).gpr (r 6) = τ.gpr (r 6) := steps_dest e (ontopPreIs.take 90) (.g (r 6)) (by decide) τ

theorem oacc (x' : Acc) (e : Env A) (τ : St A) (a : A.W) (hok : ((K false).I e τ).Ok ((K false).C true)) (hz : (K false).thid τ ≠ 0#_) (h : port.ontop.accs x' e τ a) :
    accs x' e oi τ a ∨ x' = .rd ∧ InR a (τ.gpr (r 6)) 8 := by
  have h3 : (steps e ontopPreIs τ).gpr (r 3) ≠ 0#_ := by
    have hr := fin_rel hok oi o1
    have := hr.reg oi_r3
    rw [SlotCfg.sv_ld] at this
    rw [pre_split, steps_append, mid_gpr e _ _ (by decide)]
    have h4 : (steps e oi τ).gpr (r 3) = (steps e (ontopPreIs.take 90) τ).gpr (r 3) := by rw [oi, steps_append]; exact steps_dest e ontopNzIs (.g (r 3)) (by decide) _
    rw [← h4]
    exact fun hh => hz (this.symm.trans hh)
  have h := (ontop_accs  x' e τ a).1 h
  rw [if_neg h3, pre_split, accs_append, steps_append] at h
  rw [oi, accs_append]
  obtain ⟨s, hs⟩ : ∃ s, s = steps e (ontopPreIs.take 90) τ := ⟨_, rfl⟩
  have h6 := pre_r6 e τ
  rw [← hs] at h h6 ⊢
  rcases h with (h | h) | h
  · exact .inl (.inl h)
  · right
    rw [← h6]
    clear h6 h3 hok hz hs
    cases x' with
    | rd =>
      refine ⟨rfl, ?_⟩
      have h : InR a (s.gpr (r 6) + off A 0) A.k ∨ False ∨ InR a (s.gpr (r 6) + off A 4) A.k ∨ False := h
      rcases h with h | h | h | h
      · exact inR_off h (by decide) (by decide)
      · exact h.elim
      · exact inR_off h (by decide) (by decide)
      · exact h.elim
    | wr =>
      have h : False ∨ False ∨ False ∨ False := h
      rcases h with h | h | h | h <;> exact h.elim
  · left; right
    cases x' <;> exact h

theorem e1f : (((K false).CE 288 0 (0, 0)).run (jumpPreIs ++ jumpZIs) SSt.init).isSome = true := by  decide +kernel
theorem pre_r3f : ∃ h, (((K false).CE 288 0 (0, 0)).fin jumpPreIs h).gpr (r 3) = ⟨.ld 1 244, 0#_⟩ := by  exact ⟨by decide +kernel, by decide +kernel⟩

theorem make_foot (e : Env A) (σ : St A) (a : A.W) : (accs .rd e makeIs σ a ↔ InR a (σ.gpr (r 5) + off A 0) A.k ∨ InR a (σ.gpr (r 5) + off A 4) A.k) ∧
    (accs .wr e makeIs σ a → InR a ((σ.gpr (r 3) &&& mask A 4) - off A 288) 288) := by
  refine ⟨?_, fun h => ?_⟩
  · have n1 : r 5 ≠ r 6 := by decide
    have n2 : r 5 ≠ r 3 := by decide
    have n3 : r 5 ≠ r 4 := by decide
    simp only [makeIs, accs, Instr.acc, Instr.rd, step, setg, n1, n2, n3, if_false, false_or, or_false]
  · obtain ⟨c, hc⟩ : ∃ c, c = (σ.gpr (r 3) &&& mask A 4) - off A 288 := ⟨_, rfl⟩
    have hc' : (σ.gpr (r 3) &&& mask A 4) + -off A 288 = c := by rw [hc, BitVec.sub_eq_add_neg]
    rw [← hc]
    have n1 : r 3 ≠ r 6 := by decide
    have n2 : r 3 ≠ r 4 := by decide
    have n3 : r 3 ≠ r 0 := by decide
    have n4 : r 3 ≠ lr := by decide
    simp only [makeIs, accs, Instr.acc, Instr.wr, step, setg, n1, n2, n3, n4, if_false, if_true, false_or, or_false, hc'] at h
    rcases h with h | h | h | h | h | h <;> exact inR_off h (by decide) (by decide)

theorem make_sz (σ : St A) : (port.argTop σ - ((σ.gpr (r 3) &&& mask A 4) - off A 288)).toNat = 288 + (σ.gpr (r 3)).toNat % 2 ^ 4 :=
  align_below (A := A) (σ.gpr (r 3)) 288 4 (by decide)

theorem foot_res (e : Env A) (σ : St A) : port.resM (exec e port.make σ).1 = (σ.gpr (r 3) &&& mask A 4) - off A 288 := (M.make e σ _ rfl).2.1

theorem C81_ppc32_xcoff : Footprint extra reads :=
  (J false _ on_mem).footprintD extra reads
    (fun x' e τ a hI hnz h => by
      obtain ⟨h1, h2⟩ := pre_r3 false true
      have hr := fin_rel hI jumpPreIs h1
      have h := (jump_accs  x' e τ a).1 h
      rw [if_neg] at h
      · show accs x' e (jumpPreIs ++ jumpNzIs) τ a
        rw [accs_append]; exact h
      · have := hr.reg h2
        rw [SlotCfg.sv_ld] at this
        exact fun hz => hnz rfl (this.symm.trans hz))
    oi (fun _ => ⟨o1, o2.w⟩) (fun _ x' e τ a hok hz h => oacc  x' e τ a hok (hz rfl) h)
    ((J false _ on_mem).fresh_of extra (top := r 3) (j := 4) (msz := 288) (hid := 0) (mw := (0, 0)) (ei := jumpPreIs ++ jumpZIs) (by decide) (by decide) (show _ + _ ≤ _ by first | (show 152 + 8 ≤ _; decide) | decide) rfl rfl
      (fun e σ c hc => by
        obtain ⟨-, h1, -, -, -, -, -, -, h2⟩ := M.make e σ c hc
        exact ⟨h1, h2⟩) e1f
      (fun x' e τ a hI hz h => by
        obtain ⟨h1, h2⟩ := pre_r3f
        have hr := fin_rel hI jumpPreIs h1
        have h := (jump_accs  x' e τ a).1 (h.resolve_right id)
        rw [if_pos] at h
        · rw [accs_append]; exact h
        · have := hr.reg h2
          rw [SlotCfg.sv_ld] at this
          exact this.trans (hz rfl)))
    (fun e σ hd a => by
      rw [foot_res, make_sz]
      have mk : port.make = .jmp makeIs lr := rfl
      rw [mk]
      refine ⟨fun h => .inr (.inr ?_), fun h => inR_mono ((make_foot e σ a).2 h) (by omega)⟩
      rcases (make_foot e σ a).1.1 h with h | h
      · exact inR_off h (by decide) (by decide)
      · exact inR_off h (by decide) (by decide))

theorem loc : Local extra reads :=
  (J false _ on_mem).locD extra reads sane (fun h hn hz => h ▸ hn hz) (fun a h => by simp only [reads, h, iff_self, and_self]) (fun _ _ h => h)
    (fun {e s s'} hm h => by
      refine ⟨trivial, ?_, ?_⟩
      · show s'.gpr (r 3) = s.gpr (r 3)
        rw [h.1]
      · show load s'.mem (s'.gpr (r 5)) A.k = load s.mem (s.gpr (r 5)) A.k
        rw [← h.1]
        refine load_congr (by decide) fun y hy => (h.2.2 y ?_).symm
        have mk : port.make = .jmp makeIs lr := rfl
        rw [mk]
        refine (make_foot e s y).1.2 (.inl ?_)
        rwa [add_off_zero])
    (fun h => by show _ = _; exact congrFun h (r 3)) (fun _ h => h) (fun c a h => absurd h (Nat.not_lt_zero _))

/-- the on-top function is entered at the first word of its descriptor, as it is after the registers were saved -/
theorem C82_ppc32_xcoff : Micro.Spec extra reads fun e τ => load (exec e port.ontop τ).1.mem (port.argFn τ) 4 :=
  Micro.C82_of_footprints jumpF (fun _ => C77_ppc32_xcoff_ontop) (fun e σ _ => makeF e σ) C81_ppc32_xcoff loc
end Ppc32Xcoff

end Verif.Asm
