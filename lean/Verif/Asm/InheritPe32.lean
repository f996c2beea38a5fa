import Verif.Asm.I386Pe
import Verif.Asm.Inherit

/-! # C65 for i386 Windows -/

namespace Verif.Asm.I386Pe

/-- **C65**, i386 Windows, without `BOOST_USE_TSX`: the context function starts with the control words its creator had.  `l` is the chain of exception handlers of the caller of
`make_fcontext`, which must not overlap the new context (see C67). -/
theorem C65_i386_pe_inherits (cfg : Cfg) (ht : cfg.tsx = false) (N : Nat) (e : Env A) (σ τ : St A) (c : A.W) (l : List A.W) (hN : l.length ≤ N)
    (hc : c = (port cfg N).resM (exec e (port cfg N).make σ).1) (h : MakeOk σ c l)
    (ha : (port cfg N).argF τ = c) (hmem : ∀ a, InR a c (port cfg N).mkeep → τ.mem a = (exec e (port cfg N).make σ).1.mem a)
    (hdj : ∀ a, InR a c (port cfg N).mkeep → ¬ InR a ((port cfg N).fctx τ) (port cfg N).frame) (f : A.F) (hf : f ∈ [mxcsr, x87cw]) :
    ((port cfg N).enter e τ).1.fpr f = σ.fpr f := by
  have hres : (port cfg N).resM (exec e (port cfg N).make σ).1 = ctxOf σ := make_res cfg N e σ
  rw [hres] at hc
  subst hc
  obtain ⟨s0, hs0, hM⟩ := h.facts cfg N e hN
  have hm : exec e (port cfg N).make σ = (s0, s0.gpr eip) := hs0
  rw [hm] at hmem
  obtain ⟨s, E⟩ := enter_facts cfg e σ s0 τ l hM ha hmem hdj
  have en : (port cfg N).enter e τ = (s, arg σ 0xc) := E.en
  rw [en]
  simp only [List.mem_cons, List.not_mem_nil, or_false] at hf
  rcases hf with rfl | rfl
  · exact E.mx ht
  · exact E.cw ht

/-- **C65**, i386 Windows, with `BOOST_USE_TSX`: a switch, an on-top call and a first activation leave the control words as they are. -/
theorem C65_i386_pe_tsx (cfg : Cfg) (ht : cfg.tsx = true) (N : Nat) (e : Env A) (τ : St A) (f : A.F) (hf : f ∈ [mxcsr, x87cw]) :
    (exec e (port cfg N).jump τ).1.fpr f = τ.fpr f ∧ (exec e (port cfg N).ontop τ).1.fpr f = τ.fpr f ∧ ((port cfg N).enter e τ).1.fpr f = τ.fpr f := by
  simp only [List.mem_cons, List.not_mem_nil, or_false] at hf
  have h1 : ∀ s : St A, (steps e (jumpIs cfg) s).fpr f = s.fpr f := fpr_keep e _ f (by
      obtain ⟨_⟩ := cfg <;> subst ht <;> rcases hf with rfl | rfl <;> decide)
  have h2 : ∀ s : St A, (steps e (ontopIs cfg) s).fpr f = s.fpr f := fpr_keep e _ f (by
      obtain ⟨_⟩ := cfg <;> subst ht <;> rcases hf with rfl | rfl <;> decide)
  have h3 : ∀ s : St A, (steps e (trampIs cfg) s).fpr f = s.fpr f := fpr_keep e _ f (by
      obtain ⟨_⟩ := cfg <;> subst ht <;> rcases hf with rfl | rfl <;> decide)
  exact ⟨h1 τ, h2 τ, (h3 _).trans (h1 τ)⟩

end Verif.Asm.I386Pe
