import Verif.Asm.Inherit
import Verif.Asm.X86_64Pe
import Verif.Asm.S390x
import Verif.Asm.Ppc32
import Verif.Asm.Ppc32b
import Verif.Asm.Ppc32Macho
import Verif.Asm.Ppc32XcoffFirst

/-! # The control words a new context starts with (C65), further ports -/

namespace Verif.Asm

/-- the first activation takes register `q` from offset `o` of the context's data -/
theorem SlotMake.first {A : Arch} {P : Port A} {S : SlotJump P} (M : SlotMake S) {q : A.F} {o : Nat} (h : ((S.K.CE M.msz M.hid M.mw).fin M.ei M.e1).fpr q = .ld 1 o)
    (ho : o + A.fb q ≤ M.msz) {e : Env A} {σ τ : St A} (ha : P.argF τ = P.resM (exec e P.make σ).1)
    (hmem : ∀ a, InR a (P.argF τ) P.mkeep → τ.mem a = (exec e P.make σ).1.mem a)
    (hd : ∀ a, InR a (P.argF τ) P.mkeep → ¬ InR a (P.fctx τ) P.frame) :
    (P.enter e τ).1.fpr q = load (exec e P.make σ).1.mem ((σ.gpr M.top &&& mask A M.j) - off A M.msz + off A o) (A.fb q) := by
  obtain ⟨s, hx, hr, hto⟩ := M.entry ha hmem hd
  rw [hx]
  show s.fpr q = _
  have hto' : P.argF τ = τ.gpr S.K.to := by obtain ⟨c1, c2, c3, c4, -⟩ := S.conv; rw [c4]
  rw [hr.fpr, h]
  show load τ.mem (τ.gpr S.K.to + off A o) (A.fb q) = _
  rw [← hto]
  rw [hto'] at hmem
  obtain ⟨d1, d2, d3, d4, d5, d6⟩ := M.conv
  rw [d3] at hmem
  have hw : M.msz ≤ 2 ^ (8 * A.k) := by have := M.sz.1; have : 0 < 2 ^ M.j := Nat.two_pow_pos _; omega
  exact load_agree hmem ho hw

theorem SlotMakeT.first {A : Arch} {P : Port A} {S : SlotJump P} (M : SlotMakeT S) {q : A.F} {o : Nat} (h : ((S.K.CE M.msz M.hid M.mw).fin M.ei M.e1).fpr q = .ld 1 o)
    (ho : o + A.fb q ≤ M.msz) {e : Env A} {σ τ : St A} (ha : P.argF τ = P.resM (exec e P.make σ).1)
    (hmem : ∀ a, InR a (P.argF τ) P.mkeep → τ.mem a = (exec e P.make σ).1.mem a)
    (hd : ∀ a, InR a (P.argF τ) P.mkeep → ¬ InR a (P.fctx τ) P.frame) :
    (P.enter e τ).1.fpr q = load (exec e P.make σ).1.mem ((σ.gpr M.top &&& mask A M.j) - off A M.msz + off A o) (A.fb q) := by
  obtain ⟨s, hx, hr, hto, -⟩ := M.entry ha hmem hd
  rw [hx]
  show s.fpr q = _
  have hto' : P.argF τ = τ.gpr S.K.to := by obtain ⟨c1, c2, c3, c4, -⟩ := S.conv; rw [c4]
  rw [hr.fpr, h]
  show load τ.mem (τ.gpr S.K.to + off A o) (A.fb q) = _
  rw [← hto]
  rw [hto'] at hmem
  obtain ⟨d1, d2, d3, d4, d5, d6⟩ := M.conv
  rw [d3] at hmem
  have hw : M.msz ≤ 2 ^ (8 * A.k) := by have := M.sz.1; have : 0 < 2 ^ M.j := Nat.two_pow_pos _; omega
  exact load_agree hmem ho hw

theorem SymMake.first {A : Arch} {P : Port A} {S : SymPort P} (M : SymMake S) {q : A.F} {o : Nat} (h : ((S.K.C M.msz M.mw).fin (S.ji ++ M.ti) M.e1).fpr q = .ld 1 o)
    (ho : o + A.fb q ≤ M.msz) {e : Env A} {σ τ : St A} (ha : P.argF τ = P.resM (exec e P.make σ).1)
    (hmem : ∀ a, InR a (P.argF τ) P.mkeep → τ.mem a = (exec e P.make σ).1.mem a)
    (hd : ∀ a, InR a (P.argF τ) P.mkeep → ¬ InR a (P.fctx τ) P.frame) :
    (P.enter e τ).1.fpr q = load (exec e P.make σ).1.mem ((σ.gpr M.top &&& mask A M.j) - off A M.msz + off A o) (A.fb q) := by
  obtain ⟨c, hcc⟩ : ∃ c, c = (σ.gpr M.top &&& mask A M.j) - off A M.msz := ⟨_, rfl⟩
  obtain ⟨-, m2, -⟩ := M.make e σ c hcc
  rw [m2] at ha
  rw [ha] at hmem hd
  obtain ⟨s, hx, hr, -⟩ := M.entry e σ τ c hcc ha hmem hd
  rw [hx, ← hcc]
  show s.fpr q = _
  have hto' : P.argF τ = τ.gpr S.K.to := by obtain ⟨c1, c2, c3, c4, -⟩ := S.conv; rw [c4]
  rw [hr.fpr, h]
  show load τ.mem (τ.gpr S.K.to + off A o) (A.fb q) = _
  rw [← hto', ha]
  obtain ⟨d1, d3, -⟩ := M.conv
  rw [d3] at hmem
  have hw : M.msz ≤ 2 ^ (8 * A.k) := by have := M.sz.1; have : 0 < 2 ^ M.j := Nat.two_pow_pos _; omega
  exact load_agree hmem ho hw

namespace X86_64Pe

/-- **C65**, Windows, without `BOOST_USE_TSX` -/
theorem C65_x86_64_pe_inherits (cfg : Cfg) (ht : cfg.tsx = false) : (port cfg).Inherits [mxcsr, x87cw] := by
  intro e σ hd τ ha hmem hdj f hf
  have hs0 : σ.gpr rsp - off A 0 = σ.gpr rsp := BitVec.sub_zero _
  rw [ha] at hmem hdj
  obtain ⟨-, -, -, -, h⟩ := C62_x86_64_pe_first_activation cfg e σ τ _ rfl (fun a h => by rw [← hs0]; exact hd a h) ha hmem hdj
  simp only [List.mem_cons, List.not_mem_nil, or_false] at hf
  rcases hf with rfl | rfl
  · exact (h ht).1
  · exact (h ht).2

/-- **C65**, Windows, with `BOOST_USE_TSX` -/
theorem C65_x86_64_pe_tsx (cfg : Cfg) (ht : cfg.tsx = true) : (port cfg).Passes [mxcsr, x87cw] := by
  intro e τ f hf
  simp only [List.mem_cons, List.not_mem_nil, or_false] at hf
  have h1 : ∀ s : St A, (steps e (jumpIs cfg) s).fpr f = s.fpr f := fpr_keep e _ f (by
      obtain ⟨_⟩ := cfg <;> subst ht <;> rcases hf with rfl | rfl <;> decide)
  have h2 : ∀ s : St A, (steps e (ontopIs cfg) s).fpr f = s.fpr f := fpr_keep e _ f (by
      obtain ⟨_⟩ := cfg <;> subst ht <;> rcases hf with rfl | rfl <;> decide)
  have h3 : ∀ s : St A, (steps e (trampIs cfg) s).fpr f = s.fpr f := fpr_keep e _ f (by
      obtain ⟨_⟩ := cfg <;> subst ht <;> rcases hf with rfl | rfl <;> decide)
  have h4 : ∀ s : St A, (steps e (makeIs cfg) s).fpr f = s.fpr f := fpr_keep e _ f (by
      obtain ⟨_⟩ := cfg <;> subst ht <;> rcases hf with rfl | rfl <;> decide)
  exact ⟨h1 τ, h2 τ, (h3 _).trans (h1 τ), h4 τ⟩

end X86_64Pe

namespace S390x

theorem first_fpc : ((S.K.CE M.msz M.hid M.mw).fin M.ei M.e1).fpr fpc = .ld 1 0xa0 := by decide +kernel

/-- **C65**, s390x: the floating point control register -/
theorem C65_s390x_inherits : port.Inherits [fpc] := by
  intro e σ _ τ ha hmem hdj f hf
  simp only [List.mem_cons, List.not_mem_nil, or_false] at hf
  subst hf
  rw [M.first first_fpc (by decide) ha hmem hdj]
  obtain ⟨c, hc⟩ : ∃ c, c = (σ.gpr M.top &&& mask A M.j) - off A M.msz := ⟨_, rfl⟩
  rw [← hc]
  have hm : (exec e port.make σ).1.mem = store (store (store (store σ.mem (c + off A 0x10) A.k (off A 0)) (c + off A 0xa0) (A.fb fpc) (σ.fpr fpc))
      (c + off A 0xa8) A.k (σ.gpr (r 4))) (c + off A 0x58) A.k (e Lab.finish) := by
    rw [hc, BitVec.sub_eq_add_neg]; rfl
  rw [hm, load_store_off (by decide) (by decide) (by decide), load_store_off (by decide) (by decide) (by decide), load_store_same _ _ _ _ (by decide)]

end S390x

namespace Ppc32

theorem first_fpscr : ((S.K.CE M.msz M.hid M.mw).fin M.ei M.e1).fpr fpscr = .ld 1 8 := by decide +kernel

/-- **C65**, PowerPC 32: the floating point status and control register -/
theorem C65_ppc32_inherits : port.Inherits [fpscr] := by
  intro e σ _ τ ha hmem hdj q hq
  simp only [List.mem_cons, List.not_mem_nil, or_false] at hq
  subst hq
  rw [M.first first_fpscr (by decide) ha hmem hdj]
  obtain ⟨c, hc⟩ : ∃ c, c = (σ.gpr M.top &&& mask A M.j) - off A M.msz := ⟨_, rfl⟩
  rw [← hc]
  have hfin : e Lab.l1 + (e Lab.finish - e Lab.l1) = e Lab.finish := by generalize e Lab.l1 = x; generalize e Lab.finish = y; grind
  have hm : (exec e port.make σ).1.mem = store (store (store (store (store σ.mem (c + off A 16) A.k (σ.gpr (r 5))) (c + off A 240) A.k (off A 0))
        (c + off A 8) (A.fb (f 0)) ((σ.fpr fpscr).setWidth _)) (c + off A 4) A.k (c + off A 248)) (c + off A 244) A.k (e Lab.finish) := by
    rw [← hfin, hc, BitVec.sub_eq_add_neg]; rfl
  rw [hm, load_store_off (by decide) (by decide) (by decide), load_store_off (by decide) (by decide) (by decide)]
  show load (store _ _ (A.fb (f 0)) _) _ (A.fb (f 0)) = _
  rw [load_store_same _ _ _ _ (by decide)]
  exact BitVec.setWidth_eq _

end Ppc32

namespace Ppc32b

theorem first_fpscr : ((S.K.C M.msz M.mw).fin (S.ji ++ M.ti) M.e1).fpr fpscr = .ld 1 8 := by decide +kernel

/-- **C65**, PowerPC 32 (BSD): the floating point status and control register -/
theorem C65_ppc32b_inherits : port.Inherits [fpscr] := by
  intro e σ _ τ ha hmem hdj q hq
  simp only [List.mem_cons, List.not_mem_nil, or_false] at hq
  subst hq
  rw [M.first first_fpscr (by decide) ha hmem hdj]
  obtain ⟨c, hc⟩ : ∃ c, c = (σ.gpr M.top &&& mask A M.j) - off A M.msz := ⟨_, rfl⟩
  rw [← hc]
  have hfin : e Lab.l1 + (e Lab.finish - e Lab.l1) = e Lab.finish := by generalize e Lab.l1 = x; generalize e Lab.finish = y; grind
  have htr : e Lab.l1 + (e Lab.trampoline - e Lab.l1) = e Lab.trampoline := by generalize e Lab.l1 = x; generalize e Lab.trampoline = y; grind
  have hm : (exec e port.make σ).1.mem = store (store (store (store (store σ.mem (c + off A 248) A.k (σ.gpr (r 5))) (c + off A 240) A.k (off A 0))
        (c + off A 8) (A.fb (f 0)) ((σ.fpr fpscr).setWidth _)) (c + off A 16) A.k (e Lab.trampoline)) (c + off A 244) A.k (e Lab.finish) := by
    rw [← hfin, ← htr, hc, BitVec.sub_eq_add_neg]; rfl
  rw [hm, load_store_off (by decide) (by decide) (by decide), load_store_off (by decide) (by decide) (by decide)]
  show load (store _ _ (A.fb (f 0)) _) _ (A.fb (f 0)) = _
  rw [load_store_same _ _ _ _ (by decide)]
  exact BitVec.setWidth_eq _

end Ppc32b

namespace Ppc32Macho

theorem first_fpscr : (((S 2).K.CE M.msz M.hid M.mw).fin M.ei M.e1).fpr fpscr = .ld 1 144 := by decide +kernel

/-- **C65**, 32-bit PowerPC Darwin: the floating point status and control register -/
theorem C65_ppc32_macho_inherits : (prt 2).Inherits [fpscr] := by
  intro e σ _ τ ha hmem hdj q hq
  simp only [List.mem_cons, List.not_mem_nil, or_false] at hq
  subst hq
  rw [M.first first_fpscr (by decide) ha hmem hdj]
  obtain ⟨c, hc⟩ : ∃ c, c = (σ.gpr M.top &&& mask A M.j) - off A M.msz := ⟨_, rfl⟩
  rw [← hc]
  have hfin : e Lab.l1 + (e Lab.finish - e Lab.l1) = e Lab.finish := by generalize e Lab.l1 = x; generalize e Lab.finish = y; grind
  have htr : e Lab.l1 + (e Lab.trampoline - e Lab.l1) = e Lab.trampoline := by generalize e Lab.l1 = x; generalize e Lab.trampoline = y; grind
  have hm : (exec e (prt 2).make σ).1.mem = store (store (store (store (store (store σ.mem (c + off A 224) A.k (σ.gpr (r 5))) (c + off A 244) A.k (off A 0)) (c + off A 144) (A.fb (f 0))
      ((σ.fpr fpscr).setWidth _)) (c + off A 228) A.k (c + off A 252)) (c + off A 240) A.k (e Lab.trampoline)) (c + off A 236) A.k (e Lab.finish) := by
    rw [← hfin, ← htr, hc, BitVec.sub_eq_add_neg]; rfl
  rw [hm, load_store_off (by decide) (by decide) (by decide), load_store_off (by decide) (by decide) (by decide), load_store_off (by decide) (by decide) (by decide)]
  show load (store _ _ (A.fb (f 0)) _) _ (A.fb (f 0)) = _
  rw [load_store_same _ _ _ _ (by decide)]
  exact BitVec.setWidth_eq _

end Ppc32Macho

namespace Ppc32Xcoff

theorem first_fpscr : (((K true).CE 288 0 (0, 0)).fin (jumpPreIs ++ jumpZIs) e1).fpr fpscr = .ld 1 248 := by decide +kernel

theorem make_resT (e : Env A) (σ : St A) : portT.resM (exec e make σ).1 = (σ.gpr (r 3) &&& mask A 4) - off A 288 := make_res e σ

theorem first_of (e : Env A) (σ τ : St A) (c : A.W) (hcc : c = (σ.gpr (r 3) &&& mask A 4) - off A 288) (ha : portT.argF τ = c)
    (h2 : ∀ a, InR a c 288 → τ.mem a = (exec e make σ).1.mem a) (h3 : ∀ a, InR a c 288 → ¬ InR a (portT.fctx τ) 256) :
    (exec e portT.jump τ).1.fpr fpscr = load (exec e make σ).1.mem (c + off A 248) (A.fb fpscr) := by
  have ha : τ.gpr (r 4) = c := ha
  have hok := ce_ok (e := e) (τ := τ) (by rw [ha]; exact h3)
  have hr := fin_rel hok _ e1
  have w := make_words e σ _ hcc
  have hth : (K true).thid τ = 0#_ := by
    rw [← w.2.2.1, ← ha]; rw [← ha] at h2; exact load_agree h2 (by decide) (by decide)
  have hx := M.erun e τ hok (fun _ => hth)
  have hj : (exec e portT.jump τ).1 = steps e (jumpPreIs ++ jumpZIs) τ := congrArg Prod.fst hx
  have g : (steps e (jumpPreIs ++ jumpZIs) τ).fpr fpscr = load τ.mem (τ.gpr (r 4) + off A 248) (A.fb fpscr) :=
    (hr.fpr fpscr).trans (by rw [first_fpscr]; rfl)
  rw [hj, g, ha]
  exact load_agree (o := 248) (n := 8) h2 (by decide) (by decide)

theorem enterT (e : Env A) (τ : St A) : portT.enter e τ = exec e portT.jump τ := rfl

/-- **C65**, 32-bit AIX (defect): the floating point status and control register a new context starts with is taken from bytes 248-255 of the context's data, of which `make_fcontext`
does not write the last four; these are the ones `mtfsf` uses (the low half of a big-endian double word). -/
theorem C65_ppc32_xcoff_uninitialised (e : Env A) (σ τ : St A) (c : A.W) (hc : c = portT.resM (exec e portT.make σ).1) (ha : portT.argF τ = c)
    (hmem : ∀ a, InR a c portT.mkeep → τ.mem a = (exec e portT.make σ).1.mem a) (hdj : ∀ a, InR a c portT.mkeep → ¬ InR a (portT.fctx τ) portT.frame) :
    (portT.enter e τ).1.fpr fpscr = load (exec e portT.make σ).1.mem (c + off A 248) 8 ∧ ∀ a, InR a (c + off A 252) 4 → (exec e portT.make σ).1.mem a = σ.mem a := by
  have hcc : c = (σ.gpr (r 3) &&& mask A 4) - off A 288 := hc.trans (make_resT e σ)
  constructor
  · rw [enterT]; exact first_of e σ τ c hcc ha hmem hdj
  · intro a h
    have hm := make_mem e σ c hcc
    have out : ∀ o, o + A.k ≤ 252 ∨ 252 + 4 ≤ o → o + A.k ≤ 288 → ¬ InR a (c + off A o) A.k := by
      intro o ho h1 h2
      have hb : 288 ≤ 2 ^ (8 * A.k) := by decide
      exact inR_disj h2 (Nat.le_trans h1 hb) (Nat.le_trans (show 252 + 4 ≤ 288 by decide) hb) ho h
    rw [show portT.make = make from rfl, hm]
    rw [store_out (out 8 (by decide) (by decide)), store_out (out 248 (by decide) (by decide)), store_out (out 244 (by decide) (by decide)),
      store_out (out 256 (by decide) (by decide)), store_out (out 20 (by decide) (by decide)), store_out (out 240 (by decide) (by decide))]

/-- **C65**, 32-bit AIX (defect): therefore new contexts do not inherit the register. -/
theorem C65_ppc32_xcoff_violated : ¬ portT.Inherits [fpscr] := by
  intro h
  obtain ⟨e⟩ : Nonempty (Env A) := ⟨fun _ => 0#_⟩
  obtain ⟨σ, h0, τ, h1, h2, h3⟩ := M.inhabited e (.inl rfl) (show (K true).N ≤ 0x800 by decide) (show (K true).fr ≤ (K true).N by decide) rfl (show r 3 ≠ r 1 by decide)
    (show r 4 ≠ r 1 by decide) (show 288 ≤ 0x800 by decide) (show r 4 ≠ r 3 by decide)
  obtain ⟨c, hc⟩ : ∃ c, c = (σ.gpr (r 3) &&& mask A 4) - off A 288 := ⟨_, rfl⟩
  obtain ⟨σ', hσ⟩ : ∃ σ' : St A, σ' = { σ with fpr := fun q => σ.fpr q + 1#_ } := ⟨_, rfl⟩
  have hg : σ'.gpr = σ.gpr := by rw [hσ]
  have hmm : σ'.mem = σ.mem := by rw [hσ]
  have hm : (exec e make σ').1.mem = (exec e make σ).1.mem := by
    rw [make_mem e σ' c (by rw [hg]; exact hc), make_mem e σ c hc, hg, hmm]
  have hr : portT.resM (exec e portT.make σ').1 = portT.resM (exec e portT.make σ).1 := by
    rw [show portT.make = make from rfl, make_resT, make_resT, hg]
  have a := h e σ h0 τ h1 h2 h3 fpscr (by simp)
  have b := h e σ' (by
    rw [hr]
    have : portT.argTop σ' = portT.argTop σ := by show σ'.gpr (r 3) = σ.gpr (r 3); rw [hg]
    rw [this, hg]; exact h0) τ (by rw [hr]; exact h1) (by intro x hx; rw [show (exec e portT.make σ').1.mem = (exec e portT.make σ).1.mem from hm]; exact h2 x hx) h3 fpscr (by simp)
  rw [a, hσ] at b
  have b : σ.fpr fpscr = σ.fpr fpscr + 1#(8 * A.fb fpscr) := b
  obtain ⟨x, hx⟩ : ∃ x : BitVec 64, x = σ.fpr fpscr := ⟨_, rfl⟩
  rw [← hx] at b
  have b : x = x + 1#64 := b
  have : (1#64 : BitVec 64) = 0#64 := by
    have h1 : x + 1#64 - x = 0#64 := by rw [← b, BitVec.sub_self]
    rw [BitVec.add_comm, BitVec.add_sub_cancel] at h1; exact h1
  exact absurd this (by decide)

end Ppc32Xcoff

/-! ### The hypotheses of `Inherits` can be met -/

example (e : Env S390x.A) := S390x.M.inhabited e (.inr rfl) (by decide) (by decide) rfl (by decide) (by decide) (by decide) (by decide)
example (e : Env Ppc32.A) := Ppc32.M.inhabited e (.inl rfl) (by decide) (by decide) rfl (by decide) (by decide) (by decide) (by decide)
example (e : Env Ppc32b.A) := Ppc32b.M.inhabited e (.inl rfl) (by decide) (by decide) rfl (by decide) (by decide) (by decide)
example (e : Env Ppc32Macho.A) := Ppc32Macho.M.inhabited e (.inl rfl) (by decide) (by decide) rfl (by decide) (by decide) (by decide) (by decide)

end Verif.Asm
