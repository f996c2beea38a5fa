import Verif.Asm.ManyWit
import Verif.Asm.X86_64Pe
import Verif.Asm.Ppc64v1Ontop
import Verif.Asm.Ppc32XcoffOntop
import Verif.Asm.Ppc32Macho

/-! # Any number of contexts, any sequence of switches: x86_64 Windows and the PowerPC ports with function descriptors (C40) -/

namespace Verif.Asm

/-- which registers count as preserved does not matter here -/
def Extra.saved {A : Arch} {P : Port A} (X : Extra P) (l : List A.R) : Extra { P with saved := l } where
  fp := X.fp
  tk := X.tk
  null := X.null
  nn := X.nn
  mok := X.mok
  oot := X.oot
  frame := X.frame
  keep := X.keep
  tk1 := X.tk1
  tk2 := X.tk2
  oarea := X.oarea
  ok := X.ok
  told := X.told
  fresh := X.fresh

theorem MakeSpec.saved {A : Arch} {P : Port A} (h : P.MakeSpec) (l : List A.R) (hl : ∀ r ∈ l, r ∈ P.saved) : { P with saved := l }.MakeSpec := fun e σ hd => by
  obtain ⟨⟨h1, h2, h3, h4⟩, h5⟩ := h e σ hd
  exact ⟨⟨h1, h2, fun r hr => h3 r (hl r hr), h4⟩, h5⟩

/-- ports that return `transfer_t` through a result object and have a stub that does not write -/
def Extra.slotT {A : Arch} {P : Port A} {S : SlotJump P} (M : SlotMakeT S) (h4 : P.oarea = fun _ _ => False) (hN : S.K.N ≤ M.msz) (hh : M.hid + 2 * A.k ≤ M.msz)
    (hnz : S.K.nz = false) (ht : ∀ e s, (exec e M.tc s).1.mem = s.mem) : Extra P where
  fp := S.K.N
  tk := S.K.N
  null _ := False
  nn s := True
  frame := by rw [S.conv.2.1]; exact Nat.le_refl _
  keep := by rw [S.conv.2.2.1]; exact Nat.le_refl _
  tk1 := Nat.le_refl _
  tk2 := by rw [M.conv.2.2.1]; exact hN
  oarea σ a h := by rw [h4] at h; exact h.elim
  ok s T hf hs hn ht hts := by
    obtain ⟨c1, c2, c3, c4, c5, c6, c7, c8, c9, c10, c11, c12⟩ := S.conv
    rw [c1] at hf hs
    rw [c7] at hs
    rw [c4] at ht
    rw [c8] at hts
    rw [c9]
    refine ⟨fun a h1 h2 => (hf a h2).1 (ht a h1), fun a h1 h2 => ?_, hs, fun h => by rw [hnz] at h; cases h⟩
    rcases hts a h1 with h3 | h3
    · exact (hf a h2).1 h3
    · exact h3
  told e σ τ m hl hok ht hm ha a h := by
    obtain ⟨c1, c2, c3, c4, c5, c6, c7, c8, c9, c10, c11, c12⟩ := S.conv
    have hf := S.left hok hl
    rw [c1, c4] at ha
    have ha : τ.gpr S.K.to = S.K.own σ := ha
    rw [c1, c3] at hm
    have e1 : S.K.thid τ = σ.gpr S.K.h := by
      show load τ.mem (τ.gpr S.K.to + off A S.K.oH) A.k = _
      rw [ha, ← hf.h]; exact load_agree hm S.wf.oH S.wf.N
    rw [c8] at h
    rw [c7]
    show InR a (σ.gpr S.K.h) (2 * A.k)
    rw [← e1]; exact h
  fresh e σ τ _ hp ha hmem hd := by
    obtain ⟨c1, c2, c3, c4, c5, c6, c7, c8, c9, c10, c11, c12⟩ := S.conv
    obtain ⟨d1, d2, d3, d4, d5, d6⟩ := M.conv
    obtain ⟨w1, w2, w3, w4, w5, w6, w7, w8, w9, w10, w11, w12⟩ := M.sz
    have hw : M.msz ≤ 2 ^ (8 * A.k) := by have : 0 < 2 ^ M.j := Nat.two_pow_pos _; omega
    obtain ⟨c, hcc⟩ : ∃ c, c = (σ.gpr M.top &&& mask A M.j) - off A M.msz := ⟨_, rfl⟩
    obtain ⟨m1, m2, m3, m4, m5, m6, m7, mt, m8, m9⟩ := M.make e σ c hcc
    rw [m2] at ha
    rw [ha, d3] at hmem ⊢
    rw [c4] at ha
    have ha' : τ.gpr S.K.to = c := ha
    have hth : S.K.thid τ = c + off A M.hid := by
      show load τ.mem (τ.gpr S.K.to + off A S.K.oH) A.k = _
      rw [hnz] at m9
      rw [ha', ← show load (exec e P.make σ).1.mem (c + off A S.K.oH) A.k = c + off A M.hid from m9]; exact load_agree hmem w11 hw
    refine ⟨fun a h => .inl ?_, fun a h => ?_⟩
    · rw [c8] at h
      have h : InR a (S.K.thid τ) (2 * A.k) := h
      rw [hth] at h
      exact inR_off h hh hw
    · rw [Port.enter, d2] at h
      exact absurd (congrFun (ht e _) a) h

namespace X86_64Pe

def extra (cfg : Cfg) : Extra (port cfg) where
  fp := 0x120
  tk := 0x120
  null _ := False
  nn _ := True
  frame := by show 0x118 ≤ _; omega
  keep := by show 0x120 ≤ _; omega
  tk1 := by omega
  tk2 := by show 0x120 ≤ 0x150; omega
  oarea σ a h := h.elim
  ok s T hf hs hn ht hts := by
    refine ⟨fun a h1 h2 => (hf a h2).1 (ht a h1), fun a h1 h2 => ?_, hs⟩
    rcases hts a h1 with h3 | h3
    · exact (hf a h2).1 h3
    · exact h3
  told e σ τ m hl hok ht hm ha a h := by
    have hf := left_frame hok hl
    have ha : τ.gpr rdx = own σ := ha
    have hm : ∀ a, InR a (own σ) 0x120 → τ.mem a = m a := hm
    have e1 : thid τ = σ.gpr rcx := by
      show load τ.mem (τ.gpr rdx + off A 0x110) A.k = _
      rw [ha, ← hf.h]; exact load_agree hm (by decide) (by decide)
    show InR a (σ.gpr rcx) 16
    rw [← e1]; exact h
  fresh e σ τ _ hp ha hmem hdj := by
    have hsz : ((port cfg).argTop σ - ctxOf σ).toNat = 0x150 + (σ.gpr rcx).toNat % 16 := top_size σ
    have hm : exec e (port cfg).make σ = exec e (make cfg) σ := rfl
    rw [hm] at hp ha hmem
    rw [make_res] at hp ha
    rw [hsz] at hp
    have e0 : σ.gpr (port cfg).sp - off A (port cfg).mscratch = σ.gpr rsp := BitVec.sub_zero _
    rw [e0] at hp
    have hd' : ∀ a, InR a (ctxOf σ) 0x150 → ¬ InR a (σ.gpr rsp) 8 := fun a ha => hp a (inR_mono ha (by omega))
    obtain ⟨-, -, hM⟩ := make_facts cfg e σ hd'
    rw [ha] at hmem hdj ⊢
    have ha : τ.gpr rdx = ctxOf σ := ha
    have hmem : ∀ a, InR a (ctxOf σ) 0x150 → τ.mem a = (exec e (make cfg) σ).1.mem a := hmem
    have hdj : ∀ a, InR a (ctxOf σ) 0x150 → ¬ InR a (own τ) 0x118 := hdj
    have hth : thid τ = τ.gpr rdx + off A 0x140 := by
      show load τ.mem (τ.gpr rdx + off A 0x110) A.k = _
      rw [ha, ← hM.hid]; exact load_agree hmem (by decide) (by decide)
    refine ⟨fun a h => .inl ?_, fun a h => ?_⟩
    · have h : InR a (thid τ) 16 := h
      rw [hth, ha] at h
      exact inR_off h (show 0x140 + 16 ≤ 0x150 by decide) (show 0x150 ≤ 2 ^ (8 * A.k) by decide)
    · show InR a (ctxOf σ) 0x150
      obtain ⟨h1, h2⟩ := enter_ok cfg
      have hr := fin_rel (CE_ok e τ (by rw [ha]; exact hdj) hth) _ h1
      obtain ⟨s, hs⟩ : ∃ s, s = steps (I e τ).e (jumpIs cfg) (I e τ).σ := ⟨_, rfl⟩
      have hx : exec e (port cfg).jump τ = (s, s.gpr r10) := by rw [hs]; rfl
      rw [← hs] at hr
      have hsp : s.gpr rsp + -off A 8 = ctxOf σ + off A 0x118 := by
        rw [hr.reg h2.sp]
        show τ.gpr rdx + off A (0x118 + 8) + _ = _
        rw [ha, ← add_off_off, ← BitVec.sub_eq_add_neg, BitVec.add_sub_cancel]
      have hen : ((port cfg).enter e τ).1.mem = store s.mem (ctxOf σ + off A 0x118) A.k (s.gpr rbp) := by
        show (exec e (tramp cfg) (exec e (port cfg).jump τ).1).1.mem = _
        rw [hx]
        show store s.mem (s.gpr rsp + -off A 8 + off A 0) A.k (s.gpr rbp) = _
        rw [hsp, z0]
      rw [hen, hx] at h
      by_cases hh : InR a (ctxOf σ + off A 0x118) A.k
      · exact inR_off hh (by decide) (by decide)
      · exact absurd (store_out hh) h

end X86_64Pe

namespace Ppc64v1

def extraT (x : Bool) : Extra (portT x) := .slot (M x) rfl (by revert x; decide) (by revert x; decide)

def extra (x : Bool) : Extra (port x) := (extraT x).saved (port x).saved

theorem jumpF (x : Bool) : (port x).JumpSpec := (J x false _ (on_mem x)).jumpSpec

theorem makeF (x : Bool) : (port x).MakeSpec := fun e σ h => by
  obtain ⟨⟨h1, h2, h3, h4⟩, h5⟩ := C76_ppc64v1_make x e σ h
  exact ⟨⟨h1, h2, fun r hr => h3 r (List.mem_cons_of_mem _ hr), h4⟩, h5⟩

end Ppc64v1

namespace Ppc32Xcoff

theorem port_eq : { portT with saved := port.saved } = port := rfl

def extraT : Extra portT := .slot M rfl (by decide) (by decide)

def extra : Extra port := cast (congrArg Extra port_eq) (Extra.saved (P := portT) extraT port.saved)

theorem jumpF : port.JumpSpec := (J false _ on_mem).jumpSpec

theorem makeF : port.MakeSpec := port_eq ▸ MakeSpec.saved C77_ppc32_xcoff_make port.saved fun _ h => List.mem_cons_of_mem _ h

end Ppc32Xcoff

def Ppc32Macho.extra : Extra (Ppc32Macho.prt 2) := .slotT Ppc32Macho.M rfl (by decide) (by decide) rfl fun _ _ => rfl

/-- **C40** -/
theorem C40_x86_64_pe (cfg : X86_64Pe.Cfg) : Many.Spec (X86_64Pe.extra cfg) fun _ τ => (X86_64Pe.port cfg).argFn τ :=
  Many.C40_of_specs _ (X86_64Pe.C62_x86_64_pe_jump cfg) (X86_64Pe.C62_x86_64_pe_ontop cfg) (X86_64Pe.C62_x86_64_pe_make cfg)
/-- PowerPC 64 with function descriptors (`x`: AIX, otherwise ELFv1), without the floating point registers (see `C76_ppc64v1_fprs_violated`) and the TOC pointer -/
theorem C40_ppc64v1 (x : Bool) : Many.Spec (Ppc64v1.extra x) fun e τ => load (exec e (Ppc64v1.port x).ontop τ).1.mem ((Ppc64v1.port x).argFn τ) 8 :=
  Many.C40_of_specs _ (Ppc64v1.jumpF x) (Ppc64v1.C76_ppc64v1_ontop x) (Ppc64v1.makeF x)
/-- PowerPC 32 AIX, without r13 (see `C77_ppc32_xcoff_r13_violated`) and the TOC pointer -/
theorem C40_ppc32_xcoff : Many.Spec Ppc32Xcoff.extra fun e τ => load (exec e Ppc32Xcoff.port.ontop τ).1.mem (Ppc32Xcoff.port.argFn τ) 4 :=
  Many.C40_of_specs _ Ppc32Xcoff.jumpF Ppc32Xcoff.C77_ppc32_xcoff_ontop Ppc32Xcoff.makeF
/-- PowerPC 32 Darwin, with stack pointers that are only multiples of 4 (see `C78_ppc32_macho_misaligned`) -/
theorem C40_ppc32_macho : Many.Spec Ppc32Macho.extra fun e _ => e Ppc32Macho.Lab.tail :=
  Many.C40_of_specs _ (Ppc32Macho.S 2).jumpSpec (fun e σ τ m h1 h2 h3 => by
    obtain ⟨t1, t2⟩ := (Ppc32Macho.S 2).ontopSpecTo e σ τ m h1 h2 h3
    exact ⟨t1.trans (BitVec.add_zero _), t2⟩) Ppc32Macho.C78_ppc32_macho_make

namespace Many

def c_x86_64_pe (cfg : X86_64Pe.Cfg) : Calls (X86_64Pe.extra cfg) :=
  .regs X86_64Pe.rdx X86_64Pe.rcx X86_64Pe.rcx 0x118 4 0x150 (by decide) (by show 0x120 ≤ 0x400 ∧ 0x118 ≤ 0x400 ∧ 0 + 8 ≤ 0x400 ∧ 0x150 ≤ 0x400; decide)
    (fun _ h => h.elim) (by show X86_64Pe.rdx ≠ X86_64Pe.rsp ∧ X86_64Pe.rcx ≠ X86_64Pe.rsp ∧ _; decide)
    rfl rfl rfl (fun _ _ h => ⟨by decide, inR_mono h (by decide)⟩) (fun _ _ => trivial) (by decide)
    (fun e σ => X86_64Pe.make_res cfg e σ) ⟨X86_64Pe.rbx, by simp [X86_64Pe.port], by show X86_64Pe.rbx ≠ X86_64Pe.rsp ∧ _; decide⟩

def c_ppc64v1 (x : Bool) : Calls (Ppc64v1.extra x) :=
  .regs (Ppc64v1.r 4) (Ppc64v1.r 3) (Ppc64v1.r 3) 184 4 248 (by decide) (by show 184 ≤ 0x400 ∧ 184 ≤ 0x400 ∧ 0 + 8 ≤ 0x400 ∧ 248 ≤ 0x400; decide)
    (fun a h => slot_null (by decide) a h.2) (by show Ppc64v1.r 4 ≠ Ppc64v1.r 1 ∧ Ppc64v1.r 3 ≠ Ppc64v1.r 1 ∧ _; decide) rfl rfl rfl (fun _ _ h => ⟨by decide, inR_mono h (by decide)⟩)
    (fun _ h _ => h.resolve_left (by decide)) (by decide) (fun e σ => ((Ppc64v1.M x).make e σ _ rfl).2.1) ⟨Ppc64v1.r 14, by simp [Ppc64v1.prt], by show Ppc64v1.r 14 ≠ Ppc64v1.r 1 ∧ _; decide⟩
    (q := [Ppc64v1.r 5]) (hq := by simp [Ppc64v1.prt]; decide)

def c_ppc32_xcoff : Calls Ppc32Xcoff.extra :=
  .regs (Ppc32Xcoff.r 4) (Ppc32Xcoff.r 3) (Ppc32Xcoff.r 3) 256 4 288 (by decide) (by show 256 ≤ 0x400 ∧ 256 ≤ 0x400 ∧ 0 + 4 ≤ 0x400 ∧ 288 ≤ 0x400; decide)
    (fun a h => slot_null (by decide) a h.2) (by show Ppc32Xcoff.r 4 ≠ Ppc32Xcoff.r 1 ∧ Ppc32Xcoff.r 3 ≠ Ppc32Xcoff.r 1 ∧ _; decide) rfl rfl rfl (fun _ _ h => ⟨by decide, inR_mono h (by decide)⟩)
    (fun _ h _ => h.resolve_left (by decide)) (by decide) (fun e σ => (Ppc32Xcoff.M.make e σ _ rfl).2.1) ⟨Ppc32Xcoff.r 14, by simp [Ppc32Xcoff.prt], by show Ppc32Xcoff.r 14 ≠ Ppc32Xcoff.r 1 ∧ _; decide⟩
    (q := [Ppc32Xcoff.r 5]) (hq := by simp [Ppc32Xcoff.prt]; decide)

def c_ppc32_macho : Calls Ppc32Macho.extra :=
  .regs (Ppc32Macho.r 4) (Ppc32Macho.r 3) (Ppc32Macho.r 3) 244 4 336 (by decide) (by show 244 ≤ 0x400 ∧ 244 ≤ 0x400 ∧ 0 + 4 ≤ 0x400 ∧ 336 ≤ 0x400; decide)
    (fun _ h => h.elim) (by show Ppc32Macho.r 4 ≠ Ppc32Macho.r 1 ∧ Ppc32Macho.r 3 ≠ Ppc32Macho.r 1 ∧ _; decide) rfl rfl rfl (fun _ _ h => ⟨by decide, inR_mono h (by decide)⟩)
    (fun _ _ => trivial) (by decide) (fun e σ => (Ppc32Macho.M.make e σ _ rfl).2.1) ⟨Ppc32Macho.r 14, by simp [Ppc32Macho.prt], by show Ppc32Macho.r 14 ≠ Ppc32Macho.r 1 ∧ _; decide⟩

example (cfg : X86_64Pe.Cfg) := inhabited (X86_64Pe.C62_x86_64_pe_make cfg) (c_x86_64_pe cfg)
example (x : Bool) := inhabited (Ppc64v1.makeF x) (c_ppc64v1 x)
example := inhabited Ppc32Xcoff.makeF c_ppc32_xcoff
example := inhabited Ppc32Macho.C78_ppc32_macho_make c_ppc32_macho

end Many

end Verif.Asm
