import Verif.Asm.FootSym
import Verif.Asm.MicroSpec
import Verif.Asm.ManyPorts
import Verif.Asm.ManyMacho
import Verif.Asm.ManyMore
import Verif.Asm.ManyWin

/-! # What the routines access, and switches instruction by instruction: x86_64 (C81, C82) -/

namespace Verif.Asm

section
variable {A : Arch}

theorem fin_rd3 {C : SCfg A} {I : Itp A} (h : I.Ok C) (is : List (Instr A)) (hs : (C.run is SSt.init).isSome = true) (h3 : ∀ i, C.rd (i + 3) = 0) {a : A.W}
    (ha : accs .rd I.e is I.σ a) : InR a (I.β 0) (C.rd 0) ∨ InR a (I.β 1) (C.rd 1) ∨ InR a (I.β 2) (C.rd 2) := by
  obtain ⟨i, hi⟩ := fin_rd h is hs ha
  match i, hi with
  | 0, hi => exact .inl hi
  | 1, hi => exact .inr (.inl hi)
  | 2, hi => exact .inr (.inr hi)
  | i + 3, hi => rw [h3] at hi; exact absurd hi (Nat.not_lt_zero _)

theorem fin_wr3 {C : SCfg A} {I : Itp A} (h : I.Ok C) (is : List (Instr A)) (hs : (C.run is SSt.init).isSome = true) (h3 : ∀ i, (C.wr (i + 3)).2 = 0) {a : A.W}
    (ha : accs .wr I.e is I.σ a) : ∃ x ∈ (C.fin is hs).log, x.1 = 0 ∧ InR a (I.β 0 + off A (C.wr 0).1) ((C.wr 0).2 - (C.wr 0).1) ∨
      x.1 = 1 ∧ InR a (I.β 1 + off A (C.wr 1).1) ((C.wr 1).2 - (C.wr 1).1) ∨ x.1 = 2 ∧ InR a (I.β 2 + off A (C.wr 2).1) ((C.wr 2).2 - (C.wr 2).1) := by
  obtain ⟨x, hx, hi⟩ := fin_wr h is hs ha
  refine ⟨x, hx, ?_⟩
  obtain ⟨i, y⟩ := x
  match i, hi with
  | 0, hi => exact .inl ⟨rfl, hi⟩
  | 1, hi => exact .inr (.inl ⟨rfl, hi⟩)
  | 2, hi => exact .inr (.inr ⟨rfl, hi⟩)
  | i + 3, hi => rw [h3] at hi; exact absurd hi (by rw [Nat.zero_sub]; exact Nat.not_lt_zero _)

/-- bases: 0 own frame (`N` bytes written, `F` read), 1 frame of the target (`F` bytes read, `mw` written) -/
def CK (A : Arch) (sp to : A.R) (N F : Nat) (mw : Nat × Nat) : SCfg A where
  known := [(.reg sp, 0, off A N), (.reg to, 1, 0#_)]
  wr i := if i = 0 then (0, N) else if i = 1 then mw else (0, 0)
  rd i := if i ≤ 1 then F else 0
  D i j := i == 0 && j == 1

def IK (sp to : A.R) (N : Nat) (e : Env A) (σ : St A) : Itp A where
  σ := σ
  β i := if i = 0 then σ.gpr sp - off A N else σ.gpr to
  e := e

theorem IK_ok {sp to : A.R} {N F : Nat} {mw : Nat × Nat} (e : Env A) (σ : St A) (h1 : N ≤ 2 ^ (8 * A.k)) (h2 : F ≤ 2 ^ (8 * A.k)) (h3 : mw.2 ≤ F)
    (hd : ∀ a, InR a (σ.gpr to) F → ¬ InR a (σ.gpr sp - off A N) N) : (IK sp to N e σ).Ok (CK A sp to N F mw) where
  known := by
    intro x hx
    simp only [CK, List.mem_cons, List.not_mem_nil, or_false] at hx
    rcases hx with rfl | rfl
    · exact (sub_add_off _ _).symm
    · exact (BitVec.add_zero _).symm
  disj := by
    intro i j hD
    simp only [CK, Bool.and_eq_true, beq_iff_eq] at hD
    obtain ⟨rfl, rfl⟩ := hD
    intro a ha hx
    have ha : InR a (σ.gpr sp - off A N + off A 0) N := ha
    rw [add_off_zero] at ha
    exact hd a hx ha
  wr i := by simp only [CK]; repeat' split
             all_goals (try simp only); omega
  rd i := by simp only [CK]; repeat' split
             all_goals omega

theorem ck_rd {sp to : A.R} {N F : Nat} {mw : Nat × Nat} {e : Env A} {σ : St A} (h1 : N ≤ 2 ^ (8 * A.k)) (h2 : F ≤ 2 ^ (8 * A.k)) (h3 : mw.2 ≤ F)
    (hd : ∀ a, InR a (σ.gpr to) F → ¬ InR a (σ.gpr sp - off A N) N) {is : List (Instr A)} (hs : ((CK A sp to N F mw).run is SSt.init).isSome = true) {a : A.W}
    (ha : accs .rd e is σ a) : InR a (σ.gpr sp - off A N) F ∨ InR a (σ.gpr to) F := by
  rcases fin_rd3 (IK_ok e σ h1 h2 h3 hd) is hs (fun i => by simp [CK]) ha with h | h | h
  · exact .inl h
  · exact .inr h
  · exact absurd h (Nat.not_lt_zero _)

theorem ck_wr {sp to : A.R} {N F : Nat} {mw : Nat × Nat} {e : Env A} {σ : St A} (h1 : N ≤ 2 ^ (8 * A.k)) (h2 : F ≤ 2 ^ (8 * A.k)) (h3 : mw.2 ≤ F)
    (hd : ∀ a, InR a (σ.gpr to) F → ¬ InR a (σ.gpr sp - off A N) N) {is : List (Instr A)} (hs : ((CK A sp to N F mw).run is SSt.init).isSome = true) {a : A.W}
    (ha : accs .wr e is σ a) : InR a (σ.gpr sp - off A N) N ∨ InR a (σ.gpr to + off A mw.1) (mw.2 - mw.1) := by
  obtain ⟨x, -, h | h | h⟩ := fin_wr3 (IK_ok e σ h1 h2 h3 hd) is hs (fun i => by simp [CK]) ha
  · have h : InR a (σ.gpr sp - off A N + off A 0) N := h.2
    rw [add_off_zero] at h; exact .inl h
  · exact .inr h.2
  · exact absurd h.2 (Nat.not_lt_zero _)

/-- ports that pass everything but the return address in registers, with a stub -/
theorem foot_stack {P : Port A} (X : Extra P) {sp to top : A.R} {N F : Nat} {mw : Nat × Nat} {j msz : Nat} {ji oi ti : List (Instr A)} {jr or tr : A.R} {lab : A.Lab}
    (hj : P.jump = .jmp ji jr) (ho : P.ontop = .jmp oi or) (ht : P.tramp = some (lab, .jmp ti tr))
    (c1 : P.fctx = fun s => s.gpr sp - off A N) (c2 : P.frame = N) (c3 : P.keep = F) (c4 : P.argF = fun s => s.gpr to) (c5 : P.mkeep = F)
    (c6 : P.mslot = fun c a => InR a (c + off A mw.1) (mw.2 - mw.1)) (hF : F ≤ X.fp)
    (h1 : N ≤ 2 ^ (8 * A.k)) (h2 : F ≤ 2 ^ (8 * A.k)) (h3 : mw.2 ≤ F)
    (rj : ((CK A sp to N F (0, 0)).run ji SSt.init).isSome = true) (ro : ((CK A sp to N F (0, 0)).run oi SSt.init).isSome = true)
    (re : ((CK A sp to N F mw).run (ji ++ ti) SSt.init).isSome = true)
    (hms : P.mscratch = 0) (w1 : msz + 2 ^ j ≤ 2 ^ (8 * A.k)) (mf : P.MakeFoot top j msz) (htop : P.argTop = fun s => s.gpr top)
    (hres : ∀ e σ, P.resM (exec e P.make σ).1 = (σ.gpr top &&& mask A j) - off A msz) : Footprint X {} := by
  have mk := fun e σ => P.make_foot hms w1 mf htop hres e σ
  have tgt : ∀ {σ τ m}, P.Intact σ m τ → P.argF τ = P.fctx σ → ∀ a, InR a (τ.gpr to) F → ¬ InR a (τ.gpr sp - off A N) N := by
    intro σ τ m hi ha
    have h := hi.frame
    rw [← ha, c1, c2, c3, c4] at h
    exact h
  have en : ∀ x e τ a, progAccs x e (P.jump :: P.stub) τ a → accs x e (ji ++ ti) τ a := by
    intro x e τ a ha
    rw [accs_append]
    rw [Port.stub, ht, hj] at ha
    exact ha.imp id fun h => h.resolve_right id
  constructor
  · intro e σ τ m a hl hi ha hacc
    rw [hj] at hacc
    have := ck_rd h1 h2 (Nat.zero_le _) (tgt hi ha) rj hacc
    rw [← ha, c1, c4]
    exact this.imp (fun h => inR_mono h hF) fun h => .inl (inR_mono h hF)
  · intro e σ τ m a hl hi ha hacc
    rw [hj] at hacc
    have := ck_wr h1 h2 (Nat.zero_le _) (tgt hi ha) rj hacc
    rw [c1, c2]
    exact this.imp id fun h => absurd h (Nat.not_lt_zero _)
  · intro e σ τ m a _ hl hi ha hacc
    rw [ho] at hacc
    have := ck_rd h1 h2 (Nat.zero_le _) (tgt hi ha) ro hacc
    rw [← ha, c1, c4]
    exact this.imp (fun h => inR_mono h hF) fun h => .inl (inR_mono h hF)
  · intro e σ τ m a _ hl hi ha hacc
    rw [ho] at hacc
    have := ck_wr h1 h2 (Nat.zero_le _) (tgt hi ha) ro hacc
    rw [c1, c2]
    exact this.imp id fun h => absurd h (Nat.not_lt_zero _)
  · intro e σ τ a _ _ ha hmem hd hacc
    rw [c1, c2, c4, c5] at hd
    have := ck_rd h1 h2 h3 hd re (en _ _ _ _ hacc)
    rw [c1, c4, c5]
    exact this.imp (fun h => inR_mono h hF) id
  · intro e σ τ a _ _ ha hmem hd hacc
    rw [c1, c2, c4, c5] at hd
    have := ck_wr h1 h2 h3 hd re (en _ _ _ _ hacc)
    rw [c1, c2, c4, c6]
    exact this
  · intro e σ a _ hd hacc
    exact ((mk e σ hd a).1 hacc).imp id .inl
  · intro e σ a _ hd hacc
    exact .inl ((mk e σ hd a).2 hacc)

end

namespace X86_64
theorem sane : A.Sane := ⟨by decide, fun f => by cases f <;> exact Nat.le_trans (show _ ≤ 8 by first | exact Nat.le_refl _ | decide) (show 8 ≤ _ by decide)⟩
theorem mf (cfg : Cfg) (hg : cfg.guard = false) : (port cfg).MakeFoot rdi 4 0x48 :=
  .of (mi := makeIs cfg) (mr := rip) rfl (by decide) sane.1 (by obtain ⟨_ | _, _ | _⟩ := cfg <;> first | (cases hg; done) | decide +kernel)
theorem fj (cfg : Cfg) : ((CK A rsp rdi 0x40 0x48 (0, 0)).run (jumpIs cfg) SSt.init).isSome = true := by obtain ⟨_ | _, _ | _⟩ := cfg <;> decide +kernel
theorem fo (cfg : Cfg) : ((CK A rsp rdi 0x40 0x48 (0, 0)).run (ontopIs cfg) SSt.init).isSome = true := by obtain ⟨_ | _, _ | _⟩ := cfg <;> decide +kernel
theorem fe (cfg : Cfg) : ((CK A rsp rdi 0x40 0x48 (0x40, 0x48)).run (jumpIs cfg ++ trampIs cfg) SSt.init).isSome = true := by obtain ⟨_ | _, _ | _⟩ := cfg <;> decide +kernel
theorem C81_x86_64 (cfg : Cfg) (hg : cfg.guard = false) : Footprint (extra cfg) {} :=
  foot_stack (extra cfg) (F := 0x48) (mw := (0x40, 0x48)) rfl rfl rfl rfl rfl rfl rfl rfl rfl (Nat.le_refl _) (by decide) (by decide) (by decide) (fj cfg) (fo cfg) (fe cfg) rfl (by decide)
    (mf cfg hg) rfl (fun e σ => by rw [BitVec.sub_eq_add_neg]; obtain ⟨_ | _, _ | _⟩ := cfg <;> rfl)
theorem loc (cfg : Cfg) : Local (extra cfg) {} where
  sane := sane
  call {e s s'} h := by
    obtain ⟨h1, -, h3⟩ := h
    have h3 : ∀ a, InR a (s.gpr rsp - off A 0x40) 0x48 → s.mem a = s'.mem a := h3
    have e1 : load s'.mem (s.gpr rsp) A.k = load s.mem (s.gpr rsp) A.k := by
      have := load_agree (n := A.k) (o := 0x40) (fun a ha => (h3 a ha).symm) (by decide) (by decide)
      rw [sub_add_off] at this; exact this
    simp only [port, ← h1]
    exact ⟨trivial, trivial, trivial, e1, trivial, fun _ => trivial, fun h => h, fun _ => trivial⟩
  res h h' := by simp only [port, ← h'.1]; exact ⟨trivial, trivial, id⟩
  make hm h := by simp only [port, ← h.1]; exact ⟨hm, trivial, trivial, fun _ => trivial⟩
  resM h := by simp only [port, h]
  oarea h := id
  mslot c a h := inR_off h (n := 8) (N := 0x48) (by decide) (by decide)
theorem C82_x86_64 (cfg : Cfg) (hg : cfg.guard = false) : Micro.Spec (extra cfg) {} fun _ τ => (port cfg).argFn τ :=
  Micro.C82_of_footprints (C30_x86_64_jump cfg) (fun _ => C30_x86_64_ontop cfg) (fun e σ _ => C30_x86_64_make cfg hg e σ) (C81_x86_64 cfg hg) (loc cfg)
end X86_64

namespace X86_64Macho
theorem sane : A.Sane := ⟨by decide, fun f => by cases f <;> exact Nat.le_trans (show _ ≤ 8 by first | exact Nat.le_refl _ | decide) (show 8 ≤ _ by decide)⟩
theorem mf (cfg : Cfg) : (port cfg).MakeFoot rdi 4 0x40 :=
  .of (mi := makeIs cfg) (mr := rip) rfl (by decide) sane.1 (by obtain ⟨_ | _⟩ := cfg <;> decide +kernel)
theorem fj (cfg : Cfg) : ((CK A rsp rdi 0x38 0x40 (0, 0)).run (jumpIs cfg) SSt.init).isSome = true := by obtain ⟨_ | _⟩ := cfg <;> decide +kernel
theorem fo (cfg : Cfg) : ((CK A rsp rdi 0x38 0x40 (0, 0)).run (ontopIs cfg) SSt.init).isSome = true := by obtain ⟨_ | _⟩ := cfg <;> decide +kernel
theorem fe (cfg : Cfg) : ((CK A rsp rdi 0x38 0x40 (0x38, 0x40)).run (jumpIs cfg ++ trampIs cfg) SSt.init).isSome = true := by obtain ⟨_ | _⟩ := cfg <;> decide +kernel
theorem C81_x86_64_macho (cfg : Cfg) : Footprint (extra cfg) {} :=
  foot_stack (extra cfg) (F := 0x40) (mw := (0x38, 0x40)) rfl rfl rfl rfl rfl rfl rfl rfl rfl (Nat.le_refl _) (by decide) (by decide) (by decide) (fj cfg) (fo cfg) (fe cfg) rfl (by decide)
    (mf cfg) rfl (fun e σ => by rw [BitVec.sub_eq_add_neg]; rfl)
theorem loc (cfg : Cfg) : Local (extra cfg) {} where
  sane := sane
  call {e s s'} h := by
    obtain ⟨h1, -, h3⟩ := h
    have h3 : ∀ a, InR a (s.gpr rsp - off A 0x38) 0x40 → s.mem a = s'.mem a := h3
    have e1 : load s'.mem (s.gpr rsp) A.k = load s.mem (s.gpr rsp) A.k := by
      have := load_agree (n := A.k) (o := 0x38) (fun a ha => (h3 a ha).symm) (by decide) (by decide)
      rw [sub_add_off] at this; exact this
    simp only [port, ← h1]
    exact ⟨trivial, trivial, trivial, e1, trivial, fun _ => trivial, fun h => h, fun _ => trivial⟩
  res h h' := by simp only [port, ← h'.1]; exact ⟨trivial, trivial, id⟩
  make hm h := by simp only [port, ← h.1]; exact ⟨hm, trivial, trivial, fun _ => trivial⟩
  resM h := by simp only [port, h]
  oarea h := id
  mslot c a h := inR_off h (n := 8) (N := 0x40) (by decide) (by decide)
theorem C82_x86_64_macho (cfg : Cfg) : Micro.Spec (extra cfg) {} fun _ τ => (port cfg).argFn τ :=
  Micro.C82_of_footprints (C58_x86_64_macho_jump cfg) (fun _ => C58_x86_64_macho_ontop cfg) (fun e σ _ => C58_x86_64_macho_make cfg e σ) (C81_x86_64_macho cfg) (loc cfg)
end X86_64Macho

namespace X86_64Pe
theorem sane : A.Sane := ⟨by decide, fun f => by cases f <;> exact Nat.le_trans (show _ ≤ 16 by first | exact Nat.le_refl _ | decide) (show 16 ≤ _ by decide)⟩
theorem mf (cfg : Cfg) : (port cfg).MakeFoot rcx 4 0x150 :=
  .of (mi := makeIs cfg) (mr := rip) rfl (by decide) sane.1 (by obtain ⟨_ | _⟩ := cfg <;> decide +kernel)
theorem C_rd {b : Bool} {e : Env A} {τ : St A} (hok : (I e τ).Ok (C b)) {is : List (Instr A)} (hs : ((C b).run is SSt.init).isSome = true) {a : A.W}
    (ha : accs .rd e is τ a) : InR a (own τ) 0x120 ∨ InR a (τ.gpr rdx) 0x120 ∨ InR a (thid τ) 16 :=
  fin_rd3 hok is hs (fun i => by simp [C]) ha
theorem C_wr {b : Bool} {e : Env A} {τ : St A} (hok : (I e τ).Ok (C b)) {is : List (Instr A)} (hs : ((C b).run is SSt.init).isSome = true) {a : A.W}
    (ha : accs .wr e is τ a) : InR a (own τ) 0x118 ∨ InR a (thid τ) 16 := by
  obtain ⟨x, -, ⟨-, h⟩ | ⟨-, h⟩ | ⟨-, h⟩⟩ := fin_wr3 hok is hs (fun i => by simp [C]) ha
  · have h : InR a (own τ + off A 0) 0x118 := h
    rw [add_off_zero] at h; exact .inl h
  · exact absurd h (Nat.not_lt_zero _)
  · have h : InR a (thid τ + off A 0) 16 := h
    rw [add_off_zero] at h; exact .inr h
theorem hok {cfg : Cfg} {e : Env A} {σ τ : St A} {m : Mem A} (hl : (port cfg).Left e σ m) (hi : (port cfg).Intact σ m τ)
    (ha : (port cfg).argF τ = (port cfg).fctx σ) : (I e τ).Ok (C true) ∧ thid τ = σ.gpr rcx ∧ τ.gpr rdx = own σ := by
  obtain ⟨-, h1, h2⟩ := target hl hi ha
  exact ⟨I_ok true e τ hi.ok' fun _ => h2, h1, ha⟩
/-- a first activation accesses what the switch does, and the word below the stack pointer of the new context -/
theorem first {cfg : Cfg} {x : Acc} {e : Env A} {σ τ : St A} {a : A.W}
    (hp : ∀ a, InR a ((port cfg).resM (exec e (port cfg).make σ).1) ((port cfg).argTop σ - (port cfg).resM (exec e (port cfg).make σ).1).toNat →
      ¬ InR a (σ.gpr (port cfg).sp - off A (port cfg).mscratch) ((port cfg).mscratch + A.k))
    (ha : (port cfg).argF τ = (port cfg).resM (exec e (port cfg).make σ).1)
    (hmem : ∀ a, InR a ((port cfg).argF τ) (port cfg).mkeep → τ.mem a = (exec e (port cfg).make σ).1.mem a)
    (hdj : ∀ a, InR a ((port cfg).argF τ) (port cfg).mkeep → ¬ InR a ((port cfg).fctx τ) (port cfg).frame)
    (hacc : progAccs x e ((port cfg).jump :: (port cfg).stub) τ a) :
    (I e τ).Ok CE ∧ (accs x e (jumpIs cfg) τ a ∨ x = .wr ∧ InR a (τ.gpr rdx + off A 0x118) 8) := by
  have hsz : ((port cfg).argTop σ - ctxOf σ).toNat = 0x150 + (σ.gpr rcx).toNat % 16 := top_size σ
  have hm : exec e (port cfg).make σ = exec e (make cfg) σ := rfl
  rw [hm] at hp ha hmem
  rw [make_res] at hp ha
  rw [hsz] at hp
  have e0 : σ.gpr (port cfg).sp - off A (port cfg).mscratch = σ.gpr rsp := BitVec.sub_zero _
  rw [e0] at hp
  have hd' : ∀ a, InR a (ctxOf σ) 0x150 → ¬ InR a (σ.gpr rsp) 8 := fun a ha => hp a (inR_mono ha (by omega))
  obtain ⟨-, -, hM⟩ := make_facts cfg e σ hd'
  rw [ha] at hmem hdj
  have ha : τ.gpr rdx = ctxOf σ := ha
  have hmem : ∀ a, InR a (ctxOf σ) 0x150 → τ.mem a = (exec e (make cfg) σ).1.mem a := hmem
  have hdj : ∀ a, InR a (ctxOf σ) 0x150 → ¬ InR a (own τ) 0x118 := hdj
  have hth : thid τ = τ.gpr rdx + off A 0x140 := by
    show load τ.mem (τ.gpr rdx + off A 0x110) A.k = _
    rw [ha, ← hM.hid]; exact load_agree hmem (by decide) (by decide)
  have hok := CE_ok e τ (by rw [ha]; exact hdj) hth
  refine ⟨hok, ?_⟩
  obtain ⟨h1, h2⟩ := enter_ok cfg
  have hr := fin_rel hok _ h1
  obtain ⟨s, hs⟩ : ∃ s, s = steps (I e τ).e (jumpIs cfg) (I e τ).σ := ⟨_, rfl⟩
  have hx : exec e (port cfg).jump τ = (s, s.gpr r10) := by rw [hs]; rfl
  rw [← hs] at hr
  have hsp : s.gpr rsp + -off A 8 = τ.gpr rdx + off A 0x118 := by
    rw [hr.reg h2.sp]
    show τ.gpr rdx + off A (0x118 + 8) + _ = _
    rw [← add_off_off, ← BitVec.sub_eq_add_neg, BitVec.add_sub_cancel]
  have hacc : accs x e (jumpIs cfg) τ a ∨ accs x e (trampIs cfg) (exec e (port cfg).jump τ).1 a ∨ False := hacc
  rcases hacc with h | h | h
  · exact .inl h
  · rw [hx] at h
    cases x with
    | rd =>
      have h : False ∨ False ∨ False := h
      simp at h
    | wr =>
      have h : False ∨ InR a (s.gpr rsp + -off A 8 + off A 0) 8 ∨ False := h
      rw [hsp, add_off_zero] at h
      simp only [false_or, or_false] at h
      exact .inr ⟨rfl, h⟩
  · exact h.elim
theorem C81_x86_64_pe (cfg : Cfg) : Footprint (extra cfg) {} where
  jump_rd {e σ τ m a} hl hi ha hacc := by
    obtain ⟨h1, h2, h3⟩ := hok hl hi ha
    have := C_rd h1 (jump_restore cfg).1 hacc
    rw [h2, h3] at this
    exact this
  jump_wr {e σ τ m a} hl hi ha hacc := by
    obtain ⟨h1, h2, h3⟩ := hok hl hi ha
    have := C_wr h1 (jump_restore cfg).1 hacc
    rw [h2] at this
    exact this
  ontop_rd {e σ τ m a} _ hl hi ha hacc := by
    obtain ⟨h1, h2, h3⟩ := hok hl hi ha
    have := C_rd h1 (ontop_restore cfg).1 hacc
    rw [h2, h3] at this
    exact this.imp id fun h => h.imp id .inl
  ontop_wr {e σ τ m a} _ hl hi ha hacc := by
    obtain ⟨h1, h2, h3⟩ := hok hl hi ha
    have := C_wr h1 (ontop_restore cfg).1 hacc
    rw [h2] at this
    exact this.imp id .inl
  start_rd {e σ τ a} _ hp ha hmem hdj hacc := by
    obtain ⟨h1, h | ⟨h, -⟩⟩ := first hp ha hmem hdj hacc
    · obtain ⟨i, hi⟩ := fin_rd h1 _ (enter_ok cfg).1 h
      simp only [CE] at hi
      split at hi
      · rename_i h0; rw [h0] at hi; exact .inr hi
      · exact absurd hi (Nat.not_lt_zero _)
    · cases h
  start_wr {e σ τ a} _ hp ha hmem hdj hacc := by
    obtain ⟨h1, h | ⟨-, h⟩⟩ := first hp ha hmem hdj hacc
    · obtain ⟨x, -, ⟨-, h⟩ | ⟨-, h⟩ | ⟨-, h⟩⟩ := fin_wr3 h1 _ (enter_ok cfg).1 (fun i => by simp [CE]) h
      · have h : InR a (own τ + off A 0) 0x118 := h
        rw [add_off_zero] at h; exact .inl h
      · exact .inr (.inr h)
      · exact absurd h (Nat.not_lt_zero _)
    · exact .inr (.inl h)
  make_rd {e σ a} _ hd hacc := (((port cfg).make_foot rfl (by decide) (mf cfg) rfl (fun e σ => make_res cfg e σ) e σ hd a).1 hacc).imp id .inl
  make_wr {e σ a} _ hd hacc := .inl (((port cfg).make_foot rfl (by decide) (mf cfg) rfl (fun e σ => make_res cfg e σ) e σ hd a).2 hacc)
theorem loc (cfg : Cfg) : Local (extra cfg) {} where
  sane := sane
  call {e s s'} h := by
    obtain ⟨h1, -, h3⟩ := h
    have h3 : ∀ a, InR a (s.gpr rsp - off A 0x118) 0x120 → s.mem a = s'.mem a := h3
    have e1 : load s'.mem (s.gpr rsp) A.k = load s.mem (s.gpr rsp) A.k := by
      have := load_agree (n := A.k) (o := 0x118) (fun a ha => (h3 a ha).symm) (by decide) (by decide)
      rw [sub_add_off] at this; exact this
    simp only [port, own, ← h1]
    exact ⟨trivial, trivial, trivial, e1, trivial, fun _ => trivial, fun h => h, fun _ => trivial⟩
  res {σ σ' τ τ'} h h' := by
    obtain ⟨g1, -, -⟩ := h
    obtain ⟨g2, -, h2⟩ := h'
    have h2 : ∀ a, InR a (σ.gpr rcx) 16 → τ'.mem a = τ.mem a := fun a ha => (h2 a ha).symm
    simp only [port, ← g1, ← g2]
    refine ⟨?_, ?_, id⟩
    · exact load_congr (by decide) fun x hx => h2 x (inR_mono hx (by decide))
    · exact load_agree h2 (by decide) (by decide)
  make hm h := by simp only [port, ← h.1]; exact ⟨hm, trivial, trivial, fun _ => trivial⟩
  resM h := by simp only [port, h]
  oarea h := id
  mslot c a h := by
    rcases h with h | h
    · exact inR_off h (show 0x118 + 8 ≤ 0x150 by decide) (show 0x150 ≤ _ by decide)
    · exact inR_off h (show 0x140 + 16 ≤ 0x150 by decide) (show 0x150 ≤ _ by decide)
theorem C82_x86_64_pe (cfg : Cfg) : Micro.Spec (extra cfg) {} fun _ τ => (port cfg).argFn τ :=
  Micro.C82_of_footprints (C62_x86_64_pe_jump cfg) (fun _ => C62_x86_64_pe_ontop cfg) (fun e σ _ => C62_x86_64_pe_make cfg e σ) (C81_x86_64_pe cfg) (loc cfg)
end X86_64Pe

end Verif.Asm
