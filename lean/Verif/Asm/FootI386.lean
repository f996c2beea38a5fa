import Verif.Asm.FootX86
import Verif.Asm.ManyMacho

/-! # What the routines access, and switches instruction by instruction: i386 (C81, C82) -/

namespace Verif.Asm

namespace I386
theorem sane : A.Sane := ⟨by decide, fun f => by cases f <;> exact Nat.le_trans (show _ ≤ 8 by first | exact Nat.le_refl _ | decide) (show 8 ≤ _ by decide)⟩

/-- what `make_fcontext` reads beyond its return address: its arguments -/
def reads : Reads A where
  mdesc _ s a := InR a (s.gpr esp) 0x10

theorem make_res (cfg : Cfg) (e : Env A) (σ : St A) : (port cfg).resM (exec e (port cfg).make σ).1 = ctxOf σ := by
  show (exec e (make cfg) σ).1.gpr eax = ctxOf σ
  rw [make_pre]
  have := steps_dest e ((makeIs cfg).drop 5) (.g eax) (by obtain ⟨_ | _, _ | _⟩ := cfg <;> decide) (pre σ)
  simp only [get_g] at this
  rw [this]
  have n1 : eax ≠ ecx := by decide
  simp [pre, setg, n1]

/-- accesses of `make_fcontext`: its arguments, then the rest -/
theorem make_accs (cfg : Cfg) (x : Acc) (e : Env A) (σ : St A) (a : A.W) : (port cfg).make.accs x e σ a ↔
    (x = .rd ∧ (InR a (σ.gpr esp + off A 4) 4 ∨ InR a (σ.gpr esp + off A 0xc) 4)) ∨ accs x e ((makeIs cfg).drop 5) (pre σ) a := by
  have h5 : (makeIs cfg).take 5 = [.ld eax esp 0x4, .addi eax eax (-off A 0x8), .andi eax eax (mask A 4), .addi eax eax (-off A 0x34), .ld ecx esp 0xc] := by
    obtain ⟨_ | _, _ | _⟩ := cfg <;> rfl
  have h : steps e ((makeIs cfg).take 5) σ = pre σ := by
    rw [h5]
    have n1 : esp ≠ eax := by decide
    have n2 : ecx ≠ eax := by decide
    simp only [steps, step, setg, ctxOf, pre, if_true, BitVec.sub_eq_add_neg, n1, if_false]
    congr 1
    funext x
    by_cases hx : x = ecx
    · simp [hx]
    · by_cases hx2 : x = eax <;> simp [hx, hx2]
  have e1 : (port cfg).make.accs x e σ a ↔ accs x e ((makeIs cfg).take 5 ++ (makeIs cfg).drop 5) σ a := by rw [List.take_append_drop]; exact Iff.rfl
  rw [e1, accs_append, h, h5]
  cases x <;> simp [accs, Instr.acc, Instr.rd, Instr.wr, step, setg, A]

theorem make_rest {cfg : Cfg} {x : Acc} {e : Env A} {σ : St A} {a : A.W}
    (hp : ∀ a, InR a ((port cfg).resM (exec e (port cfg).make σ).1) ((port cfg).argTop σ - (port cfg).resM (exec e (port cfg).make σ).1).toNat →
      ¬ InR a (σ.gpr (port cfg).sp - off A (port cfg).mscratch) ((port cfg).mscratch + A.k)) (ha : accs x e ((makeIs cfg).drop 5) (pre σ) a) :
    InR a ((port cfg).resM (exec e (port cfg).make σ).1) ((port cfg).argTop σ - (port cfg).resM (exec e (port cfg).make σ).1).toNat ∨
      InR a (σ.gpr (port cfg).sp - off A (port cfg).mscratch) (match x with | .rd => 8 | .wr => 4) := by
  have hsz : ((port cfg).argTop σ - ctxOf σ).toNat = 0x3c + (arg σ 4 - off A 8).toNat % 16 := ctx_size σ
  rw [make_res, hsz] at hp ⊢
  have hp : ∀ a, InR a (ctxOf σ) (0x3c + (arg σ 4 - off A 8).toNat % 16) → ¬ InR a (σ.gpr esp - off A 4) 8 := hp
  have g1 : (pre σ).gpr eax = ctxOf σ := by
    have n1 : eax ≠ ecx := by decide
    simp [pre, setg, n1]
  have g2 : (pre σ).gpr esp = σ.gpr esp := by
    have n1 : esp ≠ ecx := by decide
    have n2 : esp ≠ eax := by decide
    simp [pre, setg, n1, n2]
  obtain ⟨s1, hs1⟩ : ∃ s1, s1 = pre σ := ⟨_, rfl⟩
  rw [← hs1] at g1 g2 ha
  have hok := IM_ok e s1 (by rw [g1, g2]; exact fun a ha => hp a (inR_mono ha (by omega)))
  obtain ⟨h1, hz⟩ := make_ok cfg
  have b0 : (IM e s1).β 0 = ctxOf σ := g1
  have b1 : (IM e s1).β 1 = σ.gpr esp - off A 4 := by show s1.gpr esp - _ = _; rw [g2]
  cases x with
  | rd =>
    obtain h | h | h := fin_rd3 hok _ h1 (fun i => by simp [CM]) ha
    · rw [b0] at h; exact .inl (inR_mono h (show 0x24 ≤ _ by omega))
    · rw [b1] at h; exact .inr h
    · exact absurd h (Nat.not_lt_zero _)
  | wr =>
    obtain ⟨y, -, ⟨-, h⟩ | ⟨-, h⟩ | ⟨-, h⟩⟩ := fin_wr3 hok _ h1 (fun i => by simp [CM]) ha
    · rw [b0] at h
      have h : InR a (ctxOf σ + off A 0) 0x24 := h
      rw [add_off_zero] at h
      exact .inl (inR_mono h (show 0x24 ≤ _ by omega))
    · rw [b1] at h
      have h : InR a (σ.gpr esp - off A 4 + off A 0) 4 := h
      rw [add_off_zero] at h
      exact .inr h
    · exact absurd h (Nat.not_lt_zero _)

theorem hok {cfg : Cfg} {e : Env A} {σ τ : St A} {m : Mem A} (hl : (port cfg).Left e σ m) (hi : (port cfg).Intact σ m τ)
    (ha : (port cfg).argF τ = (port cfg).fctx σ) : (I e τ).Ok (C true) ∧ thid τ = arg σ 4 ∧ arg τ 8 = σ.gpr esp - off A 0x1c := by
  obtain ⟨-, h1, h2⟩ := target hl hi ha
  exact ⟨I_ok true e τ cfg hi.ok' fun _ => h2, h1, ha⟩

theorem C_rd {e : Env A} {τ : St A} (hok : (I e τ).Ok (C true)) {is : List (Instr A)} (hs : ((C true).run is SSt.init).isSome = true) {a : A.W}
    (ha : accs .rd e is τ a) : InR a (τ.gpr esp - off A 0x1c) 0x30 ∨ InR a (arg τ 8) 0x30 ∨ InR a (thid τ) 8 := by
  obtain h | h | h := fin_rd3 hok is hs (fun i => by simp [C]) ha
  · exact .inl h
  · exact .inr (.inl (inR_mono (show InR a (arg τ 8) 0x2c from h) (by decide)))
  · exact .inr (.inr h)

theorem C_wr {e : Env A} {τ : St A} (hok : (I e τ).Ok (C true)) {is : List (Instr A)} (hs : ((C true).run is SSt.init).isSome = true) {a : A.W}
    (ha : accs .wr e is τ a) : InR a (τ.gpr esp - off A 0x1c) 0x1c ∨ InR a (thid τ) 8 ∨ ((∃ x ∈ ((C true).fin is hs).log, x.1 = 1) ∧ InR a (arg τ 8 + off A 0x24) 8) := by
  obtain ⟨x, hx, ⟨h0, h⟩ | ⟨h0, h⟩ | ⟨h0, h⟩⟩ := fin_wr3 hok is hs (fun i => by simp [C]) ha
  · have h : InR a (τ.gpr esp - off A 0x1c + off A 0) 0x1c := h
    rw [add_off_zero] at h; exact .inl h
  · exact .inr (.inr ⟨⟨x, hx, h0⟩, h⟩)
  · have h : InR a (thid τ + off A 0) 8 := h
    rw [add_off_zero] at h; exact .inr (.inl h)

theorem first {cfg : Cfg} {e : Env A} {σ τ : St A}
    (hp : ∀ a, InR a ((port cfg).resM (exec e (port cfg).make σ).1) ((port cfg).argTop σ - (port cfg).resM (exec e (port cfg).make σ).1).toNat →
      ¬ InR a (σ.gpr (port cfg).sp - off A (port cfg).mscratch) ((port cfg).mscratch + A.k))
    (ha : (port cfg).argF τ = (port cfg).resM (exec e (port cfg).make σ).1)
    (hmem : ∀ a, InR a ((port cfg).argF τ) (port cfg).mkeep → τ.mem a = (exec e (port cfg).make σ).1.mem a)
    (hdj : ∀ a, InR a ((port cfg).argF τ) (port cfg).mkeep → ¬ InR a ((port cfg).fctx τ) (port cfg).frame) : (I e τ).Ok CE := by
  have hsz : ((port cfg).argTop σ - ctxOf σ).toNat = 0x3c + (arg σ 4 - off A 8).toNat % 16 := ctx_size σ
  rw [make_res, hsz] at hp
  rw [make_res] at ha
  obtain ⟨m1, m2, m3, m4, m5, m6, -, -, -⟩ := make_facts cfg e σ (fun a ha => hp a (inR_mono ha (by omega)))
  have ha' : arg τ 8 = ctxOf σ := ha
  rw [ha] at hmem hdj
  have hmem : ∀ a, InR a (ctxOf σ) 0x2c → τ.mem a = (exec e (make cfg) σ).1.mem a := hmem
  have hdj : ∀ a, InR a (ctxOf σ) 0x2c → ¬ InR a (τ.gpr esp - off A 0x1c) 0x1c := hdj
  have hth : thid τ = arg τ 8 + off A 0xc := by
    show load τ.mem (arg τ 8 + off A 0x20) A.k = _
    rw [ha', ← m6]; exact load_agree hmem (by decide) (by decide)
  exact IE_ok e τ hth (by rw [ha']; exact hdj)

theorem enter_accs (cfg : Cfg) (x : Acc) (e : Env A) (τ : St A) (a : A.W) (h : progAccs x e ((port cfg).jump :: (port cfg).stub) τ a) :
    accs x e (jumpIs cfg ++ trampIs cfg) τ a := by
  rw [accs_append]
  have h : accs x e (jumpIs cfg) τ a ∨ accs x e (trampIs cfg) (steps e (jumpIs cfg) τ) a ∨ False := h
  exact h.imp id fun h => h.resolve_right id

theorem C81_i386 (cfg : Cfg) : Footprint (extra cfg) reads where
  jump_rd {e σ τ m a} hl hi ha hacc := by
    obtain ⟨h1, h2, h3⟩ := hok hl hi ha
    have := C_rd h1 (jump_restore cfg).1 hacc
    rw [h2, h3] at this
    exact this
  jump_wr {e σ τ m a} hl hi ha hacc := by
    obtain ⟨h1, h2, h3⟩ := hok hl hi ha
    obtain ⟨g1, -, -, -, -, -, g2⟩ := jump_restore cfg
    rcases C_wr h1 g1 hacc with h | h | ⟨⟨x, hx, h⟩, -⟩
    · exact .inl h
    · rw [h2] at h; exact .inr h
    · rcases g2 x hx with h' | h' <;> rw [h'] at h <;> cases h
  ontop_rd {e σ τ m a} _ hl hi ha hacc := by
    obtain ⟨h1, h2, h3⟩ := hok hl hi ha
    have := C_rd h1 (ontop_restore cfg).1 hacc
    rw [h2, h3] at this
    exact this.imp id fun h => h.imp id .inl
  ontop_wr {e σ τ m a} _ hl hi ha hacc := by
    obtain ⟨h1, h2, h3⟩ := hok hl hi ha
    rcases C_wr h1 (ontop_restore cfg).1 hacc with h | h | ⟨-, h⟩
    · exact .inl h
    · rw [h2] at h; exact .inr (.inl h)
    · rw [h3, show (0x24 : Nat) = 0x1c + 8 from rfl, fr] at h; exact .inr (.inr h)
  start_rd {e σ τ a} _ hp ha hmem hdj hacc := by
    have h1 := first hp ha hmem hdj
    obtain h | h | h := fin_rd3 h1 _ (enter_ok cfg).1 (fun i => by simp [CE]) (enter_accs cfg _ _ _ _ hacc)
    · exact .inl h
    · exact .inr h
    · exact absurd h (Nat.not_lt_zero _)
  start_wr {e σ τ a} _ hp ha hmem hdj hacc := by
    have h1 := first hp ha hmem hdj
    obtain ⟨x, -, ⟨-, h⟩ | ⟨-, h⟩ | ⟨-, h⟩⟩ := fin_wr3 h1 _ (enter_ok cfg).1 (fun i => by simp [CE]) (enter_accs cfg _ _ _ _ hacc)
    · have h : InR a (τ.gpr esp - off A 0x1c + off A 0) 0x1c := h
      rw [add_off_zero] at h; exact .inl h
    · exact .inr h
    · exact absurd h (Nat.not_lt_zero _)
  make_rd {e σ a} _ hd hacc := by
    rcases (make_accs cfg .rd e σ a).1 hacc with ⟨-, h⟩ | h
    · refine .inr (.inr ?_)
      show InR a (σ.gpr esp) 0x10
      rcases h with h | h
      · exact inR_off h (by decide) (by decide)
      · exact inR_off h (by decide) (by decide)
    · exact (make_rest hd h).imp id .inl
  make_wr {e σ a} _ hd hacc := by
    rcases (make_accs cfg .wr e σ a).1 hacc with ⟨h, -⟩ | h
    · cases h
    · exact make_rest hd h

theorem loc (cfg : Cfg) : Local (extra cfg) reads where
  sane := sane
  call {e s s'} h := by
    obtain ⟨h1, -, h3⟩ := h
    have h3 : ∀ a, InR a (s.gpr esp - off A 0x1c) 0x30 → s.mem a = s'.mem a := h3
    have ar : ∀ n, 0x1c + n + 4 ≤ 0x30 → load s'.mem (s.gpr esp + off A n) A.k = load s.mem (s.gpr esp + off A n) A.k := fun n hn => by
      have := load_agree (n := A.k) (o := 0x1c + n) (fun a ha => (h3 a ha).symm) hn (by decide)
      rw [fr] at this; exact this
    have e0 : load s'.mem (s.gpr esp) A.k = load s.mem (s.gpr esp) A.k := by have := ar 0 (by decide); rwa [add_off_zero] at this
    simp only [port, reads, arg, ← h1, e0, ar 4 (by decide), ar 8 (by decide), ar 0xc (by decide)]
    exact ⟨trivial, trivial, trivial, trivial, trivial, fun _ => trivial, fun h => h, fun _ => trivial⟩
  res {σ σ' τ τ'} h h' := by
    obtain ⟨g1, -, h1⟩ := h
    obtain ⟨g2, -, h2⟩ := h'
    have h1 : ∀ a, InR a (σ.gpr esp - off A 0x1c) 0x30 → σ.mem a = σ'.mem a := h1
    have e4 : load σ'.mem (σ.gpr esp + off A 4) A.k = load σ.mem (σ.gpr esp + off A 4) A.k := by
      have := load_agree (n := A.k) (o := 0x1c + 4) (fun a ha => (h1 a ha).symm) (by decide) (by decide)
      rw [fr] at this; exact this
    have h2 : ∀ a, InR a (arg σ 4) 8 → τ'.mem a = τ.mem a := fun a ha => (h2 a ha).symm
    simp only [port, arg, ← g1, ← g2, e4]
    refine ⟨?_, ?_, id⟩
    · exact load_congr (by decide) fun x hx => h2 x (inR_mono hx (by decide))
    · exact load_agree h2 (by decide) (by decide)
  make {e s s'} hm h := by
    obtain ⟨h1, -, h3⟩ := h
    have e1 : load s'.mem (s.gpr esp + off A 4) A.k = load s.mem (s.gpr esp + off A 4) A.k :=
      load_congr (by decide) fun x hx => (h3 x ((make_accs cfg .rd e s x).2 (.inl ⟨rfl, .inl hx⟩))).symm
    have e2 : load s'.mem (s.gpr esp + off A 0xc) A.k = load s.mem (s.gpr esp + off A 0xc) A.k :=
      load_congr (by decide) fun x hx => (h3 x ((make_accs cfg .rd e s x).2 (.inl ⟨rfl, .inr hx⟩))).symm
    simp only [port, reads, arg, ← h1, e1, e2]
    exact ⟨hm, trivial, trivial, fun _ => trivial⟩
  resM h := by simp only [port, h]
  oarea {s s' a} h ha := by simp only [port, ← h] at ha ⊢; exact ha
  mslot c a h := inR_off (show InR a (c + off A 0xc) 0x20 from h) (show 0xc + 0x20 ≤ 0x2c by decide) (show 0x2c ≤ _ by decide)

theorem C82_i386 (cfg : Cfg) : Micro.Spec (extra cfg) reads fun _ τ => (port cfg).argFn τ :=
  Micro.C82_of_footprints (C34_i386_jump cfg) (fun _ => C34_i386_ontop cfg) (fun e σ _ => C34_i386_make cfg e σ) (C81_i386 cfg) (loc cfg)
end I386

namespace I386Macho
theorem sane : A.Sane := ⟨by decide, fun f => by cases f <;> exact Nat.le_trans (show _ ≤ 8 by first | exact Nat.le_refl _ | decide) (show 8 ≤ _ by decide)⟩

/-- what `make_fcontext` reads beyond its return address: its arguments -/
def reads : Reads A where
  mdesc _ s a := InR a (s.gpr esp) 0x10

/-- accesses of `make_fcontext`: its arguments, then the rest -/
theorem make_accs (cfg : Cfg) (x : Acc) (e : Env A) (σ : St A) (a : A.W) : (port cfg).make.accs x e σ a ↔
    (x = .rd ∧ (InR a (σ.gpr esp + off A 4) 4 ∨ InR a (σ.gpr esp + off A 0xc) 4)) ∨ accs x e ((makeIs cfg).drop 5) (pre σ) a := by
  have h5 : (makeIs cfg).take 5 = [.ld eax esp 0x4, .addi eax eax (-off A 0x8), .andi eax eax (mask A 4), .addi eax eax (-off A 0x34), .ld ecx esp 0xc] := by
    obtain ⟨_ | _⟩ := cfg <;> rfl
  have h : steps e ((makeIs cfg).take 5) σ = pre σ := by
    rw [h5]
    have n1 : esp ≠ eax := by decide
    have n2 : ecx ≠ eax := by decide
    simp only [steps, step, setg, ctxOf, pre, if_true, BitVec.sub_eq_add_neg, n1, if_false]
    congr 1
    funext x
    by_cases hx : x = ecx
    · simp [hx]
    · by_cases hx2 : x = eax <;> simp [hx, hx2]
  have e1 : (port cfg).make.accs x e σ a ↔ accs x e ((makeIs cfg).take 5 ++ (makeIs cfg).drop 5) σ a := by rw [List.take_append_drop]; exact Iff.rfl
  rw [e1, accs_append, h, h5]
  cases x <;> simp [accs, Instr.acc, Instr.rd, Instr.wr, step, setg, A]

theorem make_rest {cfg : Cfg} {x : Acc} {e : Env A} {σ : St A} {a : A.W}
    (hp : ∀ a, InR a ((port cfg).resM (exec e (port cfg).make σ).1) ((port cfg).argTop σ - (port cfg).resM (exec e (port cfg).make σ).1).toNat →
      ¬ InR a (σ.gpr (port cfg).sp - off A (port cfg).mscratch) ((port cfg).mscratch + A.k)) (ha : accs x e ((makeIs cfg).drop 5) (pre σ) a) :
    InR a ((port cfg).resM (exec e (port cfg).make σ).1) ((port cfg).argTop σ - (port cfg).resM (exec e (port cfg).make σ).1).toNat ∨
      InR a (σ.gpr (port cfg).sp - off A (port cfg).mscratch) (match x with | .rd => 8 | .wr => 4) := by
  have hsz : ((port cfg).argTop σ - ctxOf σ).toNat = 0x3c + (arg σ 4 - off A 8).toNat % 16 := ctx_size σ
  rw [make_res, hsz] at hp ⊢
  have hp : ∀ a, InR a (ctxOf σ) (0x3c + (arg σ 4 - off A 8).toNat % 16) → ¬ InR a (σ.gpr esp - off A 4) 8 := hp
  have g1 : (pre σ).gpr eax = ctxOf σ := by
    have n1 : eax ≠ ecx := by decide
    simp [pre, setg, n1]
  have g2 : (pre σ).gpr esp = σ.gpr esp := by
    have n1 : esp ≠ ecx := by decide
    have n2 : esp ≠ eax := by decide
    simp [pre, setg, n1, n2]
  obtain ⟨s1, hs1⟩ : ∃ s1, s1 = pre σ := ⟨_, rfl⟩
  rw [← hs1] at g1 g2 ha
  have hok := IM_ok e s1 (by rw [g1, g2]; exact fun a ha => hp a (inR_mono ha (by omega)))
  obtain ⟨h1, hz⟩ := make_ok cfg
  have b0 : (IM e s1).β 0 = ctxOf σ := g1
  have b1 : (IM e s1).β 1 = σ.gpr esp - off A 4 := by show s1.gpr esp - _ = _; rw [g2]
  cases x with
  | rd =>
    obtain h | h | h := fin_rd3 hok _ h1 (fun i => by simp [CM]) ha
    · rw [b0] at h; exact .inl (inR_mono h (show 0x1c ≤ _ by omega))
    · rw [b1] at h; exact .inr h
    · exact absurd h (Nat.not_lt_zero _)
  | wr =>
    obtain ⟨y, -, ⟨-, h⟩ | ⟨-, h⟩ | ⟨-, h⟩⟩ := fin_wr3 hok _ h1 (fun i => by simp [CM]) ha
    · rw [b0] at h
      have h : InR a (ctxOf σ + off A 0) 0x1c := h
      rw [add_off_zero] at h
      exact .inl (inR_mono h (show 0x1c ≤ _ by omega))
    · rw [b1] at h
      have h : InR a (σ.gpr esp - off A 4 + off A 0) 4 := h
      rw [add_off_zero] at h
      exact .inr h
    · exact absurd h (Nat.not_lt_zero _)

theorem hok {cfg : Cfg} {e : Env A} {σ τ : St A} {m : Mem A} (hi : (port cfg).Intact σ m τ)
    (ha : (port cfg).argF τ = (port cfg).fctx σ) : (I e τ).Ok C ∧ arg τ 4 = σ.gpr esp - off A 0x18 :=
  ⟨I_ok e τ cfg hi.ok', ha⟩

theorem C_rd {e : Env A} {τ : St A} (hok : (I e τ).Ok C) {is : List (Instr A)} (hs : (C.run is SSt.init).isSome = true) {a : A.W}
    (ha : accs .rd e is τ a) : InR a (τ.gpr esp - off A 0x18) 0x28 ∨ InR a (arg τ 4) 0x24 := by
  obtain h | h | h := fin_rd3 hok is hs (fun i => by simp [C]) ha
  · exact .inl h
  · exact .inr h
  · exact absurd h (Nat.not_lt_zero _)

theorem C_wr {e : Env A} {τ : St A} (hok : (I e τ).Ok C) {is : List (Instr A)} (hs : (C.run is SSt.init).isSome = true) {a : A.W}
    (ha : accs .wr e is τ a) : InR a (τ.gpr esp - off A 0x18) 0x18 ∨ ((∃ x ∈ (C.fin is hs).log, x.1 = 1) ∧ InR a (arg τ 4 + off A 0x1c) 8) := by
  obtain ⟨x, hx, ⟨h0, h⟩ | ⟨h0, h⟩ | ⟨h0, h⟩⟩ := fin_wr3 hok is hs (fun i => by simp [C]) ha
  · have h : InR a (τ.gpr esp - off A 0x18 + off A 0) 0x18 := h
    rw [add_off_zero] at h; exact .inl h
  · exact .inr ⟨⟨x, hx, h0⟩, h⟩
  · exact absurd h (Nat.not_lt_zero _)

theorem enter_accs (cfg : Cfg) (x : Acc) (e : Env A) (τ : St A) (a : A.W) (h : progAccs x e ((port cfg).jump :: (port cfg).stub) τ a) :
    accs x e (jumpIs cfg ++ trampIs cfg) τ a := by
  rw [accs_append]
  have h : accs x e (jumpIs cfg) τ a ∨ accs x e (trampIs cfg) (steps e (jumpIs cfg) τ) a ∨ False := h
  exact h.imp id fun h => h.resolve_right id

theorem C81_i386_macho (cfg : Cfg) : Footprint (extra cfg) reads where
  jump_rd {e σ τ m a} hl hi ha hacc := by
    obtain ⟨h1, h3⟩ := hok hi ha
    have := C_rd h1 (jump_restore cfg).1 hacc
    rw [h3] at this
    exact this.imp id fun h => .inl (inR_mono h (show 0x24 ≤ 0x28 by decide))
  jump_wr {e σ τ m a} hl hi ha hacc := by
    obtain ⟨h1, h3⟩ := hok hi ha
    obtain ⟨g1, -, -, -, -, g2⟩ := jump_restore cfg
    rcases C_wr h1 g1 hacc with h | ⟨⟨x, hx, h⟩, -⟩
    · exact .inl h
    · rw [g2 x hx] at h; cases h
  ontop_rd {e σ τ m a} _ hl hi ha hacc := by
    obtain ⟨h1, h3⟩ := hok hi ha
    have := C_rd h1 (ontop_restore cfg).1 hacc
    rw [h3] at this
    exact this.imp id fun h => .inl (inR_mono h (show 0x24 ≤ 0x28 by decide))
  ontop_wr {e σ τ m a} _ hl hi ha hacc := by
    obtain ⟨h1, h3⟩ := hok hi ha
    rcases C_wr h1 (ontop_restore cfg).1 hacc with h | ⟨-, h⟩
    · exact .inl h
    · rw [h3, show (0x1c : Nat) = 0x18 + 4 from rfl, fr] at h; exact .inr (.inr h)
  start_rd {e σ τ a} _ hp ha hmem hdj hacc := by
    have h1 := IE_ok e τ hdj
    obtain h | h | h := fin_rd3 h1 _ (enter_ok cfg).1 (fun i => by simp [CE]) (enter_accs cfg _ _ _ _ hacc)
    · exact .inl h
    · exact .inr h
    · exact absurd h (Nat.not_lt_zero _)
  start_wr {e σ τ a} _ hp ha hmem hdj hacc := by
    have h1 := IE_ok e τ hdj
    obtain ⟨x, -, ⟨-, h⟩ | ⟨-, h⟩ | ⟨-, h⟩⟩ := fin_wr3 h1 _ (enter_ok cfg).1 (fun i => by simp [CE]) (enter_accs cfg _ _ _ _ hacc)
    · have h : InR a (τ.gpr esp - off A 0x18 + off A 0) 0x18 := h
      rw [add_off_zero] at h; exact .inl h
    · exact .inr h
    · exact absurd h (Nat.not_lt_zero _)
  make_rd {e σ a} _ hd hacc := by
    rcases (make_accs cfg .rd e σ a).1 hacc with ⟨-, h⟩ | h
    · refine .inr (.inr ?_)
      show InR a (σ.gpr esp) 0x10
      rcases h with h | h
      · exact inR_off h (by decide) (by decide)
      · exact inR_off h (by decide) (by decide)
    · exact (make_rest hd h).imp id .inl
  make_wr {e σ a} _ hd hacc := by
    rcases (make_accs cfg .wr e σ a).1 hacc with ⟨h, -⟩ | h
    · cases h
    · exact make_rest hd h

theorem loc (cfg : Cfg) : Local (extra cfg) reads where
  sane := sane
  call {e s s'} h := by
    obtain ⟨h1, -, h3⟩ := h
    have h3 : ∀ a, InR a (s.gpr esp - off A 0x18) 0x28 → s.mem a = s'.mem a := h3
    have ar : ∀ n, 0x18 + n + 4 ≤ 0x28 → load s'.mem (s.gpr esp + off A n) A.k = load s.mem (s.gpr esp + off A n) A.k := fun n hn => by
      have := load_agree (n := A.k) (o := 0x18 + n) (fun a ha => (h3 a ha).symm) hn (by decide)
      rw [fr] at this; exact this
    have e0 : load s'.mem (s.gpr esp) A.k = load s.mem (s.gpr esp) A.k := by have := ar 0 (by decide); rwa [add_off_zero] at this
    simp only [port, reads, arg, ← h1, e0, ar 4 (by decide), ar 8 (by decide)]
    exact ⟨trivial, trivial, trivial, trivial, trivial, fun _ => trivial, fun h => h, fun _ => trivial⟩
  res {σ σ' τ τ'} h h' := by
    obtain ⟨g2, -, -⟩ := h'
    simp only [port, ← g2]
    exact ⟨trivial, trivial, id⟩
  make {e s s'} hm h := by
    obtain ⟨h1, -, h3⟩ := h
    have e1 : load s'.mem (s.gpr esp + off A 4) A.k = load s.mem (s.gpr esp + off A 4) A.k :=
      load_congr (by decide) fun x hx => (h3 x ((make_accs cfg .rd e s x).2 (.inl ⟨rfl, .inl hx⟩))).symm
    have e2 : load s'.mem (s.gpr esp + off A 0xc) A.k = load s.mem (s.gpr esp + off A 0xc) A.k :=
      load_congr (by decide) fun x hx => (h3 x ((make_accs cfg .rd e s x).2 (.inl ⟨rfl, .inr hx⟩))).symm
    simp only [port, reads, arg, ← h1, e1, e2]
    exact ⟨hm, trivial, trivial, fun _ => trivial⟩
  resM h := by simp only [port, h]
  oarea {s s' a} h ha := by simp only [port, ← h] at ha ⊢; exact ha
  mslot c a h := inR_off (show InR a (c + off A 0x18) 0xc from h) (show 0x18 + 0xc ≤ 0x24 by decide) (show 0x24 ≤ _ by decide)

theorem C82_i386_macho (cfg : Cfg) : Micro.Spec (extra cfg) reads fun _ τ => (port cfg).argFn τ :=
  Micro.C82_of_footprints (C61_i386_macho_jump cfg) (fun _ => C61_i386_macho_ontop cfg) (fun e σ _ => C61_i386_macho_make cfg e σ) (C81_i386_macho cfg) (loc cfg)
end I386Macho

end Verif.Asm
