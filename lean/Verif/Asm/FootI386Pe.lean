import Verif.Asm.FootX86
import Verif.Asm.ManyWin

/-! # What the routines access, and switches instruction by instruction: i386 Windows (C81, C82) -/

namespace Verif.Asm.I386Pe
theorem sane : A.Sane := ⟨by decide, fun f => by cases f <;> exact Nat.le_trans (show _ ≤ 8 by first | exact Nat.le_refl _ | decide) (show 8 ≤ _ by decide)⟩

/-- what `make_fcontext` reads beyond its return address: its arguments, and the records of the chain of exception handlers of its caller -/
def reads : Reads A where
  mdesc _ s a := InR a (s.gpr esp) 0x10 ∨ ∃ l, Chain s.mem (seh s) l ∧ ∃ r ∈ l, InR a r 8

theorem prep_accs (x : Acc) (e : Env A) (is : List (Instr A)) (c : Code A) (s : St A) (a : A.W) :
    (prep is c).accs x e s a ↔ accs x e is s a ∨ c.accs x e (steps e is s) a := by
  cases c <;> simp only [prep, Code.accs, accs_append, steps_append, or_assoc]

theorem chain_det {m : Mem A} {a : A.W} {l l' : List A.W} (h : Chain m a l) (h' : Chain m a l') : l = l' := by
  induction h generalizing l' with
  | last a h => cases h' with
    | last => rfl
    | next _ _ h2 => exact absurd h h2
  | next a l h _ ih => cases h' with
    | last _ h2 => exact absurd h2 h
    | next _ _ _ h2 => rw [ih h2]

/-- the chain depends on the first words of its records only -/
theorem chain_congr4 {m m' : Mem A} {a : A.W} {l : List A.W} (hc : Chain m a l) (h : ∀ r ∈ l, ∀ x, InR x r 4 → m' x = m x) : Chain m' a l := by
  induction hc with
  | last a h1 =>
    refine .last a ?_
    rw [← h1]
    exact load_congr (by decide) fun x hx => h a (by simp) x hx
  | next a l h1 _ ih =>
    have e1 : load m' a A.k = load m a A.k := load_congr (by decide) fun x hx => h a (by simp) x hx
    refine .next a l (by rw [e1]; exact h1) ?_
    rw [e1]
    exact ih fun r hr => h r (by simp [hr])

theorem test_accs (cfg : Cfg) (x : Acc) (e : Env A) (s : St A) (a : A.W) : accs x e (mtestIs cfg) s a ↔ x = .rd ∧ InR a (s.gpr ecx) 4 := by
  cases x <;> simp [mtestIs, accs, Instr.acc, Instr.rd, Instr.wr, A, add_off_zero]

theorem next_accs (cfg : Cfg) (x : Acc) (e : Env A) (s : St A) (a : A.W) : ¬ accs x e (mnextIs cfg) s a := by
  cases x <;> simp [mnextIs, accs, Instr.acc, Instr.rd, Instr.wr]

/-- accesses of the loop: the first words of the records, then those of the rest -/
theorem walk_accs (cfg : Cfg) (e : Env A) {m : Mem A} {b : A.W} {l : List A.W} (hc : Chain m b l) : ∀ (N : Nat) (s : St A), l.length ≤ N → s.mem = m → s.gpr ecx = b →
    ∃ s', Same s s' ∧ some (s'.gpr ecx) = l.getLast? ∧
      ∀ x a, (walkN cfg N).accs x e s a ↔ (x = .rd ∧ ∃ r ∈ l, InR a r 4) ∨ accs x e (mtailIs cfg) s' a := by
  induction hc with
  | last b h =>
    intro N s hN hm ha
    obtain ⟨N, rfl⟩ : ∃ k, N = k + 1 := ⟨N - 1, by simp at hN; omega⟩
    obtain ⟨t1, t2⟩ := test_same cfg e s
    refine ⟨_, t1, by rw [t2, ha]; rfl, fun x a => ?_⟩
    simp only [walkN, Code.accs]
    rw [if_pos (by rw [test_edx, plus_one, hm, ha, h]), test_accs, ha]
    simp
  | next b l h _ ih =>
    intro N s hN hm ha
    obtain ⟨N, rfl⟩ : ∃ k, N = k + 1 := ⟨N - 1, by simp at hN; omega⟩
    obtain ⟨t1, t2⟩ := test_same cfg e s
    obtain ⟨n1, n2⟩ := next_same cfg e (steps e (mtestIs cfg) s)
    have h12 := t1.trans n1
    obtain ⟨s', h1, h2, h3⟩ := ih N (steps e (mnextIs cfg) (steps e (mtestIs cfg) s)) (by simp at hN; omega) (h12.m.trans hm)
      (by rw [n2, test_edx, hm, ha]; exact BitVec.add_sub_cancel _ _)
    refine ⟨s', h12.trans h1, ?_, fun x a => ?_⟩
    · rw [h2]
      have : l ≠ [] := by rintro rfl; simp at h2
      rw [List.getLast?_cons]
      cases l with
      | nil => exact absurd rfl this
      | cons b l => simp [List.getLast?_cons]
    · simp only [walkN, Code.accs]
      rw [if_neg (by rw [test_edx, plus_one, hm, ha]; exact h), prep_accs, h3, test_accs, ha]
      have := next_accs cfg x e (steps e (mtestIs cfg) s) a
      simp only [this, false_or, List.mem_cons, exists_eq_or_imp]
      constructor
      · rintro (⟨h1, h2⟩ | ⟨h1, h2⟩ | h)
        · exact .inl ⟨h1, .inl h2⟩
        · exact .inl ⟨h1, .inr h2⟩
        · exact .inr h
      · rintro (⟨h1, h2 | h2⟩ | h)
        · exact .inl ⟨h1, h2⟩
        · exact .inr (.inl ⟨h1, h2⟩)
        · exact .inr (.inr h)

/-- what `make_fcontext` accesses: the arguments and the first words of all records are read; everything else is in the named areas -/
theorem make_accs (cfg : Cfg) (N : Nat) (e : Env A) (σ : St A) (l : List A.W) (hN : l.length ≤ N) (h : MakeOk σ (ctxOf σ) l) :
    (∀ a, (make cfg N).accs .wr e σ a → InR a (ctxOf σ) 0x40) ∧
    (∀ a, (make cfg N).accs .rd e σ a → InR a (ctxOf σ) 0x40 ∨ InR a (σ.gpr esp) 0x10 ∨ ∃ r ∈ l, InR a r 8) ∧
    ∀ a, (∃ r ∈ l, InR a r 4) → (make cfg N).accs .rd e σ a := by
  have hsz := ctx_size σ
  have g1 := h.args
  have g2 := h.recs
  rw [hsz] at g1 g2
  have hd : ∀ a, InR a (ctxOf σ) 0x40 → ¬ InR a (σ.gpr esp) 0x10 := fun a ha => g1 a (inR_mono ha (by omega))
  have hl : ∀ r ∈ l, ∀ a, InR a (ctxOf σ) 0x40 → ¬ InR a r 8 := fun r hr a ha => g2 r hr a (inR_mono ha (by omega))
  obtain ⟨h1, hz⟩ := head_ok cfg
  have hIM := IM_ok e σ hd
  have hr := fin_rel hIM _ h1
  obtain ⟨s1, hs1⟩ : ∃ s, s = steps (IM e σ).e (mheadIs cfg) (IM e σ).σ := ⟨_, rfl⟩
  rw [← hs1] at hr
  have hfr : ∀ a, s1.mem a ≠ σ.mem a → InR a (ctxOf σ) 0x40 := by
    intro a ha
    obtain ⟨i, ⟨x, hx, rfl⟩, h2⟩ := hr.frame a ha
    rw [hz.w x hx] at h2
    have h2 : InR a (ctxOf σ + off A 0) 0x40 := h2
    rw [z0] at h2; exact h2
  have hk : ∀ r ∈ l, ∀ a, InR a r 8 → s1.mem a = σ.mem a := by
    intro r hr a ha
    exact Classical.byContradiction fun hh => hl r hr a (hfr a hh) ha
  have hcx : s1.gpr ecx = seh σ := by
    rw [hr.reg hz.cx]
    show (σ.fpr tibSeh).setWidth (8 * A.k) + 0#_ = _
    rw [BitVec.add_zero]; exact BitVec.setWidth_eq _
  have hax : s1.gpr eax = ctxOf σ := by
    rw [hr.reg hz.ax]
    exact (BitVec.sub_eq_add_neg _ _).symm
  obtain ⟨s2, w1, w2, w3⟩ := walk_accs cfg e (chain_congr h.chain hk) N s1 hN rfl hcx
  have hax2 : s2.gpr eax = ctxOf σ := (w1.g eax (by decide) (by decide) (by decide)).trans hax
  have hsp2 : s2.gpr esp = σ.gpr esp := (w1.g esp (by decide) (by decide) (by decide)).trans ((hr.reg (hz.g esp (by decide))).trans (sv_reg _ _))
  obtain ⟨h3, ht⟩ := tail_ok cfg
  have hIT := IT_ok e s2 (by rw [hax2, hsp2]; exact fun a ha hh => hd a ha (inR_mono hh (by decide)))
  have b0 : (IT e s2).β 0 = ctxOf σ := hax2
  have b1 : (IT e s2).β 1 = σ.gpr esp := hsp2
  have b2 : ∃ r ∈ l, (IT e s2).β 2 = r := by
    obtain ⟨b, q1, q2⟩ := chain_ne h.chain
    rw [q1] at w2
    exact ⟨b, q2, Option.some.inj w2⟩
  have key : ∀ x a, (make cfg N).accs x e σ a ↔ accs x e (mheadIs cfg) σ a ∨ (x = .rd ∧ ∃ r ∈ l, InR a r 4) ∨ accs x e (mtailIs cfg) s2 a := by
    intro x a
    rw [make, prep_accs]
    have : steps e (mheadIs cfg) σ = s1 := hs1.symm
    rw [this, w3]
  refine ⟨fun a ha => ?_, fun a ha => ?_, fun a ha => (key _ _).2 (.inr (.inl ⟨rfl, ha⟩))⟩
  · rcases (key _ _).1 ha with ha | ⟨ha, -⟩ | ha
    · obtain ⟨x, hx, hh⟩ := fin_wr hIM _ h1 ha
      rw [hz.w x hx] at hh
      have hh : InR a (ctxOf σ + off A 0) 0x40 := hh
      rw [z0] at hh; exact hh
    · cases ha
    · obtain ⟨x, hx, hh⟩ := fin_wr hIT _ h3 ha
      rw [ht.w x hx, b0] at hh
      have hh : InR a (ctxOf σ + off A 0x18) 0x28 := hh
      exact inR_off hh (by decide) (by decide)
  · rcases (key _ _).1 ha with ha | ⟨-, r, q1, q2⟩ | ha
    · obtain hh | hh | hh := fin_rd3 hIM _ h1 (fun i => by simp [CM]) ha
      · exact .inl hh
      · exact .inr (.inl hh)
      · exact absurd hh (Nat.not_lt_zero _)
    · exact .inr (.inr ⟨r, q1, inR_mono q2 (by decide)⟩)
    · obtain hh | hh | hh := fin_rd3 hIT _ h3 (fun i => by simp [CT]) ha
      · rw [b0] at hh; exact .inl hh
      · rw [b1] at hh; exact .inr (.inl (inR_mono hh (show 4 ≤ 0x10 by decide)))
      · obtain ⟨r, q1, q2⟩ := b2
        rw [q2] at hh; exact .inr (.inr ⟨r, q1, hh⟩)

theorem arg_accs (cfg : Cfg) (N : Nat) (e : Env A) (σ : St A) (a : A.W) (h : InR a (σ.gpr esp + off A 4) 4 ∨ InR a (σ.gpr esp + off A 0xc) 4) :
    (make cfg N).accs .rd e σ a := by
  rw [make, prep_accs]
  left
  have n1 : esp ≠ eax := by decide
  have n2 : esp ≠ ecx := by decide
  have n3 : esp ≠ edx := by decide
  simp only [mheadIs, accs, Instr.acc, Instr.rd, step, setg, n1, n2, n3, if_false, false_or, or_false]
  rcases h with h | h
  · exact .inl h
  · exact .inr (.inr (.inr h))

theorem hok {cfg : Cfg} {N : Nat} {e : Env A} {σ τ : St A} {m : Mem A} (hi : (port cfg N).Intact σ m τ)
    (ha : (port cfg N).argF τ = (port cfg N).fctx σ) : (I e τ).Ok C ∧ arg τ 4 = σ.gpr esp - off A 0x2c :=
  ⟨I_ok e τ hi.ok', ha⟩

theorem C_rd {e : Env A} {τ : St A} (hok : (I e τ).Ok C) {is : List (Instr A)} (hs : (C.run is SSt.init).isSome = true) {a : A.W}
    (ha : accs .rd e is τ a) : InR a (τ.gpr esp - off A 0x2c) 0x3c ∨ InR a (arg τ 4) 0x38 := by
  obtain h | h | h := fin_rd3 hok is hs (fun i => by simp [C]) ha
  · exact .inl h
  · exact .inr h
  · exact absurd h (Nat.not_lt_zero _)

theorem C_wr {e : Env A} {τ : St A} (hok : (I e τ).Ok C) {is : List (Instr A)} (hs : (C.run is SSt.init).isSome = true) {a : A.W}
    (ha : accs .wr e is τ a) : InR a (τ.gpr esp - off A 0x2c) 0x2c ∨ ((∃ x ∈ (C.fin is hs).log, x.1 = 1) ∧ InR a (arg τ 4 + off A 0x30) 8) := by
  obtain ⟨x, hx, ⟨h0, h⟩ | ⟨h0, h⟩ | ⟨h0, h⟩⟩ := fin_wr3 hok is hs (fun i => by simp [C]) ha
  · have h : InR a (τ.gpr esp - off A 0x2c + off A 0) 0x2c := h
    rw [add_off_zero] at h; exact .inl h
  · exact .inr ⟨⟨x, hx, h0⟩, h⟩
  · exact absurd h (Nat.not_lt_zero _)

theorem enter_accs (cfg : Cfg) (N : Nat) (x : Acc) (e : Env A) (τ : St A) (a : A.W) (h : progAccs x e ((port cfg N).jump :: (port cfg N).stub) τ a) :
    accs x e (jumpIs cfg ++ trampIs cfg) τ a := by
  rw [accs_append]
  have h : accs x e (jumpIs cfg) τ a ∨ accs x e (trampIs cfg) (steps e (jumpIs cfg) τ) a ∨ False := h
  exact h.imp id fun h => h.resolve_right id

theorem foot_res (cfg : Cfg) (N : Nat) (e : Env A) (σ : St A) : (port cfg N).resM (exec e (port cfg N).make σ).1 = ctxOf σ := make_res cfg N e σ

theorem C81_i386_pe (cfg : Cfg) (N : Nat) : Footprint (extra cfg N) reads where
  jump_rd {e σ τ m a} hl hi ha hacc := by
    obtain ⟨h1, h3⟩ := hok hi ha
    obtain ⟨g1, -⟩ := jump_restore cfg
    have := C_rd h1 g1 hacc
    rw [h3] at this
    exact this.imp id fun h => .inl (inR_mono h (show 0x38 ≤ 0x3c by decide))
  jump_wr {e σ τ m a} hl hi ha hacc := by
    obtain ⟨h1, h3⟩ := hok hi ha
    obtain ⟨g1, -, -, -, -, g2⟩ := jump_restore cfg
    rcases C_wr h1 g1 hacc with h | ⟨⟨x, hx, h⟩, -⟩
    · exact .inl h
    · rw [g2 x hx] at h; cases h
  ontop_rd {e σ τ m a} _ hl hi ha hacc := by
    obtain ⟨h1, h3⟩ := hok hi ha
    obtain ⟨g1, -⟩ := ontop_restore cfg
    have := C_rd h1 g1 hacc
    rw [h3] at this
    exact this.imp id fun h => .inl (inR_mono h (show 0x38 ≤ 0x3c by decide))
  ontop_wr {e σ τ m a} _ hl hi ha hacc := by
    obtain ⟨h1, h3⟩ := hok hi ha
    obtain ⟨g1, -⟩ := ontop_restore cfg
    rcases C_wr h1 g1 hacc with h | ⟨-, h⟩
    · exact .inl h
    · rw [h3, show (0x30 : Nat) = 0x2c + 4 from rfl, fr] at h; exact .inr (.inr h)
  start_rd {e σ τ a} _ hp ha hmem hdj hacc := by
    have h1 := IE_ok e τ hdj
    obtain ⟨g1, -⟩ := enter_ok cfg
    obtain h | h | h := fin_rd3 h1 _ g1 (fun i => by simp [CE]) (enter_accs cfg N _ _ _ _ hacc)
    · exact .inl h
    · exact .inr h
    · exact absurd h (Nat.not_lt_zero _)
  start_wr {e σ τ a} _ hp ha hmem hdj hacc := by
    have h1 := IE_ok e τ hdj
    obtain ⟨g1, -⟩ := enter_ok cfg
    obtain ⟨x, -, ⟨-, h⟩ | ⟨-, h⟩ | ⟨-, h⟩⟩ := fin_wr3 h1 _ g1 (fun i => by simp [CE]) (enter_accs cfg N _ _ _ _ hacc)
    · have h : InR a (τ.gpr esp - off A 0x2c + off A 0) 0x2c := h
      rw [add_off_zero] at h; exact .inl h
    · exact .inr h
    · exact absurd h (Nat.not_lt_zero _)
  make_rd {e σ a} hm hd hacc := by
    obtain ⟨l, hN, h⟩ := hm
    rw [foot_res] at h ⊢
    have hsz : ((port cfg N).argTop σ - ctxOf σ).toNat = 0x48 + (arg σ 4 + -off A 8).toNat % 16 := ctx_size σ
    rw [hsz]
    rcases (make_accs cfg N e σ l hN h).2.1 a hacc with h1 | h1 | h1
    · exact .inl (inR_mono h1 (by omega))
    · exact .inr (.inr (.inl h1))
    · exact .inr (.inr (.inr ⟨l, h.chain, h1⟩))
  make_wr {e σ a} hm hd hacc := by
    obtain ⟨l, hN, h⟩ := hm
    rw [foot_res] at h ⊢
    have hsz : ((port cfg N).argTop σ - ctxOf σ).toNat = 0x48 + (arg σ 4 + -off A 8).toNat % 16 := ctx_size σ
    rw [hsz]
    exact .inl (inR_mono ((make_accs cfg N e σ l hN h).1 a hacc) (by omega))

theorem loc (cfg : Cfg) (N : Nat) : Local (extra cfg N) reads where
  sane := sane
  call {e s s'} h := by
    obtain ⟨h1, -, h3⟩ := h
    have h3 : ∀ a, InR a (s.gpr esp - off A 0x2c) 0x3c → s.mem a = s'.mem a := h3
    have ar : ∀ n, 0x2c + n + 4 ≤ 0x3c → load s'.mem (s.gpr esp + off A n) A.k = load s.mem (s.gpr esp + off A n) A.k := fun n hn => by
      have := load_agree (n := A.k) (o := 0x2c + n) (fun a ha => (h3 a ha).symm) hn (by decide)
      rw [fr] at this; exact this
    have e0 : load s'.mem (s.gpr esp) A.k = load s.mem (s.gpr esp) A.k := by have := ar 0 (by decide); rwa [add_off_zero] at this
    simp only [port, reads, arg, ← h1, e0, ar 4 (by decide), ar 8 (by decide)]
    exact ⟨trivial, trivial, trivial, trivial, trivial, fun _ => trivial, fun h => h, fun _ => trivial⟩
  res {σ σ' τ τ'} h h' := by
    obtain ⟨g2, -, -⟩ := h'
    simp only [port, ← g2]
    exact ⟨trivial, trivial, id⟩
  make {e s s'} hm h := by
    obtain ⟨l, hN, hM⟩ := hm
    rw [foot_res] at hM
    obtain ⟨h1, h2, h3⟩ := h
    have h3 : ∀ a, (make cfg N).accs .rd e s a → s.mem a = s'.mem a := h3
    have e1 : arg s' 4 = arg s 4 := by
      show load s'.mem (s'.gpr esp + off A 4) A.k = load s.mem (s.gpr esp + off A 4) A.k
      rw [← h1]
      exact load_congr (by decide) fun x hx => (h3 x (arg_accs cfg N e s x (.inl hx))).symm
    have e2 : arg s' 0xc = arg s 0xc := by
      show load s'.mem (s'.gpr esp + off A 0xc) A.k = load s.mem (s.gpr esp + off A 0xc) A.k
      rw [← h1]
      exact load_congr (by decide) fun x hx => (h3 x (arg_accs cfg N e s x (.inr hx))).symm
    have ec : ctxOf s' = ctxOf s := by unfold ctxOf; rw [e1]
    have es : seh s' = seh s := by show s'.fpr tibSeh = s.fpr tibSeh; rw [h2]
    have ch : Chain s'.mem (seh s') l := by
      rw [es]
      exact chain_congr4 hM.chain fun r hr x hx => (h3 x ((make_accs cfg N e s l hN hM).2.2 x ⟨r, hr, hx⟩)).symm
    refine ⟨⟨l, hN, ?_⟩, e1, e2, fun a => ?_⟩
    · rw [foot_res, ec]
      refine ⟨ch, ?_, ?_⟩
      · rw [e1, ← h1]; exact hM.args
      · rw [e1]; exact hM.recs
    · show (InR a (s'.gpr esp) 0x10 ∨ _) ↔ (InR a (s.gpr esp) 0x10 ∨ _)
      rw [← h1]
      constructor
      · rintro (h | ⟨l', q, h⟩)
        · exact .inl h
        · rw [chain_det q ch] at h; exact .inr ⟨l, hM.chain, h⟩
      · rintro (h | ⟨l', q, h⟩)
        · exact .inl h
        · rw [chain_det q hM.chain] at h; exact .inr ⟨l, ch, h⟩
  resM h := by simp only [port, h]
  oarea {s s' a} h ha := by simp only [port, ← h] at ha ⊢; exact ha
  mslot c a h := inR_off (show InR a (c + off A 0x2c) 0xc from h) (show 0x2c + 0xc ≤ 0x40 by decide) (show 0x40 ≤ _ by decide)

theorem C82_i386_pe (cfg : Cfg) (N : Nat) : Micro.Spec (extra cfg N) reads fun _ τ => (port cfg N).argFn τ :=
  Micro.C82_of_footprints (C67_i386_pe_jump cfg N) (fun _ => C67_i386_pe_ontop cfg N) (makeS cfg N) (C81_i386_pe cfg N) (loc cfg N)
end Verif.Asm.I386Pe
