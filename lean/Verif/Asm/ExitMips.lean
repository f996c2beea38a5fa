import Verif.Asm.ExitPorts

/-! # A context function that returns: MIPS (C92)

On MIPS the stub needs the global pointer of the library to find `_exit`.  `make_fcontext` leaves it in the new context's data. -/

namespace Verif.Asm

namespace Mips32

/-- `finish`, make_mips32_o32_elf_gas.S:84-93 (`lw $gp, 16($sp); la $t9, _exit; move $a0, $zero; jr $t9`); `la` loads the entry at offset `o` of the global offset table, relative to gp -/
def finish (o : Nat) : Stub A := { is := fun _ => [.ld gp sp 16, .ld (t 9) gp o, .movi (a 0) 0#_], to := .reg (t 9) }

/-- o32: first parameter in a0.  `kept`: the word 16 bytes above the stack pointer with which the context function was entered (behind the 16 bytes that the callee may use) is
unchanged, and the entry for `_exit` in the library's global offset table, to which the gp of `make_fcontext` points, holds the address of `_exit`. -/
def void (hf : Bool) (o : Nat) : VoidConv (port hf) :=
  { vret := fun s => s.gpr sp, arg := fun s => s.gpr (a 0), lo := 0, hi := 0,
    kept := fun σ ε ρ x => (∀ y, InR y (ε.gpr sp + off A 16) 4 → ρ.mem y = ε.mem y) ∧ load ρ.mem (σ.gpr gp + off A o) A.k = x }

/-- the word the stub loads gp from, when the context function is entered -/
theorem entry_gp (hf : Bool) {e : Env A} {σ τ : St A}
    (hd : ∀ y, InR y ((port hf).resM (exec e (port hf).make σ).1) ((port hf).argTop σ - (port hf).resM (exec e (port hf).make σ).1).toNat →
      ¬ InR y (σ.gpr (port hf).sp - off A (port hf).mscratch) ((port hf).mscratch + A.k))
    (h1 : (port hf).argF τ = (port hf).resM (exec e (port hf).make σ).1)
    (h2 : ∀ y, InR y ((port hf).argF τ) (port hf).mkeep → τ.mem y = (exec e (port hf).make σ).1.mem y)
    (h3 : ∀ y, InR y ((port hf).argF τ) (port hf).mkeep → ¬ InR y ((port hf).fctx τ) (port hf).frame) :
    load ((port hf).enter e τ).1.mem (((port hf).enter e τ).1.gpr sp + off A 16) A.k = σ.gpr gp := by
  obtain ⟨s, hx, hr, hc⟩ := (M hf).entry h1 h2 h3
  have hc : τ.gpr (a 1) = (σ.gpr (a 0) &&& mask A 4) - off A 0x80 := hc
  obtain ⟨c, hcc⟩ : ∃ c, c = τ.gpr (a 1) := ⟨_, rfl⟩
  have hsp : s.gpr sp = c + off A 0x60 := by rw [hcc]; exact hr.reg (M hf).sp
  have hmem := ((C36_mips32_make hf e σ hd).2.2.2 τ h1 h2 h3).2.2.2.2.2.2.2.1
  rw [hx] at hmem ⊢
  have h2 : ∀ y, InR y c 0x80 → τ.mem y = (exec e (port hf).make σ).1.mem y := by rw [hcc]; exact h2
  have h3 : ∀ y, InR y c 0x80 → ¬ InR y ((port hf).fctx τ) (port hf).frame := by rw [hcc]; exact h3
  have hmem : ∀ y, s.mem y ≠ τ.mem y → InR y ((port hf).fctx τ) (port hf).frame ∨ InR y (c + off A 0x74) 8 := by rw [hcc]; exact hmem
  have hm : (exec e (port hf).make σ).1.mem = store (store (store (store σ.mem (c + off A 0x5c) A.k (σ.gpr (a 2)))
      (c + off A 0x70) A.k (σ.gpr gp)) (c + off A 0x54) A.k (c + off A 0x74)) (c + off A 0x58) A.k (e Lab.finish) := by
    have hand : σ.gpr (a 0) &&& mask A 4 = mask A 4 &&& σ.gpr (a 0) := BitVec.and_comm _ _
    rw [hcc, hc, BitVec.sub_eq_add_neg, hand]; rfl
  show load s.mem (s.gpr sp + off A 16) A.k = _
  rw [hsp, show c + off A 0x60 + off A 16 = c + off A 0x70 from add_off_off _ _ _]
  have hl : load s.mem (c + off A 0x70) A.k = load (exec e (port hf).make σ).1.mem (c + off A 0x70) A.k := by
    refine load_congr (by decide) fun y hy => ?_
    have hy' : InR y c 0x80 := inR_off hy (by decide) (by decide)
    rw [← h2 y hy']
    refine Classical.byContradiction fun hn => ?_
    rcases hmem y hn with g | g
    · exact h3 y hy' g
    · exact inR_disj hy (by decide) (by decide) (by decide) g
  rw [hl, hm, load_store_off (by decide) (by decide) (by decide), load_store_off (by decide) (by decide) (by decide), load_store_same _ _ _ _ (by decide)]

/-- **C92**, MIPS32 o32 -/
theorem C92_mips32 (hf : Bool) (o : Nat) : (port hf).ExitSpec (void hf o) (finish o) := by
  intro e σ τ ρ pc x nxt _ hd h1 h2 h3 hr hk
  have hg := entry_gp hf hd h1 h2 h3
  obtain ⟨_, _, _, h⟩ := C36_mips32_make hf e σ hd
  obtain ⟨_, _, _, _, hra, hal, _⟩ := h τ h1 h2 h3
  obtain ⟨ε, hε⟩ : ∃ ε, ε = ((port hf).enter e τ).1 := ⟨_, rfl⟩
  rw [← hε] at hg hr hk hra hal ⊢
  obtain ⟨hk1, hk2⟩ := hk
  have hsr : ρ.gpr sp = ε.gpr sp := hr.sp
  have hs : ((finish o).run e x nxt ρ).1.gpr (port hf).sp = ε.gpr (port hf).sp := hsr
  have hg' : load ρ.mem (ρ.gpr sp + off A 16) A.k = σ.gpr gp := by
    rw [← hg, hsr]; exact load_congr (by decide) hk1
  refine ⟨hr.pc.trans hra, ?_, rfl, by rw [hs]; exact hal, by rw [hs, BitVec.sub_self]; exact Nat.zero_le _, fun y h => absurd rfl h⟩
  have ht : ((finish o).run e x nxt ρ).2 = load ρ.mem (load ρ.mem (ρ.gpr sp + off A 16) A.k + off A o) A.k := rfl
  rw [ht, hg']; exact hk2

end Mips32

theorem two_slots {A : Arch} (hk : A.k = 8) {m m' : Mem A} {w y : A.W} {o : Nat}
    (hm : m' = store (store m (w + off A 0) A.k (w + off A 8 - off A o)) (w + off A 8) A.k y) :
    (∀ b, ¬ InR b w 16 → m' b = m b) ∧ load m' (load m' w A.k + off A o) A.k = y := by
  have h16 : 16 ≤ 2 ^ (8 * A.k) := by rw [hk]; decide
  have hl : A.k ≤ 2 ^ (8 * A.k) := by rw [hk]; decide
  subst hm
  constructor
  · intro b hb
    rw [store_out fun h => hb (inR_off h (by omega) h16), store_out fun h => hb (inR_off h (by omega) h16)]
  · obtain ⟨m', hm⟩ : ∃ m', m' = store (store m (w + off A 0) A.k (w + off A 8 - off A o)) (w + off A 8) A.k y := ⟨_, rfl⟩
    rw [← hm]
    have h0 : load m' (w + off A 0) A.k = w + off A 8 - off A o := by
      rw [hm, load_store_off (by rw [hk]; decide) (by rw [hk]; decide) (by omega), load_store_same _ _ _ _ hl]
    rw [add_off_zero] at h0
    rw [h0, BitVec.sub_add_cancel, hm, load_store_same _ _ _ _ hl]

namespace Mips64

/-- `finish`, make_mips64_n64_elf_gas.S:82-92 (`daddiu $t0, $sp, -160; ld $gp, 136($t0); dla $t9, _exit; move $a0, $zero; jr $t9`); `dla` loads the entry at offset `o` of the global
offset table, relative to gp -/
def finish (o : Nat) : Stub A := { is := fun _ => [.addi (t 0) sp (-off A 160), .ld gp (t 0) 136, .ld (t 9) gp o, .movi (a 0) 0#_], to := .reg (t 9) }

/-- n64: first parameter in a0.  `kept`: the eight bytes 24 bytes *below* the stack pointer with which the context function was entered are unchanged after its return, and the entry for
`_exit` in the library's global offset table, to which the gp of `make_fcontext` points, holds the address of `_exit`.  The calling convention does not demand the former: these bytes
belong to the context function. -/
def void (hf : Bool) (o : Nat) : VoidConv (port hf) :=
  { vret := fun s => s.gpr sp, arg := fun s => s.gpr (a 0), lo := 0, hi := 0,
    kept := fun σ ε ρ x => (∀ y, InR y (ε.gpr sp - off A 24) 8 → ρ.mem y = ε.mem y) ∧ load ρ.mem (σ.gpr gp + off A o) A.k = x }

theorem entry_sp (hf : Bool) (e : Env A) (τ : St A) : ((port hf).enter e τ).1.gpr sp = τ.gpr (a 0) + off A 0xa0 := by cases hf <;> rfl

theorem entry_gp (hf : Bool) {e : Env A} {σ τ : St A}
    (hd : ∀ y, InR y ((port hf).resM (exec e (port hf).make σ).1) ((port hf).argTop σ - (port hf).resM (exec e (port hf).make σ).1).toNat →
      ¬ InR y (σ.gpr (port hf).sp - off A (port hf).mscratch) ((port hf).mscratch + A.k))
    (h1 : (port hf).argF τ = (port hf).resM (exec e (port hf).make σ).1)
    (h2 : ∀ y, InR y ((port hf).argF τ) (port hf).mkeep → τ.mem y = (exec e (port hf).make σ).1.mem y)
    (h3 : ∀ y, InR y ((port hf).argF τ) (port hf).mkeep → ¬ InR y ((port hf).fctx τ) (port hf).frame) :
    load ((port hf).enter e τ).1.mem (((port hf).enter e τ).1.gpr sp - off A 24) A.k = σ.gpr gp := by
  obtain ⟨c, hcc⟩ : ∃ c, c = τ.gpr (a 0) := ⟨_, rfl⟩
  have hc : c = (σ.gpr (a 0) &&& mask A 4) - off A 0xa0 := by
    have hand : σ.gpr (a 0) &&& mask A 4 = mask A 4 &&& σ.gpr (a 0) := BitVec.and_comm _ _
    rw [hcc, BitVec.sub_eq_add_neg, hand]; exact h1
  have hmem := ((C36_mips64_make hf e σ hd).2.2.2 τ h1 h2 h3).2.2.2.2.2.2.2.1
  rw [entry_sp, ← hcc]
  obtain ⟨s, hs⟩ : ∃ s, s = ((port hf).enter e τ).1 := ⟨_, rfl⟩
  rw [← hs] at hmem ⊢
  have h2 : ∀ y, InR y c 0xa0 → τ.mem y = (exec e (port hf).make σ).1.mem y := by rw [hcc]; exact h2
  have h3 : ∀ y, InR y c 0xa0 → ¬ InR y ((port hf).fctx τ) (port hf).frame := by rw [hcc]; exact h3
  have hmem : ∀ y, s.mem y ≠ τ.mem y → InR y ((port hf).fctx τ) (port hf).frame ∨ False := hmem
  have hm : (exec e (port hf).make σ).1.mem = store (store (store σ.mem (c + off A 0x98) A.k (σ.gpr (a 2)))
      (c + off A 0x88) A.k (σ.gpr gp)) (c + off A 0x90) A.k (e Lab.finish) := by
    have hand : σ.gpr (a 0) &&& mask A 4 = mask A 4 &&& σ.gpr (a 0) := BitVec.and_comm _ _
    rw [hc, BitVec.sub_eq_add_neg, hand]; rfl
  have q : c + off A 0xa0 - off A 24 = c + off A 0x88 := by
    rw [← show off A 0x88 + off A 24 = off A 0xa0 from by decide, ← BitVec.add_assoc, BitVec.add_sub_cancel]
  rw [q]
  have hl : load s.mem (c + off A 0x88) A.k = load (exec e (port hf).make σ).1.mem (c + off A 0x88) A.k := by
    refine load_congr (by decide) fun y hy => ?_
    have hy' : InR y c 0xa0 := inR_off hy (by decide) (by decide)
    rw [← h2 y hy']
    refine Classical.byContradiction fun hn => ?_
    rcases hmem y hn with g | g
    · exact h3 y hy' g
    · exact g
  rw [hl, hm, load_store_off (by decide) (by decide) (by decide), load_store_same _ _ _ _ (by decide)]

theorem finish_to (o : Nat) (e : Env A) (x nxt : A.W) (ρ : St A) :
    ((finish o).run e x nxt ρ).2 = load ρ.mem (load ρ.mem (ρ.gpr sp - off A 24) A.k + off A o) A.k := by
  have ht : ((finish o).run e x nxt ρ).2 = load ρ.mem (load ρ.mem (ρ.gpr sp + -off A 160 + off A 136) A.k + off A o) A.k := rfl
  have q : ρ.gpr sp + -off A 160 + off A 136 = ρ.gpr sp - off A 24 := by
    rw [BitVec.add_assoc, BitVec.sub_eq_add_neg, show -off A 160 + off A 136 = -off A 24 from by decide]
  rw [ht, q]

/-- **C92**, MIPS64 n64, if the context function happens to leave alone the part of its own stack frame where `make_fcontext` has put gp (the full property is false, see
`C92_mips64_violated`) -/
theorem C92_mips64 (hf : Bool) (o : Nat) : (port hf).ExitSpec (void hf o) (finish o) := by
  intro e σ τ ρ pc x nxt _ hd h1 h2 h3 hr hk
  have hg := entry_gp hf hd h1 h2 h3
  obtain ⟨_, _, _, h⟩ := C36_mips64_make hf e σ hd
  obtain ⟨_, _, _, _, hra, hal, _⟩ := h τ h1 h2 h3
  obtain ⟨ε, hε⟩ : ∃ ε, ε = ((port hf).enter e τ).1 := ⟨_, rfl⟩
  rw [← hε] at hg hr hk hra hal ⊢
  obtain ⟨hk1, hk2⟩ := hk
  have hsr : ρ.gpr sp = ε.gpr sp := hr.sp
  have hs : ((finish o).run e x nxt ρ).1.gpr (port hf).sp = ε.gpr (port hf).sp := hsr
  have hg' : load ρ.mem (ρ.gpr sp - off A 24) A.k = σ.gpr gp := by
    rw [← hg, hsr]; exact load_congr (by decide) hk1
  refine ⟨hr.pc.trans hra, ?_, rfl, by rw [hs]; exact hal, by rw [hs, BitVec.sub_self]; exact Nat.zero_le _, fun y h => absurd rfl h⟩
  rw [finish_to, hg']; exact hk2

/-- **C92** is violated on MIPS64 n64.  `ε` is any entry state of the context function.  It may write to the 16 bytes from 24 to 8 bytes below its stack pointer — they belong to its own
stack frame — and return as the ABI demands, with all other memory as at its entry; then the stub goes to an arbitrary address `y` instead of `_exit`. -/
theorem C92_mips64_violated (hf : Bool) (o : Nat) (e : Env A) (ε : St A) (x nxt y : A.W) :
    ∃ ρ, (port hf).ReturnedTo ((void hf o).vret ε) ε ρ ((port hf).ra ε) ∧ (∀ b, ¬ InR b (ε.gpr sp - off A 24) 16 → ρ.mem b = ε.mem b) ∧
      ((finish o).run e x nxt ρ).2 = y := by
  obtain ⟨w, hw⟩ : ∃ w, w = ε.gpr sp - off A 24 := ⟨_, rfl⟩
  obtain ⟨m, hm⟩ : ∃ m, m = store (store ε.mem (w + off A 0) A.k (w + off A 8 - off A o)) (w + off A 8) A.k y := ⟨_, rfl⟩
  obtain ⟨h1, h2⟩ := two_slots rfl hm
  refine ⟨⟨ε.gpr, ε.fpr, m⟩, ⟨rfl, rfl, fun _ _ => rfl, fun _ _ => rfl⟩, ?_, ?_⟩
  · rw [← hw]; exact h1
  · rw [finish_to]
    show load m (load m (ε.gpr sp - off A 24) A.k + off A o) A.k = y
    rw [← hw]; exact h2

/-- The hypotheses of `C92_mips64` are met: the stack of the new context ends at the odd address `0xf123`, the caller of `make_fcontext` has `sp = 0x10000`, and the context function
returns at once. -/
example (e : Env A) (hf : Bool) (o : Nat) (σ : St A) (h1 : σ.gpr (a 0) = 0xf123#_) (h2 : σ.gpr sp = 0x10000#_) : ∃ τ ρ pc x, (port hf).argF τ = (port hf).resM (exec e (port hf).make σ).1 ∧
    (∀ a, InR a ((port hf).argF τ) (port hf).mkeep → τ.mem a = (exec e (port hf).make σ).1.mem a) ∧ (∀ a, InR a ((port hf).argF τ) (port hf).mkeep → ¬ InR a ((port hf).fctx τ) (port hf).frame) ∧
    (port hf).ReturnedTo ((void hf o).vret ((port hf).enter e τ).1) ((port hf).enter e τ).1 ρ pc ∧ (void hf o).kept σ ((port hf).enter e τ).1 ρ x ∧ ρ.gpr (a 0) = 42#_ := by
  obtain ⟨_, τ, _, t1, t2, t3⟩ := (S hf).make_inhabited e σ σ 0x20000#_ (by show _ ≤ BitVec.toNat (σ.gpr (a 0)); rw [h1]; decide +revert)
    (by show BitVec.toNat (σ.gpr (a 0)) ≤ BitVec.toNat (σ.gpr sp); rw [h1, h2]; decide) (by show BitVec.toNat (σ.gpr sp) + _ + _ ≤ _; rw [h2]; decide +revert) rfl
  obtain ⟨ε, hε⟩ : ∃ ε, ε = ((port hf).enter e τ).1 := ⟨_, rfl⟩
  refine ⟨τ, ?_⟩
  rw [← hε]
  obtain ⟨ρ, r1, r2, r3⟩ := (void hf o).returns ε (a 0) (by cases hf <;> decide) (by cases hf <;> decide) (by cases hf <;> decide)
  exact ⟨ρ, _, load ρ.mem (σ.gpr gp + off A o) A.k, t1, t2, t3, r1, ⟨fun y _ => congrFun r2 y, rfl⟩, r3⟩

end Mips64

end Verif.Asm
