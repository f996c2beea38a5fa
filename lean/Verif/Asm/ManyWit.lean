import Verif.Asm.ManyPorts

/-! # Histories as in C40 exist on every port

Non-vacuity of the hypotheses of `Many.Spec`: on every port there is a history in which a context makes another one, switches to it and is resumed by it. -/

namespace Verif.Asm.Many

/-- ports with all arguments in registers: `to` the target, `top` the first argument of `make_fcontext`, `h` the address of the result object -/
def Calls.regs {A : Arch} {P : Port A} {X : Extra P} (to h top : A.R) (fr j msz : Nat) (k : 4 ≤ A.k)
    (sz : X.fp ≤ 0x400 ∧ fr ≤ 0x400 ∧ P.mscratch + A.k ≤ 0x400 ∧ P.mkeep ≤ 0x400) (null : ∀ a, X.null a → a.toNat < 0x1000)
    (ne : to ≠ P.sp ∧ h ≠ P.sp ∧ (top = to ∨ top = h)) (hf : P.fctx = fun s => s.gpr P.sp - off A fr) (ha : P.argF = fun s => s.gpr to)
    (ht : P.argTop = fun s => s.gpr top) (hs : ∀ s a, P.slot s a → h ≠ to ∧ InR a (s.gpr h) 0x20) (hn : ∀ s, h = to ∨ s.gpr h ≠ 0#_ → X.nn s)
    (hm : msz + 2 ^ j ≤ 0x800) (hr : ∀ e σ, P.resM (exec e P.make σ).1 = (σ.gpr top &&& mask A j) - off A msz)
    (hd : ∃ r ∈ P.saved, r ≠ P.sp ∧ r ≠ to ∧ r ≠ h) (hmok : ∀ e σ, X.mok e σ := by intros; trivial) (q : List A.R := [])
    (hq : ∀ r ∈ q, r ∉ P.saved := by intro _ h; cases h) : Calls X where
  call m sp hh t x := ⟨fun r => if r = P.sp then sp else if r = to then t else if r = h then hh else if r ∈ q then sp else x, fun _ => 0#_, m⟩
  fr := fr
  k := k
  sz := sz
  null := null
  mem _ _ _ _ _ _ _ := rfl
  sp _ _ _ _ _ := if_pos rfl
  fctx _ _ _ _ _ := by rw [hf]; simp
  argF _ _ _ _ _ := by rw [ha]; simp [ne.1]
  res e m sp t x := by
    have h2 : 2 ^ 32 ≤ 2 ^ (8 * A.k) := Nat.pow_le_pow_right (by omega) (by omega)
    rw [hr, ht]
    show ((_ : A.W) - _).toNat ≤ _
    rw [align_below _ msz j (by omega)]
    have := Nat.mod_lt (BitVec.toNat (if top = P.sp then sp else if top = to then t else if top = h then t else if top ∈ q then sp else x)) (Nat.two_pow_pos j)
    omega
  argTop m sp t x := by
    rw [ht]
    show (if top = P.sp then sp else if top = to then t else if top = h then t else if top ∈ q then sp else x) = t
    rcases ne.2.2 with rfl | rfl
    · simp [ne.1]
    · simp [ne.2.1]
  slot m sp hh t x a hx := by
    obtain ⟨h1, h2⟩ := hs _ _ hx
    simpa [ne.2.1, h1] using h2
  nn m sp hh t x h0 := by
    refine hn _ ?_
    by_cases he : h = to
    · exact .inl he
    · right; simpa [ne.2.1, he] using h0
  mok e x := hmok e _
  diff := by
    obtain ⟨r, h1, h2, h3, h4⟩ := hd
    have h5 : r ∉ q := fun hm => hq r hm h1
    exact ⟨r, h1, fun m sp hh t x => by simp [h2, h3, h4, h5]⟩

theorem slot_null {A : Arch} (hk : A.k ≤ 8) (a : A.W) (h : InR a 0#_ (2 * A.k)) : a.toNat < 0x1000 := by
  unfold InR at h
  rw [BitVec.sub_zero] at h
  omega

def c_x86_64 (cfg : X86_64.Cfg) : Calls (X86_64.extra cfg) :=
  .regs X86_64.rdi X86_64.rdi X86_64.rdi 0x40 4 0x48 (by decide) (by show 0x48 ≤ 0x400 ∧ 0x40 ≤ 0x400 ∧ 0 + 8 ≤ 0x400 ∧ 0x48 ≤ 0x400; decide) (fun _ h => h.elim)
    (by show X86_64.rdi ≠ X86_64.rsp ∧ X86_64.rdi ≠ X86_64.rsp ∧ _; decide)
    rfl rfl rfl (fun _ _ h => h.elim) (fun _ _ => trivial) (by decide)
    (fun e σ => by
      show (exec e (X86_64.make cfg) σ).1.gpr X86_64.rax = X86_64.ctxOf σ
      rw [X86_64.make_pre]
      have := steps_dest e ((X86_64.makeIs cfg).drop 3) (.g X86_64.rax) (by obtain ⟨_ | _, _ | _⟩ := cfg <;> decide) (setg σ X86_64.rax (X86_64.ctxOf σ))
      simp only [get_g] at this
      rw [this]; simp [setg])
    ⟨X86_64.rbx, by simp [X86_64.port], by show X86_64.rbx ≠ X86_64.rsp ∧ _; decide⟩

def c_i386 (cfg : I386.Cfg) : Calls (I386.extra cfg) where
  mok _ _ := trivial
  call := I386.mk
  fr := 0x1c
  k := by decide
  sz := by show 0x30 ≤ 0x400 ∧ 0x1c ≤ 0x400 ∧ 4 + 4 ≤ 0x400 ∧ 0x2c ≤ 0x400; decide
  null _ h := h.elim
  mem m sp h to x a ha := I386.mk_mem _ _ _ _ _ _ fun h => ha (inR_mono h (by decide))
  sp _ _ _ _ _ := rfl
  fctx _ _ _ _ _ := rfl
  argF _ _ _ _ _ := I386.mk_to _ _ _ _ _
  res e m sp t x := by
    obtain ⟨σ, hσ⟩ : ∃ σ, σ = I386.mk m sp t t x := ⟨_, rfl⟩
    rw [← hσ]
    have hres : (I386.port cfg).resM (exec e (I386.port cfg).make σ).1 = I386.ctxOf σ := by
      show (exec e (I386.make cfg) σ).1.gpr I386.eax = I386.ctxOf σ
      rw [I386.make_pre]
      have := steps_dest e ((I386.makeIs cfg).drop 5) (.g I386.eax) (by obtain ⟨_ | _, _ | _⟩ := cfg <;> decide) (I386.pre σ)
      simp only [get_g] at this
      rw [this]
      have n1 : I386.eax ≠ I386.ecx := by decide
      simp [I386.pre, setg, n1]
    rw [hres]
    show (I386.arg σ 4 - I386.ctxOf σ).toNat ≤ _
    rw [I386.ctx_size]
    omega
  argTop _ _ _ _ := I386.mk_hid _ _ _ _ _
  slot m sp h to x a ha := by
    have ha : InR a (I386.arg (I386.mk m sp h to x) 4) 8 := ha
    rw [I386.mk_hid] at ha
    exact inR_mono ha (by decide)
  nn _ _ _ _ _ _ := trivial
  diff := ⟨I386.ebx, by simp [I386.port], fun _ _ _ _ _ => rfl⟩

def c_arm64 : Calls Arm64.extra :=
  .regs (Arm64.x 0) (Arm64.x 0) (Arm64.x 0) 0xb0 4 0xb0 (by decide) (by show max 0xb0 0xb0 ≤ 0x400 ∧ 0xb0 ≤ 0x400 ∧ 0 + 8 ≤ 0x400 ∧ 0xb0 ≤ 0x400; decide) (fun _ h => h.elim)
    (by decide) rfl rfl rfl (fun _ _ h => h.elim) (fun _ _ => trivial) (by decide) (fun e σ => (Arm64.S.make e σ).2.1) ⟨Arm64.x 19, by decide, by decide⟩

def c_riscv64 : Calls RiscV64.extra :=
  .regs (RiscV64.a 0) (RiscV64.a 0) (RiscV64.a 0) 0xd0 4 0xd0 (by decide) (by show max 0xd0 0xd0 ≤ 0x400 ∧ 0xd0 ≤ 0x400 ∧ 0 + 8 ≤ 0x400 ∧ 0xd0 ≤ 0x400; decide) (fun _ h => h.elim)
    (by decide) rfl rfl rfl (fun _ _ h => h.elim) (fun _ _ => trivial) (by decide) (fun e σ => (RiscV64.S.make e σ).2.1) ⟨RiscV64.s 0, by decide, by decide⟩

def c_loongarch64 : Calls LoongArch64.extra :=
  .regs (LoongArch64.a 0) (LoongArch64.a 0) (LoongArch64.a 0) 0xa0 4 0xa0 (by decide) (by show max 0xa0 0xa0 ≤ 0x400 ∧ 0xa0 ≤ 0x400 ∧ 0 + 8 ≤ 0x400 ∧ 0xa0 ≤ 0x400; decide) (fun _ h => h.elim)
    (by decide) rfl rfl rfl (fun _ _ h => h.elim) (fun _ _ => trivial) (by decide) (fun e σ => (LoongArch64.S.make e σ).2.1) ⟨LoongArch64.s 0, by decide, by decide⟩

def c_mips64 (hf : Bool) : Calls (Mips64.extra hf) :=
  .regs (Mips64.a 0) (Mips64.a 0) (Mips64.a 0) 0xa0 4 0xa0 (by decide) (by show max 0xa0 0xa0 ≤ 0x400 ∧ 0xa0 ≤ 0x400 ∧ 0 + 8 ≤ 0x400 ∧ 0xa0 ≤ 0x400; decide) (fun _ h => h.elim)
    (by cases hf <;> decide) rfl rfl rfl (fun _ _ h => h.elim) (fun _ _ => trivial) (by decide) (fun e σ => ((Mips64.S hf).make e σ).2.1) ⟨Mips64.s 0, by cases hf <;> decide, by cases hf <;> decide⟩

def c_ppc64 : Calls Ppc64.extra :=
  .regs (Ppc64.r 3) (Ppc64.r 3) (Ppc64.r 3) 184 4 248 (by decide) (by show max 184 184 ≤ 0x400 ∧ 184 ≤ 0x400 ∧ 0 + 8 ≤ 0x400 ∧ 248 ≤ 0x400; decide) (fun _ h => h.elim)
    (by decide) rfl rfl rfl (fun _ _ h => h.elim) (fun _ _ => trivial) (by decide) (fun e σ => (Ppc64.M.make e σ _ rfl).2.1) ⟨Ppc64.r 14, by decide, by decide⟩

def c_ppc32b : Calls Ppc32b.extra :=
  .regs (Ppc32b.r 3) (Ppc32b.r 3) (Ppc32b.r 3) 240 4 256 (by decide) (by show 248 ≤ 0x400 ∧ 240 ≤ 0x400 ∧ 0 + 4 ≤ 0x400 ∧ 256 ≤ 0x400; decide) (fun _ h => h.elim)
    (by decide) rfl rfl rfl (fun _ _ h => h.elim) (fun _ _ => trivial) (by decide) (fun e σ => (Ppc32b.M.make e σ _ rfl).2.1) ⟨Ppc32b.r 14, by decide, by decide⟩

def c_arm32 (vfp : Bool) : Calls (Arm32.extra vfp) :=
  .regs (Arm32.a 2) (Arm32.a 1) (Arm32.a 1) 0x6c 4 0x7c (by decide) (by show 0x6c ≤ 0x400 ∧ 0x6c ≤ 0x400 ∧ 0 + 4 ≤ 0x400 ∧ 0x7c ≤ 0x400; decide)
    (fun a h => slot_null (by decide) a h.2) (by cases vfp <;> decide) rfl rfl rfl (fun _ _ h => ⟨by decide, inR_mono h (by decide)⟩)
    (fun _ h _ => h.resolve_left (by decide)) (by decide) (fun e σ => ((Arm32.M vfp).make e σ _ rfl).2.1) ⟨Arm32.v 1, by cases vfp <;> decide, by cases vfp <;> decide⟩

def c_mips32 (hf : Bool) : Calls (Mips32.extra hf) :=
  .regs (Mips32.a 1) (Mips32.a 0) (Mips32.a 0) 0x60 4 0x80 (by decide) (by show 0x60 ≤ 0x400 ∧ 0x60 ≤ 0x400 ∧ 0 + 4 ≤ 0x400 ∧ 0x80 ≤ 0x400; decide)
    (fun a h => slot_null (by decide) a h.2) (by cases hf <;> decide) rfl rfl rfl (fun _ _ h => ⟨by decide, inR_mono h (by decide)⟩)
    (fun _ h _ => h.resolve_left (by decide)) (by decide) (fun e σ => ((Mips32.M hf).make e σ _ rfl).2.1) ⟨Mips32.s 0, by cases hf <;> decide, by cases hf <;> decide⟩

def c_s390x : Calls S390x.extra :=
  .regs (S390x.r 3) (S390x.r 2) (S390x.r 2) 0xb0 3 0xb0 (by decide) (by show 0xb0 ≤ 0x400 ∧ 0xb0 ≤ 0x400 ∧ 0 + 8 ≤ 0x400 ∧ 0xb0 ≤ 0x400; decide)
    (fun a h => slot_null (by decide) a h.2) (by decide) rfl rfl rfl (fun _ _ h => ⟨by decide, inR_mono h (by decide)⟩)
    (fun _ h _ => h.resolve_left (by decide)) (by decide) (fun e σ => (S390x.M.make e σ _ rfl).2.1) ⟨S390x.r 6, by decide, by decide⟩

def c_ppc32 : Calls Ppc32.extra :=
  .regs (Ppc32.r 4) (Ppc32.r 3) (Ppc32.r 3) 240 4 256 (by decide) (by show 248 ≤ 0x400 ∧ 240 ≤ 0x400 ∧ 0 + 4 ≤ 0x400 ∧ 256 ≤ 0x400; decide)
    (fun a h => slot_null (by decide) a h.2) (by decide) rfl rfl rfl (fun _ _ h => ⟨by decide, inR_mono h (by decide)⟩)
    (fun _ h _ => h.resolve_left (by decide)) (by decide) (fun e σ => (Ppc32.M.make e σ _ rfl).2.1) ⟨Ppc32.r 14, by decide, by decide⟩

example (cfg : X86_64.Cfg) (hg : cfg.guard = false) := inhabited (X86_64.C30_x86_64_make cfg hg) (c_x86_64 cfg)
example (cfg : I386.Cfg) := inhabited (I386.C34_i386_make cfg) (c_i386 cfg)
example := inhabited Arm64.C31_arm64_make c_arm64
example := inhabited RiscV64.C32_riscv64_make c_riscv64
example := inhabited LoongArch64.C33_loongarch64_make c_loongarch64
example (hf : Bool) := inhabited (Mips64.C36_mips64_make hf) (c_mips64 hf)
example := inhabited Ppc64.C57_ppc64_make c_ppc64
example := inhabited Ppc32b.C38_ppc32b_make c_ppc32b
example (vfp : Bool) := inhabited (Arm32.C35_arm_make vfp) (c_arm32 vfp)
example (hf : Bool) := inhabited (Mips32.C36_mips32_make hf) (c_mips32 hf)
example := inhabited S390x.C37_s390x_make c_s390x
example := inhabited Ppc32.C38_ppc32_make c_ppc32

end Verif.Asm.Many
