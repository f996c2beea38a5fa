import Verif.Build.CMake

/-!
# Specification and proofs for C84

The specification: which machine a platform is (`Isa`, with the names under which CMake reports it), and which sources it needs.
-/

set_option linter.unusedSimpArgs false

namespace Verif.Build

/-- instruction sets, by the size of pointers -/
inductive Isa
  | x86_64 | i386 | arm64 | arm | mips64 | mips32 | riscv64 | loongarch64 | s390x
  deriving DecidableEq

/-- binary format and tools of the platform -/
inductive System
  /-- Linux, BSD and the like -/
  | elf
  | darwin
  /-- Windows with the Microsoft compiler or one that simulates it -/
  | msvc
  /-- Windows with a GNU toolchain -/
  | mingw
  deriving DecidableEq

def System.is : System → Platform → Prop
  | .elf, p => p.win32 = false ∧ p.apple = false ∧ p.msvc = false
  | .darwin, p => p.win32 = false ∧ p.apple = true ∧ p.msvc = false
  | .msvc, p => p.win32 = true ∧ p.msvc = true
  | .mingw, p => p.win32 = true ∧ p.msvc = false

/-- `String.startsWith`, ignoring case, for `arm` -/
def ArmName (s : String) : Prop := ∃ a r m rest, s.toList = a :: r :: m :: rest ∧ (a = 'a' ∨ a = 'A') ∧ (r = 'r' ∨ r = 'R') ∧ (m = 'm' ∨ m = 'M')
def MipsName (s : String) : Prop := ∃ rest, s.toList = 'm' :: 'i' :: 'p' :: 's' :: rest

/-- the names under which programs for an instruction set see their processor, with the size of pointers -/
inductive Reports : Isa → Platform → Prop
  | x86_64 {p} : p.proc = "x86_64" ∨ p.proc = "AMD64" ∨ p.proc = "amd64" → p.ptr = 8 → Reports .x86_64 p
  /-- a 32 bit program on a 64 bit Windows or BSD is among them, a 32 bit program on a 64 bit Linux (`x86_64`) is not: `C84_cmake_m32` -/
  | i386 {p} : p.proc = "i386" ∨ p.proc = "i486" ∨ p.proc = "i586" ∨ p.proc = "i686" ∨ p.proc = "x86" ∨ p.proc = "AMD64" ∨ p.proc = "amd64" → p.ptr = 4 → Reports .i386 p
  | arm64 {p} : p.proc = "aarch64" ∨ ArmName p.proc → p.proc ≠ "arm" → p.ptr = 8 → Reports .arm64 p
  | arm {p} : ArmName p.proc → p.proc ≠ "arm64" → p.ptr = 4 → Reports .arm p
  | mips64 {p} : MipsName p.proc → p.proc ≠ "mips32" → p.ptr = 8 → Reports .mips64 p
  | mips32 {p} : MipsName p.proc → p.proc ≠ "mips64" → p.ptr = 4 → Reports .mips32 p
  | riscv64 {p} : p.proc = "riscv64" → p.ptr = 8 → Reports .riscv64 p
  | loongarch64 {p} : p.proc = "loongarch64" → p.ptr = 8 → Reports .loongarch64 p
  | s390x {p} : p.proc = "s390x" → p.ptr = 8 → Reports .s390x p

/-- the sources for an instruction set and a system: the ports whose code is verified in `Asm` -/
def needed : Isa → System → Option String
  | .x86_64, .elf => some "x86_64_sysv_elf_gas.S"
  | .i386, .elf => some "i386_sysv_elf_gas.S"
  | .arm64, .elf => some "arm64_aapcs_elf_gas.S"
  | .arm, .elf => some "arm_aapcs_elf_gas.S"
  | .mips64, .elf => some "mips64_n64_elf_gas.S"
  | .mips32, .elf => some "mips32_o32_elf_gas.S"
  | .riscv64, .elf => some "riscv64_sysv_elf_gas.S"
  | .loongarch64, .elf => some "loongarch64_sysv_elf_gas.S"
  | .s390x, .elf => some "s390x_sysv_elf_gas.S"
  | .x86_64, .darwin => some "x86_64_sysv_macho_gas.S"
  | .i386, .darwin => some "i386_sysv_macho_gas.S"
  | .arm64, .darwin => some "arm64_aapcs_macho_gas.S"
  | .arm, .darwin => some "arm_aapcs_macho_gas.S"
  | .x86_64, .msvc => some "x86_64_ms_pe_masm.asm"
  | .i386, .msvc => some "i386_ms_pe_masm.asm"
  | .arm64, .msvc => some "arm64_aapcs_pe_armasm.asm"
  | .arm, .msvc => some "arm_aapcs_pe_armasm.asm"
  | .x86_64, .mingw => some "x86_64_ms_pe_gas.asm"
  | .i386, .mingw => some "i386_ms_pe_gas.asm"
  | _, _ => none

/-! ## Proofs -/

theorem isArm_iff (s : String) : isArm s = true ↔ ArmName s := by
  unfold isArm ArmName
  constructor
  · intro h
    split at h
    · rename_i a r m rest hs
      simp only [Bool.and_eq_true, Bool.or_eq_true, beq_iff_eq] at h
      exact ⟨a, r, m, rest, hs, h.1.1.symm, h.1.2.symm, h.2.symm⟩
    · cases h
  · rintro ⟨a, r, m, rest, hs, h1, h2, h3⟩
    rw [hs]
    simp only [Bool.and_eq_true, Bool.or_eq_true, beq_iff_eq]
    exact ⟨⟨h1.symm, h2.symm⟩, h3.symm⟩

theorem isMips_iff (s : String) : isMips s = true ↔ MipsName s := by
  unfold isMips MipsName
  constructor
  · intro h
    split at h
    · rename_i rest hs; exact ⟨rest, hs⟩
    · cases h
  · rintro ⟨rest, hs⟩
    rw [hs]
    rfl

theorem arm_not_mips {s : String} (h : isArm s = true) : isMips s = false := by
  rw [isArm_iff] at h
  obtain ⟨a, r, m, rest, hs, h1, -⟩ := h
  cases hm : isMips s with
  | false => rfl
  | true =>
    rw [isMips_iff] at hm
    obtain ⟨rest', hs'⟩ := hm
    rw [hs] at hs'
    injection hs' with h2 _
    subst h2
    exact absurd h1 (by decide)

theorem arm_known {s : String} (h : isArm s = true) : allArchs.contains s = true ↔ s = "arm" ∨ s = "arm64" := by
  simp only [allArchs, List.contains_iff_mem, List.mem_cons, List.not_mem_nil, or_false]
  constructor
  · intro hh
    rcases hh with h | h | h | h | h | h | h | h | h | h | h <;> subst h <;> first | (left; rfl) | (right; rfl) | exact absurd h (by decide)
  · rintro (h | h) <;> subst h <;> decide

theorem mips_known {s : String} (h : isMips s = true) : allArchs.contains s = true ↔ s = "mips32" ∨ s = "mips64" := by
  simp only [allArchs, List.contains_iff_mem, List.mem_cons, List.not_mem_nil, or_false]
  constructor
  · intro hh
    rcases hh with h | h | h | h | h | h | h | h | h | h | h <;> subst h <;> first | (left; rfl) | (right; rfl) | exact absurd h (by decide)
  · rintro (h | h) <;> subst h <;> decide

/-- **C84, CMake: one port.** Whatever the user sets: the three routines come from sources with one and the same suffix. -/
theorem C84_cmake_one (p : Platform) (o : Options) : ∃ s, sources p o = ["src/asm/make_" ++ s, "src/asm/jump_" ++ s, "src/asm/ontop_" ++ s] := ⟨_, rfl⟩

def abiOf (win32 : Bool) : Isa → String
  | .arm64 => "aapcs" | .arm => "aapcs"
  | .mips64 => if win32 then "ms" else "n64"
  | .mips32 => if win32 then "ms" else "o32"
  | _ => if win32 then "ms" else "sysv"

def archOf : Isa → String
  | .x86_64 => "x86_64" | .i386 => "i386" | .arm64 => "arm64" | .arm => "arm" | .mips64 => "mips64" | .mips32 => "mips32" | .riscv64 => "riscv64"
  | .loongarch64 => "loongarch64" | .s390x => "s390x"

/-- default ABI and architecture of the platforms of the specification -/
theorem defaults {i : Isa} {p : Platform} (h : Reports i p) : defaultAbi p = abiOf p.win32 i ∧ defaultArch p = archOf i := by
  have hx : ∀ s : String, p.proc = s → isArm s = false → isMips s = false → s ≠ "aarch64" → defaultAbi p = if p.win32 then "ms" else "sysv" := by
    intro s h1 h2 h3 h4
    have h5 : (s == "aarch64") = false := by simpa using h4
    simp only [defaultAbi, h1, h2, h3, h5, Bool.or_false, Bool.false_eq_true, if_false]
  cases h with
  | x86_64 h hp =>
    refine ⟨?_, ?_⟩
    · rcases h with h | h | h <;> exact hx _ h (by decide) (by decide) (by decide)
    · rcases h with h | h | h <;> simp only [defaultArch, archOf, h, hp] <;> decide
  | i386 h hp =>
    refine ⟨?_, ?_⟩
    · rcases h with h | h | h | h | h | h | h <;> exact hx _ h (by decide) (by decide) (by decide)
    · rcases h with h | h | h | h | h | h | h <;> simp only [defaultArch, archOf, h, hp] <;> decide
  | riscv64 h hp => exact ⟨hx _ h (by decide) (by decide) (by decide), by simp only [defaultArch, archOf, h, hp]; decide⟩
  | loongarch64 h hp => exact ⟨hx _ h (by decide) (by decide) (by decide), by simp only [defaultArch, archOf, h, hp]; decide⟩
  | s390x h hp => exact ⟨hx _ h (by decide) (by decide) (by decide), by simp only [defaultArch, archOf, h, hp]; decide⟩
  | arm64 h hn hp =>
    rcases h with h | h
    · refine ⟨by simp [defaultAbi, abiOf, h], by simp only [defaultArch, archOf, h, hp]; decide⟩
    · have ha := (isArm_iff _).2 h
      refine ⟨by simp only [defaultAbi, ha, Bool.true_or, if_true, abiOf], ?_⟩
      by_cases hk : allArchs.contains p.proc = true
      · rcases (arm_known ha).1 hk with h | h
        · exact absurd h hn
        · simp only [defaultArch, archOf, h, hp]; decide
      · simp only [defaultArch, archOf, hk, hp, ha]; simp
  | arm h hn hp =>
    have ha := (isArm_iff _).2 h
    refine ⟨by simp only [defaultAbi, ha, Bool.true_or, if_true, abiOf], ?_⟩
    by_cases hk : allArchs.contains p.proc = true
    · rcases (arm_known ha).1 hk with h | h
      · simp only [defaultArch, archOf, h, hp]; decide
      · exact absurd h hn
    · simp only [defaultArch, archOf, hk, hp, ha]; simp
  | mips64 h hn hp =>
    have ha := (isMips_iff _).2 h
    have hb : isArm p.proc = false := by cases hb : isArm p.proc with | false => rfl | true => rw [arm_not_mips hb] at ha; cases ha
    have hc : (p.proc == "aarch64") = false := by
      cases hc : p.proc == "aarch64" with
      | false => rfl
      | true => rw [beq_iff_eq] at hc; rw [hc] at ha; exact absurd ha (by decide)
    refine ⟨by simp only [defaultAbi, abiOf, ha, hb, hc, hp]; simp, ?_⟩
    by_cases hk : allArchs.contains p.proc = true
    · rcases (mips_known ha).1 hk with h | h
      · exact absurd h hn
      · simp only [defaultArch, archOf, h, hp]; decide
    · simp only [defaultArch, archOf, hk, hp, ha, hb, hc]; simp
  | mips32 h hn hp =>
    have ha := (isMips_iff _).2 h
    have hb : isArm p.proc = false := by cases hb : isArm p.proc with | false => rfl | true => rw [arm_not_mips hb] at ha; cases ha
    have hc : (p.proc == "aarch64") = false := by
      cases hc : p.proc == "aarch64" with
      | false => rfl
      | true => rw [beq_iff_eq] at hc; rw [hc] at ha; exact absurd ha (by decide)
    refine ⟨by simp only [defaultAbi, abiOf, ha, hb, hc, hp]; simp, ?_⟩
    by_cases hk : allArchs.contains p.proc = true
    · rcases (mips_known ha).1 hk with h | h
      · simp only [defaultArch, archOf, h, hp]; decide
      · exact absurd h hn
    · simp only [defaultArch, archOf, hk, hp, ha, hb, hc]; simp

/-- **C84, CMake: the right port.** On every platform of the specification the default sources are those of the port the machine needs, and they exist. -/
theorem C84_cmake_native {i : Isa} {y : System} {p : Platform} {s : String} (h : Reports i p) (hy : y.is p) (hs : needed i y = some s) :
    sources p {} = ["src/asm/make_" ++ s, "src/asm/jump_" ++ s, "src/asm/ontop_" ++ s] ∧ s ∈ present := by
  obtain ⟨h1, h2⟩ := defaults h
  have hq : suffix p {} = s ∧ s ∈ present := by
    simp only [suffix, Option.getD_none, h1, h2, defaultBinfmt, defaultAsm]
    clear h1 h2 h
    cases y <;> simp only [System.is] at hy
    · obtain ⟨y1, y2, y3⟩ := hy
      cases i <;> simp only [needed, reduceCtorEq, Option.some.injEq] at hs <;> subst hs <;> simp only [abiOf, archOf, y1, y2, y3, Bool.false_eq_true, if_true, if_false] <;> decide
    · obtain ⟨y1, y2, y3⟩ := hy
      cases i <;> simp only [needed, reduceCtorEq, Option.some.injEq] at hs <;> subst hs <;> simp only [abiOf, archOf, y1, y2, y3, Bool.false_eq_true, if_true, if_false] <;> decide
    · obtain ⟨y1, y2⟩ := hy
      obtain ⟨w, a, m, q, n⟩ := p
      simp only at y1 y2
      subst y1 y2
      cases i <;> simp only [needed, reduceCtorEq, Option.some.injEq] at hs <;> subst hs <;> simp only [abiOf, archOf, Bool.false_eq_true, if_true, if_false] <;> decide
    · obtain ⟨y1, y2⟩ := hy
      obtain ⟨w, a, m, q, n⟩ := p
      simp only at y1 y2
      subst y1 y2
      cases i <;> simp only [needed, reduceCtorEq, Option.some.injEq] at hs <;> subst hs <;> simp only [abiOf, archOf, Bool.false_eq_true, if_true, if_false] <;> decide
  exact ⟨by rw [sources, hq.1], hq.2⟩

/-- **C84, a defect.** On every other 64 bit machine with ELF binaries (PowerPC: `ppc64le`, SPARC: `sparc64`, Alpha, …) the sources for x86_64 are the default. -/
theorem C84_cmake_other {p : Platform} (hy : System.elf.is p) (hp : p.ptr = 8) (h1 : ¬ allArchs.contains p.proc) (h2 : p.proc ≠ "aarch64") (h3 : ¬ ArmName p.proc)
    (h4 : ¬ MipsName p.proc) : suffix p {} = "x86_64_sysv_elf_gas.S" := by
  obtain ⟨y1, y2, y3⟩ := hy
  have a : isArm p.proc = false := by cases h : isArm p.proc with | false => rfl | true => exact absurd ((isArm_iff _).1 h) h3
  have b : isMips p.proc = false := by cases h : isMips p.proc with | false => rfl | true => exact absurd ((isMips_iff _).1 h) h4
  have c : (p.proc == "aarch64") = false := by simpa using h2
  have d : allArchs.contains p.proc = false := by simpa using h1
  simp only [suffix, Option.getD_none, defaultAbi, defaultArch, defaultBinfmt, defaultAsm, a, b, c, d, hp, y1, y2, y3, Bool.false_eq_true, if_true, if_false]
  decide

/-- **C84, a defect.** A 32 bit program on x86_64 Linux (`-m32`) gets the sources for 64 bit programs. -/
theorem C84_cmake_m32 {p : Platform} (hy : System.elf.is p) (hp : p.proc = "x86_64") (h4 : p.ptr = 4) : suffix p {} = "x86_64_sysv_elf_gas.S" := by
  obtain ⟨y1, y2, y3⟩ := hy
  simp only [suffix, Option.getD_none, defaultAbi, defaultArch, defaultBinfmt, defaultAsm, hp, h4, y1, y2, y3, Bool.false_eq_true, if_true, if_false]
  decide

/-- **C84, defects.** Names of files that do not exist: 32 bit programs on a 64 bit ARM kernel, 32 bit programs on a 64 bit MIPS kernel, the documented architecture
`power`, 64 bit ARM Windows with a GNU toolchain, and universal binaries (`combined`) on a Mac with an ARM processor. -/
theorem C84_cmake_missing (p : Platform) :
    (System.elf.is p → p.proc = "aarch64" → p.ptr = 4 → suffix p {} ∉ present) ∧
    (System.elf.is p → p.proc = "mips64" → p.ptr = 4 → suffix p {} ∉ present) ∧
    (System.elf.is p → isArm p.proc = false → isMips p.proc = false → p.proc ≠ "aarch64" → suffix p { arch := some "power" } ∉ present) ∧
    (System.mingw.is p → Reports .arm64 p → suffix p {} ∉ present) ∧
    (System.darwin.is p → Reports .arm64 p → suffix p { arch := some "combined" } ∉ present) := by
  refine ⟨?_, ?_, ?_, ?_, ?_⟩
  · rintro ⟨y1, y2, y3⟩ h1 h2
    simp only [suffix, Option.getD_none, defaultAbi, defaultArch, defaultBinfmt, defaultAsm, h1, h2, y1, y2, y3, Bool.false_eq_true, if_true, if_false]; decide
  · rintro ⟨y1, y2, y3⟩ h1 h2
    simp only [suffix, Option.getD_none, defaultAbi, defaultArch, defaultBinfmt, defaultAsm, h1, h2, y1, y2, y3, Bool.false_eq_true, if_true, if_false]; decide
  · rintro ⟨y1, y2, y3⟩ h1 h2 h3
    have c : (p.proc == "aarch64") = false := by simpa using h3
    simp only [suffix, Option.getD_none, Option.getD_some, defaultAbi, defaultBinfmt, defaultAsm, h1, h2, c, y1, y2, y3, Bool.false_eq_true, if_true, if_false]; decide
  · rintro ⟨y1, y2⟩ h
    obtain ⟨h1, h2⟩ := defaults h
    simp only [suffix, Option.getD_none, h1, h2, abiOf, archOf, defaultBinfmt, defaultAsm, y1, y2, Bool.false_eq_true, if_true, if_false]; decide
  · rintro ⟨y1, y2, y3⟩ h
    obtain ⟨h1, h2⟩ := defaults h
    simp only [suffix, Option.getD_none, Option.getD_some, h1, abiOf, archOf, defaultBinfmt, defaultAsm, y1, y2, y3, Bool.false_eq_true, if_true, if_false]; decide

/-- **C84, universal binaries.** Whatever macros the compiler defines, the stub files for the three routines select one and the same port. -/
theorem C84_universal (m : String → Bool) (stub : String → List (String × String)) (h : stub = combined ∨ stub = i386_x86_64 ∨ stub = ppc32_ppc64) :
    (∀ r, firstDefined m (stub r) = none) ∨ ∃ s, s ∈ present ∧ ∀ r, firstDefined m (stub r) = some (r ++ "_" ++ s) := by
  have ap : ∀ r s : String, r ++ ("_" ++ s) = r ++ "_" ++ s := fun r s => (String.append_assoc).symm
  have key : ∀ (l : List (String × String)), (∀ x ∈ l, x.2 ∈ present) →
      (∀ r, firstDefined m (l.map fun x => (x.1, r ++ "_" ++ x.2)) = none) ∨
        ∃ s, s ∈ present ∧ ∀ r, firstDefined m (l.map fun x => (x.1, r ++ "_" ++ x.2)) = some (r ++ "_" ++ s) := by
    intro l hl
    induction l with
    | nil => exact .inl fun _ => rfl
    | cons x l ih =>
      by_cases hx : m x.1 = true
      · exact .inr ⟨x.2, hl x (by simp), fun r => by simp only [List.map, firstDefined, hx, if_true]⟩
      · rcases ih (fun y hy => hl y (by simp [hy])) with h | ⟨s, hs, h⟩
        · exact .inl fun r => by simp only [List.map, firstDefined, hx]; exact h r
        · exact .inr ⟨s, hs, fun r => by simp only [List.map, firstDefined, hx]; exact h r⟩
  have c : ∀ (a s : String), (∀ r : String, r ++ a = r ++ ("_" ++ s)) → ∀ r : String, r ++ a = r ++ "_" ++ s := fun a s h r => by rw [h, ap]
  have e1 : combined = fun r => ([("__i386__", "i386_sysv_macho_gas.S"), ("__x86_64__", "x86_64_sysv_macho_gas.S"), ("__ppc__", "ppc32_sysv_macho_gas.S"),
      ("__ppc64__", "ppc64_sysv_macho_gas.S"), ("__arm__", "arm_aapcs_macho_gas.S"), ("__arm64__", "arm64_aapcs_macho_gas.S")] : List (String × String)).map
        fun x => (x.1, r ++ "_" ++ x.2) := by
    funext r
    simp only [combined, List.map, ← ap]
    rfl
  have e2 : i386_x86_64 = fun r => ([("__i386__", "i386_sysv_macho_gas.S"), ("__x86_64__", "x86_64_sysv_macho_gas.S")] : List (String × String)).map
        fun x => (x.1, r ++ "_" ++ x.2) := by
    funext r
    simp only [i386_x86_64, List.map, ← ap]
    rfl
  have e3 : ppc32_ppc64 = fun r => ([("__ppc__", "ppc32_sysv_macho_gas.S"), ("__ppc64__", "ppc64_sysv_macho_gas.S")] : List (String × String)).map
        fun x => (x.1, r ++ "_" ++ x.2) := by
    funext r
    simp only [ppc32_ppc64, List.map, ← ap]
    rfl
  rcases h with h | h | h <;> subst h
  · rw [e1]; exact key _ (by decide)
  · rw [e2]; exact key _ (by decide)
  · rw [e3]; exact key _ (by decide)

/-- the macros that compilers for Darwin define for the architectures, and their ports: the universal sources select the right one when exactly that macro is defined -/
theorem C84_universal_right (m : String → Bool) (c s : String)
    (h : (c, s) ∈ [("__i386__", "i386_sysv_macho_gas.S"), ("__x86_64__", "x86_64_sysv_macho_gas.S"), ("__ppc__", "ppc32_sysv_macho_gas.S"),
      ("__ppc64__", "ppc64_sysv_macho_gas.S"), ("__arm__", "arm_aapcs_macho_gas.S"), ("__arm64__", "arm64_aapcs_macho_gas.S")])
    (hm : ∀ d ∈ ["__i386__", "__x86_64__", "__ppc__", "__ppc64__", "__arm__", "__arm64__"], (m d = true ↔ d = c)) (r : String) :
    firstDefined m (combined r) = some (r ++ "_" ++ s) := by
  have ap : ∀ r s : String, r ++ ("_" ++ s) = r ++ "_" ++ s := fun r s => (String.append_assoc).symm
  have hm' : ∀ d ∈ ["__i386__", "__x86_64__", "__ppc__", "__ppc64__", "__arm__", "__arm64__"], m d = decide (d = c) := fun d hd => by
    have := hm d hd
    cases hq : m d <;> simp_all
  simp only [List.mem_cons, List.not_mem_nil, or_false, forall_eq_or_imp, forall_eq] at hm'
  obtain ⟨m1, m2, m3, m4, m5, m6⟩ := hm'
  simp only [List.mem_cons, List.not_mem_nil, or_false, Prod.mk.injEq] at h
  rcases h with ⟨rfl, rfl⟩ | ⟨rfl, rfl⟩ | ⟨rfl, rfl⟩ | ⟨rfl, rfl⟩ | ⟨rfl, rfl⟩ | ⟨rfl, rfl⟩ <;> simp only [← ap, combined, firstDefined, m1, m2, m3, m4, m5, m6] <;> rfl

/-! ## The hypotheses can be met -/

example : Reports .arm64 ⟨false, true, false, "arm64", 8⟩ ∧ System.darwin.is ⟨false, true, false, "arm64", 8⟩ ∧ needed .arm64 .darwin = some "arm64_aapcs_macho_gas.S" :=
  ⟨.arm64 (.inr ⟨_, _, _, _, rfl, by decide, by decide, by decide⟩) (by decide) rfl, ⟨rfl, rfl, rfl⟩, rfl⟩
example : Reports .arm ⟨false, false, false, "armv7l", 4⟩ ∧ System.elf.is ⟨false, false, false, "armv7l", 4⟩ ∧ needed .arm .elf = some "arm_aapcs_elf_gas.S" :=
  ⟨.arm ⟨_, _, _, _, rfl, by decide, by decide, by decide⟩ (by decide) rfl, ⟨rfl, rfl, rfl⟩, rfl⟩
example : Reports .i386 ⟨true, false, true, "AMD64", 4⟩ ∧ System.msvc.is ⟨true, false, true, "AMD64", 4⟩ ∧ needed .i386 .msvc = some "i386_ms_pe_masm.asm" :=
  ⟨.i386 (by decide) rfl, ⟨rfl, rfl⟩, rfl⟩
/-- `C84_cmake_other` -/
example : ∃ p : Platform, p.proc = "ppc64le" ∧ System.elf.is p ∧ p.ptr = 8 ∧ ¬ allArchs.contains p.proc ∧ p.proc ≠ "aarch64" ∧ ¬ ArmName p.proc ∧ ¬ MipsName p.proc :=
  ⟨⟨false, false, false, "ppc64le", 8⟩, rfl, ⟨rfl, rfl, rfl⟩, rfl, by decide, by decide, fun h => absurd ((isArm_iff _).2 h) (by decide), fun h => absurd ((isMips_iff _).2 h) (by decide)⟩
/-- `C84_cmake_m32`, `C84_cmake_missing` -/
example : System.elf.is ⟨false, false, false, "x86_64", 4⟩ ∧ System.mingw.is ⟨true, false, false, "ARM64", 8⟩ ∧ Reports .arm64 ⟨true, false, false, "ARM64", 8⟩ :=
  ⟨⟨rfl, rfl, rfl⟩, ⟨rfl, rfl⟩, .arm64 (.inr ⟨_, _, _, _, rfl, by decide, by decide, by decide⟩) (by decide) rfl⟩

end Verif.Build
