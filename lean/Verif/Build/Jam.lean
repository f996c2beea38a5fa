import Verif.Build.JamTable
import Verif.Build.CMake

/-!
# Which assembler sources b2 compiles (C84)

`build/Jamfile.v2` lines 64-920: the alternatives of the target `asm_sources` (`JamTable.lean`, generated).  b2 takes an alternative if all its conditions are among the properties
of the build; if several match, the one whose conditions include those of all others; if there is none such, the build fails with an error.  Not modelled: how
b2 finds the properties (`boostcpp.jam`, not in this repository), the other targets.
-/

namespace Verif.Build

/-- a build request gives each feature a value; an alternative matches if all its conditions are met -/
def Alt.matches (a : Alt) (q : String → String) : Prop := ∀ c ∈ a.conds, q c.1 = c.2

/-- two alternatives both match some request only if no feature has two values -/
def compatible (a b : Alt) : Bool := a.conds.all fun c => b.conds.all fun d => c.1 != d.1 || c.2 == d.2

/-! ## Specification: the source names, from the properties of the build -/

/-- instruction set part of the file name, from `<architecture>`, `<address-model>`, `<abi>`; for universal binaries (address model `32_64`, architecture `arm+x86`) the stubs -/
def isaPart (arch model abi : String) : String :=
  if arch = "arm+x86" then "combined"
  else if arch = "arm" then (if model = "64" then "arm64" else "arm")
  else if arch = "power" then (if model = "64" then "ppc64" else if model = "32" then "ppc32" else "ppc32_ppc64")
  else if arch = "mips" then (if model = "64" then "mips64" else "mips32")
  else if arch = "x86" then (if model = "64" ∨ abi = "x32" then "x86_64" else if model = "32" then "i386" else "i386_x86_64")
  else if arch = "s390x" then "s390x"
  else arch ++ model

/-- the ABI x32 uses the registers and the calling convention of the 64 bit System V ABI -/
def abiPart (abi : String) : String := if abi = "x32" then "sysv" else abi

/-- assembler and extension: GNU syntax except on Windows, where it depends on the tools -/
def asmPart (fmt toolset arch : String) : String :=
  if fmt = "pe" then
    (if arch = "arm" then (if toolset = "clang" then "armclang.S" else "armasm.asm")
     else if toolset = "gcc" ∨ toolset = "clang" then "gas.asm" else "masm.asm")
  else "gas.S"

def expected (q : String → String) : String :=
  isaPart (q "architecture") (q "address-model") (q "abi") ++ "_" ++ abiPart (q "abi") ++ "_" ++
    (if q "binary-format" = "mach-o" then "macho" else q "binary-format") ++ "_" ++ asmPart (q "binary-format") (q "toolset") (q "architecture")

/-- the two alternatives that deviate: Embarcadero's compiler for 64 bit Windows, and clang for 64 bit ARM Windows -/
def deviates (q : String → String) : Prop :=
  (q "toolset" = "embarcadero" ∧ q "address-model" = "64" ∧ q "binary-format" = "pe") ∨ (q "binary-format" = "pe" ∧ q "architecture" = "arm" ∧ q "toolset" = "clang")

/-! ## Proofs -/

theorem compatible_of {a b : Alt} {q : String → String} (ha : a.matches q) (hb : b.matches q) : compatible a b = true := by
  unfold compatible
  rw [List.all_eq_true]
  intro c hc
  rw [List.all_eq_true]
  intro d hd
  by_cases h : c.1 = d.1
  · have h1 := ha c hc
    have h2 := hb d hd
    have h3 : c.2 = d.2 := by rw [← h1, ← h2, h]
    simp [h3]
  · simp [h]

theorem distinct : ∀ a ∈ asmSources, ∀ b ∈ asmSources, compatible a b = true → a = b := by decide +kernel

/-- **C84, b2: no ambiguity.** For every request at most one alternative matches. -/
theorem C84_jam_unique {a b : Alt} {q : String → String} (ha : a ∈ asmSources) (hb : b ∈ asmSources) (h1 : a.matches q) (h2 : b.matches q) : a = b :=
  distinct a ha b hb (compatible_of h1 h2)

theorem right_of {q : String → String} {a : Alt} (ha : a ∈ asmSources) (hm : a.matches q) :
    deviates q ∨ (a.sources.take 3 = ["asm/make_" ++ expected q, "asm/jump_" ++ expected q, "asm/ontop_" ++ expected q] ∧ expected q ∈ present) := by
  simp only [asmSources, List.mem_cons, List.not_mem_nil, or_false] at ha
  repeat' (rcases ha with rfl | ha)
  all_goals
    first
    | subst ha
    | skip
  all_goals
    simp only [Alt.matches, List.forall_mem_cons, List.not_mem_nil, false_implies, implies_true, and_true] at hm
    first
    | (right; simp only [expected, hm]; decide)
    | (left; simp only [deviates, hm]; decide)
    | (right; simp only [expected, isaPart, abiPart, asmPart, hm]; simp; decide)

/-- **C84, b2: the right port.** The alternative that matches lists `make`, `jump` and `ontop` of one port, the one for the instruction set, ABI, binary format and tools requested,
and these files exist - except for `deviates`. -/
theorem C84_jam_right {q : String → String} {a : Alt} (ha : a ∈ asmSources) (hm : a.matches q) (hd : ¬ deviates q) :
    a.sources.take 3 = ["asm/make_" ++ expected q, "asm/jump_" ++ expected q, "asm/ontop_" ++ expected q] ∧ expected q ∈ present :=
  (right_of ha hm).resolve_left hd

/-- the properties of `q` that conditions mention -/
def req (abi model arch fmt toolset : String) : String → String
  | "abi" => abi
  | "address-model" => model
  | "architecture" => arch
  | "binary-format" => fmt
  | "toolset" => toolset
  | _ => ""

theorem C84_jam_deviating {q : String → String} {a : Alt} (ha : a ∈ asmSources) (hm : a.matches q) (hd : deviates q) :
    (q "toolset" = "clang" ∧ a.sources = ["asm/make_arm64_aapcs_pe_armclang.asm", "asm/jump_arm64_aapcs_pe_armclang.asm", "asm/ontop_arm64_aapcs_pe_armclang.asm"]) ∨
    (q "toolset" = "embarcadero" ∧ q "abi" = "ms" ∧ q "binary-format" = "pe" ∧
      a.sources = ["asm/make_x86_64_sysv_elf_gas.S", "asm/jump_x86_64_sysv_elf_gas.S", "asm/ontop_x86_64_sysv_elf_gas.S"]) := by
  simp only [asmSources, List.mem_cons, List.not_mem_nil, or_false] at ha
  unfold deviates at hd
  repeat' (rcases ha with rfl | ha)
  all_goals
    first
    | subst ha
    | skip
  all_goals
    simp only [Alt.matches, List.forall_mem_cons, List.not_mem_nil, false_implies, implies_true, and_true] at hm
    simp only [hm] at hd ⊢
    first
    | (exact absurd hd (by decide))
    | decide
    | (simp at hd)

/-- **C84, a defect.** With clang for 64 bit ARM Windows the alternative that matches lists files that do not exist (the files are `*_arm64_aapcs_pe_armclang.S`). -/
theorem C84_jam_missing {q : String → String} {a : Alt} (ha : a ∈ asmSources) (hm : a.matches q) (h1 : q "binary-format" = "pe") (h2 : q "architecture" = "arm")
    (h3 : q "toolset" = "clang") : a.sources = ["asm/make_arm64_aapcs_pe_armclang.asm", "asm/jump_arm64_aapcs_pe_armclang.asm", "asm/ontop_arm64_aapcs_pe_armclang.asm"] ∧
      "arm64_aapcs_pe_armclang.asm" ∉ present := by
  rcases C84_jam_deviating ha hm (.inr ⟨h1, h2, h3⟩) with h | h
  · exact ⟨h.2, by decide⟩
  · rw [h3] at h; exact absurd h.1 (by decide)

/-- **C84, the C++ part of the PowerPC 32 routines.** `ontop_ppc32_sysv_elf_gas.S` (line 190) and `ontop_ppc32_sysv_macho_gas.S` (line 202) branch to `ontop_fcontext_tail` in
`tail_ontop_ppc32_sysv.cpp`; every alternative with one of these files lists that one, too, and no other does. -/
theorem C84_jam_tail : ∀ a ∈ asmSources,
    ("asm/tail_ontop_ppc32_sysv.cpp" ∈ a.sources ↔ "asm/ontop_ppc32_sysv_elf_gas.S" ∈ a.sources ∨ "asm/ontop_ppc32_sysv_macho_gas.S" ∈ a.sources) := by
  decide +kernel

/-- **C84, a defect.** CMake never compiles `tail_ontop_ppc32_sysv.cpp`, also when the user has selected `ppc32`: the sources are the three assembler files only. -/
theorem C84_cmake_tail (p : Platform) (o : Options) (h : suffix p o = "ppc32_sysv_elf_gas.S") :
    sources p o = ["src/asm/make_ppc32_sysv_elf_gas.S", "src/asm/jump_ppc32_sysv_elf_gas.S", "src/asm/ontop_ppc32_sysv_elf_gas.S"] := by
  simp only [sources, h]; rfl

/-! ## The hypotheses can be met -/

/-- `C84_jam_unique`, `C84_jam_right` -/
example : ∃ a ∈ asmSources, a.matches (req "sysv" "64" "power" "elf" "gcc") ∧ ¬ deviates (req "sysv" "64" "power" "elf" "gcc") ∧
    expected (req "sysv" "64" "power" "elf" "gcc") = "ppc64_sysv_elf_gas.S" := by
  refine ⟨⟨["asm/make_ppc64_sysv_elf_gas.S", "asm/jump_ppc64_sysv_elf_gas.S", "asm/ontop_ppc64_sysv_elf_gas.S"],
    [("abi", "sysv"), ("address-model", "64"), ("architecture", "power"), ("binary-format", "elf"), ("toolset", "gcc")]⟩, by decide +kernel, ?_, ?_, ?_⟩
  · simp only [Alt.matches, List.forall_mem_cons, List.not_mem_nil, false_implies, implies_true, and_true]; decide
  · unfold deviates; decide
  · decide

/-- `C84_jam_missing` -/
example : ∃ a ∈ asmSources, a.matches (req "aapcs" "64" "arm" "pe" "clang") := by
  refine ⟨⟨["asm/make_arm64_aapcs_pe_armclang.asm", "asm/jump_arm64_aapcs_pe_armclang.asm", "asm/ontop_arm64_aapcs_pe_armclang.asm"],
    [("abi", "aapcs"), ("address-model", "64"), ("architecture", "arm"), ("binary-format", "pe"), ("toolset", "clang")]⟩, by decide +kernel, ?_⟩
  simp only [Alt.matches, List.forall_mem_cons, List.not_mem_nil, false_implies, implies_true, and_true]; decide

/-- `C84_jam_deviating`, the Embarcadero case -/
example : ∃ a ∈ asmSources, a.matches (req "ms" "64" "x86" "pe" "embarcadero") ∧ deviates (req "ms" "64" "x86" "pe" "embarcadero") := by
  refine ⟨⟨["asm/make_x86_64_sysv_elf_gas.S", "asm/jump_x86_64_sysv_elf_gas.S", "asm/ontop_x86_64_sysv_elf_gas.S"],
    [("abi", "ms"), ("address-model", "64"), ("architecture", "x86"), ("binary-format", "pe"), ("toolset", "embarcadero")]⟩, by decide +kernel, ?_, .inl ⟨rfl, rfl, rfl⟩⟩
  simp only [Alt.matches, List.forall_mem_cons, List.not_mem_nil, false_implies, implies_true, and_true]; decide

/-- `C84_cmake_tail` -/
example : suffix ⟨false, false, false, "ppc", 4⟩ { arch := some "ppc32" } = "ppc32_sysv_elf_gas.S" := by decide

end Verif.Build
