/-!
# The alternatives of `asm_sources` in `build/Jamfile.v2`

Generated by `tools/jam2lean.py`; the comment gives the lines of the alternative.
-/

namespace Verif.Build

/-- an alternative of a Jam target: sources and conditions `<feature>value` -/
structure Alt where
  sources : List String
  conds : List (String × String)
  deriving DecidableEq

/-- build/Jamfile.v2, the alternatives of `asm_sources`, in order -/
def asmSources : List Alt := [
  -- lines 66-75
  ⟨["asm/make_arm_aapcs_elf_gas.S", "asm/jump_arm_aapcs_elf_gas.S", "asm/ontop_arm_aapcs_elf_gas.S"],
   [("abi", "aapcs"), ("address-model", "32"), ("architecture", "arm"), ("binary-format", "elf"), ("toolset", "clang")]⟩,
  -- lines 77-86
  ⟨["asm/make_arm_aapcs_elf_gas.S", "asm/jump_arm_aapcs_elf_gas.S", "asm/ontop_arm_aapcs_elf_gas.S"],
   [("abi", "aapcs"), ("address-model", "32"), ("architecture", "arm"), ("binary-format", "elf"), ("toolset", "gcc")]⟩,
  -- lines 88-97
  ⟨["asm/make_arm_aapcs_elf_gas.S", "asm/jump_arm_aapcs_elf_gas.S", "asm/ontop_arm_aapcs_elf_gas.S"],
   [("abi", "aapcs"), ("address-model", "32"), ("architecture", "arm"), ("binary-format", "elf"), ("toolset", "qcc")]⟩,
  -- lines 100-109
  ⟨["asm/make_arm_aapcs_macho_gas.S", "asm/jump_arm_aapcs_macho_gas.S", "asm/ontop_arm_aapcs_macho_gas.S"],
   [("abi", "aapcs"), ("address-model", "32"), ("architecture", "arm"), ("binary-format", "mach-o"), ("toolset", "clang")]⟩,
  -- lines 111-120
  ⟨["asm/make_arm_aapcs_macho_gas.S", "asm/jump_arm_aapcs_macho_gas.S", "asm/ontop_arm_aapcs_macho_gas.S"],
   [("abi", "aapcs"), ("address-model", "32"), ("architecture", "arm"), ("binary-format", "mach-o"), ("toolset", "darwin")]⟩,
  -- lines 123-133
  ⟨["asm/make_arm_aapcs_pe_armasm.asm", "asm/jump_arm_aapcs_pe_armasm.asm", "asm/ontop_arm_aapcs_pe_armasm.asm", "untested.cpp"],
   [("abi", "aapcs"), ("address-model", "32"), ("architecture", "arm"), ("binary-format", "pe"), ("toolset", "msvc")]⟩,
  -- lines 137-146
  ⟨["asm/make_arm64_aapcs_elf_gas.S", "asm/jump_arm64_aapcs_elf_gas.S", "asm/ontop_arm64_aapcs_elf_gas.S"],
   [("abi", "aapcs"), ("address-model", "64"), ("architecture", "arm"), ("binary-format", "elf"), ("toolset", "clang")]⟩,
  -- lines 148-157
  ⟨["asm/make_arm64_aapcs_elf_gas.S", "asm/jump_arm64_aapcs_elf_gas.S", "asm/ontop_arm64_aapcs_elf_gas.S"],
   [("abi", "aapcs"), ("address-model", "64"), ("architecture", "arm"), ("binary-format", "elf"), ("toolset", "gcc")]⟩,
  -- lines 160-169
  ⟨["asm/make_arm64_aapcs_macho_gas.S", "asm/jump_arm64_aapcs_macho_gas.S", "asm/ontop_arm64_aapcs_macho_gas.S"],
   [("abi", "aapcs"), ("address-model", "64"), ("architecture", "arm"), ("binary-format", "mach-o"), ("toolset", "clang")]⟩,
  -- lines 171-180
  ⟨["asm/make_arm64_aapcs_macho_gas.S", "asm/jump_arm64_aapcs_macho_gas.S", "asm/ontop_arm64_aapcs_macho_gas.S"],
   [("abi", "aapcs"), ("address-model", "64"), ("architecture", "arm"), ("binary-format", "mach-o"), ("toolset", "darwin")]⟩,
  -- lines 182-191
  ⟨["asm/make_arm64_aapcs_macho_gas.S", "asm/jump_arm64_aapcs_macho_gas.S", "asm/ontop_arm64_aapcs_macho_gas.S"],
   [("abi", "aapcs"), ("address-model", "64"), ("architecture", "arm"), ("binary-format", "mach-o"), ("toolset", "gcc")]⟩,
  -- lines 194-203
  ⟨["asm/make_arm64_aapcs_pe_armasm.asm", "asm/jump_arm64_aapcs_pe_armasm.asm", "asm/ontop_arm64_aapcs_pe_armasm.asm"],
   [("abi", "aapcs"), ("address-model", "64"), ("architecture", "arm"), ("binary-format", "pe"), ("toolset", "msvc")]⟩,
  -- lines 206-215
  ⟨["asm/make_arm64_aapcs_pe_armclang.asm", "asm/jump_arm64_aapcs_pe_armclang.asm", "asm/ontop_arm64_aapcs_pe_armclang.asm"],
   [("abi", "aapcs"), ("address-model", "64"), ("architecture", "arm"), ("binary-format", "pe"), ("toolset", "clang")]⟩,
  -- lines 219-228
  ⟨["asm/make_loongarch64_sysv_elf_gas.S", "asm/jump_loongarch64_sysv_elf_gas.S", "asm/ontop_loongarch64_sysv_elf_gas.S"],
   [("abi", "sysv"), ("address-model", "64"), ("architecture", "loongarch"), ("binary-format", "elf"), ("toolset", "gcc")]⟩,
  -- lines 232-241
  ⟨["asm/make_mips32_o32_elf_gas.S", "asm/jump_mips32_o32_elf_gas.S", "asm/ontop_mips32_o32_elf_gas.S"],
   [("abi", "o32"), ("address-model", "32"), ("architecture", "mips"), ("binary-format", "elf"), ("toolset", "clang")]⟩,
  -- lines 243-252
  ⟨["asm/make_mips32_o32_elf_gas.S", "asm/jump_mips32_o32_elf_gas.S", "asm/ontop_mips32_o32_elf_gas.S"],
   [("abi", "o32"), ("address-model", "32"), ("architecture", "mips"), ("binary-format", "elf"), ("toolset", "gcc")]⟩,
  -- lines 255-264
  ⟨["asm/make_mips64_n64_elf_gas.S", "asm/jump_mips64_n64_elf_gas.S", "asm/ontop_mips64_n64_elf_gas.S"],
   [("abi", "n64"), ("address-model", "64"), ("architecture", "mips"), ("binary-format", "elf"), ("toolset", "clang")]⟩,
  -- lines 266-275
  ⟨["asm/make_mips64_n64_elf_gas.S", "asm/jump_mips64_n64_elf_gas.S", "asm/ontop_mips64_n64_elf_gas.S"],
   [("abi", "n64"), ("address-model", "64"), ("architecture", "mips"), ("binary-format", "elf"), ("toolset", "gcc")]⟩,
  -- lines 279-289
  ⟨["asm/make_ppc32_sysv_elf_gas.S", "asm/jump_ppc32_sysv_elf_gas.S", "asm/ontop_ppc32_sysv_elf_gas.S", "asm/tail_ontop_ppc32_sysv.cpp"],
   [("abi", "sysv"), ("address-model", "32"), ("architecture", "power"), ("binary-format", "elf"), ("toolset", "clang")]⟩,
  -- lines 291-301
  ⟨["asm/make_ppc32_sysv_elf_gas.S", "asm/jump_ppc32_sysv_elf_gas.S", "asm/ontop_ppc32_sysv_elf_gas.S", "asm/tail_ontop_ppc32_sysv.cpp"],
   [("abi", "sysv"), ("address-model", "32"), ("architecture", "power"), ("binary-format", "elf"), ("toolset", "gcc")]⟩,
  -- lines 304-314
  ⟨["asm/make_ppc32_sysv_macho_gas.S", "asm/jump_ppc32_sysv_macho_gas.S", "asm/ontop_ppc32_sysv_macho_gas.S", "asm/tail_ontop_ppc32_sysv.cpp"],
   [("abi", "sysv"), ("address-model", "32"), ("architecture", "power"), ("binary-format", "mach-o"), ("toolset", "clang")]⟩,
  -- lines 316-326
  ⟨["asm/make_ppc32_sysv_macho_gas.S", "asm/jump_ppc32_sysv_macho_gas.S", "asm/ontop_ppc32_sysv_macho_gas.S", "asm/tail_ontop_ppc32_sysv.cpp"],
   [("abi", "sysv"), ("address-model", "32"), ("architecture", "power"), ("binary-format", "mach-o"), ("toolset", "gcc")]⟩,
  -- lines 328-338
  ⟨["asm/make_ppc32_sysv_macho_gas.S", "asm/jump_ppc32_sysv_macho_gas.S", "asm/ontop_ppc32_sysv_macho_gas.S", "asm/tail_ontop_ppc32_sysv.cpp"],
   [("abi", "sysv"), ("address-model", "32"), ("architecture", "power"), ("binary-format", "mach-o"), ("toolset", "darwin")]⟩,
  -- lines 341-350
  ⟨["asm/make_ppc32_sysv_xcoff_gas.S", "asm/jump_ppc32_sysv_xcoff_gas.S", "asm/ontop_ppc32_sysv_xcoff_gas.S"],
   [("abi", "sysv"), ("address-model", "32"), ("architecture", "power"), ("binary-format", "xcoff"), ("toolset", "clang")]⟩,
  -- lines 352-361
  ⟨["asm/make_ppc32_sysv_xcoff_gas.S", "asm/jump_ppc32_sysv_xcoff_gas.S", "asm/ontop_ppc32_sysv_xcoff_gas.S"],
   [("abi", "sysv"), ("address-model", "32"), ("architecture", "power"), ("binary-format", "xcoff"), ("toolset", "gcc")]⟩,
  -- lines 365-374
  ⟨["asm/make_ppc64_sysv_elf_gas.S", "asm/jump_ppc64_sysv_elf_gas.S", "asm/ontop_ppc64_sysv_elf_gas.S"],
   [("abi", "sysv"), ("address-model", "64"), ("architecture", "power"), ("binary-format", "elf"), ("toolset", "clang")]⟩,
  -- lines 376-385
  ⟨["asm/make_ppc64_sysv_elf_gas.S", "asm/jump_ppc64_sysv_elf_gas.S", "asm/ontop_ppc64_sysv_elf_gas.S"],
   [("abi", "sysv"), ("address-model", "64"), ("architecture", "power"), ("binary-format", "elf"), ("toolset", "gcc")]⟩,
  -- lines 388-398
  ⟨["asm/make_ppc64_sysv_macho_gas.S", "asm/jump_ppc64_sysv_macho_gas.S", "asm/ontop_ppc64_sysv_macho_gas.S", "untested.cpp"],
   [("abi", "sysv"), ("address-model", "64"), ("architecture", "power"), ("binary-format", "mach-o"), ("toolset", "clang")]⟩,
  -- lines 400-410
  ⟨["asm/make_ppc64_sysv_macho_gas.S", "asm/jump_ppc64_sysv_macho_gas.S", "asm/ontop_ppc64_sysv_macho_gas.S", "untested.cpp"],
   [("abi", "sysv"), ("address-model", "64"), ("architecture", "power"), ("binary-format", "mach-o"), ("toolset", "gcc")]⟩,
  -- lines 412-422
  ⟨["asm/make_ppc64_sysv_macho_gas.S", "asm/jump_ppc64_sysv_macho_gas.S", "asm/ontop_ppc64_sysv_macho_gas.S", "untested.cpp"],
   [("abi", "sysv"), ("address-model", "64"), ("architecture", "power"), ("binary-format", "mach-o"), ("toolset", "darwin")]⟩,
  -- lines 425-434
  ⟨["asm/make_ppc64_sysv_xcoff_gas.S", "asm/jump_ppc64_sysv_xcoff_gas.S", "asm/ontop_ppc64_sysv_xcoff_gas.S"],
   [("abi", "sysv"), ("address-model", "64"), ("architecture", "power"), ("binary-format", "xcoff"), ("toolset", "clang")]⟩,
  -- lines 436-445
  ⟨["asm/make_ppc64_sysv_xcoff_gas.S", "asm/jump_ppc64_sysv_xcoff_gas.S", "asm/ontop_ppc64_sysv_xcoff_gas.S"],
   [("abi", "sysv"), ("address-model", "64"), ("architecture", "power"), ("binary-format", "xcoff"), ("toolset", "gcc")]⟩,
  -- lines 447-456
  ⟨["asm/make_ppc64_sysv_xcoff_gas.S", "asm/jump_ppc64_sysv_xcoff_gas.S", "asm/ontop_ppc64_sysv_xcoff_gas.S"],
   [("abi", "sysv"), ("address-model", "64"), ("architecture", "power"), ("binary-format", "xcoff"), ("toolset", "xlclang")]⟩,
  -- lines 458-467
  ⟨["asm/make_ppc64_sysv_xcoff_gas.S", "asm/jump_ppc64_sysv_xcoff_gas.S", "asm/ontop_ppc64_sysv_xcoff_gas.S"],
   [("abi", "sysv"), ("address-model", "64"), ("architecture", "power"), ("binary-format", "xcoff"), ("toolset", "openxl")]⟩,
  -- lines 471-479
  ⟨["asm/make_ppc32_ppc64_sysv_macho_gas.S", "asm/jump_ppc32_ppc64_sysv_macho_gas.S", "asm/ontop_ppc32_ppc64_sysv_macho_gas.S"],
   [("abi", "sysv"), ("address-model", "32_64"), ("architecture", "power"), ("binary-format", "mach-o")]⟩,
  -- lines 483-492
  ⟨["asm/make_riscv64_sysv_elf_gas.S", "asm/jump_riscv64_sysv_elf_gas.S", "asm/ontop_riscv64_sysv_elf_gas.S"],
   [("abi", "sysv"), ("address-model", "64"), ("architecture", "riscv"), ("binary-format", "elf"), ("toolset", "clang")]⟩,
  -- lines 494-503
  ⟨["asm/make_riscv64_sysv_elf_gas.S", "asm/jump_riscv64_sysv_elf_gas.S", "asm/ontop_riscv64_sysv_elf_gas.S"],
   [("abi", "sysv"), ("address-model", "64"), ("architecture", "riscv"), ("binary-format", "elf"), ("toolset", "gcc")]⟩,
  -- lines 507-516
  ⟨["asm/make_sparc64_sysv_elf_gas.S", "asm/jump_sparc64_sysv_elf_gas.S", "asm/ontop_sparc64_sysv_elf_gas.S"],
   [("abi", "sysv"), ("address-model", "64"), ("architecture", "sparc"), ("binary-format", "elf"), ("toolset", "clang")]⟩,
  -- lines 518-527
  ⟨["asm/make_sparc64_sysv_elf_gas.S", "asm/jump_sparc64_sysv_elf_gas.S", "asm/ontop_sparc64_sysv_elf_gas.S"],
   [("abi", "sysv"), ("address-model", "64"), ("architecture", "sparc"), ("binary-format", "elf"), ("toolset", "gcc")]⟩,
  -- lines 531-540
  ⟨["asm/make_s390x_sysv_elf_gas.S", "asm/jump_s390x_sysv_elf_gas.S", "asm/ontop_s390x_sysv_elf_gas.S"],
   [("abi", "sysv"), ("address-model", "64"), ("architecture", "s390x"), ("binary-format", "elf"), ("toolset", "gcc")]⟩,
  -- lines 542-551
  ⟨["asm/make_s390x_sysv_elf_gas.S", "asm/jump_s390x_sysv_elf_gas.S", "asm/ontop_s390x_sysv_elf_gas.S"],
   [("abi", "sysv"), ("address-model", "64"), ("architecture", "s390x"), ("binary-format", "elf"), ("toolset", "clang")]⟩,
  -- lines 555-564
  ⟨["asm/make_i386_sysv_elf_gas.S", "asm/jump_i386_sysv_elf_gas.S", "asm/ontop_i386_sysv_elf_gas.S"],
   [("abi", "sysv"), ("address-model", "32"), ("architecture", "x86"), ("binary-format", "elf"), ("toolset", "clang")]⟩,
  -- lines 566-575
  ⟨["asm/make_i386_sysv_elf_gas.S", "asm/jump_i386_sysv_elf_gas.S", "asm/ontop_i386_sysv_elf_gas.S"],
   [("abi", "sysv"), ("address-model", "32"), ("architecture", "x86"), ("binary-format", "elf"), ("toolset", "gcc")]⟩,
  -- lines 577-586
  ⟨["asm/make_i386_sysv_elf_gas.S", "asm/jump_i386_sysv_elf_gas.S", "asm/ontop_i386_sysv_elf_gas.S"],
   [("abi", "sysv"), ("address-model", "32"), ("architecture", "x86"), ("binary-format", "elf"), ("toolset", "intel")]⟩,
  -- lines 589-598
  ⟨["asm/make_i386_sysv_macho_gas.S", "asm/jump_i386_sysv_macho_gas.S", "asm/ontop_i386_sysv_macho_gas.S"],
   [("abi", "sysv"), ("address-model", "32"), ("architecture", "x86"), ("binary-format", "mach-o"), ("toolset", "clang")]⟩,
  -- lines 600-609
  ⟨["asm/make_i386_sysv_macho_gas.S", "asm/jump_i386_sysv_macho_gas.S", "asm/ontop_i386_sysv_macho_gas.S"],
   [("abi", "sysv"), ("address-model", "32"), ("architecture", "x86"), ("binary-format", "mach-o"), ("toolset", "darwin")]⟩,
  -- lines 612-622
  ⟨["asm/make_i386_ms_pe_gas.asm", "asm/jump_i386_ms_pe_gas.asm", "asm/ontop_i386_ms_pe_gas.asm", "dummy.cpp"],
   [("abi", "ms"), ("address-model", "32"), ("architecture", "x86"), ("binary-format", "pe"), ("toolset", "clang")]⟩,
  -- lines 624-634
  ⟨["asm/make_i386_ms_pe_masm.asm", "asm/jump_i386_ms_pe_masm.asm", "asm/ontop_i386_ms_pe_masm.asm", "dummy.cpp"],
   [("abi", "ms"), ("address-model", "32"), ("architecture", "x86"), ("binary-format", "pe"), ("toolset", "clang-win")]⟩,
  -- lines 636-646
  ⟨["asm/make_i386_ms_pe_gas.asm", "asm/jump_i386_ms_pe_gas.asm", "asm/ontop_i386_ms_pe_gas.asm", "dummy.cpp"],
   [("abi", "ms"), ("address-model", "32"), ("architecture", "x86"), ("binary-format", "pe"), ("toolset", "gcc")]⟩,
  -- lines 648-658
  ⟨["asm/make_i386_ms_pe_masm.asm", "asm/jump_i386_ms_pe_masm.asm", "asm/ontop_i386_ms_pe_masm.asm", "dummy.cpp"],
   [("abi", "ms"), ("address-model", "32"), ("architecture", "x86"), ("binary-format", "pe"), ("toolset", "intel")]⟩,
  -- lines 660-670
  ⟨["asm/make_i386_ms_pe_masm.asm", "asm/jump_i386_ms_pe_masm.asm", "asm/ontop_i386_ms_pe_masm.asm", "dummy.cpp"],
   [("abi", "ms"), ("address-model", "32"), ("architecture", "x86"), ("binary-format", "pe"), ("toolset", "msvc")]⟩,
  -- lines 677-687
  ⟨["asm/make_i386_ms_pe_masm.asm", "asm/jump_i386_ms_pe_masm.asm", "asm/ontop_i386_ms_pe_masm.asm", "dummy.cpp"],
   [("abi", "ms"), ("address-model", "32"), ("architecture", "x86"), ("binary-format", "pe"), ("toolset", "embarcadero")]⟩,
  -- lines 694-704
  ⟨["asm/make_i386_ms_pe_masm.asm", "asm/jump_i386_ms_pe_masm.asm", "asm/ontop_i386_ms_pe_masm.asm", "dummy.cpp"],
   [("abi", "ms"), ("address-model", "32"), ("architecture", "x86"), ("binary-format", "pe"), ("toolset", "borland")]⟩,
  -- lines 708-717
  ⟨["asm/make_x86_64_sysv_elf_gas.S", "asm/jump_x86_64_sysv_elf_gas.S", "asm/ontop_x86_64_sysv_elf_gas.S"],
   [("abi", "sysv"), ("address-model", "64"), ("architecture", "x86"), ("binary-format", "elf"), ("toolset", "clang")]⟩,
  -- lines 719-728
  ⟨["asm/make_x86_64_sysv_elf_gas.S", "asm/jump_x86_64_sysv_elf_gas.S", "asm/ontop_x86_64_sysv_elf_gas.S"],
   [("abi", "sysv"), ("address-model", "64"), ("architecture", "x86"), ("binary-format", "elf"), ("toolset", "gcc")]⟩,
  -- lines 730-739
  ⟨["asm/make_x86_64_sysv_elf_gas.S", "asm/jump_x86_64_sysv_elf_gas.S", "asm/ontop_x86_64_sysv_elf_gas.S"],
   [("abi", "sysv"), ("address-model", "64"), ("architecture", "x86"), ("binary-format", "elf"), ("toolset", "intel")]⟩,
  -- lines 742-751
  ⟨["asm/make_x86_64_sysv_macho_gas.S", "asm/jump_x86_64_sysv_macho_gas.S", "asm/ontop_x86_64_sysv_macho_gas.S"],
   [("abi", "sysv"), ("address-model", "64"), ("architecture", "x86"), ("binary-format", "mach-o"), ("toolset", "clang")]⟩,
  -- lines 753-762
  ⟨["asm/make_x86_64_sysv_macho_gas.S", "asm/jump_x86_64_sysv_macho_gas.S", "asm/ontop_x86_64_sysv_macho_gas.S"],
   [("abi", "sysv"), ("address-model", "64"), ("architecture", "x86"), ("binary-format", "mach-o"), ("toolset", "gcc")]⟩,
  -- lines 764-773
  ⟨["asm/make_x86_64_sysv_macho_gas.S", "asm/jump_x86_64_sysv_macho_gas.S", "asm/ontop_x86_64_sysv_macho_gas.S"],
   [("abi", "sysv"), ("address-model", "64"), ("architecture", "x86"), ("binary-format", "mach-o"), ("toolset", "darwin")]⟩,
  -- lines 775-784
  ⟨["asm/make_x86_64_sysv_macho_gas.S", "asm/jump_x86_64_sysv_macho_gas.S", "asm/ontop_x86_64_sysv_macho_gas.S"],
   [("abi", "sysv"), ("address-model", "64"), ("architecture", "x86"), ("binary-format", "mach-o"), ("toolset", "intel")]⟩,
  -- lines 787-797
  ⟨["asm/make_x86_64_ms_pe_gas.asm", "asm/jump_x86_64_ms_pe_gas.asm", "asm/ontop_x86_64_ms_pe_gas.asm", "dummy.cpp"],
   [("abi", "ms"), ("address-model", "64"), ("architecture", "x86"), ("binary-format", "pe"), ("toolset", "clang")]⟩,
  -- lines 799-809
  ⟨["asm/make_x86_64_ms_pe_masm.asm", "asm/jump_x86_64_ms_pe_masm.asm", "asm/ontop_x86_64_ms_pe_masm.asm", "dummy.cpp"],
   [("abi", "ms"), ("address-model", "64"), ("architecture", "x86"), ("binary-format", "pe"), ("toolset", "clang-win")]⟩,
  -- lines 811-821
  ⟨["asm/make_x86_64_ms_pe_gas.asm", "asm/jump_x86_64_ms_pe_gas.asm", "asm/ontop_x86_64_ms_pe_gas.asm", "dummy.cpp"],
   [("abi", "ms"), ("address-model", "64"), ("architecture", "x86"), ("binary-format", "pe"), ("toolset", "gcc")]⟩,
  -- lines 823-833
  ⟨["asm/make_x86_64_ms_pe_masm.asm", "asm/jump_x86_64_ms_pe_masm.asm", "asm/ontop_x86_64_ms_pe_masm.asm", "dummy.cpp"],
   [("abi", "ms"), ("address-model", "64"), ("architecture", "x86"), ("binary-format", "pe"), ("toolset", "intel")]⟩,
  -- lines 835-845
  ⟨["asm/make_x86_64_ms_pe_masm.asm", "asm/jump_x86_64_ms_pe_masm.asm", "asm/ontop_x86_64_ms_pe_masm.asm", "dummy.cpp"],
   [("abi", "ms"), ("address-model", "64"), ("architecture", "x86"), ("binary-format", "pe"), ("toolset", "msvc")]⟩,
  -- lines 851-860
  ⟨["asm/make_x86_64_sysv_elf_gas.S", "asm/jump_x86_64_sysv_elf_gas.S", "asm/ontop_x86_64_sysv_elf_gas.S"],
   [("abi", "ms"), ("address-model", "64"), ("architecture", "x86"), ("binary-format", "pe"), ("toolset", "embarcadero")]⟩,
  -- lines 863-872
  ⟨["asm/make_x86_64_sysv_elf_gas.S", "asm/jump_x86_64_sysv_elf_gas.S", "asm/ontop_x86_64_sysv_elf_gas.S"],
   [("abi", "x32"), ("address-model", "32"), ("architecture", "x86"), ("binary-format", "elf"), ("toolset", "clang")]⟩,
  -- lines 874-883
  ⟨["asm/make_x86_64_sysv_elf_gas.S", "asm/jump_x86_64_sysv_elf_gas.S", "asm/ontop_x86_64_sysv_elf_gas.S"],
   [("abi", "x32"), ("address-model", "32"), ("architecture", "x86"), ("binary-format", "elf"), ("toolset", "gcc")]⟩,
  -- lines 885-894
  ⟨["asm/make_x86_64_sysv_elf_gas.S", "asm/jump_x86_64_sysv_elf_gas.S", "asm/ontop_x86_64_sysv_elf_gas.S"],
   [("abi", "x32"), ("address-model", "32"), ("architecture", "x86"), ("binary-format", "elf"), ("toolset", "intel")]⟩,
  -- lines 897-905
  ⟨["asm/make_i386_x86_64_sysv_macho_gas.S", "asm/jump_i386_x86_64_sysv_macho_gas.S", "asm/ontop_i386_x86_64_sysv_macho_gas.S"],
   [("abi", "sysv"), ("address-model", "32_64"), ("architecture", "x86"), ("binary-format", "mach-o")]⟩,
  -- lines 908-915
  ⟨["asm/make_combined_sysv_macho_gas.S", "asm/jump_combined_sysv_macho_gas.S", "asm/ontop_combined_sysv_macho_gas.S"],
   [("abi", "sysv"), ("architecture", "arm+x86"), ("binary-format", "mach-o")]⟩]

end Verif.Build
