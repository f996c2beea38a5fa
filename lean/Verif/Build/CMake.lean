/-!
# Which assembler sources CMake compiles (C84)

`CMakeLists.txt` lines 13-166: the defaults of the options `BOOST_CONTEXT_BINARY_FORMAT`, `_ABI`, `_ARCHITECTURE`, `_ASSEMBLER`, `_ASM_SUFFIX`, and the three files named with
them.  Not modelled: the choice of the implementation (fcontext is the default), compiler flags, the other sources.  `CMAKE_SYSTEM_PROCESSOR` is an arbitrary string, `MATCHES` with
the two regular expressions that occur is a test of a prefix.
-/

namespace Verif.Build

/-- what CMake knows about the platform: `WIN32`, `APPLE`, `MSVC`, `CMAKE_SYSTEM_PROCESSOR`, `CMAKE_SIZEOF_VOID_P` -/
structure Platform where
  win32 : Bool
  apple : Bool
  msvc : Bool
  proc : String
  ptr : Nat

/-- the cache variables the user has set -/
structure Options where
  binfmt : Option String := none
  abi : Option String := none
  arch : Option String := none
  asm : Option String := none
  ext : Option String := none

/-- `MATCHES "^[Aa][Rr][Mm]"` (lines 32, 59, 68) -/
def isArm (p : String) : Bool :=
  match p.toList with
  | a :: r :: m :: _ => (a == 'A' || a == 'a') && (r == 'R' || r == 'r') && (m == 'M' || m == 'm')
  | _ => false

/-- `MATCHES "^mips"` (lines 36, 61, 70) -/
def isMips (p : String) : Bool :=
  match p.toList with
  | 'm' :: 'i' :: 'p' :: 's' :: _ => true
  | _ => false

/-- lines 15-21 -/
def defaultBinfmt (p : Platform) : String :=
  if p.win32 then "pe" else if p.apple then "mach-o" else "elf"

/-- lines 30-44 -/
def defaultAbi (p : Platform) : String :=
  if isArm p.proc || p.proc == "aarch64" then "aapcs"
  else if p.win32 then "ms"
  else if isMips p.proc then (if p.ptr * 8 == 32 then "o32" else "n64")
  else "sysv"

/-- line 53 -/
def allArchs : List String := ["arm", "arm64", "loongarch64", "mips32", "mips64", "power", "riscv64", "s390x", "i386", "x86_64", "combined"]

/-- lines 56-75 -/
def defaultArch (p : Platform) : String :=
  if allArchs.contains p.proc then p.proc
  else if p.ptr * 8 == 32 then
    (if isArm p.proc then "arm" else if isMips p.proc then "mips32" else "i386")
  else
    (if p.proc == "aarch64" || isArm p.proc then "arm64" else if isMips p.proc then "mips64" else "x86_64")

/-- lines 86-94: depends on the architecture chosen -/
def defaultAsm (p : Platform) (arch : String) : String :=
  if p.msvc then (if arch == "arm64" || arch == "arm" then "armasm" else "masm") else "gas"

/-- lines 103-109 -/
def defaultExt (binfmt asm : String) : String :=
  if binfmt == "pe" then ".asm" else if asm == "gas" then ".S" else ".asm"

/-- the last part of the names of the files (lines 153-157), after `mach-o` has been replaced by `macho` -/
def suffix (p : Platform) (o : Options) : String :=
  let binfmt := o.binfmt.getD (defaultBinfmt p)
  let abi := o.abi.getD (defaultAbi p)
  let arch := o.arch.getD (defaultArch p)
  let asm := o.asm.getD (defaultAsm p arch)
  let ext := o.ext.getD (defaultExt binfmt asm)
  let binfmt' := if binfmt == "mach-o" then "macho" else binfmt
  arch ++ "_" ++ abi ++ "_" ++ binfmt' ++ "_" ++ asm ++ ext

/-- lines 159-163 -/
def sources (p : Platform) (o : Options) : List String :=
  ["src/asm/make_" ++ suffix p o, "src/asm/jump_" ++ suffix p o, "src/asm/ontop_" ++ suffix p o]

/-- the files `make_…` in `/repo/src/asm`, without that prefix; the same names occur with `jump_…` and `ontop_…` (directory listing) -/
def present : List String := [
  "arm64_aapcs_elf_gas.S",
  "arm64_aapcs_macho_gas.S",
  "arm64_aapcs_pe_armasm.asm",
  "arm64_aapcs_pe_armclang.S",
  "arm_aapcs_elf_gas.S",
  "arm_aapcs_macho_gas.S",
  "arm_aapcs_pe_armasm.asm",
  "combined_sysv_macho_gas.S",
  "i386_ms_pe_clang_gas.S",
  "i386_ms_pe_gas.asm",
  "i386_ms_pe_masm.asm",
  "i386_sysv_elf_gas.S",
  "i386_sysv_macho_gas.S",
  "i386_x86_64_sysv_macho_gas.S",
  "loongarch64_sysv_elf_gas.S",
  "mips32_o32_elf_gas.S",
  "mips64_n64_elf_gas.S",
  "ppc32_ppc64_sysv_macho_gas.S",
  "ppc32_sysv_elf_gas.S",
  "ppc32_sysv_macho_gas.S",
  "ppc32_sysv_xcoff_gas.S",
  "ppc64_sysv_elf_gas.S",
  "ppc64_sysv_macho_gas.S",
  "ppc64_sysv_xcoff_gas.S",
  "riscv64_sysv_elf_gas.S",
  "s390x_sysv_elf_gas.S",
  "sparc64_sysv_elf_gas.S",
  "x86_64_ms_pe_clang_gas.S",
  "x86_64_ms_pe_gas.asm",
  "x86_64_ms_pe_masm.asm",
  "x86_64_sysv_elf_gas.S",
  "x86_64_sysv_macho_gas.S"]

/-! ## Stub files for universal binaries -/

/-- what `#if defined(..)` lines of a file select: the first macro of the list that is defined -/
def firstDefined (m : String → Bool) : List (String × String) → Option String
  | [] => none
  | (c, f) :: r => if m c then some f else firstDefined m r

/-- `jump_combined_sysv_macho_gas.S`, `make_combined_sysv_macho_gas.S`, `ontop_combined_sysv_macho_gas.S` (lines 8-25 each), for prefix `r` -/
def combined (r : String) : List (String × String) :=
  [("__i386__", r ++ "_i386_sysv_macho_gas.S"), ("__x86_64__", r ++ "_x86_64_sysv_macho_gas.S"), ("__ppc__", r ++ "_ppc32_sysv_macho_gas.S"),
   ("__ppc64__", r ++ "_ppc64_sysv_macho_gas.S"), ("__arm__", r ++ "_arm_aapcs_macho_gas.S"), ("__arm64__", r ++ "_arm64_aapcs_macho_gas.S")]

/-- `*_i386_x86_64_sysv_macho_gas.S` (lines 8-17) -/
def i386_x86_64 (r : String) : List (String × String) :=
  [("__i386__", r ++ "_i386_sysv_macho_gas.S"), ("__x86_64__", r ++ "_x86_64_sysv_macho_gas.S")]

/-- `*_ppc32_ppc64_sysv_macho_gas.S` (lines 8-17) -/
def ppc32_ppc64 (r : String) : List (String × String) :=
  [("__ppc__", r ++ "_ppc32_sysv_macho_gas.S"), ("__ppc64__", r ++ "_ppc64_sysv_macho_gas.S")]

end Verif.Build
