import Verif.Asm.Lemmas

/-!
# i386 SysV, ELF: transcription of `/repo/src/asm/{jump,ontop,make}_i386_sysv_elf_gas.S`

Generated by `tools/asm2lean.py I386` from the text of these files; the number behind each instruction is its source line.
-/

namespace Verif.Asm.I386

/-- general registers; `eip` is the target of `ret` (`ret` is `eip := [esp]; esp += 4; jump to eip`); `call 1f` is `eip := 1f; push eip` -/
inductive R | eax | ebx | ecx | edx | esi | edi | ebp | esp | eip deriving DecidableEq
/-- control words of the floating point units and the stack guard word at `%gs:0x14` -/
inductive F | mxcsr | x87cw | guard deriving DecidableEq
/-- `l1`, `l2`: the numbered labels of the position independent address computations -/
inductive Lab | trampoline | finish | l1 | l2 deriving DecidableEq

def A : Arch := { k := 4, R := R, F := F, Lab := Lab, fb := fun | .mxcsr => 4 | .x87cw => 2 | .guard => 4 }

/-- build options `BOOST_USE_TSX`, `BOOST_CONTEXT_TLS_STACK_PROTECTOR` -/
structure Cfg where
  tsx : Bool
  guard : Bool

abbrev eax : A.R := R.eax
abbrev ebx : A.R := R.ebx
abbrev ecx : A.R := R.ecx
abbrev edx : A.R := R.edx
abbrev esi : A.R := R.esi
abbrev edi : A.R := R.edi
abbrev ebp : A.R := R.ebp
abbrev esp : A.R := R.esp
abbrev eip : A.R := R.eip
abbrev mxcsr : A.F := F.mxcsr
abbrev x87cw : A.F := F.x87cw
abbrev guard : A.F := F.guard

/-- jump_i386_sysv_elf_gas.S lines 37-94 -/
def jumpIs (cfg : Cfg) : List (Instr A) :=
  [
    .addi esp esp (-off A 0x1c)] -- 38
  ++ (if cfg.tsx then [] else [
    .fst mxcsr esp 0x0, -- 41
    .fst x87cw esp 0x4] -- 42
    )
  ++ (if cfg.guard then [
    .mfs ecx guard, -- 46
    .st ecx esp 0x8] -- 47
    else [])
  ++ [
    .st edi esp 0xc, -- 50
    .st esi esp 0x10, -- 51
    .st ebx esp 0x14, -- 52
    .st ebp esp 0x18, -- 53
    .mov ecx esp, -- 56
    .ld eax esp 0x24, -- 59
    .ld edx esp 0x28, -- 62
    .mov esp eax, -- 65
    .ld eax esp 0x20, -- 68
    .st ecx eax 0x0, -- 70
    .st edx eax 0x4, -- 72
    .ld ecx esp 0x1c] -- 74
  ++ (if cfg.tsx then [] else [
    .fld mxcsr esp 0x0, -- 77
    .fld x87cw esp 0x4] -- 78
    )
  ++ (if cfg.guard then [
    .ld edx esp 0x8, -- 82
    .mts guard edx] -- 83
    else [])
  ++ [
    .ld edi esp 0xc, -- 86
    .ld esi esp 0x10, -- 87
    .ld ebx esp 0x14, -- 88
    .ld ebp esp 0x18, -- 89
    .addi esp esp (off A 0x24)] -- 91

def jump (cfg : Cfg) : Code A := .jmp (jumpIs cfg) ecx

/-- ontop_i386_sysv_elf_gas.S lines 37-101 -/
def ontopIs (cfg : Cfg) : List (Instr A) :=
  [
    .addi esp esp (-off A 0x1c)] -- 38
  ++ (if cfg.tsx then [] else [
    .fst mxcsr esp 0x0, -- 41
    .fst x87cw esp 0x4] -- 42
    )
  ++ (if cfg.guard then [
    .mfs ecx guard, -- 46
    .st ecx esp 0x8] -- 47
    else [])
  ++ [
    .st edi esp 0xc, -- 50
    .st esi esp 0x10, -- 51
    .st ebx esp 0x14, -- 52
    .st ebp esp 0x18, -- 53
    .mov ecx esp, -- 56
    .ld eax esp 0x24, -- 59
    .st ecx eax 0x24, -- 62
    .ld ecx esp 0x28, -- 65
    .st ecx eax 0x28, -- 68
    .ld ecx esp 0x2c, -- 71
    .mov esp eax, -- 74
    .ld eax esp 0x20, -- 77
    .st ecx eax 0x0, -- 79
    .st edx eax 0x4] -- 81
  ++ (if cfg.tsx then [] else [
    .fld mxcsr esp 0x0, -- 84
    .fld x87cw esp 0x4] -- 85
    )
  ++ (if cfg.guard then [
    .ld edx esp 0x8, -- 89
    .mts guard edx] -- 90
    else [])
  ++ [
    .ld edi esp 0xc, -- 93
    .ld esi esp 0x10, -- 94
    .ld ebx esp 0x14, -- 95
    .ld ebp esp 0x18, -- 96
    .addi esp esp (off A 0x1c)] -- 98

def ontop (cfg : Cfg) : Code A := .jmp (ontopIs cfg) ecx

/-- make_i386_sysv_elf_gas.S lines 37-92 -/
def makeIs (cfg : Cfg) : List (Instr A) :=
  [
    .ld eax esp 0x4, -- 39
    .addi eax eax (-off A 0x8), -- 43
    .andi eax eax (mask A 4), -- 46
    .addi eax eax (-off A 0x34), -- 49
    .ld ecx esp 0xc, -- 53
    .st ecx eax 0x14, -- 54
    .fst mxcsr eax 0x0, -- 57
    .fst x87cw eax 0x4] -- 59
  ++ (if cfg.guard then [
    .mfs ecx guard, -- 63
    .st ecx eax 0x8] -- 64
    else [])
  ++ [
    .addi ecx eax (off A 0xc), -- 69
    .st ecx eax 0x20, -- 70
    .la eip Lab.l1, -- 73
    .addi esp esp (-off A 0x4), -- 73
    .st eip esp 0x0, -- 73
    .ld ecx esp 0x0, -- 75
    .addi esp esp (off A 0x4), -- 75
    .addl ecx Lab.trampoline Lab.l1, -- 77
    .st ecx eax 0x1c, -- 80
    .la eip Lab.l2, -- 83
    .addi esp esp (-off A 0x4), -- 83
    .st eip esp 0x0, -- 83
    .ld ecx esp 0x0, -- 85
    .addi esp esp (off A 0x4), -- 85
    .addl ecx Lab.finish Lab.l2, -- 87
    .st ecx eax 0x18, -- 90
    .ld eip esp 0x0, -- 92
    .addi esp esp (off A 0x4)] -- 92

def make (cfg : Cfg) : Code A := .jmp (makeIs cfg) eip

/-- make_i386_sysv_elf_gas.S lines 94-100 -/
def trampIs (cfg : Cfg) : List (Instr A) :=
  [
    .st edi esp 0x0, -- 96
    .st esi esp 0x4, -- 97
    .addi esp esp (-off A 0x4), -- 98
    .st ebp esp 0x0] -- 98

def tramp (cfg : Cfg) : Code A := .jmp (trampIs cfg) ebx

end Verif.Asm.I386
