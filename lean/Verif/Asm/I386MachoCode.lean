import Verif.Asm.Lemmas

/-!
# i386 SysV, Mach-O: transcription of `/repo/src/asm/{jump,ontop,make}_i386_sysv_macho_gas.S`

Generated by `tools/asm2lean.py I386Macho` from the text of these files; the number behind each instruction is its source line.
-/

namespace Verif.Asm.I386Macho

/-- general registers; `eip` is the target of `ret` (`ret` is `eip := [esp]; esp += 4; jump to eip`); `call 1f` is `eip := 1f; push eip` -/
inductive R | eax | ebx | ecx | edx | esi | edi | ebp | esp | eip deriving DecidableEq
/-- control words of the floating point units -/
inductive F | mxcsr | x87cw deriving DecidableEq
/-- `l1`, `l2`: the numbered labels of the position independent address computations -/
inductive Lab | trampoline | finish | l1 | l2 deriving DecidableEq

def A : Arch := { k := 4, R := R, F := F, Lab := Lab, fb := fun | .mxcsr => 4 | .x87cw => 2 }

/-- build option `BOOST_USE_TSX` -/
structure Cfg where
  tsx : Bool

abbrev eax : A.R := R.eax
abbrev ebx : A.R := R.ebx
abbrev ecx : A.R := R.ecx
abbrev edx : A.R := R.edx
abbrev esi : A.R := R.esi
abbrev edi : A.R := R.edi
abbrev ebp : A.R := R.ebp
abbrev esp : A.R := R.esp
abbrev eip : A.R := R.eip
abbrev mxcsr : A.F := F.mxcsr
abbrev x87cw : A.F := F.x87cw

/-- jump_i386_sysv_macho_gas.S lines 31-75 -/
def jumpIs (cfg : Cfg) : List (Instr A) :=
  [
    .addi esp esp (-off A 0x18)] -- 32
  ++ (if cfg.tsx then [] else [
    .fst mxcsr esp 0x0, -- 35
    .fst x87cw esp 0x4] -- 36
    )
  ++ [
    .st edi esp 0x8, -- 39
    .st esi esp 0xc, -- 40
    .st ebx esp 0x10, -- 41
    .st ebp esp 0x14, -- 42
    .mov ecx esp, -- 45
    .ld eax esp 0x1c, -- 48
    .ld edx esp 0x20, -- 51
    .mov esp eax, -- 54
    .mov eax ecx, -- 57
    .ld ecx esp 0x18] -- 60
  ++ (if cfg.tsx then [] else [
    .fld mxcsr esp 0x0, -- 63
    .fld x87cw esp 0x4] -- 64
    )
  ++ [
    .ld edi esp 0x8, -- 67
    .ld esi esp 0xc, -- 68
    .ld ebx esp 0x10, -- 69
    .ld ebp esp 0x14, -- 70
    .addi esp esp (off A 0x1c)] -- 72

def jump (cfg : Cfg) : Code A := .jmp (jumpIs cfg) ecx

/-- ontop_i386_sysv_macho_gas.S lines 31-82 -/
def ontopIs (cfg : Cfg) : List (Instr A) :=
  [
    .addi esp esp (-off A 0x18)] -- 32
  ++ (if cfg.tsx then [] else [
    .fst mxcsr esp 0x0, -- 35
    .fst x87cw esp 0x4] -- 36
    )
  ++ [
    .st edi esp 0x8, -- 39
    .st esi esp 0xc, -- 40
    .st ebx esp 0x10, -- 41
    .st ebp esp 0x14, -- 42
    .mov ecx esp, -- 45
    .ld eax esp 0x1c, -- 48
    .st ecx eax 0x1c, -- 51
    .ld ecx esp 0x20, -- 54
    .st ecx eax 0x20, -- 57
    .ld ecx esp 0x24, -- 60
    .mov esp eax, -- 63
    .mov eax ecx] -- 66
  ++ (if cfg.tsx then [] else [
    .fld mxcsr esp 0x0, -- 70
    .fld x87cw esp 0x4] -- 71
    )
  ++ [
    .ld edi esp 0x8, -- 74
    .ld esi esp 0xc, -- 75
    .ld ebx esp 0x10, -- 76
    .ld ebp esp 0x14, -- 77
    .addi esp esp (off A 0x18)] -- 79

def ontop (cfg : Cfg) : Code A := .jmp (ontopIs cfg) ecx

/-- make_i386_sysv_macho_gas.S lines 31-75 -/
def makeIs (cfg : Cfg) : List (Instr A) :=
  [
    .ld eax esp 0x4, -- 33
    .addi eax eax (-off A 0x8), -- 37
    .andi eax eax (mask A 4), -- 40
    .addi eax eax (-off A 0x34), -- 43
    .ld ecx esp 0xc, -- 47
    .st ecx eax 0x10, -- 48
    .fst mxcsr eax 0x0, -- 51
    .fst x87cw eax 0x4, -- 53
    .la eip Lab.l1, -- 56
    .addi esp esp (-off A 0x4), -- 56
    .st eip esp 0x0, -- 56
    .ld ecx esp 0x0, -- 58
    .addi esp esp (off A 0x4), -- 58
    .addl ecx Lab.trampoline Lab.l1, -- 60
    .st ecx eax 0x18, -- 63
    .la eip Lab.l2, -- 66
    .addi esp esp (-off A 0x4), -- 66
    .st eip esp 0x0, -- 66
    .ld ecx esp 0x0, -- 68
    .addi esp esp (off A 0x4), -- 68
    .addl ecx Lab.finish Lab.l2, -- 70
    .st ecx eax 0x14, -- 73
    .ld eip esp 0x0, -- 75
    .addi esp esp (off A 0x4)] -- 75

def make (cfg : Cfg) : Code A := .jmp (makeIs cfg) eip

/-- make_i386_sysv_macho_gas.S lines 77-83 -/
def trampIs (cfg : Cfg) : List (Instr A) :=
  [
    .st eax esp 0x0, -- 79
    .st edx esp 0x4, -- 80
    .addi esp esp (-off A 0x4), -- 81
    .st ebp esp 0x0] -- 81

def tramp (cfg : Cfg) : Code A := .jmp (trampIs cfg) ebx

end Verif.Asm.I386Macho
