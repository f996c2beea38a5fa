import Verif.Asm.Lemmas

/-!
# i386 Windows, PE (MinGW): transcription of `/repo/src/asm/{jump,ontop,make}_i386_ms_pe_gas.asm`

Generated by `tools/asm2lean.py I386Pe` from the text of these files; the number behind each instruction is its source line.
-/

namespace Verif.Asm.I386Pe

/-- general registers; `eip` is the target of `ret` (`ret` is `eip := [esp]; esp += 4; jump to eip`); `tmp` is the temporary of `xchg` (which is rendered as three moves) -/
inductive R | eax | ebx | ecx | edx | esi | edi | ebp | esp | eip | tmp deriving DecidableEq
/-- control words of the floating point units; the fields of the thread information block (to which `fs` refers) that belong to a context: head of the chain of exception
handlers (at 0), stack base (4), stack limit (8), fiber data (0x10), deallocation stack (0xe0c).  `mov edx, fs:[0x18]` yields the address of the block; memory
accesses relative to edx in `jump_fcontext` and `ontop_fcontext` are accesses to these fields -/
inductive F | mxcsr | x87cw | tibSeh | tibBase | tibLimit | tibFiber | tibDealloc deriving DecidableEq
/-- `walk` is the head of the loop of `make_fcontext`, `tib` the address of the thread information block -/
inductive Lab | trampoline | finish | walk | tib deriving DecidableEq

def A : Arch := { k := 4, R := R, F := F, Lab := Lab, fb := fun | .x87cw => 2 | _ => 4 }

/-- build option `BOOST_USE_TSX` -/
structure Cfg where
  tsx : Bool

abbrev eax : A.R := R.eax
abbrev ebx : A.R := R.ebx
abbrev ecx : A.R := R.ecx
abbrev edx : A.R := R.edx
abbrev esi : A.R := R.esi
abbrev edi : A.R := R.edi
abbrev ebp : A.R := R.ebp
abbrev esp : A.R := R.esp
abbrev eip : A.R := R.eip
abbrev tmp : A.R := R.tmp
abbrev mxcsr : A.F := F.mxcsr
abbrev x87cw : A.F := F.x87cw
abbrev tibSeh : A.F := F.tibSeh
abbrev tibBase : A.F := F.tibBase
abbrev tibLimit : A.F := F.tibLimit
abbrev tibFiber : A.F := F.tibFiber
abbrev tibDealloc : A.F := F.tibDealloc

/-- jump_i386_ms_pe_gas.asm lines 37-120 -/
def jumpIs (cfg : Cfg) : List (Instr A) :=
  [
    .addi esp esp (-off A 0x2c)] -- 39
  ++ (if cfg.tsx then [] else [
    .fst mxcsr esp 0x0, -- 43
    .fst x87cw esp 0x4] -- 45
    )
  ++ [
    .la edx Lab.tib, -- 49
    .mfb eax tibFiber edx Lab.tib, -- 51
    .st eax esp 0x8, -- 52
    .mfb eax tibDealloc edx Lab.tib, -- 54
    .st eax esp 0xc, -- 55
    .mfb eax tibLimit edx Lab.tib, -- 57
    .st eax esp 0x10, -- 58
    .mfb eax tibBase edx Lab.tib, -- 60
    .st eax esp 0x14, -- 61
    .mfb eax tibSeh edx Lab.tib, -- 63
    .st eax esp 0x18, -- 64
    .st edi esp 0x1c, -- 66
    .st esi esp 0x20, -- 67
    .st ebx esp 0x24, -- 68
    .st ebp esp 0x28, -- 69
    .mov eax esp, -- 72
    .ld ecx esp 0x30, -- 75
    .mov esp ecx] -- 78
  ++ (if cfg.tsx then [] else [
    .fld mxcsr esp 0x0, -- 82
    .fld x87cw esp 0x4] -- 84
    )
  ++ [
    .la edx Lab.tib, -- 88
    .ld ecx esp 0x8, -- 90
    .mtb tibFiber ecx edx Lab.tib, -- 91
    .ld ecx esp 0xc, -- 93
    .mtb tibDealloc ecx edx Lab.tib, -- 94
    .ld ecx esp 0x10, -- 96
    .mtb tibLimit ecx edx Lab.tib, -- 97
    .ld ecx esp 0x14, -- 99
    .mtb tibBase ecx edx Lab.tib, -- 100
    .ld ecx esp 0x18, -- 102
    .mtb tibSeh ecx edx Lab.tib, -- 103
    .ld ecx esp 0x2c, -- 105
    .ld edi esp 0x1c, -- 107
    .ld esi esp 0x20, -- 108
    .ld ebx esp 0x24, -- 109
    .ld ebp esp 0x28, -- 110
    .addi esp esp (off A 0x30), -- 113
    .ld edx eax 0x34] -- 117

def jump (cfg : Cfg) : Code A := .jmp (jumpIs cfg) ecx

/-- ontop_i386_ms_pe_gas.asm lines 37-128 -/
def ontopIs (cfg : Cfg) : List (Instr A) :=
  [
    .addi esp esp (-off A 0x2c)] -- 39
  ++ (if cfg.tsx then [] else [
    .fst mxcsr esp 0x0, -- 43
    .fst x87cw esp 0x4] -- 45
    )
  ++ [
    .la edx Lab.tib, -- 49
    .mfb eax tibFiber edx Lab.tib, -- 51
    .st eax esp 0x8, -- 52
    .mfb eax tibDealloc edx Lab.tib, -- 54
    .st eax esp 0xc, -- 55
    .mfb eax tibLimit edx Lab.tib, -- 57
    .st eax esp 0x10, -- 58
    .mfb eax tibBase edx Lab.tib, -- 60
    .st eax esp 0x14, -- 61
    .mfb eax tibSeh edx Lab.tib, -- 63
    .st eax esp 0x18, -- 64
    .st edi esp 0x1c, -- 66
    .st esi esp 0x20, -- 67
    .st ebx esp 0x24, -- 68
    .st ebp esp 0x28, -- 69
    .mov ecx esp, -- 72
    .ld eax esp 0x30, -- 75
    .st ecx eax 0x30, -- 78
    .ld ecx esp 0x34, -- 81
    .st ecx eax 0x34, -- 84
    .ld ecx esp 0x38, -- 87
    .mov esp eax] -- 90
  ++ (if cfg.tsx then [] else [
    .fld mxcsr esp 0x0, -- 94
    .fld x87cw esp 0x4] -- 96
    )
  ++ [
    .la edx Lab.tib, -- 100
    .ld eax esp 0x8, -- 102
    .mtb tibFiber eax edx Lab.tib, -- 103
    .ld eax esp 0xc, -- 105
    .mtb tibDealloc eax edx Lab.tib, -- 106
    .ld eax esp 0x10, -- 108
    .mtb tibLimit eax edx Lab.tib, -- 109
    .ld eax esp 0x14, -- 111
    .mtb tibBase eax edx Lab.tib, -- 112
    .ld eax esp 0x18, -- 114
    .mtb tibSeh eax edx Lab.tib, -- 115
    .ld edi esp 0x1c, -- 117
    .ld esi esp 0x20, -- 118
    .ld ebx esp 0x24, -- 119
    .ld ebp esp 0x28, -- 120
    .addi esp esp (off A 0x2c)] -- 123

def ontop (cfg : Cfg) : Code A := .jmp (ontopIs cfg) ecx

/-- make_i386_ms_pe_gas.asm lines 37-102 -/
def mheadIs (cfg : Cfg) : List (Instr A) :=
  [
    .ld eax esp 0x4, -- 39
    .addi eax eax (-off A 0x8), -- 43
    .andi eax eax (mask A 4), -- 46
    .addi eax eax (-off A 0x40), -- 52
    .fst mxcsr eax 0x0, -- 55
    .fst x87cw eax 0x4, -- 57
    .ld ecx esp 0x4, -- 60
    .st ecx eax 0x14, -- 62
    .ld edx esp 0x8, -- 64
    .neg edx edx, -- 66
    .add ecx ecx edx, -- 68
    .st ecx eax 0x10, -- 70
    .st ecx eax 0xc, -- 72
    .movi ecx (off A 0x0), -- 74
    .st ecx eax 0x8, -- 75
    .ld ecx esp 0xc, -- 79
    .st ecx eax 0x24, -- 80
    .la ecx Lab.trampoline, -- 83
    .st ecx eax 0x2c, -- 86
    .la ecx Lab.finish, -- 89
    .st ecx eax 0x28, -- 92
    .mfs ecx tibSeh] -- 100

/-- make_i386_ms_pe_gas.asm lines 102-107 -/
def mtestIs (cfg : Cfg) : List (Instr A) :=
  [
    .ld edx ecx 0x0, -- 104
    .addi edx edx (off A 0x1)] -- 106

/-- make_i386_ms_pe_gas.asm lines 107-112 -/
def mnextIs (cfg : Cfg) : List (Instr A) :=
  [
    .addi edx edx (-off A 0x1), -- 108
    .mov tmp ecx, -- 110
    .mov ecx edx, -- 110
    .mov edx tmp] -- 110

/-- make_i386_ms_pe_gas.asm lines 114-129 -/
def mtailIs (cfg : Cfg) : List (Instr A) :=
  [
    .ld ecx ecx 0x4, -- 116
    .st ecx eax 0x3c, -- 118
    .movi ecx (-off A 0x1), -- 120
    .st ecx eax 0x38, -- 122
    .addi ecx eax (off A 0x38), -- 124
    .st ecx eax 0x18, -- 126
    .ld eip esp 0x0, -- 129
    .addi esp esp (off A 0x4)] -- 129

def mtail (cfg : Cfg) : Code A := .jmp (mtailIs cfg) eip

/-- make_i386_ms_pe_gas.asm lines 131-139 -/
def trampIs (cfg : Cfg) : List (Instr A) :=
  [
    .st eax esp 0x0, -- 134
    .st edx esp 0x4, -- 135
    .addi esp esp (-off A 0x4), -- 137
    .st ebp esp 0x0] -- 137

def tramp (cfg : Cfg) : Code A := .jmp (trampIs cfg) ebx

end Verif.Asm.I386Pe
