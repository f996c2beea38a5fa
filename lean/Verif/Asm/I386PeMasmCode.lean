import Verif.Asm.I386PeCode

/-!
# i386 Windows, PE (MASM): transcription of `/repo/src/asm/{jump,ontop,make}_i386_ms_pe_masm.asm`

Generated by `tools/asm2lean.py I386PeMasm` from the text of these files; the number behind each instruction is its source line.
-/

namespace Verif.Asm.I386PeMasm

open Verif.Asm.I386Pe

/-- jump_i386_ms_pe_masm.asm lines 27-110 -/
def jumpIs (cfg : Cfg) : List (Instr A) :=
  [
    .addi esp esp (-off A 0x2c)] -- 29
  ++ (if cfg.tsx then [] else [
    .fst mxcsr esp 0x0, -- 32
    .fst x87cw esp 0x4] -- 34
    )
  ++ [
    .la edx Lab.tib, -- 38
    .mfb eax tibFiber edx Lab.tib, -- 41
    .st eax esp 0x8, -- 42
    .mfb eax tibDealloc edx Lab.tib, -- 44
    .st eax esp 0xc, -- 45
    .mfb eax tibLimit edx Lab.tib, -- 47
    .st eax esp 0x10, -- 48
    .mfb eax tibBase edx Lab.tib, -- 50
    .st eax esp 0x14, -- 51
    .mfb eax tibSeh edx Lab.tib, -- 53
    .st eax esp 0x18, -- 54
    .st edi esp 0x1c, -- 56
    .st esi esp 0x20, -- 57
    .st ebx esp 0x24, -- 58
    .st ebp esp 0x28, -- 59
    .mov eax esp, -- 62
    .ld ecx esp 0x30, -- 65
    .mov esp ecx] -- 68
  ++ (if cfg.tsx then [] else [
    .fld mxcsr esp 0x0, -- 71
    .fld x87cw esp 0x4] -- 73
    )
  ++ [
    .la edx Lab.tib, -- 77
    .ld ecx esp 0x8, -- 80
    .mtb tibFiber ecx edx Lab.tib, -- 81
    .ld ecx esp 0xc, -- 83
    .mtb tibDealloc ecx edx Lab.tib, -- 84
    .ld ecx esp 0x10, -- 86
    .mtb tibLimit ecx edx Lab.tib, -- 87
    .ld ecx esp 0x14, -- 89
    .mtb tibBase ecx edx Lab.tib, -- 90
    .ld ecx esp 0x18, -- 92
    .mtb tibSeh ecx edx Lab.tib, -- 93
    .ld ecx esp 0x2c, -- 95
    .ld edi esp 0x1c, -- 97
    .ld esi esp 0x20, -- 98
    .ld ebx esp 0x24, -- 99
    .ld ebp esp 0x28, -- 100
    .addi esp esp (off A 0x30), -- 103
    .ld edx eax 0x34] -- 107

def jump (cfg : Cfg) : Code A := .jmp (jumpIs cfg) ecx

/-- ontop_i386_ms_pe_masm.asm lines 27-118 -/
def ontopIs (cfg : Cfg) : List (Instr A) :=
  [
    .addi esp esp (-off A 0x2c)] -- 29
  ++ (if cfg.tsx then [] else [
    .fst mxcsr esp 0x0, -- 32
    .fst x87cw esp 0x4] -- 34
    )
  ++ [
    .la edx Lab.tib, -- 38
    .mfb eax tibFiber edx Lab.tib, -- 41
    .st eax esp 0x8, -- 42
    .mfb eax tibDealloc edx Lab.tib, -- 44
    .st eax esp 0xc, -- 45
    .mfb eax tibLimit edx Lab.tib, -- 47
    .st eax esp 0x10, -- 48
    .mfb eax tibBase edx Lab.tib, -- 50
    .st eax esp 0x14, -- 51
    .mfb eax tibSeh edx Lab.tib, -- 53
    .st eax esp 0x18, -- 54
    .st edi esp 0x1c, -- 56
    .st esi esp 0x20, -- 57
    .st ebx esp 0x24, -- 58
    .st ebp esp 0x28, -- 59
    .mov ecx esp, -- 62
    .ld eax esp 0x30, -- 65
    .st ecx eax 0x30, -- 68
    .ld ecx esp 0x34, -- 71
    .st ecx eax 0x34, -- 74
    .ld ecx esp 0x38, -- 77
    .mov esp eax] -- 80
  ++ (if cfg.tsx then [] else [
    .fld mxcsr esp 0x0, -- 83
    .fld x87cw esp 0x4] -- 85
    )
  ++ [
    .la edx Lab.tib, -- 89
    .ld eax esp 0x8, -- 92
    .mtb tibFiber eax edx Lab.tib, -- 93
    .ld eax esp 0xc, -- 95
    .mtb tibDealloc eax edx Lab.tib, -- 96
    .ld eax esp 0x10, -- 98
    .mtb tibLimit eax edx Lab.tib, -- 99
    .ld eax esp 0x14, -- 101
    .mtb tibBase eax edx Lab.tib, -- 102
    .ld eax esp 0x18, -- 104
    .mtb tibSeh eax edx Lab.tib, -- 105
    .ld edi esp 0x1c, -- 107
    .ld esi esp 0x20, -- 108
    .ld ebx esp 0x24, -- 109
    .ld ebp esp 0x28, -- 110
    .addi esp esp (off A 0x2c)] -- 113

def ontop (cfg : Cfg) : Code A := .jmp (ontopIs cfg) ecx

/-- make_i386_ms_pe_masm.asm lines 29-95 -/
def mheadIs (cfg : Cfg) : List (Instr A) :=
  [
    .ld eax esp 0x4, -- 31
    .addi eax eax (-off A 0x8), -- 35
    .andi eax eax (mask A 4), -- 38
    .addi eax eax (-off A 0x40), -- 43
    .fst mxcsr eax 0x0, -- 46
    .fst x87cw eax 0x4, -- 48
    .ld ecx esp 0x4, -- 51
    .st ecx eax 0x14, -- 53
    .ld edx esp 0x8, -- 55
    .neg edx edx, -- 57
    .add ecx ecx edx, -- 59
    .st ecx eax 0x10, -- 61
    .st ecx eax 0xc, -- 63
    .movi ecx (off A 0x0), -- 65
    .st ecx eax 0x8, -- 66
    .ld ecx esp 0xc, -- 70
    .st ecx eax 0x24, -- 71
    .la ecx Lab.trampoline, -- 74
    .st ecx eax 0x2c, -- 77
    .la ecx Lab.finish, -- 80
    .st ecx eax 0x28, -- 83
    .mfs ecx tibSeh] -- 92

/-- make_i386_ms_pe_masm.asm lines 95-100 -/
def mtestIs (cfg : Cfg) : List (Instr A) :=
  [
    .ld edx ecx 0x0, -- 97
    .addi edx edx (off A 0x1)] -- 99

/-- make_i386_ms_pe_masm.asm lines 100-105 -/
def mnextIs (cfg : Cfg) : List (Instr A) :=
  [
    .addi edx edx (-off A 0x1), -- 101
    .mov tmp ecx, -- 103
    .mov ecx edx, -- 103
    .mov edx tmp] -- 103

/-- make_i386_ms_pe_masm.asm lines 107-121 -/
def mtailIs (cfg : Cfg) : List (Instr A) :=
  [
    .ld ecx ecx 0x4, -- 109
    .st ecx eax 0x3c, -- 111
    .movi ecx (-off A 0x1), -- 113
    .st ecx eax 0x38, -- 115
    .addi ecx eax (off A 0x38), -- 117
    .st ecx eax 0x18, -- 119
    .ld eip esp 0x0, -- 121
    .addi esp esp (off A 0x4)] -- 121

def mtail (cfg : Cfg) : Code A := .jmp (mtailIs cfg) eip

/-- make_i386_ms_pe_masm.asm lines 123-130 -/
def trampIs (cfg : Cfg) : List (Instr A) :=
  [
    .st eax esp 0x0, -- 126
    .st edx esp 0x4, -- 127
    .addi esp esp (-off A 0x4), -- 128
    .st ebp esp 0x0] -- 128

def tramp (cfg : Cfg) : Code A := .jmp (trampIs cfg) ebx

end Verif.Asm.I386PeMasm
