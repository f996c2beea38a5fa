import Verif.Asm.Arm64Code

/-!
# ARM64, Mach-O: transcription of `/repo/src/asm/{jump,ontop,make}_arm64_aapcs_macho_gas.S`

Generated by `tools/asm2lean.py Arm64Macho` from the text of these files; the number behind each instruction is its source line.
-/

namespace Verif.Asm.Arm64Macho

open Verif.Asm.Arm64

/-- jump_arm64_aapcs_macho_gas.S lines 58-110 -/
def jumpIs : List (Instr A) :=
  [
    .addi sp sp (-off A 0xb0), -- 60
    .fst (d 8) sp 0x0, -- 63
    .fst (d 9) sp 0x8, -- 63
    .fst (d 10) sp 0x10, -- 64
    .fst (d 11) sp 0x18, -- 64
    .fst (d 12) sp 0x20, -- 65
    .fst (d 13) sp 0x28, -- 65
    .fst (d 14) sp 0x30, -- 66
    .fst (d 15) sp 0x38, -- 66
    .st (x 19) sp 0x40, -- 69
    .st (x 20) sp 0x48, -- 69
    .st (x 21) sp 0x50, -- 70
    .st (x 22) sp 0x58, -- 70
    .st (x 23) sp 0x60, -- 71
    .st (x 24) sp 0x68, -- 71
    .st (x 25) sp 0x70, -- 72
    .st (x 26) sp 0x78, -- 72
    .st (x 27) sp 0x80, -- 73
    .st (x 28) sp 0x88, -- 73
    .st (x 29) sp 0x90, -- 74
    .st (x 30) sp 0x98, -- 74
    .st (x 30) sp 0xa0, -- 77
    .mov (x 4) sp, -- 80
    .mov sp (x 0), -- 83
    .fld (d 8) sp 0x0, -- 86
    .fld (d 9) sp 0x8, -- 86
    .fld (d 10) sp 0x10, -- 87
    .fld (d 11) sp 0x18, -- 87
    .fld (d 12) sp 0x20, -- 88
    .fld (d 13) sp 0x28, -- 88
    .fld (d 14) sp 0x30, -- 89
    .fld (d 15) sp 0x38, -- 89
    .ld (x 19) sp 0x40, -- 92
    .ld (x 20) sp 0x48, -- 92
    .ld (x 21) sp 0x50, -- 93
    .ld (x 22) sp 0x58, -- 93
    .ld (x 23) sp 0x60, -- 94
    .ld (x 24) sp 0x68, -- 94
    .ld (x 25) sp 0x70, -- 95
    .ld (x 26) sp 0x78, -- 95
    .ld (x 27) sp 0x80, -- 96
    .ld (x 28) sp 0x88, -- 96
    .ld (x 29) sp 0x90, -- 97
    .ld (x 30) sp 0x98, -- 97
    .mov (x 0) (x 4), -- 102
    .ld (x 4) sp 0xa0, -- 105
    .addi sp sp (off A 0xb0)] -- 108

def jump : Code A := .jmp jumpIs (x 4)

/-- ontop_arm64_aapcs_macho_gas.S lines 58-109 -/
def ontopIs : List (Instr A) :=
  [
    .addi sp sp (-off A 0xb0), -- 60
    .fst (d 8) sp 0x0, -- 63
    .fst (d 9) sp 0x8, -- 63
    .fst (d 10) sp 0x10, -- 64
    .fst (d 11) sp 0x18, -- 64
    .fst (d 12) sp 0x20, -- 65
    .fst (d 13) sp 0x28, -- 65
    .fst (d 14) sp 0x30, -- 66
    .fst (d 15) sp 0x38, -- 66
    .st (x 19) sp 0x40, -- 69
    .st (x 20) sp 0x48, -- 69
    .st (x 21) sp 0x50, -- 70
    .st (x 22) sp 0x58, -- 70
    .st (x 23) sp 0x60, -- 71
    .st (x 24) sp 0x68, -- 71
    .st (x 25) sp 0x70, -- 72
    .st (x 26) sp 0x78, -- 72
    .st (x 27) sp 0x80, -- 73
    .st (x 28) sp 0x88, -- 73
    .st (x 29) sp 0x90, -- 74
    .st (x 30) sp 0x98, -- 74
    .st (x 30) sp 0xa0, -- 77
    .mov (x 4) sp, -- 80
    .mov sp (x 0), -- 83
    .fld (d 8) sp 0x0, -- 86
    .fld (d 9) sp 0x8, -- 86
    .fld (d 10) sp 0x10, -- 87
    .fld (d 11) sp 0x18, -- 87
    .fld (d 12) sp 0x20, -- 88
    .fld (d 13) sp 0x28, -- 88
    .fld (d 14) sp 0x30, -- 89
    .fld (d 15) sp 0x38, -- 89
    .ld (x 19) sp 0x40, -- 92
    .ld (x 20) sp 0x48, -- 92
    .ld (x 21) sp 0x50, -- 93
    .ld (x 22) sp 0x58, -- 93
    .ld (x 23) sp 0x60, -- 94
    .ld (x 24) sp 0x68, -- 94
    .ld (x 25) sp 0x70, -- 95
    .ld (x 26) sp 0x78, -- 95
    .ld (x 27) sp 0x80, -- 96
    .ld (x 28) sp 0x88, -- 96
    .ld (x 29) sp 0x90, -- 97
    .ld (x 30) sp 0x98, -- 97
    .mov (x 0) (x 4), -- 102
    .addi sp sp (off A 0xb0)] -- 106

def ontop : Code A := .jmp ontopIs (x 2)

/-- make_arm64_aapcs_macho_gas.S lines 59-76 -/
def makeIs : List (Instr A) :=
  [
    .andi (x 0) (x 0) (mask A 4), -- 61
    .addi (x 0) (x 0) (-off A 0xb0), -- 64
    .st (x 2) (x 0) 0xa0, -- 68
    .la (x 1) Lab.finish, -- 70
    .st (x 1) (x 0) 0x98] -- 74

def make : Code A := .jmp makeIs (x 30)

end Verif.Asm.Arm64Macho
