import Verif.Asm.Arm64PeCode

/-!
# ARM64 Windows, PE (armasm): transcription of `/repo/src/asm/{jump,ontop,make}_arm64_aapcs_pe_armasm.asm`

Generated by `tools/asm2lean.py Arm64PeMasm` from the text of these files; the number behind each instruction is its source line.
-/

namespace Verif.Asm.Arm64PeMasm

open Verif.Asm.Arm64Pe

/-- jump_arm64_aapcs_pe_armasm.asm lines 63-131 -/
def jumpIs : List (Instr A) :=
  [
    .addi sp sp (-off A 0xd0), -- 65
    .fst (d 8) sp 0x0, -- 68
    .fst (d 9) sp 0x8, -- 68
    .fst (d 10) sp 0x10, -- 69
    .fst (d 11) sp 0x18, -- 69
    .fst (d 12) sp 0x20, -- 70
    .fst (d 13) sp 0x28, -- 70
    .fst (d 14) sp 0x30, -- 71
    .fst (d 15) sp 0x38, -- 71
    .st (x 19) sp 0x40, -- 74
    .st (x 20) sp 0x48, -- 74
    .st (x 21) sp 0x50, -- 75
    .st (x 22) sp 0x58, -- 75
    .st (x 23) sp 0x60, -- 76
    .st (x 24) sp 0x68, -- 76
    .st (x 25) sp 0x70, -- 77
    .st (x 26) sp 0x78, -- 77
    .st (x 27) sp 0x80, -- 78
    .st (x 28) sp 0x88, -- 78
    .st (x 29) sp 0x90, -- 79
    .st (x 30) sp 0x98, -- 79
    .st (x 30) sp 0xc0, -- 82
    .mfs (x 5) tibBase, -- 85
    .mfs (x 6) tibLimit, -- 85
    .st (x 5) sp 0xa0, -- 86
    .st (x 6) sp 0xa8, -- 86
    .mfs (x 5) tibDealloc, -- 88
    .mfs (x 6) tibFiber, -- 89
    .st (x 5) sp 0xb0, -- 90
    .st (x 6) sp 0xb8, -- 90
    .mov (x 4) sp, -- 93
    .mov sp (x 0), -- 96
    .ld (x 5) sp 0xa0, -- 99
    .ld (x 6) sp 0xa8, -- 99
    .mts tibBase (x 5), -- 100
    .mts tibLimit (x 6), -- 100
    .ld (x 5) sp 0xb0, -- 102
    .ld (x 6) sp 0xb8, -- 102
    .mts tibDealloc (x 5), -- 103
    .mts tibFiber (x 6), -- 104
    .fld (d 8) sp 0x0, -- 107
    .fld (d 9) sp 0x8, -- 107
    .fld (d 10) sp 0x10, -- 108
    .fld (d 11) sp 0x18, -- 108
    .fld (d 12) sp 0x20, -- 109
    .fld (d 13) sp 0x28, -- 109
    .fld (d 14) sp 0x30, -- 110
    .fld (d 15) sp 0x38, -- 110
    .ld (x 19) sp 0x40, -- 113
    .ld (x 20) sp 0x48, -- 113
    .ld (x 21) sp 0x50, -- 114
    .ld (x 22) sp 0x58, -- 114
    .ld (x 23) sp 0x60, -- 115
    .ld (x 24) sp 0x68, -- 115
    .ld (x 25) sp 0x70, -- 116
    .ld (x 26) sp 0x78, -- 116
    .ld (x 27) sp 0x80, -- 117
    .ld (x 28) sp 0x88, -- 117
    .ld (x 29) sp 0x90, -- 118
    .ld (x 30) sp 0x98, -- 118
    .mov (x 0) (x 4), -- 123
    .ld (x 4) sp 0xc0, -- 126
    .addi sp sp (off A 0xd0)] -- 129

def jump : Code A := .jmp jumpIs (x 4)

/-- ontop_arm64_aapcs_pe_armasm.asm lines 63-130 -/
def ontopIs : List (Instr A) :=
  [
    .addi sp sp (-off A 0xd0), -- 65
    .fst (d 8) sp 0x0, -- 68
    .fst (d 9) sp 0x8, -- 68
    .fst (d 10) sp 0x10, -- 69
    .fst (d 11) sp 0x18, -- 69
    .fst (d 12) sp 0x20, -- 70
    .fst (d 13) sp 0x28, -- 70
    .fst (d 14) sp 0x30, -- 71
    .fst (d 15) sp 0x38, -- 71
    .st (x 19) sp 0x40, -- 74
    .st (x 20) sp 0x48, -- 74
    .st (x 21) sp 0x50, -- 75
    .st (x 22) sp 0x58, -- 75
    .st (x 23) sp 0x60, -- 76
    .st (x 24) sp 0x68, -- 76
    .st (x 25) sp 0x70, -- 77
    .st (x 26) sp 0x78, -- 77
    .st (x 27) sp 0x80, -- 78
    .st (x 28) sp 0x88, -- 78
    .st (x 29) sp 0x90, -- 79
    .st (x 30) sp 0x98, -- 79
    .st (x 30) sp 0xc0, -- 82
    .mfs (x 5) tibBase, -- 85
    .mfs (x 6) tibLimit, -- 85
    .st (x 5) sp 0xa0, -- 86
    .st (x 6) sp 0xa8, -- 86
    .mfs (x 5) tibDealloc, -- 88
    .mfs (x 6) tibFiber, -- 89
    .st (x 5) sp 0xb0, -- 90
    .st (x 6) sp 0xb8, -- 90
    .mov (x 4) sp, -- 93
    .mov sp (x 0), -- 96
    .ld (x 5) sp 0xa0, -- 99
    .ld (x 6) sp 0xa8, -- 99
    .mts tibBase (x 5), -- 100
    .mts tibLimit (x 6), -- 100
    .ld (x 5) sp 0xb0, -- 102
    .ld (x 6) sp 0xb8, -- 102
    .mts tibDealloc (x 5), -- 103
    .mts tibFiber (x 6), -- 104
    .fld (d 8) sp 0x0, -- 107
    .fld (d 9) sp 0x8, -- 107
    .fld (d 10) sp 0x10, -- 108
    .fld (d 11) sp 0x18, -- 108
    .fld (d 12) sp 0x20, -- 109
    .fld (d 13) sp 0x28, -- 109
    .fld (d 14) sp 0x30, -- 110
    .fld (d 15) sp 0x38, -- 110
    .ld (x 19) sp 0x40, -- 113
    .ld (x 20) sp 0x48, -- 113
    .ld (x 21) sp 0x50, -- 114
    .ld (x 22) sp 0x58, -- 114
    .ld (x 23) sp 0x60, -- 115
    .ld (x 24) sp 0x68, -- 115
    .ld (x 25) sp 0x70, -- 116
    .ld (x 26) sp 0x78, -- 116
    .ld (x 27) sp 0x80, -- 117
    .ld (x 28) sp 0x88, -- 117
    .ld (x 29) sp 0x90, -- 118
    .ld (x 30) sp 0x98, -- 118
    .mov (x 0) (x 4), -- 123
    .addi sp sp (off A 0xc0)] -- 127

def ontop : Code A := .jmp ontopIs (x 2)

/-- make_arm64_aapcs_pe_armasm.asm lines 64-94 -/
def makeIs : List (Instr A) :=
  [
    .mov (x 3) (x 0), -- 66
    .andi (x 0) (x 0) (mask A 4), -- 69
    .addi (x 0) (x 0) (-off A 0xd0), -- 72
    .st (x 3) (x 0) 0xa0, -- 75
    .sub (x 3) (x 3) (x 1), -- 77
    .st (x 3) (x 0) 0xa8, -- 78
    .st (x 3) (x 0) 0xb0, -- 78
    .sti (off A 0x0) (x 0) 0xb8, -- 80
    .st (x 2) (x 0) 0x40, -- 84
    .la (x 2) Lab.trampoline, -- 86
    .st (x 2) (x 0) 0xc0, -- 87
    .la (x 1) Lab.finish, -- 91
    .st (x 1) (x 0) 0x98] -- 92

def make : Code A := .jmp makeIs (x 30)

/-- make_arm64_aapcs_pe_armasm.asm lines 96-99 -/
def trampIs : List (Instr A) :=
  [
    .addi sp sp (-off A 0x10), -- 97
    .st (x 29) sp 0x0, -- 97
    .st (x 30) sp 0x8, -- 97
    .mov (x 29) sp, -- 98
    .la (x 30) Lab.finish] -- 99

def tramp : Code A := .jmp trampIs (x 19)

end Verif.Asm.Arm64PeMasm
