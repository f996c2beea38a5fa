import Verif.Asm.Lemmas

/-!
# ARM64 AAPCS, ELF: transcription of `/repo/src/asm/{jump,ontop,make}_arm64_aapcs_elf_gas.S`

Generated by `tools/asm2lean.py Arm64` from the text of these files; the number behind each instruction is its source line.
-/

namespace Verif.Asm.Arm64

/-- `x n` = Xn (n ≤ 30, X30 = LR), `sp` -/
inductive R | x (n : Nat) | sp deriving DecidableEq
/-- `d n`: low 64 bits of Vn -/
inductive F | d (n : Nat) deriving DecidableEq
inductive Lab | finish deriving DecidableEq

def A : Arch := { k := 8, R := R, F := F, Lab := Lab, fb := fun _ => 8 }

abbrev x (n : Nat) : A.R := R.x n
abbrev sp : A.R := R.sp
abbrev d (n : Nat) : A.F := F.d n

/-- jump_arm64_aapcs_elf_gas.S lines 60-112 -/
def jumpIs : List (Instr A) :=
  [
    .addi sp sp (-off A 0xb0), -- 62
    .fst (d 8) sp 0x0, -- 65
    .fst (d 9) sp 0x8, -- 65
    .fst (d 10) sp 0x10, -- 66
    .fst (d 11) sp 0x18, -- 66
    .fst (d 12) sp 0x20, -- 67
    .fst (d 13) sp 0x28, -- 67
    .fst (d 14) sp 0x30, -- 68
    .fst (d 15) sp 0x38, -- 68
    .st (x 19) sp 0x40, -- 71
    .st (x 20) sp 0x48, -- 71
    .st (x 21) sp 0x50, -- 72
    .st (x 22) sp 0x58, -- 72
    .st (x 23) sp 0x60, -- 73
    .st (x 24) sp 0x68, -- 73
    .st (x 25) sp 0x70, -- 74
    .st (x 26) sp 0x78, -- 74
    .st (x 27) sp 0x80, -- 75
    .st (x 28) sp 0x88, -- 75
    .st (x 29) sp 0x90, -- 76
    .st (x 30) sp 0x98, -- 76
    .st (x 30) sp 0xa0, -- 79
    .mov (x 4) sp, -- 82
    .mov sp (x 0), -- 85
    .fld (d 8) sp 0x0, -- 88
    .fld (d 9) sp 0x8, -- 88
    .fld (d 10) sp 0x10, -- 89
    .fld (d 11) sp 0x18, -- 89
    .fld (d 12) sp 0x20, -- 90
    .fld (d 13) sp 0x28, -- 90
    .fld (d 14) sp 0x30, -- 91
    .fld (d 15) sp 0x38, -- 91
    .ld (x 19) sp 0x40, -- 94
    .ld (x 20) sp 0x48, -- 94
    .ld (x 21) sp 0x50, -- 95
    .ld (x 22) sp 0x58, -- 95
    .ld (x 23) sp 0x60, -- 96
    .ld (x 24) sp 0x68, -- 96
    .ld (x 25) sp 0x70, -- 97
    .ld (x 26) sp 0x78, -- 97
    .ld (x 27) sp 0x80, -- 98
    .ld (x 28) sp 0x88, -- 98
    .ld (x 29) sp 0x90, -- 99
    .ld (x 30) sp 0x98, -- 99
    .mov (x 0) (x 4), -- 104
    .ld (x 4) sp 0xa0, -- 107
    .addi sp sp (off A 0xb0)] -- 110

def jump : Code A := .jmp jumpIs (x 4)

/-- ontop_arm64_aapcs_elf_gas.S lines 60-111 -/
def ontopIs : List (Instr A) :=
  [
    .addi sp sp (-off A 0xb0), -- 62
    .fst (d 8) sp 0x0, -- 65
    .fst (d 9) sp 0x8, -- 65
    .fst (d 10) sp 0x10, -- 66
    .fst (d 11) sp 0x18, -- 66
    .fst (d 12) sp 0x20, -- 67
    .fst (d 13) sp 0x28, -- 67
    .fst (d 14) sp 0x30, -- 68
    .fst (d 15) sp 0x38, -- 68
    .st (x 19) sp 0x40, -- 71
    .st (x 20) sp 0x48, -- 71
    .st (x 21) sp 0x50, -- 72
    .st (x 22) sp 0x58, -- 72
    .st (x 23) sp 0x60, -- 73
    .st (x 24) sp 0x68, -- 73
    .st (x 25) sp 0x70, -- 74
    .st (x 26) sp 0x78, -- 74
    .st (x 27) sp 0x80, -- 75
    .st (x 28) sp 0x88, -- 75
    .st (x 29) sp 0x90, -- 76
    .st (x 30) sp 0x98, -- 76
    .st (x 30) sp 0xa0, -- 79
    .mov (x 4) sp, -- 82
    .mov sp (x 0), -- 85
    .fld (d 8) sp 0x0, -- 88
    .fld (d 9) sp 0x8, -- 88
    .fld (d 10) sp 0x10, -- 89
    .fld (d 11) sp 0x18, -- 89
    .fld (d 12) sp 0x20, -- 90
    .fld (d 13) sp 0x28, -- 90
    .fld (d 14) sp 0x30, -- 91
    .fld (d 15) sp 0x38, -- 91
    .ld (x 19) sp 0x40, -- 94
    .ld (x 20) sp 0x48, -- 94
    .ld (x 21) sp 0x50, -- 95
    .ld (x 22) sp 0x58, -- 95
    .ld (x 23) sp 0x60, -- 96
    .ld (x 24) sp 0x68, -- 96
    .ld (x 25) sp 0x70, -- 97
    .ld (x 26) sp 0x78, -- 97
    .ld (x 27) sp 0x80, -- 98
    .ld (x 28) sp 0x88, -- 98
    .ld (x 29) sp 0x90, -- 99
    .ld (x 30) sp 0x98, -- 99
    .mov (x 0) (x 4), -- 104
    .addi sp sp (off A 0xb0)] -- 108

def ontop : Code A := .jmp ontopIs (x 2)

/-- make_arm64_aapcs_elf_gas.S lines 60-76 -/
def makeIs : List (Instr A) :=
  [
    .andi (x 0) (x 0) (mask A 4), -- 62
    .addi (x 0) (x 0) (-off A 0xb0), -- 65
    .st (x 2) (x 0) 0xa0, -- 69
    .la (x 1) Lab.finish, -- 73
    .st (x 1) (x 0) 0x98] -- 74

def make : Code A := .jmp makeIs (x 30)

end Verif.Asm.Arm64
