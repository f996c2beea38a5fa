import Verif.Asm.Lemmas

/-!
# RISC-V 64 SysV, ELF: transcription of `/repo/src/asm/{jump,ontop,make}_riscv64_sysv_elf_gas.S`

Generated by `tools/asm2lean.py RiscV64` from the text of these files; the number behind each instruction is its source line.
-/

namespace Verif.Asm.RiscV64

/-- `a n`, `s n`: argument and saved registers, `ra`: return address, `sp` -/
inductive R | a (n : Nat) | s (n : Nat) | ra | sp deriving DecidableEq
/-- `fs n`: saved floating point registers -/
inductive F | fs (n : Nat) deriving DecidableEq
inductive Lab | finish deriving DecidableEq

def A : Arch := { k := 8, R := R, F := F, Lab := Lab, fb := fun _ => 8 }

abbrev a (n : Nat) : A.R := R.a n
abbrev s (n : Nat) : A.R := R.s n
abbrev sp : A.R := R.sp
abbrev ra : A.R := R.ra
abbrev fs (n : Nat) : A.F := F.fs n

/-- jump_riscv64_sysv_elf_gas.S lines 66-148 -/
def jumpIs : List (Instr A) :=
  [
    .addi sp sp (-off A 0xd0), -- 68
    .fst (fs 0) sp 0x0, -- 71
    .fst (fs 1) sp 0x8, -- 72
    .fst (fs 2) sp 0x10, -- 73
    .fst (fs 3) sp 0x18, -- 74
    .fst (fs 4) sp 0x20, -- 75
    .fst (fs 5) sp 0x28, -- 76
    .fst (fs 6) sp 0x30, -- 77
    .fst (fs 7) sp 0x38, -- 78
    .fst (fs 8) sp 0x40, -- 79
    .fst (fs 9) sp 0x48, -- 80
    .fst (fs 10) sp 0x50, -- 81
    .fst (fs 11) sp 0x58, -- 82
    .st (s 0) sp 0x60, -- 85
    .st (s 1) sp 0x68, -- 86
    .st (s 2) sp 0x70, -- 87
    .st (s 3) sp 0x78, -- 88
    .st (s 4) sp 0x80, -- 89
    .st (s 5) sp 0x88, -- 90
    .st (s 6) sp 0x90, -- 91
    .st (s 7) sp 0x98, -- 92
    .st (s 8) sp 0xa0, -- 93
    .st (s 9) sp 0xa8, -- 94
    .st (s 10) sp 0xb0, -- 95
    .st (s 11) sp 0xb8, -- 96
    .st ra sp 0xc0, -- 97
    .st ra sp 0xc8, -- 100
    .mov (a 2) sp, -- 103
    .mov sp (a 0), -- 106
    .fld (fs 0) sp 0x0, -- 109
    .fld (fs 1) sp 0x8, -- 110
    .fld (fs 2) sp 0x10, -- 111
    .fld (fs 3) sp 0x18, -- 112
    .fld (fs 4) sp 0x20, -- 113
    .fld (fs 5) sp 0x28, -- 114
    .fld (fs 6) sp 0x30, -- 115
    .fld (fs 7) sp 0x38, -- 116
    .fld (fs 8) sp 0x40, -- 117
    .fld (fs 9) sp 0x48, -- 118
    .fld (fs 10) sp 0x50, -- 119
    .fld (fs 11) sp 0x58, -- 120
    .ld (s 0) sp 0x60, -- 123
    .ld (s 1) sp 0x68, -- 124
    .ld (s 2) sp 0x70, -- 125
    .ld (s 3) sp 0x78, -- 126
    .ld (s 4) sp 0x80, -- 127
    .ld (s 5) sp 0x88, -- 128
    .ld (s 6) sp 0x90, -- 129
    .ld (s 7) sp 0x98, -- 130
    .ld (s 8) sp 0xa0, -- 131
    .ld (s 9) sp 0xa8, -- 132
    .ld (s 10) sp 0xb0, -- 133
    .ld (s 11) sp 0xb8, -- 134
    .ld ra sp 0xc0, -- 135
    .mov (a 0) (a 2), -- 140
    .ld (a 2) sp 0xc8, -- 143
    .addi sp sp (off A 0xd0)] -- 146

def jump : Code A := .jmp jumpIs (a 2)

/-- ontop_riscv64_sysv_elf_gas.S lines 66-147 -/
def ontopIs : List (Instr A) :=
  [
    .addi sp sp (-off A 0xd0), -- 68
    .fst (fs 0) sp 0x0, -- 71
    .fst (fs 1) sp 0x8, -- 72
    .fst (fs 2) sp 0x10, -- 73
    .fst (fs 3) sp 0x18, -- 74
    .fst (fs 4) sp 0x20, -- 75
    .fst (fs 5) sp 0x28, -- 76
    .fst (fs 6) sp 0x30, -- 77
    .fst (fs 7) sp 0x38, -- 78
    .fst (fs 8) sp 0x40, -- 79
    .fst (fs 9) sp 0x48, -- 80
    .fst (fs 10) sp 0x50, -- 81
    .fst (fs 11) sp 0x58, -- 82
    .st (s 0) sp 0x60, -- 85
    .st (s 1) sp 0x68, -- 86
    .st (s 2) sp 0x70, -- 87
    .st (s 3) sp 0x78, -- 88
    .st (s 4) sp 0x80, -- 89
    .st (s 5) sp 0x88, -- 90
    .st (s 6) sp 0x90, -- 91
    .st (s 7) sp 0x98, -- 92
    .st (s 8) sp 0xa0, -- 93
    .st (s 9) sp 0xa8, -- 94
    .st (s 10) sp 0xb0, -- 95
    .st (s 11) sp 0xb8, -- 96
    .st ra sp 0xc0, -- 97
    .st ra sp 0xc8, -- 100
    .mov (a 3) sp, -- 103
    .mov sp (a 0), -- 106
    .fld (fs 0) sp 0x0, -- 109
    .fld (fs 1) sp 0x8, -- 110
    .fld (fs 2) sp 0x10, -- 111
    .fld (fs 3) sp 0x18, -- 112
    .fld (fs 4) sp 0x20, -- 113
    .fld (fs 5) sp 0x28, -- 114
    .fld (fs 6) sp 0x30, -- 115
    .fld (fs 7) sp 0x38, -- 116
    .fld (fs 8) sp 0x40, -- 117
    .fld (fs 9) sp 0x48, -- 118
    .fld (fs 10) sp 0x50, -- 119
    .fld (fs 11) sp 0x58, -- 120
    .ld (s 0) sp 0x60, -- 123
    .ld (s 1) sp 0x68, -- 124
    .ld (s 2) sp 0x70, -- 125
    .ld (s 3) sp 0x78, -- 126
    .ld (s 4) sp 0x80, -- 127
    .ld (s 5) sp 0x88, -- 128
    .ld (s 6) sp 0x90, -- 129
    .ld (s 7) sp 0x98, -- 130
    .ld (s 8) sp 0xa0, -- 131
    .ld (s 9) sp 0xa8, -- 132
    .ld (s 10) sp 0xb0, -- 133
    .ld (s 11) sp 0xb8, -- 134
    .ld ra sp 0xc0, -- 135
    .mov (a 0) (a 3), -- 140
    .addi sp sp (off A 0xd0)] -- 144

def ontop : Code A := .jmp ontopIs (a 2)

/-- make_riscv64_sysv_elf_gas.S lines 66-82 -/
def makeIs : List (Instr A) :=
  [
    .andi (a 0) (a 0) (mask A 4), -- 68
    .addi (a 0) (a 0) (-off A 0xd0), -- 71
    .st (a 2) (a 0) 0xc8, -- 75
    .la (a 4) Lab.finish, -- 79
    .st (a 4) (a 0) 0xc0] -- 80

def make : Code A := .jmp makeIs ra

end Verif.Asm.RiscV64
