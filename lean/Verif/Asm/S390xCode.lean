import Verif.Asm.Lemmas

/-!
# s390x SysV, ELF: transcription of `/repo/src/asm/{jump,ontop,make}_s390x_sysv_elf_gas.S`

Generated by `tools/asm2lean.py S390x` from the text of these files; the number behind each instruction is its source line.
-/

namespace Verif.Asm.S390x

/-- `r n`: general registers; r14 is the return address, r15 the stack pointer -/
inductive R | r (n : Nat) deriving DecidableEq
/-- `f n`: floating point registers, `fpc`: floating point control register -/
inductive F | f (n : Nat) | fpc deriving DecidableEq
inductive Lab | finish deriving DecidableEq

def A : Arch := { k := 8, R := R, F := F, Lab := Lab, fb := fun | .f _ => 8 | .fpc => 4 }

abbrev r (n : Nat) : A.R := R.r n
abbrev f (n : Nat) : A.F := F.f n
abbrev fpc : A.F := F.fpc

/-! jump_s390x_sysv_elf_gas.S lines 81-157: `jumpPre` up to the conditional branch, `jumpZ` executed only if (r 2) is zero, `jumpTail` the rest -/
def jumpPre : List (Instr A) := [
    .addi (r 15) (r 15) (-off A 0xb0), -- 84
    .st (r 2) (r 15) 0x10, -- 87
    .st (r 6) (r 15) 0x18, -- 90
    .st (r 7) (r 15) 0x20, -- 90
    .st (r 8) (r 15) 0x28, -- 90
    .st (r 9) (r 15) 0x30, -- 90
    .st (r 10) (r 15) 0x38, -- 90
    .st (r 11) (r 15) 0x40, -- 90
    .st (r 12) (r 15) 0x48, -- 90
    .st (r 13) (r 15) 0x50, -- 90
    .st (r 14) (r 15) 0x58, -- 90
    .fst (f 8) (r 15) 0x60, -- 93
    .fst (f 9) (r 15) 0x68, -- 94
    .fst (f 10) (r 15) 0x70, -- 95
    .fst (f 11) (r 15) 0x78, -- 96
    .fst (f 12) (r 15) 0x80, -- 97
    .fst (f 13) (r 15) 0x88, -- 98
    .fst (f 14) (r 15) 0x90, -- 99
    .fst (f 15) (r 15) 0x98, -- 100
    .st (r 14) (r 15) 0xa8, -- 103
    .fst fpc (r 15) 0xa0, -- 106
    .mov (r 1) (r 15), -- 109
    .mov (r 15) (r 3), -- 112
    .ld (r 6) (r 15) 0x18, -- 115
    .ld (r 7) (r 15) 0x20, -- 115
    .ld (r 8) (r 15) 0x28, -- 115
    .ld (r 9) (r 15) 0x30, -- 115
    .ld (r 10) (r 15) 0x38, -- 115
    .ld (r 11) (r 15) 0x40, -- 115
    .ld (r 12) (r 15) 0x48, -- 115
    .ld (r 13) (r 15) 0x50, -- 115
    .ld (r 14) (r 15) 0x58, -- 115
    .fld (f 8) (r 15) 0x60, -- 118
    .fld (f 9) (r 15) 0x68, -- 119
    .fld (f 10) (r 15) 0x70, -- 120
    .fld (f 11) (r 15) 0x78, -- 121
    .fld (f 12) (r 15) 0x80, -- 122
    .fld (f 13) (r 15) 0x88, -- 123
    .fld (f 14) (r 15) 0x90, -- 124
    .fld (f 15) (r 15) 0x98, -- 125
    .fld fpc (r 15) 0xa0, -- 128
    .ld (r 5) (r 15) 0xa8, -- 131
    .ld (r 2) (r 15) 0x10] -- 133
def jumpZ : List (Instr A) := [
    .addi (r 2) (r 15) (off A 0xa0), -- 140
    .addi (r 15) (r 15) (-off A 0xb0)] -- 143
def jumpTail : List (Instr A) := [
    .st (r 1) (r 2) 0x0, -- 150
    .st (r 4) (r 2) 0x8, -- 151
    .addi (r 15) (r 15) (off A 0xb0)] -- 154

/-- jump_s390x_sysv_elf_gas.S lines 81-157 -/
def jump : Code A := .brz jumpPre (r 2) (.jmp (jumpZ ++ jumpTail) (r 5)) (.jmp jumpTail (r 5))

/-- ontop_s390x_sysv_elf_gas.S lines 84-143 -/
def ontopIs : List (Instr A) :=
  [
    .addi (r 15) (r 15) (-off A 0xb0), -- 86
    .st (r 2) (r 15) 0x10, -- 89
    .st (r 6) (r 15) 0x18, -- 92
    .st (r 7) (r 15) 0x20, -- 92
    .st (r 8) (r 15) 0x28, -- 92
    .st (r 9) (r 15) 0x30, -- 92
    .st (r 10) (r 15) 0x38, -- 92
    .st (r 11) (r 15) 0x40, -- 92
    .st (r 12) (r 15) 0x48, -- 92
    .st (r 13) (r 15) 0x50, -- 92
    .st (r 14) (r 15) 0x58, -- 92
    .fst (f 8) (r 15) 0x60, -- 95
    .fst (f 9) (r 15) 0x68, -- 96
    .fst (f 10) (r 15) 0x70, -- 97
    .fst (f 11) (r 15) 0x78, -- 98
    .fst (f 12) (r 15) 0x80, -- 99
    .fst (f 13) (r 15) 0x88, -- 100
    .fst (f 14) (r 15) 0x90, -- 101
    .fst (f 15) (r 15) 0x98, -- 102
    .st (r 14) (r 15) 0xa8, -- 105
    .fst fpc (r 15) 0xa0, -- 108
    .mov (r 1) (r 15), -- 111
    .mov (r 15) (r 3), -- 114
    .ld (r 6) (r 15) 0x18, -- 117
    .ld (r 7) (r 15) 0x20, -- 117
    .ld (r 8) (r 15) 0x28, -- 117
    .ld (r 9) (r 15) 0x30, -- 117
    .ld (r 10) (r 15) 0x38, -- 117
    .ld (r 11) (r 15) 0x40, -- 117
    .ld (r 12) (r 15) 0x48, -- 117
    .ld (r 13) (r 15) 0x50, -- 117
    .ld (r 14) (r 15) 0x58, -- 117
    .fld (f 8) (r 15) 0x60, -- 120
    .fld (f 9) (r 15) 0x68, -- 121
    .fld (f 10) (r 15) 0x70, -- 122
    .fld (f 11) (r 15) 0x78, -- 123
    .fld (f 12) (r 15) 0x80, -- 124
    .fld (f 13) (r 15) 0x88, -- 125
    .fld (f 14) (r 15) 0x90, -- 126
    .fld (f 15) (r 15) 0x98, -- 127
    .fld fpc (r 15) 0xa0, -- 130
    .st (r 1) (r 1) 0x0, -- 133
    .st (r 4) (r 1) 0x8, -- 134
    .ld (r 2) (r 15) 0x10, -- 137
    .mov (r 3) (r 1), -- 138
    .addi (r 15) (r 15) (off A 0xb0)] -- 141

def ontop : Code A := .jmp ontopIs (r 5)

/-- make_s390x_sysv_elf_gas.S lines 73-99 -/
def makeIs : List (Instr A) :=
  [
    .andi (r 2) (r 2) (mask A 3), -- 76
    .addi (r 2) (r 2) (-off A 0xb0), -- 79
    .sti (off A 0) (r 2) 0x10, -- 83
    .fst fpc (r 2) 0xa0, -- 86
    .st (r 4) (r 2) 0xa8, -- 89
    .la (r 1) Lab.finish, -- 95
    .st (r 1) (r 2) 0x58] -- 96

def make : Code A := .jmp makeIs (r 14)

end Verif.Asm.S390x
