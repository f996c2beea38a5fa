import Verif.Asm.Lemmas

/-!
# LoongArch64 SysV, ELF: transcription of `/repo/src/asm/{jump,ontop,make}_loongarch64_sysv_elf_gas.S`

Generated by `tools/asm2lean.py LoongArch64` from the text of these files; the number behind each instruction is its source line.
-/

namespace Verif.Asm.LoongArch64

/-- `a n`, `s n`: argument and saved registers, `fp`, `ra`: return address, `sp` -/
inductive R | a (n : Nat) | s (n : Nat) | fp | ra | sp deriving DecidableEq
/-- `fs n`: saved floating point registers -/
inductive F | fs (n : Nat) deriving DecidableEq
inductive Lab | finish deriving DecidableEq

def A : Arch := { k := 8, R := R, F := F, Lab := Lab, fb := fun _ => 8 }

abbrev a (n : Nat) : A.R := R.a n
abbrev s (n : Nat) : A.R := R.s n
abbrev sp : A.R := R.sp
abbrev fp : A.R := R.fp
abbrev ra : A.R := R.ra
abbrev fs (n : Nat) : A.F := F.fs n

/-- jump_loongarch64_sysv_elf_gas.S lines 47-118 -/
def jumpIs : List (Instr A) :=
  [
    .addi sp sp (-off A 0xa0), -- 49
    .fst (fs 0) sp 0x0, -- 52
    .fst (fs 1) sp 0x8, -- 53
    .fst (fs 2) sp 0x10, -- 54
    .fst (fs 3) sp 0x18, -- 55
    .fst (fs 4) sp 0x20, -- 56
    .fst (fs 5) sp 0x28, -- 57
    .fst (fs 6) sp 0x30, -- 58
    .fst (fs 7) sp 0x38, -- 59
    .st (s 0) sp 0x40, -- 62
    .st (s 1) sp 0x48, -- 63
    .st (s 2) sp 0x50, -- 64
    .st (s 3) sp 0x58, -- 65
    .st (s 4) sp 0x60, -- 66
    .st (s 5) sp 0x68, -- 67
    .st (s 6) sp 0x70, -- 68
    .st (s 7) sp 0x78, -- 69
    .st (s 8) sp 0x80, -- 70
    .st fp sp 0x88, -- 71
    .st ra sp 0x90, -- 72
    .st ra sp 0x98, -- 75
    .mov (a 2) sp, -- 78
    .mov sp (a 0), -- 81
    .fld (fs 0) sp 0x0, -- 84
    .fld (fs 1) sp 0x8, -- 85
    .fld (fs 2) sp 0x10, -- 86
    .fld (fs 3) sp 0x18, -- 87
    .fld (fs 4) sp 0x20, -- 88
    .fld (fs 5) sp 0x28, -- 89
    .fld (fs 6) sp 0x30, -- 90
    .fld (fs 7) sp 0x38, -- 91
    .ld (s 0) sp 0x40, -- 94
    .ld (s 1) sp 0x48, -- 95
    .ld (s 2) sp 0x50, -- 96
    .ld (s 3) sp 0x58, -- 97
    .ld (s 4) sp 0x60, -- 98
    .ld (s 5) sp 0x68, -- 99
    .ld (s 6) sp 0x70, -- 100
    .ld (s 7) sp 0x78, -- 101
    .ld (s 8) sp 0x80, -- 102
    .ld fp sp 0x88, -- 103
    .ld ra sp 0x90, -- 104
    .mov (a 0) (a 2), -- 109
    .ld (a 2) sp 0x98, -- 112
    .addi sp sp (off A 0xa0)] -- 115

def jump : Code A := .jmp jumpIs (a 2)

/-- ontop_loongarch64_sysv_elf_gas.S lines 47-115 -/
def ontopIs : List (Instr A) :=
  [
    .addi sp sp (-off A 0xa0), -- 49
    .fst (fs 0) sp 0x0, -- 52
    .fst (fs 1) sp 0x8, -- 53
    .fst (fs 2) sp 0x10, -- 54
    .fst (fs 3) sp 0x18, -- 55
    .fst (fs 4) sp 0x20, -- 56
    .fst (fs 5) sp 0x28, -- 57
    .fst (fs 6) sp 0x30, -- 58
    .fst (fs 7) sp 0x38, -- 59
    .st (s 0) sp 0x40, -- 62
    .st (s 1) sp 0x48, -- 63
    .st (s 2) sp 0x50, -- 64
    .st (s 3) sp 0x58, -- 65
    .st (s 4) sp 0x60, -- 66
    .st (s 5) sp 0x68, -- 67
    .st (s 6) sp 0x70, -- 68
    .st (s 7) sp 0x78, -- 69
    .st (s 8) sp 0x80, -- 70
    .st fp sp 0x88, -- 71
    .st ra sp 0x90, -- 72
    .st ra sp 0x98, -- 75
    .mov (a 3) sp, -- 78
    .mov sp (a 0), -- 81
    .fld (fs 0) sp 0x0, -- 84
    .fld (fs 1) sp 0x8, -- 85
    .fld (fs 2) sp 0x10, -- 86
    .fld (fs 3) sp 0x18, -- 87
    .fld (fs 4) sp 0x20, -- 88
    .fld (fs 5) sp 0x28, -- 89
    .fld (fs 6) sp 0x30, -- 90
    .fld (fs 7) sp 0x38, -- 91
    .ld (s 0) sp 0x40, -- 94
    .ld (s 1) sp 0x48, -- 95
    .ld (s 2) sp 0x50, -- 96
    .ld (s 3) sp 0x58, -- 97
    .ld (s 4) sp 0x60, -- 98
    .ld (s 5) sp 0x68, -- 99
    .ld (s 6) sp 0x70, -- 100
    .ld (s 7) sp 0x78, -- 101
    .ld (s 8) sp 0x80, -- 102
    .ld fp sp 0x88, -- 103
    .ld ra sp 0x90, -- 104
    .mov (a 0) (a 3), -- 109
    .addi sp sp (off A 0xa0)] -- 112

def ontop : Code A := .jmp ontopIs (a 2)

/-- make_loongarch64_sysv_elf_gas.S lines 47-63 -/
def makeIs : List (Instr A) :=
  [
    .andi (a 0) (a 0) (mask A 4), -- 49
    .addi (a 0) (a 0) (-off A 0xa0), -- 52
    .st (a 2) (a 0) 0x98, -- 55
    .la (a 4) Lab.finish, -- 59
    .st (a 4) (a 0) 0x90] -- 60

def make : Code A := .jmp makeIs ra

end Verif.Asm.LoongArch64
