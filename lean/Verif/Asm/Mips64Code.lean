import Verif.Asm.Lemmas

/-!
# MIPS64 n64, ELF: transcription of `/repo/src/asm/{jump,ontop,make}_mips64_n64_elf_gas.S`

Generated by `tools/asm2lean.py Mips64` from the text of these files; the number behind each instruction is its source line.
-/

namespace Verif.Asm.Mips64

/-- general registers by their ABI names -/
inductive R | a (n : Nat) | s (n : Nat) | t (n : Nat) | v (n : Nat) | fp | gp | ra | sp deriving DecidableEq
/-- `f n`: floating point registers -/
inductive F | f (n : Nat) deriving DecidableEq
inductive Lab | finish deriving DecidableEq

def A : Arch := { k := 8, R := R, F := F, Lab := Lab, fb := fun _ => 8 }

abbrev a (n : Nat) : A.R := R.a n
abbrev s (n : Nat) : A.R := R.s n
abbrev t (n : Nat) : A.R := R.t n
abbrev v (n : Nat) : A.R := R.v n
abbrev sp : A.R := R.sp
abbrev fp : A.R := R.fp
abbrev gp : A.R := R.gp
abbrev ra : A.R := R.ra
abbrev f (n : Nat) : A.F := F.f n

/-- jump_mips64_n64_elf_gas.S lines 55-120 -/
def jumpIs (hf : Bool) : List (Instr A) :=
  [
    .addi sp sp (-off A 0xa0), -- 57
    .st (s 0) sp 0x40, -- 59
    .st (s 1) sp 0x48, -- 60
    .st (s 2) sp 0x50, -- 61
    .st (s 3) sp 0x58, -- 62
    .st (s 4) sp 0x60, -- 63
    .st (s 5) sp 0x68, -- 64
    .st (s 6) sp 0x70, -- 65
    .st (s 7) sp 0x78, -- 66
    .st fp sp 0x80, -- 67
    .st ra sp 0x90, -- 68
    .st ra sp 0x98] -- 69
  ++ (if hf then [
    .fst (f 24) sp 0x0, -- 72
    .fst (f 25) sp 0x8, -- 73
    .fst (f 26) sp 0x10, -- 74
    .fst (f 27) sp 0x18, -- 75
    .fst (f 28) sp 0x20, -- 76
    .fst (f 29) sp 0x28, -- 77
    .fst (f 30) sp 0x30, -- 78
    .fst (f 31) sp 0x38] -- 79
    else [])
  ++ [
    .mov (v 0) sp, -- 83
    .mov sp (a 0)] -- 86
  ++ (if hf then [
    .fld (f 24) sp 0x0, -- 89
    .fld (f 25) sp 0x8, -- 90
    .fld (f 26) sp 0x10, -- 91
    .fld (f 27) sp 0x18, -- 92
    .fld (f 28) sp 0x20, -- 93
    .fld (f 29) sp 0x28, -- 94
    .fld (f 30) sp 0x30, -- 95
    .fld (f 31) sp 0x38] -- 96
    else [])
  ++ [
    .ld (s 0) sp 0x40, -- 99
    .ld (s 1) sp 0x48, -- 100
    .ld (s 2) sp 0x50, -- 101
    .ld (s 3) sp 0x58, -- 102
    .ld (s 4) sp 0x60, -- 103
    .ld (s 5) sp 0x68, -- 104
    .ld (s 6) sp 0x70, -- 105
    .ld (s 7) sp 0x78, -- 106
    .ld fp sp 0x80, -- 107
    .ld ra sp 0x90, -- 108
    .ld (t 9) sp 0x98, -- 111
    .addi sp sp (off A 0xa0), -- 114
    .mov (a 0) (v 0), -- 116
    .mov (v 1) (a 1)] -- 117

def jump (hf : Bool) : Code A := .jmp (jumpIs hf) (t 9)

/-- ontop_mips64_n64_elf_gas.S lines 55-119 -/
def ontopIs (hf : Bool) : List (Instr A) :=
  [
    .addi sp sp (-off A 0xa0), -- 57
    .st (s 0) sp 0x40, -- 59
    .st (s 1) sp 0x48, -- 60
    .st (s 2) sp 0x50, -- 61
    .st (s 3) sp 0x58, -- 62
    .st (s 4) sp 0x60, -- 63
    .st (s 5) sp 0x68, -- 64
    .st (s 6) sp 0x70, -- 65
    .st (s 7) sp 0x78, -- 66
    .st fp sp 0x80, -- 67
    .st ra sp 0x90, -- 68
    .st ra sp 0x98] -- 69
  ++ (if hf then [
    .fst (f 24) sp 0x0, -- 72
    .fst (f 25) sp 0x8, -- 73
    .fst (f 26) sp 0x10, -- 74
    .fst (f 27) sp 0x18, -- 75
    .fst (f 28) sp 0x20, -- 76
    .fst (f 29) sp 0x28, -- 77
    .fst (f 30) sp 0x30, -- 78
    .fst (f 31) sp 0x38] -- 79
    else [])
  ++ [
    .mov (t 0) sp, -- 83
    .mov sp (a 0)] -- 86
  ++ (if hf then [
    .fld (f 24) sp 0x0, -- 89
    .fld (f 25) sp 0x8, -- 90
    .fld (f 26) sp 0x10, -- 91
    .fld (f 27) sp 0x18, -- 92
    .fld (f 28) sp 0x20, -- 93
    .fld (f 29) sp 0x28, -- 94
    .fld (f 30) sp 0x30, -- 95
    .fld (f 31) sp 0x38] -- 96
    else [])
  ++ [
    .ld (s 0) sp 0x40, -- 99
    .ld (s 1) sp 0x48, -- 100
    .ld (s 2) sp 0x50, -- 101
    .ld (s 3) sp 0x58, -- 102
    .ld (s 4) sp 0x60, -- 103
    .ld (s 5) sp 0x68, -- 104
    .ld (s 6) sp 0x70, -- 105
    .ld (s 7) sp 0x78, -- 106
    .ld fp sp 0x80, -- 107
    .ld ra sp 0x90, -- 108
    .mov (t 9) (a 2), -- 111
    .addi sp sp (off A 0xa0), -- 114
    .mov (a 0) (t 0)] -- 116

def ontop (hf : Bool) : Code A := .jmp (ontopIs hf) (t 9)

/-- make_mips64_n64_elf_gas.S lines 55-80 -/
def makeIs (hf : Bool) : List (Instr A) :=
  [
    .movi (v 1) (mask A 4), -- 62
    .and (v 0) (v 1) (a 0), -- 63
    .addi (v 0) (v 0) (-off A 0xa0), -- 66
    .st (a 2) (v 0) 0x98, -- 69
    .st gp (v 0) 0x88, -- 71
    .la (t 9) Lab.finish, -- 74
    .st (t 9) (v 0) 0x90] -- 78

def make (hf : Bool) : Code A := .jmp (makeIs hf) ra

end Verif.Asm.Mips64
