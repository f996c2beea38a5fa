import Verif.Asm.Lemmas

/-!
# MIPS32 o32, ELF: transcription of `/repo/src/asm/{jump,ontop,make}_mips32_o32_elf_gas.S`

Generated by `tools/asm2lean.py Mips32` from the text of these files; the number behind each instruction is its source line.
-/

namespace Verif.Asm.Mips32

/-- general registers by their ABI names -/
inductive R | a (n : Nat) | s (n : Nat) | t (n : Nat) | v (n : Nat) | fp | gp | ra | sp deriving DecidableEq
/-- `f n`: floating point registers -/
inductive F | f (n : Nat) deriving DecidableEq
inductive Lab | finish deriving DecidableEq

def A : Arch := { k := 4, R := R, F := F, Lab := Lab, fb := fun _ => 8 }

abbrev a (n : Nat) : A.R := R.a n
abbrev s (n : Nat) : A.R := R.s n
abbrev t (n : Nat) : A.R := R.t n
abbrev v (n : Nat) : A.R := R.v n
abbrev sp : A.R := R.sp
abbrev fp : A.R := R.fp
abbrev gp : A.R := R.gp
abbrev ra : A.R := R.ra
abbrev f (n : Nat) : A.F := F.f n

/-- jump_mips32_o32_elf_gas.S lines 48-115 -/
def jumpIs (hf : Bool) : List (Instr A) :=
  [
    .addi sp sp (-off A 0x60), -- 50
    .st (s 0) sp 0x30, -- 52
    .st (s 1) sp 0x34, -- 53
    .st (s 2) sp 0x38, -- 54
    .st (s 3) sp 0x3c, -- 55
    .st (s 4) sp 0x40, -- 56
    .st (s 5) sp 0x44, -- 57
    .st (s 6) sp 0x48, -- 58
    .st (s 7) sp 0x4c, -- 59
    .st fp sp 0x50, -- 60
    .st (a 0) sp 0x54, -- 61
    .st ra sp 0x58, -- 62
    .st ra sp 0x5c] -- 63
  ++ (if hf then [
    .fst (f 20) sp 0x0, -- 66
    .fst (f 22) sp 0x8, -- 67
    .fst (f 24) sp 0x10, -- 68
    .fst (f 26) sp 0x18, -- 69
    .fst (f 28) sp 0x20, -- 70
    .fst (f 30) sp 0x28] -- 71
    else [])
  ++ [
    .mov (a 0) sp, -- 75
    .mov sp (a 1)] -- 78
  ++ (if hf then [
    .fld (f 20) sp 0x0, -- 81
    .fld (f 22) sp 0x8, -- 82
    .fld (f 24) sp 0x10, -- 83
    .fld (f 26) sp 0x18, -- 84
    .fld (f 28) sp 0x20, -- 85
    .fld (f 30) sp 0x28] -- 86
    else [])
  ++ [
    .ld (s 0) sp 0x30, -- 89
    .ld (s 1) sp 0x34, -- 90
    .ld (s 2) sp 0x38, -- 91
    .ld (s 3) sp 0x3c, -- 92
    .ld (s 4) sp 0x40, -- 93
    .ld (s 5) sp 0x44, -- 94
    .ld (s 6) sp 0x48, -- 95
    .ld (s 7) sp 0x4c, -- 96
    .ld fp sp 0x50, -- 97
    .ld (v 0) sp 0x54, -- 98
    .ld ra sp 0x58, -- 99
    .ld (t 9) sp 0x5c, -- 102
    .addi sp sp (off A 0x60), -- 105
    .st (a 0) (v 0) 0x0, -- 108
    .st (a 2) (v 0) 0x4, -- 109
    .mov (a 1) (a 2)] -- 112

def jump (hf : Bool) : Code A := .jmp (jumpIs hf) (t 9)

/-- ontop_mips32_o32_elf_gas.S lines 48-116 -/
def ontopIs (hf : Bool) : List (Instr A) :=
  [
    .addi sp sp (-off A 0x60), -- 50
    .st (s 0) sp 0x30, -- 52
    .st (s 1) sp 0x34, -- 53
    .st (s 2) sp 0x38, -- 54
    .st (s 3) sp 0x3c, -- 55
    .st (s 4) sp 0x40, -- 56
    .st (s 5) sp 0x44, -- 57
    .st (s 6) sp 0x48, -- 58
    .st (s 7) sp 0x4c, -- 59
    .st fp sp 0x50, -- 60
    .st (a 0) sp 0x54, -- 61
    .st ra sp 0x58, -- 62
    .st ra sp 0x5c] -- 63
  ++ (if hf then [
    .fst (f 20) sp 0x0, -- 66
    .fst (f 22) sp 0x8, -- 67
    .fst (f 24) sp 0x10, -- 68
    .fst (f 26) sp 0x18, -- 69
    .fst (f 28) sp 0x20, -- 70
    .fst (f 30) sp 0x28] -- 71
    else [])
  ++ [
    .mov (a 0) sp, -- 75
    .mov sp (a 1)] -- 78
  ++ (if hf then [
    .fld (f 20) sp 0x0, -- 81
    .fld (f 22) sp 0x8, -- 82
    .fld (f 24) sp 0x10, -- 83
    .fld (f 26) sp 0x18, -- 84
    .fld (f 28) sp 0x20, -- 85
    .fld (f 30) sp 0x28] -- 86
    else [])
  ++ [
    .ld (s 0) sp 0x30, -- 89
    .ld (s 1) sp 0x34, -- 90
    .ld (s 2) sp 0x38, -- 91
    .ld (s 3) sp 0x3c, -- 92
    .ld (s 4) sp 0x40, -- 93
    .ld (s 5) sp 0x44, -- 94
    .ld (s 6) sp 0x48, -- 95
    .ld (s 7) sp 0x4c, -- 96
    .ld fp sp 0x50, -- 97
    .ld (v 0) sp 0x54, -- 98
    .ld ra sp 0x58, -- 99
    .mov (t 9) (a 3), -- 102
    .addi sp sp (off A 0x60), -- 105
    .st (a 0) (v 0) 0x0, -- 108
    .st (a 2) (v 0) 0x4, -- 109
    .mov (a 1) (a 0), -- 112
    .mov (a 0) (v 0)] -- 113

def ontop (hf : Bool) : Code A := .jmp (ontopIs hf) (t 9)

/-- make_mips32_o32_elf_gas.S lines 48-82 -/
def makeIs (hf : Bool) : List (Instr A) :=
  [
    .movi (v 1) (mask A 4), -- 55
    .and (v 0) (v 1) (a 0), -- 56
    .addi (v 0) (v 0) (-off A 0x80), -- 65
    .st (a 2) (v 0) 0x5c, -- 68
    .st gp (v 0) 0x70, -- 70
    .addi (t 0) (v 0) (off A 0x74), -- 73
    .st (t 0) (v 0) 0x54, -- 74
    .la (t 9) Lab.finish, -- 77
    .st (t 9) (v 0) 0x58] -- 80

def make (hf : Bool) : Code A := .jmp (makeIs hf) ra

end Verif.Asm.Mips32
