import Verif.Asm.Lemmas

/-!
# ARM (32 bit) AAPCS, ELF: transcription of `/repo/src/asm/{jump,ontop,make}_arm_aapcs_elf_gas.S`

Generated by `tools/asm2lean.py Arm32` from the text of these files; the number behind each instruction is its source line.
-/

namespace Verif.Asm.Arm32

/-- `a n` = r(n-1) (n = 1..4), `v n` = r(n+3) (n = 1..8), `lr`, `sp`; `pc` is the target of `pop {pc}` -/
inductive R | a (n : Nat) | v (n : Nat) | lr | sp | pc deriving DecidableEq
/-- `d n`: double precision registers -/
inductive F | d (n : Nat) deriving DecidableEq
inductive Lab | finish deriving DecidableEq

def A : Arch := { k := 4, R := R, F := F, Lab := Lab, fb := fun _ => 8 }

abbrev a (n : Nat) : A.R := R.a n
abbrev v (n : Nat) : A.R := R.v n
abbrev sp : A.R := R.sp
abbrev lr : A.R := R.lr
abbrev pc : A.R := R.pc
abbrev d (n : Nat) : A.F := F.d n

/-- jump_arm_aapcs_elf_gas.S lines 48-85 -/
def jumpIs (vfp : Bool) : List (Instr A) :=
  [
    .addi sp sp (-off A 0x4), -- 50
    .st lr sp 0x0, -- 50
    .addi sp sp (-off A 0x28), -- 52
    .st (a 1) sp 0x0, -- 52
    .st (v 1) sp 0x4, -- 52
    .st (v 2) sp 0x8, -- 52
    .st (v 3) sp 0xc, -- 52
    .st (v 4) sp 0x10, -- 52
    .st (v 5) sp 0x14, -- 52
    .st (v 6) sp 0x18, -- 52
    .st (v 7) sp 0x1c, -- 52
    .st (v 8) sp 0x20, -- 52
    .st lr sp 0x24, -- 52
    .addi sp sp (-off A 0x40)] -- 55
  ++ (if vfp then [
    .fst (d 8) sp 0x0, -- 58
    .fst (d 9) sp 0x8, -- 58
    .fst (d 10) sp 0x10, -- 58
    .fst (d 11) sp 0x18, -- 58
    .fst (d 12) sp 0x20, -- 58
    .fst (d 13) sp 0x28, -- 58
    .fst (d 14) sp 0x30, -- 58
    .fst (d 15) sp 0x38] -- 58
    else [])
  ++ [
    .mov (a 1) sp, -- 62
    .mov sp (a 2)] -- 65
  ++ (if vfp then [
    .fld (d 8) sp 0x0, -- 69
    .fld (d 9) sp 0x8, -- 69
    .fld (d 10) sp 0x10, -- 69
    .fld (d 11) sp 0x18, -- 69
    .fld (d 12) sp 0x20, -- 69
    .fld (d 13) sp 0x28, -- 69
    .fld (d 14) sp 0x30, -- 69
    .fld (d 15) sp 0x38] -- 69
    else [])
  ++ [
    .addi sp sp (off A 0x40), -- 72
    .ld (a 4) sp 0x0, -- 75
    .ld (v 1) sp 0x4, -- 75
    .ld (v 2) sp 0x8, -- 75
    .ld (v 3) sp 0xc, -- 75
    .ld (v 4) sp 0x10, -- 75
    .ld (v 5) sp 0x14, -- 75
    .ld (v 6) sp 0x18, -- 75
    .ld (v 7) sp 0x1c, -- 75
    .ld (v 8) sp 0x20, -- 75
    .ld lr sp 0x24, -- 75
    .addi sp sp (off A 0x28), -- 75
    .st (a 1) (a 4) 0x0, -- 78
    .st (a 3) (a 4) 0x4, -- 79
    .mov (a 2) (a 3), -- 82
    .ld pc sp 0x0, -- 85
    .addi sp sp (off A 0x4)] -- 85

def jump (vfp : Bool) : Code A := .jmp (jumpIs vfp) pc

/-- ontop_arm_aapcs_elf_gas.S lines 48-90 -/
def ontopIs (vfp : Bool) : List (Instr A) :=
  [
    .addi sp sp (-off A 0x4), -- 50
    .st lr sp 0x0, -- 50
    .addi sp sp (-off A 0x28), -- 52
    .st (a 1) sp 0x0, -- 52
    .st (v 1) sp 0x4, -- 52
    .st (v 2) sp 0x8, -- 52
    .st (v 3) sp 0xc, -- 52
    .st (v 4) sp 0x10, -- 52
    .st (v 5) sp 0x14, -- 52
    .st (v 6) sp 0x18, -- 52
    .st (v 7) sp 0x1c, -- 52
    .st (v 8) sp 0x20, -- 52
    .st lr sp 0x24, -- 52
    .addi sp sp (-off A 0x40)] -- 55
  ++ (if vfp then [
    .fst (d 8) sp 0x0, -- 58
    .fst (d 9) sp 0x8, -- 58
    .fst (d 10) sp 0x10, -- 58
    .fst (d 11) sp 0x18, -- 58
    .fst (d 12) sp 0x20, -- 58
    .fst (d 13) sp 0x28, -- 58
    .fst (d 14) sp 0x30, -- 58
    .fst (d 15) sp 0x38] -- 58
    else [])
  ++ [
    .mov (a 1) sp, -- 62
    .mov sp (a 2), -- 65
    .mov (a 2) (a 1)] -- 68
  ++ (if vfp then [
    .fld (d 8) sp 0x0, -- 72
    .fld (d 9) sp 0x8, -- 72
    .fld (d 10) sp 0x10, -- 72
    .fld (d 11) sp 0x18, -- 72
    .fld (d 12) sp 0x20, -- 72
    .fld (d 13) sp 0x28, -- 72
    .fld (d 14) sp 0x30, -- 72
    .fld (d 15) sp 0x38] -- 72
    else [])
  ++ [
    .addi sp sp (off A 0x40), -- 75
    .ld (a 1) sp 0x0, -- 78
    .ld (v 1) sp 0x4, -- 78
    .ld (v 2) sp 0x8, -- 78
    .ld (v 3) sp 0xc, -- 78
    .ld (v 4) sp 0x10, -- 78
    .ld (v 5) sp 0x14, -- 78
    .ld (v 6) sp 0x18, -- 78
    .ld (v 7) sp 0x1c, -- 78
    .ld (v 8) sp 0x20, -- 78
    .ld lr sp 0x24, -- 78
    .addi sp sp (off A 0x28), -- 78
    .st (a 2) (a 1) 0x0, -- 81
    .st (a 3) (a 1) 0x4, -- 82
    .addi sp sp (off A 0x4)] -- 87

def ontop (vfp : Bool) : Code A := .jmp (ontopIs vfp) (a 4)

/-- make_arm_aapcs_elf_gas.S lines 48-72 -/
def makeIs (vfp : Bool) : List (Instr A) :=
  [
    .andi (a 1) (a 1) (mask A 4), -- 50
    .addi (a 1) (a 1) (-off A 0x7c), -- 53
    .st (a 3) (a 1) 0x68, -- 56
    .addi (a 2) (a 1) (off A 0x6c), -- 59
    .mov (a 3) (a 2), -- 60
    .st (a 3) (a 1) 0x40, -- 61
    .la (a 2) Lab.finish, -- 64
    .st (a 2) (a 1) 0x64] -- 67

def make (vfp : Bool) : Code A := .jmp (makeIs vfp) lr

end Verif.Asm.Arm32
