import Verif.Asm.Lemmas

/-!
# ARM (32 bit), Mach-O: transcription of `/repo/src/asm/{jump,ontop,make}_arm_aapcs_macho_gas.S`

Generated by `tools/asm2lean.py ArmMacho` from the text of these files; the number behind each instruction is its source line.
-/

namespace Verif.Asm.ArmMacho

/-- `a n` = r(n-1) (n = 1..4), `v n` = r(n+3) (n = 1..8), `lr`, `sp`; `pc` is the target of `pop {pc}` -/
inductive R | a (n : Nat) | v (n : Nat) | lr | sp | pc deriving DecidableEq
/-- `d n`: double precision registers; `sjlj`: the word `TLS[18]`, the head of the thread's list of SjLj exception handlers -/
inductive F | d (n : Nat) | sjlj deriving DecidableEq
/-- `tls`: the thread pointer (the coprocessor register read by `mrc`, with the two lowest bits cleared by the following `bic`); an access to `[v2, #72]` after that is
an access to `sjlj` -/
inductive Lab | finish | tls deriving DecidableEq

def A : Arch := { k := 4, R := R, F := F, Lab := Lab, fb := fun | .d _ => 8 | .sjlj => 4 }

abbrev a (n : Nat) : A.R := R.a n
abbrev v (n : Nat) : A.R := R.v n
abbrev sp : A.R := R.sp
abbrev lr : A.R := R.lr
abbrev pc : A.R := R.pc
abbrev d (n : Nat) : A.F := F.d n
abbrev sjlj : A.F := F.sjlj

/-- jump_arm_aapcs_macho_gas.S lines 45-96 -/
def jumpIs (vfp : Bool) : List (Instr A) :=
  [
    .addi sp sp (-off A 0x4), -- 47
    .st lr sp 0x0, -- 47
    .addi sp sp (-off A 0x28), -- 49
    .st (a 1) sp 0x0, -- 49
    .st (v 1) sp 0x4, -- 49
    .st (v 2) sp 0x8, -- 49
    .st (v 3) sp 0xc, -- 49
    .st (v 4) sp 0x10, -- 49
    .st (v 5) sp 0x14, -- 49
    .st (v 6) sp 0x18, -- 49
    .st (v 7) sp 0x1c, -- 49
    .st (v 8) sp 0x20, -- 49
    .st lr sp 0x24, -- 49
    .la (v 2) Lab.tls, -- 52
    .mfb (v 1) sjlj (v 2) Lab.tls, -- 56
    .addi sp sp (-off A 0x4), -- 58
    .st (v 1) sp 0x0, -- 58
    .addi sp sp (-off A 0x40)] -- 61
  ++ (if vfp then [
    .fst (d 8) sp 0x0, -- 64
    .fst (d 9) sp 0x8, -- 64
    .fst (d 10) sp 0x10, -- 64
    .fst (d 11) sp 0x18, -- 64
    .fst (d 12) sp 0x20, -- 64
    .fst (d 13) sp 0x28, -- 64
    .fst (d 14) sp 0x30, -- 64
    .fst (d 15) sp 0x38] -- 64
    else [])
  ++ [
    .mov (a 1) sp, -- 68
    .mov sp (a 2)] -- 71
  ++ (if vfp then [
    .fld (d 8) sp 0x0, -- 75
    .fld (d 9) sp 0x8, -- 75
    .fld (d 10) sp 0x10, -- 75
    .fld (d 11) sp 0x18, -- 75
    .fld (d 12) sp 0x20, -- 75
    .fld (d 13) sp 0x28, -- 75
    .fld (d 14) sp 0x30, -- 75
    .fld (d 15) sp 0x38] -- 75
    else [])
  ++ [
    .addi sp sp (off A 0x40), -- 78
    .ld (v 1) sp 0x0, -- 81
    .addi sp sp (off A 0x4), -- 81
    .mtb sjlj (v 1) (v 2) Lab.tls, -- 83
    .ld (a 4) sp 0x0, -- 86
    .ld (v 1) sp 0x4, -- 86
    .ld (v 2) sp 0x8, -- 86
    .ld (v 3) sp 0xc, -- 86
    .ld (v 4) sp 0x10, -- 86
    .ld (v 5) sp 0x14, -- 86
    .ld (v 6) sp 0x18, -- 86
    .ld (v 7) sp 0x1c, -- 86
    .ld (v 8) sp 0x20, -- 86
    .ld lr sp 0x24, -- 86
    .addi sp sp (off A 0x28), -- 86
    .st (a 1) (a 4) 0x0, -- 89
    .st (a 3) (a 4) 0x4, -- 90
    .mov (a 2) (a 3), -- 93
    .ld pc sp 0x0, -- 96
    .addi sp sp (off A 0x4)] -- 96

def jump (vfp : Bool) : Code A := .jmp (jumpIs vfp) pc

/-- ontop_arm_aapcs_macho_gas.S lines 45-101 -/
def ontopIs (vfp : Bool) : List (Instr A) :=
  [
    .addi sp sp (-off A 0x4), -- 47
    .st lr sp 0x0, -- 47
    .addi sp sp (-off A 0x28), -- 49
    .st (a 1) sp 0x0, -- 49
    .st (v 1) sp 0x4, -- 49
    .st (v 2) sp 0x8, -- 49
    .st (v 3) sp 0xc, -- 49
    .st (v 4) sp 0x10, -- 49
    .st (v 5) sp 0x14, -- 49
    .st (v 6) sp 0x18, -- 49
    .st (v 7) sp 0x1c, -- 49
    .st (v 8) sp 0x20, -- 49
    .st lr sp 0x24, -- 49
    .la (v 2) Lab.tls, -- 52
    .mfb (v 1) sjlj (v 2) Lab.tls, -- 56
    .addi sp sp (-off A 0x4), -- 58
    .st (v 1) sp 0x0, -- 58
    .addi sp sp (-off A 0x40)] -- 61
  ++ (if vfp then [
    .fst (d 8) sp 0x0, -- 64
    .fst (d 9) sp 0x8, -- 64
    .fst (d 10) sp 0x10, -- 64
    .fst (d 11) sp 0x18, -- 64
    .fst (d 12) sp 0x20, -- 64
    .fst (d 13) sp 0x28, -- 64
    .fst (d 14) sp 0x30, -- 64
    .fst (d 15) sp 0x38] -- 64
    else [])
  ++ [
    .mov (a 1) sp, -- 68
    .mov sp (a 2)] -- 71
  ++ (if vfp then [
    .fld (d 8) sp 0x0, -- 75
    .fld (d 9) sp 0x8, -- 75
    .fld (d 10) sp 0x10, -- 75
    .fld (d 11) sp 0x18, -- 75
    .fld (d 12) sp 0x20, -- 75
    .fld (d 13) sp 0x28, -- 75
    .fld (d 14) sp 0x30, -- 75
    .fld (d 15) sp 0x38] -- 75
    else [])
  ++ [
    .addi sp sp (off A 0x40), -- 78
    .ld (v 1) sp 0x0, -- 81
    .addi sp sp (off A 0x4), -- 81
    .mtb sjlj (v 1) (v 2) Lab.tls, -- 83
    .mov (a 2) (a 1), -- 86
    .ld (a 1) sp 0x0, -- 89
    .ld (v 1) sp 0x4, -- 89
    .ld (v 2) sp 0x8, -- 89
    .ld (v 3) sp 0xc, -- 89
    .ld (v 4) sp 0x10, -- 89
    .ld (v 5) sp 0x14, -- 89
    .ld (v 6) sp 0x18, -- 89
    .ld (v 7) sp 0x1c, -- 89
    .ld (v 8) sp 0x20, -- 89
    .ld lr sp 0x24, -- 89
    .addi sp sp (off A 0x28), -- 89
    .st (a 2) (a 1) 0x0, -- 92
    .st (a 3) (a 1) 0x4, -- 93
    .addi sp sp (off A 0x4)] -- 98

def ontop (vfp : Bool) : Code A := .jmp (ontopIs vfp) (a 4)

/-- make_arm_aapcs_macho_gas.S lines 45-66 -/
def makeIs (vfp : Bool) : List (Instr A) :=
  [
    .andi (a 1) (a 1) (mask A 4), -- 47
    .addi (a 1) (a 1) (-off A 0x7c), -- 50
    .st (a 3) (a 1) 0x6c, -- 53
    .addi (a 2) (a 1) (off A 0x70), -- 56
    .mov (a 3) (a 2), -- 57
    .st (a 3) (a 1) 0x44, -- 58
    .la (a 2) Lab.finish, -- 61
    .st (a 2) (a 1) 0x68] -- 64

def make (vfp : Bool) : Code A := .jmp (makeIs vfp) lr

end Verif.Asm.ArmMacho
