import Verif.Asm.Lemmas

/-!
# ARM (32 bit) Windows, PE (armasm): transcription of `/repo/src/asm/{jump,ontop,make}_arm_aapcs_pe_armasm.asm`

Generated by `tools/asm2lean.py ArmPe` from the text of these files; the number behind each instruction is its source line.
-/

namespace Verif.Asm.ArmPe

/-- `a n` = r(n-1) (n = 1..4), `v n` = r(n+3) (n = 1..8), `lr`, `sp`; `pc` is the target of `pop {pc}`.  `jump_fcontext` uses a register `a5`, which does not exist in
the procedure call standard (armasm knows a1-a4); here it is a scratch register different from all others. -/
inductive R | a (n : Nat) | v (n : Nat) | lr | sp | pc deriving DecidableEq
/-- `d n`: double precision registers; the fields of the thread information block that describe the stack of the running context (`base` at 4, `limit` at 8,
deallocation stack at 0xe0c) -/
inductive F | d (n : Nat) | tibBase | tibLimit | tibDealloc deriving DecidableEq
/-- `tib`: the thread information block, whose address is read by `mrc`; accesses relative to `v1` are accesses to its fields (`mfb`, `mtb`) -/
inductive Lab | finish | tib deriving DecidableEq

def A : Arch := { k := 4, R := R, F := F, Lab := Lab, fb := fun | .d _ => 8 | _ => 4 }

abbrev a (n : Nat) : A.R := R.a n
abbrev v (n : Nat) : A.R := R.v n
abbrev sp : A.R := R.sp
abbrev lr : A.R := R.lr
abbrev pc : A.R := R.pc
abbrev d (n : Nat) : A.F := F.d n
abbrev tibBase : A.F := F.tibBase
abbrev tibLimit : A.F := F.tibLimit
abbrev tibDealloc : A.F := F.tibDealloc

/-- jump_arm_aapcs_pe_armasm.asm lines 31-78 -/
def jumpIs : List (Instr A) :=
  [
    .addi sp sp (-off A 0x4), -- 33
    .st lr sp 0x0, -- 33
    .addi sp sp (-off A 0x28), -- 35
    .st (a 1) sp 0x0, -- 35
    .st (v 1) sp 0x4, -- 35
    .st (v 2) sp 0x8, -- 35
    .st (v 3) sp 0xc, -- 35
    .st (v 4) sp 0x10, -- 35
    .st (v 5) sp 0x14, -- 35
    .st (v 6) sp 0x18, -- 35
    .st (v 7) sp 0x1c, -- 35
    .st (v 8) sp 0x20, -- 35
    .st lr sp 0x24, -- 35
    .la (v 1) Lab.tib, -- 39
    .mfb (a 5) tibBase (v 1) Lab.tib, -- 42
    .addi sp sp (-off A 0x4), -- 43
    .st (a 5) sp 0x0, -- 43
    .mfb (a 5) tibLimit (v 1) Lab.tib, -- 45
    .addi sp sp (-off A 0x4), -- 46
    .st (a 5) sp 0x0, -- 46
    .mfb (a 5) tibDealloc (v 1) Lab.tib, -- 48
    .addi sp sp (-off A 0x4), -- 49
    .st (a 5) sp 0x0, -- 49
    .mov (a 1) sp, -- 52
    .mov sp (a 2), -- 55
    .ld (a 5) sp 0x0, -- 58
    .addi sp sp (off A 0x4), -- 58
    .mtb tibDealloc (a 5) (v 1) Lab.tib, -- 59
    .ld (a 5) sp 0x0, -- 61
    .addi sp sp (off A 0x4), -- 61
    .mtb tibLimit (a 5) (v 1) Lab.tib, -- 62
    .ld (a 5) sp 0x0, -- 64
    .addi sp sp (off A 0x4), -- 64
    .mtb tibBase (a 5) (v 1) Lab.tib, -- 65
    .ld (a 4) sp 0x0, -- 68
    .ld (v 1) sp 0x4, -- 68
    .ld (v 2) sp 0x8, -- 68
    .ld (v 3) sp 0xc, -- 68
    .ld (v 4) sp 0x10, -- 68
    .ld (v 5) sp 0x14, -- 68
    .ld (v 6) sp 0x18, -- 68
    .ld (v 7) sp 0x1c, -- 68
    .ld (v 8) sp 0x20, -- 68
    .ld lr sp 0x24, -- 68
    .addi sp sp (off A 0x28), -- 68
    .st (a 1) (a 4) 0x0, -- 71
    .st (a 3) (a 4) 0x4, -- 72
    .mov (a 2) (a 3), -- 75
    .ld pc sp 0x0, -- 78
    .addi sp sp (off A 0x4)] -- 78

def jump : Code A := .jmp jumpIs pc

/-- ontop_arm_aapcs_pe_armasm.asm lines 31-83 -/
def ontopIs : List (Instr A) :=
  [
    .addi sp sp (-off A 0x4), -- 33
    .st lr sp 0x0, -- 33
    .addi sp sp (-off A 0x28), -- 35
    .st (a 1) sp 0x0, -- 35
    .st (v 1) sp 0x4, -- 35
    .st (v 2) sp 0x8, -- 35
    .st (v 3) sp 0xc, -- 35
    .st (v 4) sp 0x10, -- 35
    .st (v 5) sp 0x14, -- 35
    .st (v 6) sp 0x18, -- 35
    .st (v 7) sp 0x1c, -- 35
    .st (v 8) sp 0x20, -- 35
    .st lr sp 0x24, -- 35
    .la (v 1) Lab.tib, -- 39
    .mfb (a 1) tibBase (v 1) Lab.tib, -- 42
    .addi sp sp (-off A 0x4), -- 43
    .st (a 1) sp 0x0, -- 43
    .mfb (a 1) tibLimit (v 1) Lab.tib, -- 45
    .addi sp sp (-off A 0x4), -- 46
    .st (a 1) sp 0x0, -- 46
    .mfb (a 1) tibDealloc (v 1) Lab.tib, -- 48
    .addi sp sp (-off A 0x4), -- 49
    .st (a 1) sp 0x0, -- 49
    .mov (a 1) sp, -- 52
    .mov sp (a 2), -- 55
    .ld (a 1) sp 0x0, -- 58
    .addi sp sp (off A 0x4), -- 58
    .mtb tibBase (a 1) (v 1) Lab.tib, -- 59
    .ld (a 1) sp 0x0, -- 61
    .addi sp sp (off A 0x4), -- 61
    .mtb tibLimit (a 1) (v 1) Lab.tib, -- 62
    .ld (a 1) sp 0x0, -- 64
    .addi sp sp (off A 0x4), -- 64
    .mtb tibDealloc (a 1) (v 1) Lab.tib, -- 65
    .mov (a 2) (a 1), -- 68
    .ld (a 1) sp 0x0, -- 71
    .ld (v 1) sp 0x4, -- 71
    .ld (v 2) sp 0x8, -- 71
    .ld (v 3) sp 0xc, -- 71
    .ld (v 4) sp 0x10, -- 71
    .ld (v 5) sp 0x14, -- 71
    .ld (v 6) sp 0x18, -- 71
    .ld (v 7) sp 0x1c, -- 71
    .ld (v 8) sp 0x20, -- 71
    .ld lr sp 0x24, -- 71
    .addi sp sp (off A 0x28), -- 71
    .st (a 2) (a 1) 0x0, -- 74
    .st (a 3) (a 1) 0x4, -- 75
    .addi sp sp (off A 0x4)] -- 80

def ontop : Code A := .jmp ontopIs (a 4)

/-- make_arm_aapcs_pe_armasm.asm lines 33-68 -/
def makeIs : List (Instr A) :=
  [
    .mov (a 4) (a 1), -- 36
    .andi (a 1) (a 1) (mask A 4), -- 39
    .addi (a 1) (a 1) (-off A 0x48), -- 42
    .st (a 4) (a 1) 0x8, -- 45
    .sub (a 4) (a 4) (a 2), -- 48
    .st (a 4) (a 1) 0x4, -- 50
    .st (a 4) (a 1) 0x0, -- 52
    .st (a 3) (a 1) 0x34, -- 55
    .addi (a 2) (a 1) (off A 0x38), -- 58
    .mov (a 3) (a 2), -- 59
    .st (a 3) (a 1) 0xc, -- 60
    .la (a 2) Lab.finish, -- 63
    .st (a 2) (a 1) 0x30] -- 66

def make : Code A := .jmp makeIs lr

end Verif.Asm.ArmPe
