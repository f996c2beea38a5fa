import Verif.Asm.Lemmas

/-!
# ARM64 Windows, PE (armclang); `blr` in the stub is followed by the label `finish`: transcription of `/repo/src/asm/{jump,ontop,make}_arm64_aapcs_pe_armclang.S`

Generated by `tools/asm2lean.py Arm64Pe` from the text of these files; the number behind each instruction is its source line.
-/

namespace Verif.Asm.Arm64Pe

/-- `x n` = Xn (n ≤ 30, X30 = LR), `sp` -/
inductive R | x (n : Nat) | sp deriving DecidableEq
/-- `d n`: low 64 bits of Vn; the fields of the thread environment block, to which X18 always points, that describe the stack of the running context (`base` at 8,
`limit` at 0x10, fiber data at 0x20, deallocation stack at 0x1478) -/
inductive F | d (n : Nat) | tibBase | tibLimit | tibFiber | tibDealloc deriving DecidableEq
inductive Lab | trampoline | finish deriving DecidableEq

def A : Arch := { k := 8, R := R, F := F, Lab := Lab, fb := fun _ => 8 }

abbrev x (n : Nat) : A.R := R.x n
abbrev sp : A.R := R.sp
abbrev d (n : Nat) : A.F := F.d n
abbrev tibBase : A.F := F.tibBase
abbrev tibLimit : A.F := F.tibLimit
abbrev tibFiber : A.F := F.tibFiber
abbrev tibDealloc : A.F := F.tibDealloc

/-- jump_arm64_aapcs_pe_armclang.S lines 68-137 -/
def jumpIs : List (Instr A) :=
  [
    .addi sp sp (-off A 0xd0), -- 71
    .fst (d 8) sp 0x0, -- 74
    .fst (d 9) sp 0x8, -- 74
    .fst (d 10) sp 0x10, -- 75
    .fst (d 11) sp 0x18, -- 75
    .fst (d 12) sp 0x20, -- 76
    .fst (d 13) sp 0x28, -- 76
    .fst (d 14) sp 0x30, -- 77
    .fst (d 15) sp 0x38, -- 77
    .st (x 19) sp 0x40, -- 80
    .st (x 20) sp 0x48, -- 80
    .st (x 21) sp 0x50, -- 81
    .st (x 22) sp 0x58, -- 81
    .st (x 23) sp 0x60, -- 82
    .st (x 24) sp 0x68, -- 82
    .st (x 25) sp 0x70, -- 83
    .st (x 26) sp 0x78, -- 83
    .st (x 27) sp 0x80, -- 84
    .st (x 28) sp 0x88, -- 84
    .st (x 29) sp 0x90, -- 85
    .st (x 30) sp 0x98, -- 85
    .st (x 30) sp 0xc0, -- 88
    .mfs (x 5) tibBase, -- 91
    .mfs (x 6) tibLimit, -- 91
    .st (x 5) sp 0xa0, -- 92
    .st (x 6) sp 0xa8, -- 92
    .mfs (x 5) tibDealloc, -- 94
    .mfs (x 6) tibFiber, -- 95
    .st (x 5) sp 0xb0, -- 96
    .st (x 6) sp 0xb8, -- 96
    .mov (x 4) sp, -- 99
    .mov sp (x 0), -- 102
    .ld (x 5) sp 0xa0, -- 105
    .ld (x 6) sp 0xa8, -- 105
    .mts tibBase (x 5), -- 106
    .mts tibLimit (x 6), -- 106
    .ld (x 5) sp 0xb0, -- 108
    .ld (x 6) sp 0xb8, -- 108
    .mts tibDealloc (x 5), -- 109
    .mts tibFiber (x 6), -- 110
    .fld (d 8) sp 0x0, -- 113
    .fld (d 9) sp 0x8, -- 113
    .fld (d 10) sp 0x10, -- 114
    .fld (d 11) sp 0x18, -- 114
    .fld (d 12) sp 0x20, -- 115
    .fld (d 13) sp 0x28, -- 115
    .fld (d 14) sp 0x30, -- 116
    .fld (d 15) sp 0x38, -- 116
    .ld (x 19) sp 0x40, -- 119
    .ld (x 20) sp 0x48, -- 119
    .ld (x 21) sp 0x50, -- 120
    .ld (x 22) sp 0x58, -- 120
    .ld (x 23) sp 0x60, -- 121
    .ld (x 24) sp 0x68, -- 121
    .ld (x 25) sp 0x70, -- 122
    .ld (x 26) sp 0x78, -- 122
    .ld (x 27) sp 0x80, -- 123
    .ld (x 28) sp 0x88, -- 123
    .ld (x 29) sp 0x90, -- 124
    .ld (x 30) sp 0x98, -- 124
    .mov (x 0) (x 4), -- 129
    .ld (x 4) sp 0xc0, -- 132
    .addi sp sp (off A 0xd0)] -- 135

def jump : Code A := .jmp jumpIs (x 4)

/-- ontop_arm64_aapcs_pe_armclang.S lines 68-136 -/
def ontopIs : List (Instr A) :=
  [
    .addi sp sp (-off A 0xd0), -- 71
    .fst (d 8) sp 0x0, -- 74
    .fst (d 9) sp 0x8, -- 74
    .fst (d 10) sp 0x10, -- 75
    .fst (d 11) sp 0x18, -- 75
    .fst (d 12) sp 0x20, -- 76
    .fst (d 13) sp 0x28, -- 76
    .fst (d 14) sp 0x30, -- 77
    .fst (d 15) sp 0x38, -- 77
    .st (x 19) sp 0x40, -- 80
    .st (x 20) sp 0x48, -- 80
    .st (x 21) sp 0x50, -- 81
    .st (x 22) sp 0x58, -- 81
    .st (x 23) sp 0x60, -- 82
    .st (x 24) sp 0x68, -- 82
    .st (x 25) sp 0x70, -- 83
    .st (x 26) sp 0x78, -- 83
    .st (x 27) sp 0x80, -- 84
    .st (x 28) sp 0x88, -- 84
    .st (x 29) sp 0x90, -- 85
    .st (x 30) sp 0x98, -- 85
    .st (x 30) sp 0xc0, -- 88
    .mfs (x 5) tibBase, -- 91
    .mfs (x 6) tibLimit, -- 91
    .st (x 5) sp 0xa0, -- 92
    .st (x 6) sp 0xa8, -- 92
    .mfs (x 5) tibDealloc, -- 94
    .mfs (x 6) tibFiber, -- 95
    .st (x 5) sp 0xb0, -- 96
    .st (x 6) sp 0xb8, -- 96
    .mov (x 4) sp, -- 99
    .mov sp (x 0), -- 102
    .ld (x 5) sp 0xa0, -- 105
    .ld (x 6) sp 0xa8, -- 105
    .mts tibBase (x 5), -- 106
    .mts tibLimit (x 6), -- 106
    .ld (x 5) sp 0xb0, -- 108
    .ld (x 6) sp 0xb8, -- 108
    .mts tibDealloc (x 5), -- 109
    .mts tibFiber (x 6), -- 110
    .fld (d 8) sp 0x0, -- 113
    .fld (d 9) sp 0x8, -- 113
    .fld (d 10) sp 0x10, -- 114
    .fld (d 11) sp 0x18, -- 114
    .fld (d 12) sp 0x20, -- 115
    .fld (d 13) sp 0x28, -- 115
    .fld (d 14) sp 0x30, -- 116
    .fld (d 15) sp 0x38, -- 116
    .ld (x 19) sp 0x40, -- 119
    .ld (x 20) sp 0x48, -- 119
    .ld (x 21) sp 0x50, -- 120
    .ld (x 22) sp 0x58, -- 120
    .ld (x 23) sp 0x60, -- 121
    .ld (x 24) sp 0x68, -- 121
    .ld (x 25) sp 0x70, -- 122
    .ld (x 26) sp 0x78, -- 122
    .ld (x 27) sp 0x80, -- 123
    .ld (x 28) sp 0x88, -- 123
    .ld (x 29) sp 0x90, -- 124
    .ld (x 30) sp 0x98, -- 124
    .mov (x 0) (x 4), -- 129
    .addi sp sp (off A 0xc0)] -- 133

def ontop : Code A := .jmp ontopIs (x 2)

/-- make_arm64_aapcs_pe_armclang.S lines 69-100 -/
def makeIs : List (Instr A) :=
  [
    .mov (x 3) (x 0), -- 72
    .andi (x 0) (x 0) (mask A 4), -- 75
    .addi (x 0) (x 0) (-off A 0xd0), -- 78
    .st (x 3) (x 0) 0xa0, -- 81
    .sub (x 3) (x 3) (x 1), -- 83
    .st (x 3) (x 0) 0xa8, -- 84
    .st (x 3) (x 0) 0xb0, -- 84
    .sti (off A 0x0) (x 0) 0xb8, -- 86
    .st (x 2) (x 0) 0x40, -- 90
    .la (x 2) Lab.trampoline, -- 92
    .st (x 2) (x 0) 0xc0, -- 93
    .la (x 1) Lab.finish, -- 97
    .st (x 1) (x 0) 0x98] -- 98

def make : Code A := .jmp makeIs (x 30)

/-- make_arm64_aapcs_pe_armclang.S lines 102-105 -/
def trampIs : List (Instr A) :=
  [
    .addi sp sp (-off A 0x10), -- 103
    .st (x 29) sp 0x0, -- 103
    .st (x 30) sp 0x8, -- 103
    .mov (x 29) sp, -- 104
    .la (x 30) Lab.finish] -- 105

def tramp : Code A := .jmp trampIs (x 19)

end Verif.Asm.Arm64Pe
