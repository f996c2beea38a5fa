import Verif.Asm.Lemmas

/-!
# PowerPC 64 SysV, Mach-O: transcription of `/repo/src/asm/{jump,ontop,make}_ppc64_sysv_macho_gas.S`

Generated by `tools/asm2lean.py Ppc64Macho` from the text of these files; the number behind each instruction is its source line.
-/

namespace Verif.Asm.Ppc64Macho

/-- `r n`: general registers (r1 is the stack pointer); link, count and condition register -/
inductive R | r (n : Nat) | lr | ctr | cr deriving DecidableEq
/-- `f n`: floating point registers, `fpscr`: floating point status and control register (32 bit; `mffs` and `mtfsf` move it to and from the low half of a floating
point register; modelled with 64 bits, so that these instructions are moves); `lo5`: the low half of r5, as stored by `stw` (the machine is big-endian, so the word stored at 176 becomes the upper half of the
double word at 176; words are modelled with the least significant byte first, so that it is stored at 180) -/
inductive F | f (n : Nat) | fpscr | lo5 deriving DecidableEq
/-- `l1`: the label `1` of `make_fcontext` -/
inductive Lab | finish | l1 deriving DecidableEq

def A : Arch := { k := 8, R := R, F := F, Lab := Lab, fb := fun | .lo5 => 4 | _ => 8 }

abbrev r (n : Nat) : A.R := R.r n
abbrev lr : A.R := R.lr
abbrev ctr : A.R := R.ctr
abbrev cr : A.R := R.cr
abbrev f (n : Nat) : A.F := F.f n
abbrev fpscr : A.F := F.fpscr
abbrev lo5 : A.F := F.lo5

/-- jump_ppc64_sysv_macho_gas.S lines 74-150 -/
def jumpPreIs : List (Instr A) :=
  [
    .addi (r 1) (r 1) (-off A 0xb8), -- 76
    .st (r 14) (r 1) 0x8, -- 78
    .st (r 15) (r 1) 0x10, -- 79
    .st (r 16) (r 1) 0x18, -- 80
    .st (r 17) (r 1) 0x20, -- 81
    .st (r 18) (r 1) 0x28, -- 82
    .st (r 19) (r 1) 0x30, -- 83
    .st (r 20) (r 1) 0x38, -- 84
    .st (r 21) (r 1) 0x40, -- 85
    .st (r 22) (r 1) 0x48, -- 86
    .st (r 23) (r 1) 0x50, -- 87
    .st (r 24) (r 1) 0x58, -- 88
    .st (r 25) (r 1) 0x60, -- 89
    .st (r 26) (r 1) 0x68, -- 90
    .st (r 27) (r 1) 0x70, -- 91
    .st (r 28) (r 1) 0x78, -- 92
    .st (r 29) (r 1) 0x80, -- 93
    .st (r 30) (r 1) 0x88, -- 94
    .st (r 31) (r 1) 0x90, -- 95
    .st (r 3) (r 1) 0x98, -- 96
    .mov (r 0) cr, -- 99
    .st (r 0) (r 1) 0xa0, -- 100
    .mov (r 0) lr, -- 102
    .st (r 0) (r 1) 0xa8, -- 103
    .st (r 0) (r 1) 0xb0, -- 105
    .mov (r 6) (r 1), -- 108
    .mov (r 1) (r 4), -- 111
    .ld (r 14) (r 1) 0x8, -- 113
    .ld (r 15) (r 1) 0x10, -- 114
    .ld (r 16) (r 1) 0x18, -- 115
    .ld (r 17) (r 1) 0x20, -- 116
    .ld (r 18) (r 1) 0x28, -- 117
    .ld (r 19) (r 1) 0x30, -- 118
    .ld (r 20) (r 1) 0x38, -- 119
    .ld (r 21) (r 1) 0x40, -- 120
    .ld (r 22) (r 1) 0x48, -- 121
    .ld (r 23) (r 1) 0x50, -- 122
    .ld (r 24) (r 1) 0x58, -- 123
    .ld (r 25) (r 1) 0x60, -- 124
    .ld (r 26) (r 1) 0x68, -- 125
    .ld (r 27) (r 1) 0x70, -- 126
    .ld (r 28) (r 1) 0x78, -- 127
    .ld (r 29) (r 1) 0x80, -- 128
    .ld (r 30) (r 1) 0x88, -- 129
    .ld (r 31) (r 1) 0x90, -- 130
    .ld (r 3) (r 1) 0x98, -- 131
    .ld (r 0) (r 1) 0xa0, -- 134
    .mov cr (r 0), -- 135
    .ld (r 0) (r 1) 0xa8, -- 137
    .mov lr (r 0), -- 138
    .ld (r 12) (r 1) 0xb0, -- 141
    .mov ctr (r 12), -- 143
    .addi (r 1) (r 1) (off A 0xb8)] -- 146

/-- jump_ppc64_sysv_macho_gas.S lines 150-157 -/
def jumpNzIs : List (Instr A) :=
  [
    .st (r 6) (r 3) 0x0, -- 153
    .st (r 5) (r 3) 0x8] -- 154

/-- jump_ppc64_sysv_macho_gas.S lines 159-165 -/
def jumpZIs : List (Instr A) :=
  [
    .mov (r 3) (r 6), -- 161
    .mov (r 4) (r 5)] -- 162

/-- ontop_ppc64_sysv_macho_gas.S lines 74-152 -/
def ontopIs : List (Instr A) :=
  [
    .addi (r 1) (r 1) (-off A 0xb8), -- 76
    .st (r 14) (r 1) 0x8, -- 78
    .st (r 15) (r 1) 0x10, -- 79
    .st (r 16) (r 1) 0x18, -- 80
    .st (r 17) (r 1) 0x20, -- 81
    .st (r 18) (r 1) 0x28, -- 82
    .st (r 19) (r 1) 0x30, -- 83
    .st (r 20) (r 1) 0x38, -- 84
    .st (r 21) (r 1) 0x40, -- 85
    .st (r 22) (r 1) 0x48, -- 86
    .st (r 23) (r 1) 0x50, -- 87
    .st (r 24) (r 1) 0x58, -- 88
    .st (r 25) (r 1) 0x60, -- 89
    .st (r 26) (r 1) 0x68, -- 90
    .st (r 27) (r 1) 0x70, -- 91
    .st (r 28) (r 1) 0x78, -- 92
    .st (r 29) (r 1) 0x80, -- 93
    .st (r 30) (r 1) 0x88, -- 94
    .st (r 31) (r 1) 0x90, -- 95
    .st (r 3) (r 1) 0x98, -- 96
    .mov (r 0) cr, -- 99
    .st (r 0) (r 1) 0xa0, -- 100
    .mov (r 0) lr, -- 102
    .st (r 0) (r 1) 0xa8, -- 103
    .st (r 0) (r 1) 0xb0, -- 105
    .mov (r 7) (r 1), -- 108
    .mov (r 1) (r 4), -- 111
    .ld (r 14) (r 1) 0x8, -- 113
    .ld (r 15) (r 1) 0x10, -- 114
    .ld (r 16) (r 1) 0x18, -- 115
    .ld (r 17) (r 1) 0x20, -- 116
    .ld (r 18) (r 1) 0x28, -- 117
    .ld (r 19) (r 1) 0x30, -- 118
    .ld (r 20) (r 1) 0x38, -- 119
    .ld (r 21) (r 1) 0x40, -- 120
    .ld (r 22) (r 1) 0x48, -- 121
    .ld (r 23) (r 1) 0x50, -- 122
    .ld (r 24) (r 1) 0x58, -- 123
    .ld (r 25) (r 1) 0x60, -- 124
    .ld (r 26) (r 1) 0x68, -- 125
    .ld (r 27) (r 1) 0x70, -- 126
    .ld (r 28) (r 1) 0x78, -- 127
    .ld (r 29) (r 1) 0x80, -- 128
    .ld (r 30) (r 1) 0x88, -- 129
    .ld (r 31) (r 1) 0x90, -- 130
    .ld (r 4) (r 1) 0x98, -- 131
    .ld (r 0) (r 1) 0xa0, -- 134
    .mov cr (r 0), -- 135
    .ld (r 0) (r 1) 0xa8, -- 137
    .mov lr (r 0), -- 138
    .addi (r 1) (r 1) (off A 0xb8), -- 142
    .st (r 7) (r 4) 0x0, -- 145
    .st (r 5) (r 4) 0x8, -- 146
    .mov ctr (r 6)] -- 149

def ontop : Code A := .jmp ontopIs ctr

/-- make_ppc64_sysv_macho_gas.S lines 72-114 -/
def makeIs : List (Instr A) :=
  [
    .mov (r 6) lr, -- 74
    .andi (r 3) (r 3) (BitVec.ofNat _ 0xfffffff0), -- 78
    .addi (r 3) (r 3) (-off A 0xf0), -- 82
    .mts lo5 (r 5), -- 85
    .fst lo5 (r 3) 0xb4, -- 85
    .movi (r 0) (off A 0), -- 88
    .st (r 0) (r 3) 0xb8, -- 89
    .addi (r 0) (r 3) (off A 0xe0), -- 92
    .mov (r 4) (r 0), -- 93
    .st (r 4) (r 3) 0x98, -- 94
    .mov (r 0) lr, -- 97
    .la lr Lab.l1, -- 99
    .mov (r 4) lr, -- 102
    .addl (r 4) Lab.finish Lab.l1, -- 104
    .mov lr (r 0), -- 106
    .st (r 4) (r 3) 0xa8, -- 109
    .mov lr (r 6)] -- 112

def make : Code A := .jmp makeIs lr

/-- jump_ppc64_sysv_macho_gas.S: after `jumpPreIs` a null result address (a new context) makes control go to `use_entry_arg` (`jumpZIs`) -/
def jump : Code A := .brz jumpPreIs (r 3) (.jmp jumpZIs ctr) (.jmp jumpNzIs ctr)


end Verif.Asm.Ppc64Macho
