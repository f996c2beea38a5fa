import Verif.Asm.Lemmas

/-!
# PowerPC 32 SysV, ELF, other than Linux: transcription of `/repo/src/asm/{jump,ontop,make}_ppc32_sysv_elf_gas.S`

Generated by `tools/asm2lean.py Ppc32b` from the text of these files; the number behind each instruction is its source line.
-/

namespace Verif.Asm.Ppc32b

/-- `r n`: general registers (r1 is the stack pointer); link, count and condition register; `tmp`: the old value of r1 in `stwu`; `npc`: target of `b ontop_fcontext_tail` -/
inductive R | r (n : Nat) | lr | ctr | cr | tmp | npc deriving DecidableEq
/-- `f n`: floating point registers, `fpscr`: floating point status and control register (32 bit; `mffs` and `mtfsf` move it to and from the low half of a floating
point register; modelled with 64 bits, so that these instructions are moves) -/
inductive F | f (n : Nat) | fpscr deriving DecidableEq
/-- `tail`: `ontop_fcontext_tail` of `src/asm/tail_ontop_ppc32_sysv.cpp`; `l1`: the label `1` of `make_fcontext` -/
inductive Lab | finish | trampoline | tail | l1 deriving DecidableEq

def A : Arch := { k := 4, R := R, F := F, Lab := Lab, fb := fun _ => 8 }

abbrev r (n : Nat) : A.R := R.r n
abbrev lr : A.R := R.lr
abbrev ctr : A.R := R.ctr
abbrev cr : A.R := R.cr
abbrev tmp : A.R := R.tmp
abbrev npc : A.R := R.npc
abbrev f (n : Nat) : A.F := F.f n
abbrev fpscr : A.F := F.fpscr

/-- jump_ppc32_sysv_elf_gas.S lines 59-198 -/
def jumpIs : List (Instr A) :=
  [
    .mov (r 0) lr, -- 63
    .fmov (f 0) fpscr, -- 64
    .mov (r 8) cr, -- 65
    .mov tmp (r 1), -- 67
    .addi (r 1) (r 1) (-off A 0xf0), -- 67
    .st tmp (r 1) 0x0, -- 67
    .st (r 0) (r 1) 0xf4, -- 68
    .fst (f 0) (r 1) 0x8, -- 74
    .st (r 0) (r 1) 0x10, -- 75
    .st (r 8) (r 1) 0x14, -- 76
    .st (r 14) (r 1) 0x18, -- 81
    .st (r 15) (r 1) 0x1c, -- 82
    .st (r 16) (r 1) 0x20, -- 83
    .st (r 17) (r 1) 0x24, -- 84
    .st (r 18) (r 1) 0x28, -- 85
    .st (r 19) (r 1) 0x2c, -- 86
    .st (r 20) (r 1) 0x30, -- 87
    .st (r 21) (r 1) 0x34, -- 88
    .st (r 22) (r 1) 0x38, -- 89
    .st (r 23) (r 1) 0x3c, -- 90
    .st (r 24) (r 1) 0x40, -- 91
    .st (r 25) (r 1) 0x44, -- 92
    .st (r 26) (r 1) 0x48, -- 93
    .st (r 27) (r 1) 0x4c, -- 94
    .st (r 28) (r 1) 0x50, -- 95
    .st (r 29) (r 1) 0x54, -- 96
    .st (r 30) (r 1) 0x58, -- 97
    .st (r 31) (r 1) 0x5c, -- 98
    .fst (f 14) (r 1) 0x60, -- 103
    .fst (f 15) (r 1) 0x68, -- 104
    .fst (f 16) (r 1) 0x70, -- 105
    .fst (f 17) (r 1) 0x78, -- 106
    .fst (f 18) (r 1) 0x80, -- 107
    .fst (f 19) (r 1) 0x88, -- 108
    .fst (f 20) (r 1) 0x90, -- 109
    .fst (f 21) (r 1) 0x98, -- 110
    .fst (f 22) (r 1) 0xa0, -- 111
    .fst (f 23) (r 1) 0xa8, -- 112
    .fst (f 24) (r 1) 0xb0, -- 113
    .fst (f 25) (r 1) 0xb8, -- 114
    .fst (f 26) (r 1) 0xc0, -- 115
    .fst (f 27) (r 1) 0xc8, -- 116
    .fst (f 28) (r 1) 0xd0, -- 117
    .fst (f 29) (r 1) 0xd8, -- 118
    .fst (f 30) (r 1) 0xe0, -- 119
    .fst (f 31) (r 1) 0xe8, -- 120
    .mov (r 6) (r 1), -- 129
    .mov (r 1) (r 3), -- 130
    .fld (f 0) (r 1) 0x8, -- 133
    .ld (r 0) (r 1) 0x10, -- 134
    .ld (r 8) (r 1) 0x14, -- 135
    .fmov fpscr (f 0), -- 137
    .mov ctr (r 0), -- 138
    .mov cr (r 8), -- 139
    .ld (r 14) (r 1) 0x18, -- 142
    .ld (r 15) (r 1) 0x1c, -- 143
    .ld (r 16) (r 1) 0x20, -- 144
    .ld (r 17) (r 1) 0x24, -- 145
    .ld (r 18) (r 1) 0x28, -- 146
    .ld (r 19) (r 1) 0x2c, -- 147
    .ld (r 20) (r 1) 0x30, -- 148
    .ld (r 21) (r 1) 0x34, -- 149
    .ld (r 22) (r 1) 0x38, -- 150
    .ld (r 23) (r 1) 0x3c, -- 151
    .ld (r 24) (r 1) 0x40, -- 152
    .ld (r 25) (r 1) 0x44, -- 153
    .ld (r 26) (r 1) 0x48, -- 154
    .ld (r 27) (r 1) 0x4c, -- 155
    .ld (r 28) (r 1) 0x50, -- 156
    .ld (r 29) (r 1) 0x54, -- 157
    .ld (r 30) (r 1) 0x58, -- 158
    .ld (r 31) (r 1) 0x5c, -- 159
    .fld (f 14) (r 1) 0x60, -- 162
    .fld (f 15) (r 1) 0x68, -- 163
    .fld (f 16) (r 1) 0x70, -- 164
    .fld (f 17) (r 1) 0x78, -- 165
    .fld (f 18) (r 1) 0x80, -- 166
    .fld (f 19) (r 1) 0x88, -- 167
    .fld (f 20) (r 1) 0x90, -- 168
    .fld (f 21) (r 1) 0x98, -- 169
    .fld (f 22) (r 1) 0xa0, -- 170
    .fld (f 23) (r 1) 0xa8, -- 171
    .fld (f 24) (r 1) 0xb0, -- 172
    .fld (f 25) (r 1) 0xb8, -- 173
    .fld (f 26) (r 1) 0xc0, -- 174
    .fld (f 27) (r 1) 0xc8, -- 175
    .fld (f 28) (r 1) 0xd0, -- 176
    .fld (f 29) (r 1) 0xd8, -- 177
    .fld (f 30) (r 1) 0xe0, -- 178
    .fld (f 31) (r 1) 0xe8, -- 179
    .ld (r 0) (r 1) 0xf4, -- 182
    .mov lr (r 0), -- 183
    .addi (r 1) (r 1) (off A 0xf0), -- 186
    .mov (r 3) (r 6)] -- 193

def jump : Code A := .jmp jumpIs ctr

/-- ontop_ppc32_sysv_elf_gas.S lines 59-190 -/
def ontopIs : List (Instr A) :=
  [
    .mov (r 0) lr, -- 63
    .fmov (f 0) fpscr, -- 64
    .mov (r 8) cr, -- 65
    .mov tmp (r 1), -- 67
    .addi (r 1) (r 1) (-off A 0xf0), -- 67
    .st tmp (r 1) 0x0, -- 67
    .st (r 0) (r 1) 0xf4, -- 68
    .fst (f 0) (r 1) 0x8, -- 74
    .st (r 0) (r 1) 0x10, -- 75
    .st (r 8) (r 1) 0x14, -- 76
    .st (r 14) (r 1) 0x18, -- 81
    .st (r 15) (r 1) 0x1c, -- 82
    .st (r 16) (r 1) 0x20, -- 83
    .st (r 17) (r 1) 0x24, -- 84
    .st (r 18) (r 1) 0x28, -- 85
    .st (r 19) (r 1) 0x2c, -- 86
    .st (r 20) (r 1) 0x30, -- 87
    .st (r 21) (r 1) 0x34, -- 88
    .st (r 22) (r 1) 0x38, -- 89
    .st (r 23) (r 1) 0x3c, -- 90
    .st (r 24) (r 1) 0x40, -- 91
    .st (r 25) (r 1) 0x44, -- 92
    .st (r 26) (r 1) 0x48, -- 93
    .st (r 27) (r 1) 0x4c, -- 94
    .st (r 28) (r 1) 0x50, -- 95
    .st (r 29) (r 1) 0x54, -- 96
    .st (r 30) (r 1) 0x58, -- 97
    .st (r 31) (r 1) 0x5c, -- 98
    .fst (f 14) (r 1) 0x60, -- 103
    .fst (f 15) (r 1) 0x68, -- 104
    .fst (f 16) (r 1) 0x70, -- 105
    .fst (f 17) (r 1) 0x78, -- 106
    .fst (f 18) (r 1) 0x80, -- 107
    .fst (f 19) (r 1) 0x88, -- 108
    .fst (f 20) (r 1) 0x90, -- 109
    .fst (f 21) (r 1) 0x98, -- 110
    .fst (f 22) (r 1) 0xa0, -- 111
    .fst (f 23) (r 1) 0xa8, -- 112
    .fst (f 24) (r 1) 0xb0, -- 113
    .fst (f 25) (r 1) 0xb8, -- 114
    .fst (f 26) (r 1) 0xc0, -- 115
    .fst (f 27) (r 1) 0xc8, -- 116
    .fst (f 28) (r 1) 0xd0, -- 117
    .fst (f 29) (r 1) 0xd8, -- 118
    .fst (f 30) (r 1) 0xe0, -- 119
    .fst (f 31) (r 1) 0xe8, -- 120
    .mov (r 6) (r 1), -- 129
    .mov (r 1) (r 3), -- 130
    .fld (f 0) (r 1) 0x8, -- 134
    .ld (r 8) (r 1) 0x14, -- 135
    .fmov fpscr (f 0), -- 137
    .mov cr (r 8), -- 138
    .ld (r 14) (r 1) 0x18, -- 141
    .ld (r 15) (r 1) 0x1c, -- 142
    .ld (r 16) (r 1) 0x20, -- 143
    .ld (r 17) (r 1) 0x24, -- 144
    .ld (r 18) (r 1) 0x28, -- 145
    .ld (r 19) (r 1) 0x2c, -- 146
    .ld (r 20) (r 1) 0x30, -- 147
    .ld (r 21) (r 1) 0x34, -- 148
    .ld (r 22) (r 1) 0x38, -- 149
    .ld (r 23) (r 1) 0x3c, -- 150
    .ld (r 24) (r 1) 0x40, -- 151
    .ld (r 25) (r 1) 0x44, -- 152
    .ld (r 26) (r 1) 0x48, -- 153
    .ld (r 27) (r 1) 0x4c, -- 154
    .ld (r 28) (r 1) 0x50, -- 155
    .ld (r 29) (r 1) 0x54, -- 156
    .ld (r 30) (r 1) 0x58, -- 157
    .ld (r 31) (r 1) 0x5c, -- 158
    .fld (f 14) (r 1) 0x60, -- 161
    .fld (f 15) (r 1) 0x68, -- 162
    .fld (f 16) (r 1) 0x70, -- 163
    .fld (f 17) (r 1) 0x78, -- 164
    .fld (f 18) (r 1) 0x80, -- 165
    .fld (f 19) (r 1) 0x88, -- 166
    .fld (f 20) (r 1) 0x90, -- 167
    .fld (f 21) (r 1) 0x98, -- 168
    .fld (f 22) (r 1) 0xa0, -- 169
    .fld (f 23) (r 1) 0xa8, -- 170
    .fld (f 24) (r 1) 0xb0, -- 171
    .fld (f 25) (r 1) 0xb8, -- 172
    .fld (f 26) (r 1) 0xc0, -- 173
    .fld (f 27) (r 1) 0xc8, -- 174
    .fld (f 28) (r 1) 0xd0, -- 175
    .fld (f 29) (r 1) 0xd8, -- 176
    .fld (f 30) (r 1) 0xe0, -- 177
    .fld (f 31) (r 1) 0xe8, -- 178
    .ld (r 0) (r 1) 0xf4, -- 181
    .mov lr (r 0), -- 182
    .addi (r 1) (r 1) (off A 0xf0), -- 185
    .la npc Lab.tail] -- 190

def ontop : Code A := .jmp ontopIs npc

/-- make_ppc32_sysv_elf_gas.S lines 59-111 -/
def makeIs : List (Instr A) :=
  [
    .mov (r 6) lr, -- 61
    .andi (r 3) (r 3) (mask A 4), -- 65
    .addi (r 3) (r 3) (-off A 0x100), -- 69
    .st (r 5) (r 3) 0xf8, -- 77
    .movi (r 0) (off A 0), -- 81
    .st (r 0) (r 3) 0xf0, -- 82
    .fmov (f 0) fpscr, -- 85
    .fst (f 0) (r 3) 0x8, -- 86
    .la lr Lab.l1, -- 95
    .mov (r 4) lr, -- 96
    .mov (r 7) (r 4), -- 99
    .addl (r 7) Lab.trampoline Lab.l1, -- 99
    .st (r 7) (r 3) 0x10, -- 100
    .addl (r 4) Lab.finish Lab.l1, -- 103
    .st (r 4) (r 3) 0xf4, -- 106
    .mov lr (r 6)] -- 109

def make : Code A := .jmp makeIs lr

/-- make_ppc32_sysv_elf_gas.S lines 114-123 -/
def trampIs : List (Instr A) :=
  [
    .ld (r 0) (r 1) 0x8, -- 118
    .mov ctr (r 0), -- 119
    .st (r 3) (r 1) 0x8, -- 120
    .st (r 4) (r 1) 0xc, -- 121
    .addi (r 3) (r 1) (off A 0x8)] -- 122

def tramp : Code A := .jmp trampIs ctr

end Verif.Asm.Ppc32b
