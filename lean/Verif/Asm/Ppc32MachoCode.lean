import Verif.Asm.Lemmas

/-!
# PowerPC 32 SysV, Mach-O: transcription of `/repo/src/asm/{jump,ontop,make}_ppc32_sysv_macho_gas.S`

Generated by `tools/asm2lean.py Ppc32Macho` from the text of these files; the number behind each instruction is its source line.
-/

namespace Verif.Asm.Ppc32Macho

/-- `r n`: general registers (r1 is the stack pointer); link, count and condition register; `tmp`: the old value of r1 in `stwu`; `npc`: target of `b ontop_fcontext_tail` -/
inductive R | r (n : Nat) | lr | ctr | cr | tmp | npc deriving DecidableEq
/-- `f n`: floating point registers, `fpscr`: floating point status and control register (32 bit; `mffs` and `mtfsf` move it to and from the low half of a floating
point register; modelled with 64 bits, so that these instructions are moves) -/
inductive F | f (n : Nat) | fpscr deriving DecidableEq
/-- `tail`: `ontop_fcontext_tail` of `src/asm/tail_ontop_ppc32_sysv.cpp`; `l1`: the label `1` of `make_fcontext` -/
inductive Lab | finish | trampoline | tail | l1 deriving DecidableEq

def A : Arch := { k := 4, R := R, F := F, Lab := Lab, fb := fun _ => 8 }

abbrev r (n : Nat) : A.R := R.r n
abbrev lr : A.R := R.lr
abbrev ctr : A.R := R.ctr
abbrev cr : A.R := R.cr
abbrev tmp : A.R := R.tmp
abbrev npc : A.R := R.npc
abbrev f (n : Nat) : A.F := F.f n
abbrev fpscr : A.F := F.fpscr

/-- jump_ppc32_sysv_macho_gas.S lines 80-202 -/
def jumpIs : List (Instr A) :=
  [
    .addi (r 1) (r 1) (-off A 0xf4), -- 82
    .fst (f 14) (r 1) 0x0, -- 84
    .fst (f 15) (r 1) 0x8, -- 85
    .fst (f 16) (r 1) 0x10, -- 86
    .fst (f 17) (r 1) 0x18, -- 87
    .fst (f 18) (r 1) 0x20, -- 88
    .fst (f 19) (r 1) 0x28, -- 89
    .fst (f 20) (r 1) 0x30, -- 90
    .fst (f 21) (r 1) 0x38, -- 91
    .fst (f 22) (r 1) 0x40, -- 92
    .fst (f 23) (r 1) 0x48, -- 93
    .fst (f 24) (r 1) 0x50, -- 94
    .fst (f 25) (r 1) 0x58, -- 95
    .fst (f 26) (r 1) 0x60, -- 96
    .fst (f 27) (r 1) 0x68, -- 97
    .fst (f 28) (r 1) 0x70, -- 98
    .fst (f 29) (r 1) 0x78, -- 99
    .fst (f 30) (r 1) 0x80, -- 100
    .fst (f 31) (r 1) 0x88, -- 101
    .fmov (f 0) fpscr, -- 102
    .fst (f 0) (r 1) 0x90, -- 103
    .st (r 13) (r 1) 0x98, -- 105
    .st (r 14) (r 1) 0x9c, -- 106
    .st (r 15) (r 1) 0xa0, -- 107
    .st (r 16) (r 1) 0xa4, -- 108
    .st (r 17) (r 1) 0xa8, -- 109
    .st (r 18) (r 1) 0xac, -- 110
    .st (r 19) (r 1) 0xb0, -- 111
    .st (r 20) (r 1) 0xb4, -- 112
    .st (r 21) (r 1) 0xb8, -- 113
    .st (r 22) (r 1) 0xbc, -- 114
    .st (r 23) (r 1) 0xc0, -- 115
    .st (r 24) (r 1) 0xc4, -- 116
    .st (r 25) (r 1) 0xc8, -- 117
    .st (r 26) (r 1) 0xcc, -- 118
    .st (r 27) (r 1) 0xd0, -- 119
    .st (r 28) (r 1) 0xd4, -- 120
    .st (r 29) (r 1) 0xd8, -- 121
    .st (r 30) (r 1) 0xdc, -- 122
    .st (r 31) (r 1) 0xe0, -- 123
    .st (r 3) (r 1) 0xe4, -- 124
    .mov (r 0) cr, -- 127
    .st (r 0) (r 1) 0xe8, -- 128
    .mov (r 0) lr, -- 130
    .st (r 0) (r 1) 0xec, -- 131
    .st (r 0) (r 1) 0xf0, -- 133
    .mov (r 6) (r 1), -- 136
    .mov (r 1) (r 4), -- 139
    .fld (f 14) (r 1) 0x0, -- 141
    .fld (f 15) (r 1) 0x8, -- 142
    .fld (f 16) (r 1) 0x10, -- 143
    .fld (f 17) (r 1) 0x18, -- 144
    .fld (f 18) (r 1) 0x20, -- 145
    .fld (f 19) (r 1) 0x28, -- 146
    .fld (f 20) (r 1) 0x30, -- 147
    .fld (f 21) (r 1) 0x38, -- 148
    .fld (f 22) (r 1) 0x40, -- 149
    .fld (f 23) (r 1) 0x48, -- 150
    .fld (f 24) (r 1) 0x50, -- 151
    .fld (f 25) (r 1) 0x58, -- 152
    .fld (f 26) (r 1) 0x60, -- 153
    .fld (f 27) (r 1) 0x68, -- 154
    .fld (f 28) (r 1) 0x70, -- 155
    .fld (f 29) (r 1) 0x78, -- 156
    .fld (f 30) (r 1) 0x80, -- 157
    .fld (f 31) (r 1) 0x88, -- 158
    .fld (f 0) (r 1) 0x90, -- 159
    .fmov fpscr (f 0), -- 160
    .ld (r 13) (r 1) 0x98, -- 162
    .ld (r 14) (r 1) 0x9c, -- 163
    .ld (r 15) (r 1) 0xa0, -- 164
    .ld (r 16) (r 1) 0xa4, -- 165
    .ld (r 17) (r 1) 0xa8, -- 166
    .ld (r 18) (r 1) 0xac, -- 167
    .ld (r 19) (r 1) 0xb0, -- 168
    .ld (r 20) (r 1) 0xb4, -- 169
    .ld (r 21) (r 1) 0xb8, -- 170
    .ld (r 22) (r 1) 0xbc, -- 171
    .ld (r 23) (r 1) 0xc0, -- 172
    .ld (r 24) (r 1) 0xc4, -- 173
    .ld (r 25) (r 1) 0xc8, -- 174
    .ld (r 26) (r 1) 0xcc, -- 175
    .ld (r 27) (r 1) 0xd0, -- 176
    .ld (r 28) (r 1) 0xd4, -- 177
    .ld (r 29) (r 1) 0xd8, -- 178
    .ld (r 30) (r 1) 0xdc, -- 179
    .ld (r 31) (r 1) 0xe0, -- 180
    .ld (r 3) (r 1) 0xe4, -- 181
    .ld (r 0) (r 1) 0xe8, -- 184
    .mov cr (r 0), -- 185
    .ld (r 0) (r 1) 0xec, -- 187
    .mov lr (r 0), -- 188
    .ld (r 0) (r 1) 0xf0, -- 190
    .mov ctr (r 0), -- 192
    .addi (r 1) (r 1) (off A 0xf4), -- 195
    .st (r 6) (r 3) 0x0, -- 198
    .st (r 5) (r 3) 0x4] -- 199

def jump : Code A := .jmp jumpIs ctr

/-- ontop_ppc32_sysv_macho_gas.S lines 80-202 -/
def ontopIs : List (Instr A) :=
  [
    .addi (r 1) (r 1) (-off A 0xf4), -- 82
    .fst (f 14) (r 1) 0x0, -- 84
    .fst (f 15) (r 1) 0x8, -- 85
    .fst (f 16) (r 1) 0x10, -- 86
    .fst (f 17) (r 1) 0x18, -- 87
    .fst (f 18) (r 1) 0x20, -- 88
    .fst (f 19) (r 1) 0x28, -- 89
    .fst (f 20) (r 1) 0x30, -- 90
    .fst (f 21) (r 1) 0x38, -- 91
    .fst (f 22) (r 1) 0x40, -- 92
    .fst (f 23) (r 1) 0x48, -- 93
    .fst (f 24) (r 1) 0x50, -- 94
    .fst (f 25) (r 1) 0x58, -- 95
    .fst (f 26) (r 1) 0x60, -- 96
    .fst (f 27) (r 1) 0x68, -- 97
    .fst (f 28) (r 1) 0x70, -- 98
    .fst (f 29) (r 1) 0x78, -- 99
    .fst (f 30) (r 1) 0x80, -- 100
    .fst (f 31) (r 1) 0x88, -- 101
    .fmov (f 0) fpscr, -- 102
    .fst (f 0) (r 1) 0x90, -- 103
    .st (r 13) (r 1) 0x98, -- 105
    .st (r 14) (r 1) 0x9c, -- 106
    .st (r 15) (r 1) 0xa0, -- 107
    .st (r 16) (r 1) 0xa4, -- 108
    .st (r 17) (r 1) 0xa8, -- 109
    .st (r 18) (r 1) 0xac, -- 110
    .st (r 19) (r 1) 0xb0, -- 111
    .st (r 20) (r 1) 0xb4, -- 112
    .st (r 21) (r 1) 0xb8, -- 113
    .st (r 22) (r 1) 0xbc, -- 114
    .st (r 23) (r 1) 0xc0, -- 115
    .st (r 24) (r 1) 0xc4, -- 116
    .st (r 25) (r 1) 0xc8, -- 117
    .st (r 26) (r 1) 0xcc, -- 118
    .st (r 27) (r 1) 0xd0, -- 119
    .st (r 28) (r 1) 0xd4, -- 120
    .st (r 29) (r 1) 0xd8, -- 121
    .st (r 30) (r 1) 0xdc, -- 122
    .st (r 31) (r 1) 0xe0, -- 123
    .st (r 3) (r 1) 0xe4, -- 124
    .mov (r 0) cr, -- 127
    .st (r 0) (r 1) 0xe8, -- 128
    .mov (r 0) lr, -- 130
    .st (r 0) (r 1) 0xec, -- 131
    .st (r 0) (r 1) 0xf0, -- 133
    .mov (r 7) (r 1), -- 136
    .mov (r 1) (r 4), -- 139
    .fld (f 14) (r 1) 0x0, -- 141
    .fld (f 15) (r 1) 0x8, -- 142
    .fld (f 16) (r 1) 0x10, -- 143
    .fld (f 17) (r 1) 0x18, -- 144
    .fld (f 18) (r 1) 0x20, -- 145
    .fld (f 19) (r 1) 0x28, -- 146
    .fld (f 20) (r 1) 0x30, -- 147
    .fld (f 21) (r 1) 0x38, -- 148
    .fld (f 22) (r 1) 0x40, -- 149
    .fld (f 23) (r 1) 0x48, -- 150
    .fld (f 24) (r 1) 0x50, -- 151
    .fld (f 25) (r 1) 0x58, -- 152
    .fld (f 26) (r 1) 0x60, -- 153
    .fld (f 27) (r 1) 0x68, -- 154
    .fld (f 28) (r 1) 0x70, -- 155
    .fld (f 29) (r 1) 0x78, -- 156
    .fld (f 30) (r 1) 0x80, -- 157
    .fld (f 31) (r 1) 0x88, -- 158
    .fld (f 0) (r 1) 0x90, -- 159
    .fmov fpscr (f 0), -- 160
    .ld (r 13) (r 1) 0x98, -- 162
    .ld (r 14) (r 1) 0x9c, -- 163
    .ld (r 15) (r 1) 0xa0, -- 164
    .ld (r 16) (r 1) 0xa4, -- 165
    .ld (r 17) (r 1) 0xa8, -- 166
    .ld (r 18) (r 1) 0xac, -- 167
    .ld (r 19) (r 1) 0xb0, -- 168
    .ld (r 20) (r 1) 0xb4, -- 169
    .ld (r 21) (r 1) 0xb8, -- 170
    .ld (r 22) (r 1) 0xbc, -- 171
    .ld (r 23) (r 1) 0xc0, -- 172
    .ld (r 24) (r 1) 0xc4, -- 173
    .ld (r 25) (r 1) 0xc8, -- 174
    .ld (r 26) (r 1) 0xcc, -- 175
    .ld (r 27) (r 1) 0xd0, -- 176
    .ld (r 28) (r 1) 0xd4, -- 177
    .ld (r 29) (r 1) 0xd8, -- 178
    .ld (r 30) (r 1) 0xdc, -- 179
    .ld (r 31) (r 1) 0xe0, -- 180
    .ld (r 3) (r 1) 0xe4, -- 181
    .ld (r 0) (r 1) 0xe8, -- 184
    .mov cr (r 0), -- 185
    .ld (r 0) (r 1) 0xec, -- 187
    .mov lr (r 0), -- 188
    .addi (r 1) (r 1) (off A 0xf4), -- 192
    .la npc Lab.tail] -- 202

def ontop : Code A := .jmp ontopIs npc

/-- make_ppc32_sysv_macho_gas.S lines 80-129 -/
def makeIs : List (Instr A) :=
  [
    .mov (r 6) lr, -- 82
    .andi (r 3) (r 3) (mask A 4), -- 86
    .addi (r 3) (r 3) (-off A 0x150), -- 90
    .st (r 5) (r 3) 0xe0, -- 94
    .movi (r 0) (off A 0), -- 97
    .st (r 0) (r 3) 0xf4, -- 98
    .fmov (f 0) fpscr, -- 100
    .fst (f 0) (r 3) 0x90, -- 101
    .addi (r 0) (r 3) (off A 0xfc), -- 104
    .mov (r 4) (r 0), -- 105
    .st (r 4) (r 3) 0xe4, -- 106
    .mov (r 0) lr, -- 109
    .la lr Lab.l1, -- 111
    .mov (r 4) lr, -- 114
    .mov (r 5) (r 4), -- 116
    .addl (r 5) Lab.trampoline Lab.l1, -- 116
    .st (r 5) (r 3) 0xf0, -- 117
    .addl (r 4) Lab.finish Lab.l1, -- 119
    .mov lr (r 0), -- 121
    .st (r 4) (r 3) 0xec, -- 124
    .mov lr (r 6)] -- 127

def make : Code A := .jmp makeIs lr

/-- make_ppc32_sysv_macho_gas.S lines 131-137 -/
def trampIs : List (Instr A) :=
  [
    .mov ctr (r 31), -- 134
    .ld (r 4) (r 3) 0x4, -- 135
    .ld (r 3) (r 3) 0x0] -- 136

def tramp : Code A := .jmp trampIs ctr

end Verif.Asm.Ppc32Macho
