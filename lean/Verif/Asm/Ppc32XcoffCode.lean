import Verif.Asm.Lemmas

/-!
# PowerPC 32 SysV, XCOFF (AIX): transcription of `/repo/src/asm/{jump,ontop,make}_ppc32_sysv_xcoff_gas.S`

Generated by `tools/asm2lean.py Ppc32Xcoff` from the text of these files; the number behind each instruction is its source line.
-/

namespace Verif.Asm.Ppc32Xcoff

/-- `r n`: general registers (r1 is the stack pointer); link, count and condition register -/
inductive R | r (n : Nat) | lr | ctr | cr deriving DecidableEq
/-- `f n`: floating point registers, `fpscr`: floating point status and control register (32 bit; `mffs` and `mtfsf` move it to and from the low half of a floating
point register; modelled with 64 bits, so that these instructions are moves) -/
inductive F | f (n : Nat) | fpscr deriving DecidableEq
/-- `back`: the instruction behind the call (`bctrl`) of `ontop_fcontext`; `l1`: the label `1` of `make_fcontext` -/
inductive Lab | finish | back | l1 deriving DecidableEq

def A : Arch := { k := 4, R := R, F := F, Lab := Lab, fb := fun _ => 8 }

abbrev r (n : Nat) : A.R := R.r n
abbrev lr : A.R := R.lr
abbrev ctr : A.R := R.ctr
abbrev cr : A.R := R.cr
abbrev f (n : Nat) : A.F := F.f n
abbrev fpscr : A.F := F.fpscr

/-- jump_ppc32_sysv_xcoff_gas.S lines 67-201 -/
def jumpPreIs : List (Instr A) :=
  [
    .addi (r 1) (r 1) (-off A 0x100), -- 69
    .mov (r 0) cr, -- 72
    .st (r 0) (r 1) 0x4, -- 73
    .mov (r 0) lr, -- 75
    .st (r 0) (r 1) 0x8, -- 76
    .st (r 0) (r 1) 0xf0, -- 78
    .st (r 2) (r 1) 0x14, -- 80
    .st (r 14) (r 1) 0x18, -- 83
    .st (r 15) (r 1) 0x1c, -- 84
    .st (r 16) (r 1) 0x20, -- 85
    .st (r 17) (r 1) 0x24, -- 86
    .st (r 18) (r 1) 0x28, -- 87
    .st (r 19) (r 1) 0x2c, -- 88
    .st (r 20) (r 1) 0x30, -- 89
    .st (r 21) (r 1) 0x34, -- 90
    .st (r 22) (r 1) 0x38, -- 91
    .st (r 23) (r 1) 0x3c, -- 92
    .st (r 24) (r 1) 0x40, -- 93
    .st (r 25) (r 1) 0x44, -- 94
    .st (r 26) (r 1) 0x48, -- 95
    .st (r 27) (r 1) 0x4c, -- 96
    .st (r 28) (r 1) 0x50, -- 97
    .st (r 29) (r 1) 0x54, -- 98
    .st (r 30) (r 1) 0x58, -- 99
    .st (r 31) (r 1) 0x5c, -- 100
    .fst (f 14) (r 1) 0x60, -- 105
    .fst (f 15) (r 1) 0x68, -- 106
    .fst (f 16) (r 1) 0x70, -- 107
    .fst (f 17) (r 1) 0x78, -- 108
    .fst (f 18) (r 1) 0x80, -- 109
    .fst (f 19) (r 1) 0x88, -- 110
    .fst (f 20) (r 1) 0x90, -- 111
    .fst (f 21) (r 1) 0x98, -- 112
    .fst (f 22) (r 1) 0xa0, -- 113
    .fst (f 23) (r 1) 0xa8, -- 114
    .fst (f 24) (r 1) 0xb0, -- 115
    .fst (f 25) (r 1) 0xb8, -- 116
    .fst (f 26) (r 1) 0xc0, -- 117
    .fst (f 27) (r 1) 0xc8, -- 118
    .fst (f 28) (r 1) 0xd0, -- 119
    .fst (f 29) (r 1) 0xd8, -- 120
    .fst (f 30) (r 1) 0xe0, -- 121
    .fst (f 31) (r 1) 0xe8, -- 122
    .st (r 3) (r 1) 0xf4, -- 125
    .fmov (f 0) fpscr, -- 127
    .fst (f 0) (r 1) 0xf8, -- 128
    .mov (r 6) (r 1), -- 132
    .mov (r 1) (r 4), -- 135
    .ld (r 0) (r 1) 0x4, -- 138
    .mov cr (r 0), -- 139
    .ld (r 0) (r 1) 0x8, -- 141
    .mov lr (r 0), -- 142
    .ld (r 0) (r 1) 0xf0, -- 144
    .mov ctr (r 0), -- 145
    .ld (r 2) (r 1) 0x14, -- 148
    .ld (r 14) (r 1) 0x18, -- 151
    .ld (r 15) (r 1) 0x1c, -- 152
    .ld (r 16) (r 1) 0x20, -- 153
    .ld (r 17) (r 1) 0x24, -- 154
    .ld (r 18) (r 1) 0x28, -- 155
    .ld (r 19) (r 1) 0x2c, -- 156
    .ld (r 20) (r 1) 0x30, -- 157
    .ld (r 21) (r 1) 0x34, -- 158
    .ld (r 22) (r 1) 0x38, -- 159
    .ld (r 23) (r 1) 0x3c, -- 160
    .ld (r 24) (r 1) 0x40, -- 161
    .ld (r 25) (r 1) 0x44, -- 162
    .ld (r 26) (r 1) 0x48, -- 163
    .ld (r 27) (r 1) 0x4c, -- 164
    .ld (r 28) (r 1) 0x50, -- 165
    .ld (r 29) (r 1) 0x54, -- 166
    .ld (r 30) (r 1) 0x58, -- 167
    .ld (r 31) (r 1) 0x5c, -- 168
    .fld (f 14) (r 1) 0x60, -- 171
    .fld (f 15) (r 1) 0x68, -- 172
    .fld (f 16) (r 1) 0x70, -- 173
    .fld (f 17) (r 1) 0x78, -- 174
    .fld (f 18) (r 1) 0x80, -- 175
    .fld (f 19) (r 1) 0x88, -- 176
    .fld (f 20) (r 1) 0x90, -- 177
    .fld (f 21) (r 1) 0x98, -- 178
    .fld (f 22) (r 1) 0xa0, -- 179
    .fld (f 23) (r 1) 0xa8, -- 180
    .fld (f 24) (r 1) 0xb0, -- 181
    .fld (f 25) (r 1) 0xb8, -- 182
    .fld (f 26) (r 1) 0xc0, -- 183
    .fld (f 27) (r 1) 0xc8, -- 184
    .fld (f 28) (r 1) 0xd0, -- 185
    .fld (f 29) (r 1) 0xd8, -- 186
    .fld (f 30) (r 1) 0xe0, -- 187
    .fld (f 31) (r 1) 0xe8, -- 188
    .ld (r 3) (r 1) 0xf4, -- 191
    .fld (f 0) (r 1) 0xf8, -- 193
    .fmov fpscr (f 0), -- 194
    .addi (r 1) (r 1) (off A 0x100)] -- 197

/-- jump_ppc32_sysv_xcoff_gas.S lines 201-208 -/
def jumpNzIs : List (Instr A) :=
  [
    .st (r 6) (r 3) 0x0, -- 204
    .st (r 5) (r 3) 0x4] -- 205

/-- jump_ppc32_sysv_xcoff_gas.S lines 210-216 -/
def jumpZIs : List (Instr A) :=
  [
    .mov (r 3) (r 6), -- 212
    .mov (r 4) (r 5)] -- 213

/-- ontop_ppc32_sysv_xcoff_gas.S lines 68-199 -/
def ontopPreIs : List (Instr A) :=
  [
    .addi (r 1) (r 1) (-off A 0x100), -- 70
    .mov (r 0) cr, -- 73
    .st (r 0) (r 1) 0x4, -- 74
    .mov (r 0) lr, -- 76
    .st (r 0) (r 1) 0x8, -- 77
    .st (r 0) (r 1) 0xf0, -- 79
    .st (r 2) (r 1) 0x14, -- 81
    .st (r 14) (r 1) 0x18, -- 84
    .st (r 15) (r 1) 0x1c, -- 85
    .st (r 16) (r 1) 0x20, -- 86
    .st (r 17) (r 1) 0x24, -- 87
    .st (r 18) (r 1) 0x28, -- 88
    .st (r 19) (r 1) 0x2c, -- 89
    .st (r 20) (r 1) 0x30, -- 90
    .st (r 21) (r 1) 0x34, -- 91
    .st (r 22) (r 1) 0x38, -- 92
    .st (r 23) (r 1) 0x3c, -- 93
    .st (r 24) (r 1) 0x40, -- 94
    .st (r 25) (r 1) 0x44, -- 95
    .st (r 26) (r 1) 0x48, -- 96
    .st (r 27) (r 1) 0x4c, -- 97
    .st (r 28) (r 1) 0x50, -- 98
    .st (r 29) (r 1) 0x54, -- 99
    .st (r 30) (r 1) 0x58, -- 100
    .st (r 31) (r 1) 0x5c, -- 101
    .fst (f 14) (r 1) 0x60, -- 106
    .fst (f 15) (r 1) 0x68, -- 107
    .fst (f 16) (r 1) 0x70, -- 108
    .fst (f 17) (r 1) 0x78, -- 109
    .fst (f 18) (r 1) 0x80, -- 110
    .fst (f 19) (r 1) 0x88, -- 111
    .fst (f 20) (r 1) 0x90, -- 112
    .fst (f 21) (r 1) 0x98, -- 113
    .fst (f 22) (r 1) 0xa0, -- 114
    .fst (f 23) (r 1) 0xa8, -- 115
    .fst (f 24) (r 1) 0xb0, -- 116
    .fst (f 25) (r 1) 0xb8, -- 117
    .fst (f 26) (r 1) 0xc0, -- 118
    .fst (f 27) (r 1) 0xc8, -- 119
    .fst (f 28) (r 1) 0xd0, -- 120
    .fst (f 29) (r 1) 0xd8, -- 121
    .fst (f 30) (r 1) 0xe0, -- 122
    .fst (f 31) (r 1) 0xe8, -- 123
    .st (r 3) (r 1) 0xf4, -- 126
    .fmov (f 0) fpscr, -- 128
    .fst (f 0) (r 1) 0xf8, -- 129
    .mov (r 7) (r 1), -- 132
    .mov (r 1) (r 4), -- 135
    .ld (r 0) (r 1) 0x4, -- 138
    .mov cr (r 0), -- 139
    .ld (r 14) (r 1) 0x18, -- 142
    .ld (r 15) (r 1) 0x1c, -- 143
    .ld (r 16) (r 1) 0x20, -- 144
    .ld (r 17) (r 1) 0x24, -- 145
    .ld (r 18) (r 1) 0x28, -- 146
    .ld (r 19) (r 1) 0x2c, -- 147
    .ld (r 20) (r 1) 0x30, -- 148
    .ld (r 21) (r 1) 0x34, -- 149
    .ld (r 22) (r 1) 0x38, -- 150
    .ld (r 23) (r 1) 0x3c, -- 151
    .ld (r 24) (r 1) 0x40, -- 152
    .ld (r 25) (r 1) 0x44, -- 153
    .ld (r 26) (r 1) 0x48, -- 154
    .ld (r 27) (r 1) 0x4c, -- 155
    .ld (r 28) (r 1) 0x50, -- 156
    .ld (r 29) (r 1) 0x54, -- 157
    .ld (r 30) (r 1) 0x58, -- 158
    .ld (r 31) (r 1) 0x5c, -- 159
    .fld (f 14) (r 1) 0x60, -- 162
    .fld (f 15) (r 1) 0x68, -- 163
    .fld (f 16) (r 1) 0x70, -- 164
    .fld (f 17) (r 1) 0x78, -- 165
    .fld (f 18) (r 1) 0x80, -- 166
    .fld (f 19) (r 1) 0x88, -- 167
    .fld (f 20) (r 1) 0x90, -- 168
    .fld (f 21) (r 1) 0x98, -- 169
    .fld (f 22) (r 1) 0xa0, -- 170
    .fld (f 23) (r 1) 0xa8, -- 171
    .fld (f 24) (r 1) 0xb0, -- 172
    .fld (f 25) (r 1) 0xb8, -- 173
    .fld (f 26) (r 1) 0xc0, -- 174
    .fld (f 27) (r 1) 0xc8, -- 175
    .fld (f 28) (r 1) 0xd0, -- 176
    .fld (f 29) (r 1) 0xd8, -- 177
    .fld (f 30) (r 1) 0xe0, -- 178
    .fld (f 31) (r 1) 0xe8, -- 179
    .ld (r 3) (r 1) 0xf4, -- 181
    .fld (f 0) (r 1) 0xf8, -- 183
    .fmov fpscr (f 0), -- 184
    .mov (r 4) (r 7), -- 187
    .ld (r 7) (r 6) 0x0, -- 192
    .mov ctr (r 7), -- 193
    .ld (r 2) (r 6) 0x4] -- 195

/-- ontop_ppc32_sysv_xcoff_gas.S lines 201-210 -/
def ontopNzIs : List (Instr A) :=
  [
    .ld (r 0) (r 1) 0x8, -- 203
    .mov lr (r 0), -- 204
    .addi (r 1) (r 1) (off A 0x100)] -- 207

/-- ontop_ppc32_sysv_xcoff_gas.S lines 212-218 -/
def ontopZIs : List (Instr A) :=
  [
    .addi (r 3) (r 1) (off A 0x8), -- 215
    .la lr Lab.back] -- 218

/-- ontop_ppc32_sysv_xcoff_gas.S lines 218-230 -/
def backIs : List (Instr A) :=
  [
    .ld (r 7) (r 1) 0x4, -- 221
    .mov ctr (r 7), -- 222
    .ld (r 2) (r 1) 0x14, -- 224
    .ld (r 3) (r 1) 0x8, -- 227
    .ld (r 4) (r 1) 0xc] -- 228

/-- make_ppc32_sysv_xcoff_gas.S lines 67-111 -/
def makeIs : List (Instr A) :=
  [
    .mov (r 6) lr, -- 69
    .andi (r 3) (r 3) (mask A 4), -- 73
    .addi (r 3) (r 3) (-off A 0x120), -- 77
    .ld (r 4) (r 5) 0x0, -- 80
    .st (r 4) (r 3) 0xf0, -- 81
    .ld (r 4) (r 5) 0x4, -- 83
    .st (r 4) (r 3) 0x14, -- 84
    .movi (r 0) (off A 0), -- 87
    .st (r 0) (r 3) 0x100, -- 88
    .st (r 0) (r 3) 0xf4, -- 91
    .st (r 0) (r 3) 0xf8, -- 91
    .mov (r 0) lr, -- 94
    .la lr Lab.l1, -- 96
    .mov (r 4) lr, -- 99
    .addl (r 4) Lab.finish Lab.l1, -- 101
    .mov lr (r 0), -- 103
    .st (r 4) (r 3) 0x8, -- 106
    .mov lr (r 6)] -- 109

def make : Code A := .jmp makeIs lr

/-- jump_ppc32_sysv_xcoff_gas.S: after `jumpPreIs` a null result address (a new context) makes control go to `use_entry_arg` (`jumpZIs`) -/
def jump : Code A := .brz jumpPreIs (r 3) (.jmp jumpZIs ctr) (.jmp jumpNzIs ctr)

/-- ontop_ppc32_sysv_xcoff_gas.S: after `ontopPreIs` a null result address makes control go to `use_entry_arg` (`ontopZIs`), which calls the on-top function -/
def ontop : Code A := .brz ontopPreIs (r 3) (.jmp ontopZIs ctr) (.jmp ontopNzIs ctr)

/-- ontop_ppc32_sysv_xcoff_gas.S: what `ontop_fcontext` executes after the return of an on-top function called by `ontopZIs` (label `back`) -/
def back : Code A := .jmp (backIs ++ ontopNzIs) ctr

end Verif.Asm.Ppc32Xcoff
