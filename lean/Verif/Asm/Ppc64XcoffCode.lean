import Verif.Asm.Ppc64v1Code

/-!
# PowerPC 64 SysV, XCOFF (AIX): transcription of `/repo/src/asm/{jump,ontop,make}_ppc64_sysv_xcoff_gas.S`

Generated by `tools/asm2lean.py Ppc64Xcoff` from the text of these files; the number behind each instruction is its source line.
-/

namespace Verif.Asm.Ppc64Xcoff

open Verif.Asm.Ppc64v1

/-- jump_ppc64_sysv_xcoff_gas.S lines 80-158 -/
def jumpPreIs : List (Instr A) :=
  [
    .addi (r 1) (r 1) (-off A 0xb8), -- 82
    .st (r 2) (r 1) 0x0, -- 84
    .st (r 14) (r 1) 0x8, -- 85
    .st (r 15) (r 1) 0x10, -- 86
    .st (r 16) (r 1) 0x18, -- 87
    .st (r 17) (r 1) 0x20, -- 88
    .st (r 18) (r 1) 0x28, -- 89
    .st (r 19) (r 1) 0x30, -- 90
    .st (r 20) (r 1) 0x38, -- 91
    .st (r 21) (r 1) 0x40, -- 92
    .st (r 22) (r 1) 0x48, -- 93
    .st (r 23) (r 1) 0x50, -- 94
    .st (r 24) (r 1) 0x58, -- 95
    .st (r 25) (r 1) 0x60, -- 96
    .st (r 26) (r 1) 0x68, -- 97
    .st (r 27) (r 1) 0x70, -- 98
    .st (r 28) (r 1) 0x78, -- 99
    .st (r 29) (r 1) 0x80, -- 100
    .st (r 30) (r 1) 0x88, -- 101
    .st (r 31) (r 1) 0x90, -- 102
    .st (r 3) (r 1) 0x98, -- 103
    .mov (r 0) cr, -- 106
    .st (r 0) (r 1) 0xa0, -- 107
    .mov (r 0) lr, -- 109
    .st (r 0) (r 1) 0xa8, -- 110
    .st (r 0) (r 1) 0xb0, -- 112
    .mov (r 6) (r 1), -- 115
    .mov (r 1) (r 4), -- 118
    .ld (r 2) (r 1) 0x0, -- 120
    .ld (r 14) (r 1) 0x8, -- 121
    .ld (r 15) (r 1) 0x10, -- 122
    .ld (r 16) (r 1) 0x18, -- 123
    .ld (r 17) (r 1) 0x20, -- 124
    .ld (r 18) (r 1) 0x28, -- 125
    .ld (r 19) (r 1) 0x30, -- 126
    .ld (r 20) (r 1) 0x38, -- 127
    .ld (r 21) (r 1) 0x40, -- 128
    .ld (r 22) (r 1) 0x48, -- 129
    .ld (r 23) (r 1) 0x50, -- 130
    .ld (r 24) (r 1) 0x58, -- 131
    .ld (r 25) (r 1) 0x60, -- 132
    .ld (r 26) (r 1) 0x68, -- 133
    .ld (r 27) (r 1) 0x70, -- 134
    .ld (r 28) (r 1) 0x78, -- 135
    .ld (r 29) (r 1) 0x80, -- 136
    .ld (r 30) (r 1) 0x88, -- 137
    .ld (r 31) (r 1) 0x90, -- 138
    .ld (r 3) (r 1) 0x98, -- 139
    .ld (r 0) (r 1) 0xa0, -- 142
    .mov cr (r 0), -- 143
    .ld (r 0) (r 1) 0xa8, -- 145
    .mov lr (r 0), -- 146
    .ld (r 0) (r 1) 0xb0, -- 149
    .mov ctr (r 0), -- 151
    .addi (r 1) (r 1) (off A 0xb8)] -- 154

/-- jump_ppc64_sysv_xcoff_gas.S lines 158-165 -/
def jumpNzIs : List (Instr A) :=
  [
    .st (r 6) (r 3) 0x0, -- 161
    .st (r 5) (r 3) 0x8] -- 162

/-- jump_ppc64_sysv_xcoff_gas.S lines 167-173 -/
def jumpZIs : List (Instr A) :=
  [
    .mov (r 3) (r 6), -- 169
    .mov (r 4) (r 5)] -- 170

/-- ontop_ppc64_sysv_xcoff_gas.S lines 79-156 -/
def ontopPreIs : List (Instr A) :=
  [
    .addi (r 1) (r 1) (-off A 0xb8), -- 81
    .st (r 2) (r 1) 0x0, -- 83
    .st (r 14) (r 1) 0x8, -- 84
    .st (r 15) (r 1) 0x10, -- 85
    .st (r 16) (r 1) 0x18, -- 86
    .st (r 17) (r 1) 0x20, -- 87
    .st (r 18) (r 1) 0x28, -- 88
    .st (r 19) (r 1) 0x30, -- 89
    .st (r 20) (r 1) 0x38, -- 90
    .st (r 21) (r 1) 0x40, -- 91
    .st (r 22) (r 1) 0x48, -- 92
    .st (r 23) (r 1) 0x50, -- 93
    .st (r 24) (r 1) 0x58, -- 94
    .st (r 25) (r 1) 0x60, -- 95
    .st (r 26) (r 1) 0x68, -- 96
    .st (r 27) (r 1) 0x70, -- 97
    .st (r 28) (r 1) 0x78, -- 98
    .st (r 29) (r 1) 0x80, -- 99
    .st (r 30) (r 1) 0x88, -- 100
    .st (r 31) (r 1) 0x90, -- 101
    .st (r 3) (r 1) 0x98, -- 102
    .mov (r 0) cr, -- 105
    .st (r 0) (r 1) 0xa0, -- 106
    .mov (r 0) lr, -- 108
    .st (r 0) (r 1) 0xa8, -- 109
    .st (r 0) (r 1) 0xb0, -- 111
    .mov (r 7) (r 1), -- 114
    .mov (r 1) (r 4), -- 117
    .ld (r 14) (r 1) 0x8, -- 119
    .ld (r 15) (r 1) 0x10, -- 120
    .ld (r 16) (r 1) 0x18, -- 121
    .ld (r 17) (r 1) 0x20, -- 122
    .ld (r 18) (r 1) 0x28, -- 123
    .ld (r 19) (r 1) 0x30, -- 124
    .ld (r 20) (r 1) 0x38, -- 125
    .ld (r 21) (r 1) 0x40, -- 126
    .ld (r 22) (r 1) 0x48, -- 127
    .ld (r 23) (r 1) 0x50, -- 128
    .ld (r 24) (r 1) 0x58, -- 129
    .ld (r 25) (r 1) 0x60, -- 130
    .ld (r 26) (r 1) 0x68, -- 131
    .ld (r 27) (r 1) 0x70, -- 132
    .ld (r 28) (r 1) 0x78, -- 133
    .ld (r 29) (r 1) 0x80, -- 134
    .ld (r 30) (r 1) 0x88, -- 135
    .ld (r 31) (r 1) 0x90, -- 136
    .ld (r 3) (r 1) 0x98, -- 137
    .ld (r 0) (r 1) 0xa0, -- 140
    .mov cr (r 0), -- 141
    .mov (r 4) (r 7), -- 144
    .ld (r 7) (r 6) 0x0, -- 149
    .mov ctr (r 7), -- 150
    .ld (r 2) (r 6) 0x8] -- 152

/-- ontop_ppc64_sysv_xcoff_gas.S lines 158-167 -/
def ontopNzIs : List (Instr A) :=
  [
    .ld (r 0) (r 1) 0xa8, -- 160
    .mov lr (r 0), -- 161
    .addi (r 1) (r 1) (off A 0xb8)] -- 164

/-- ontop_ppc64_sysv_xcoff_gas.S lines 169-175 -/
def ontopZIs : List (Instr A) :=
  [
    .addi (r 3) (r 1) (off A 0x8), -- 172
    .la lr Lab.back] -- 175

/-- ontop_ppc64_sysv_xcoff_gas.S lines 175-187 -/
def backIs : List (Instr A) :=
  [
    .ld (r 7) (r 1) 0xb0, -- 178
    .mov ctr (r 7), -- 179
    .ld (r 2) (r 1) 0x0, -- 181
    .ld (r 3) (r 1) 0x8, -- 184
    .ld (r 4) (r 1) 0x10] -- 185

/-- make_ppc64_sysv_xcoff_gas.S lines 79-123 -/
def makeIs : List (Instr A) :=
  [
    .mov (r 6) lr, -- 81
    .andi (r 3) (r 3) (mask A 4), -- 85
    .addi (r 3) (r 3) (-off A 0xf8), -- 89
    .ld (r 4) (r 5) 0x0, -- 92
    .st (r 4) (r 3) 0xb0, -- 93
    .ld (r 4) (r 5) 0x8, -- 95
    .st (r 4) (r 3) 0x0, -- 96
    .movi (r 0) (off A 0), -- 99
    .st (r 0) (r 3) 0xb8, -- 100
    .st (r 0) (r 3) 0x98, -- 103
    .mov (r 0) lr, -- 106
    .la lr Lab.l1, -- 108
    .mov (r 4) lr, -- 111
    .addl (r 4) Lab.finish Lab.l1, -- 113
    .mov lr (r 0), -- 115
    .st (r 4) (r 3) 0xa8, -- 118
    .mov lr (r 6)] -- 121

def make : Code A := .jmp makeIs lr

/-- jump_ppc64_sysv_xcoff_gas.S: after `jumpPreIs` a null result address (a new context) makes control go to `use_entry_arg` (`jumpZIs`) -/
def jump : Code A := .brz jumpPreIs (r 3) (.jmp jumpZIs ctr) (.jmp jumpNzIs ctr)

/-- ontop_ppc64_sysv_xcoff_gas.S: after `ontopPreIs` a null result address makes control go to `use_entry_arg` (`ontopZIs`), which calls the on-top function -/
def ontop : Code A := .brz ontopPreIs (r 3) (.jmp ontopZIs ctr) (.jmp ontopNzIs ctr)

/-- ontop_ppc64_sysv_xcoff_gas.S: what `ontop_fcontext` executes after the return of an on-top function called by `ontopZIs` (label `back`) -/
def back : Code A := .jmp (backIs ++ ontopNzIs) ctr

end Verif.Asm.Ppc64Xcoff
