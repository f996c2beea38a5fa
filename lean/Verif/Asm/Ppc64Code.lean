import Verif.Asm.Lemmas

/-!
# PowerPC 64 SysV, ELFv2: transcription of `/repo/src/asm/{jump,ontop,make}_ppc64_sysv_elf_gas.S`

Generated by `tools/asm2lean.py Ppc64` from the text of these files; the number behind each instruction is its source line.
-/

namespace Verif.Asm.Ppc64

/-- `r n`: general registers (r1 is the stack pointer); link, count and condition register; `tmp`: the old value of r1 in `stwu`; `npc`: target of `b ontop_fcontext_tail` -/
inductive R | r (n : Nat) | lr | ctr | cr | tmp | npc deriving DecidableEq
/-- `f n`: floating point registers, `fpscr`: floating point status and control register (32 bit; `mffs` and `mtfsf` move it to and from the low half of a floating
point register; modelled with 64 bits, so that these instructions are moves) -/
inductive F | f (n : Nat) | fpscr deriving DecidableEq
/-- `tail`: `ontop_fcontext_tail` of `src/asm/tail_ontop_ppc32_sysv.cpp`; `l1`: the label `1` of `make_fcontext` -/
inductive Lab | finish | trampoline | tail | l1 deriving DecidableEq

def A : Arch := { k := 8, R := R, F := F, Lab := Lab, fb := fun _ => 8 }

abbrev r (n : Nat) : A.R := R.r n
abbrev lr : A.R := R.lr
abbrev ctr : A.R := R.ctr
abbrev cr : A.R := R.cr
abbrev tmp : A.R := R.tmp
abbrev npc : A.R := R.npc
abbrev f (n : Nat) : A.F := F.f n
abbrev fpscr : A.F := F.fpscr

/-- jump_ppc64_sysv_elf_gas.S lines 78-192 -/
def jumpIs : List (Instr A) :=
  [
    .addi (r 1) (r 1) (-off A 0xb8), -- 101
    .st (r 14) (r 1) 0x8, -- 106
    .st (r 15) (r 1) 0x10, -- 107
    .st (r 16) (r 1) 0x18, -- 108
    .st (r 17) (r 1) 0x20, -- 109
    .st (r 18) (r 1) 0x28, -- 110
    .st (r 19) (r 1) 0x30, -- 111
    .st (r 20) (r 1) 0x38, -- 112
    .st (r 21) (r 1) 0x40, -- 113
    .st (r 22) (r 1) 0x48, -- 114
    .st (r 23) (r 1) 0x50, -- 115
    .st (r 24) (r 1) 0x58, -- 116
    .st (r 25) (r 1) 0x60, -- 117
    .st (r 26) (r 1) 0x68, -- 118
    .st (r 27) (r 1) 0x70, -- 119
    .st (r 28) (r 1) 0x78, -- 120
    .st (r 29) (r 1) 0x80, -- 121
    .st (r 30) (r 1) 0x88, -- 122
    .st (r 31) (r 1) 0x90, -- 123
    .mov (r 0) cr, -- 129
    .st (r 0) (r 1) 0xa0, -- 130
    .mov (r 0) lr, -- 132
    .st (r 0) (r 1) 0xa8, -- 133
    .st (r 0) (r 1) 0xb0, -- 135
    .mov (r 6) (r 1), -- 138
    .mov (r 1) (r 3), -- 142
    .ld (r 14) (r 1) 0x8, -- 149
    .ld (r 15) (r 1) 0x10, -- 150
    .ld (r 16) (r 1) 0x18, -- 151
    .ld (r 17) (r 1) 0x20, -- 152
    .ld (r 18) (r 1) 0x28, -- 153
    .ld (r 19) (r 1) 0x30, -- 154
    .ld (r 20) (r 1) 0x38, -- 155
    .ld (r 21) (r 1) 0x40, -- 156
    .ld (r 22) (r 1) 0x48, -- 157
    .ld (r 23) (r 1) 0x50, -- 158
    .ld (r 24) (r 1) 0x58, -- 159
    .ld (r 25) (r 1) 0x60, -- 160
    .ld (r 26) (r 1) 0x68, -- 161
    .ld (r 27) (r 1) 0x70, -- 162
    .ld (r 28) (r 1) 0x78, -- 163
    .ld (r 29) (r 1) 0x80, -- 164
    .ld (r 30) (r 1) 0x88, -- 165
    .ld (r 31) (r 1) 0x90, -- 166
    .ld (r 0) (r 1) 0xa0, -- 172
    .mov cr (r 0), -- 173
    .ld (r 0) (r 1) 0xa8, -- 175
    .mov lr (r 0), -- 176
    .ld (r 12) (r 1) 0xb0, -- 179
    .mov ctr (r 12), -- 181
    .addi (r 1) (r 1) (off A 0xb8), -- 184
    .mov (r 3) (r 6)] -- 188

def jump : Code A := .jmp jumpIs ctr

/-- ontop_ppc64_sysv_elf_gas.S lines 78-210 -/
def ontopIs : List (Instr A) :=
  [
    .addi (r 1) (r 1) (-off A 0xb8), -- 101
    .st (r 14) (r 1) 0x8, -- 106
    .st (r 15) (r 1) 0x10, -- 107
    .st (r 16) (r 1) 0x18, -- 108
    .st (r 17) (r 1) 0x20, -- 109
    .st (r 18) (r 1) 0x28, -- 110
    .st (r 19) (r 1) 0x30, -- 111
    .st (r 20) (r 1) 0x38, -- 112
    .st (r 21) (r 1) 0x40, -- 113
    .st (r 22) (r 1) 0x48, -- 114
    .st (r 23) (r 1) 0x50, -- 115
    .st (r 24) (r 1) 0x58, -- 116
    .st (r 25) (r 1) 0x60, -- 117
    .st (r 26) (r 1) 0x68, -- 118
    .st (r 27) (r 1) 0x70, -- 119
    .st (r 28) (r 1) 0x78, -- 120
    .st (r 29) (r 1) 0x80, -- 121
    .st (r 30) (r 1) 0x88, -- 122
    .st (r 31) (r 1) 0x90, -- 123
    .mov (r 0) cr, -- 129
    .st (r 0) (r 1) 0xa0, -- 130
    .mov (r 0) lr, -- 132
    .st (r 0) (r 1) 0xa8, -- 133
    .st (r 0) (r 1) 0xb0, -- 135
    .mov (r 7) (r 1), -- 138
    .mov (r 1) (r 3), -- 142
    .ld (r 14) (r 1) 0x8, -- 148
    .ld (r 15) (r 1) 0x10, -- 149
    .ld (r 16) (r 1) 0x18, -- 150
    .ld (r 17) (r 1) 0x20, -- 151
    .ld (r 18) (r 1) 0x28, -- 152
    .ld (r 19) (r 1) 0x30, -- 153
    .ld (r 20) (r 1) 0x38, -- 154
    .ld (r 21) (r 1) 0x40, -- 155
    .ld (r 22) (r 1) 0x48, -- 156
    .ld (r 23) (r 1) 0x50, -- 157
    .ld (r 24) (r 1) 0x58, -- 158
    .ld (r 25) (r 1) 0x60, -- 159
    .ld (r 26) (r 1) 0x68, -- 160
    .ld (r 27) (r 1) 0x70, -- 161
    .ld (r 28) (r 1) 0x78, -- 162
    .ld (r 29) (r 1) 0x80, -- 163
    .ld (r 30) (r 1) 0x88, -- 164
    .ld (r 31) (r 1) 0x90, -- 165
    .ld (r 0) (r 1) 0xa0, -- 171
    .mov cr (r 0), -- 172
    .mov ctr (r 5), -- 176
    .mov (r 12) (r 5), -- 179
    .mov (r 3) (r 7), -- 182
    .ld (r 0) (r 1) 0xa8, -- 203
    .mov lr (r 0), -- 204
    .addi (r 1) (r 1) (off A 0xb8)] -- 207

def ontop : Code A := .jmp ontopIs ctr

/-- make_ppc64_sysv_elf_gas.S lines 78-152 -/
def makeIs : List (Instr A) :=
  [
    .mov (r 6) lr, -- 101
    .andi (r 3) (r 3) (mask A 4), -- 105
    .addi (r 3) (r 3) (-off A 0xf8), -- 109
    .st (r 5) (r 3) 0xb0, -- 115
    .movi (r 0) (off A 0), -- 126
    .st (r 0) (r 3) 0xb8, -- 127
    .mov (r 0) lr, -- 135
    .la lr Lab.l1, -- 137
    .mov (r 4) lr, -- 140
    .addl (r 4) Lab.finish Lab.l1, -- 142
    .mov lr (r 0), -- 144
    .st (r 4) (r 3) 0xa8, -- 147
    .mov lr (r 6)] -- 150

def make : Code A := .jmp makeIs lr

end Verif.Asm.Ppc64
