import Verif.Asm.X86_64PeCode

/-!
# x86_64 Windows, PE (MASM): transcription of `/repo/src/asm/{jump,ontop,make}_x86_64_ms_pe_masm.asm`

Generated by `tools/asm2lean.py X86_64PeMasm` from the text of these files; the number behind each instruction is its source line.
-/

namespace Verif.Asm.X86_64PeMasm

open Verif.Asm.X86_64Pe

/-- jump_x86_64_ms_pe_masm.asm lines 87-201 -/
def jumpIs (cfg : Cfg) : List (Instr A) :=
  [
    .addi rsp rsp (-off A 0x118)] -- 91
  ++ (if cfg.tsx then [] else [
    .fst (xmm 6) rsp 0x0, -- 94
    .fst (xmm 7) rsp 0x10, -- 95
    .fst (xmm 8) rsp 0x20, -- 96
    .fst (xmm 9) rsp 0x30, -- 97
    .fst (xmm 10) rsp 0x40, -- 98
    .fst (xmm 11) rsp 0x50, -- 99
    .fst (xmm 12) rsp 0x60, -- 100
    .fst (xmm 13) rsp 0x70, -- 101
    .fst (xmm 14) rsp 0x80, -- 102
    .fst (xmm 15) rsp 0x90, -- 103
    .fst mxcsr rsp 0xa0, -- 105
    .fst x87cw rsp 0xa4] -- 107
    )
  ++ [
    .la r10 Lab.tib, -- 111
    .mfb rax tibFiber r10 Lab.tib, -- 113
    .st rax rsp 0xb0, -- 114
    .mfb rax tibDealloc r10 Lab.tib, -- 116
    .st rax rsp 0xb8, -- 117
    .mfb rax tibLimit r10 Lab.tib, -- 119
    .st rax rsp 0xc0, -- 120
    .mfb rax tibBase r10 Lab.tib, -- 122
    .st rax rsp 0xc8, -- 123
    .st r12 rsp 0xd0, -- 125
    .st r13 rsp 0xd8, -- 126
    .st r14 rsp 0xe0, -- 127
    .st r15 rsp 0xe8, -- 128
    .st rdi rsp 0xf0, -- 129
    .st rsi rsp 0xf8, -- 130
    .st rbx rsp 0x100, -- 131
    .st rbp rsp 0x108, -- 132
    .st rcx rsp 0x110, -- 134
    .mov r9 rsp, -- 137
    .mov rsp rdx] -- 140
  ++ (if cfg.tsx then [] else [
    .fld (xmm 6) rsp 0x0, -- 143
    .fld (xmm 7) rsp 0x10, -- 144
    .fld (xmm 8) rsp 0x20, -- 145
    .fld (xmm 9) rsp 0x30, -- 146
    .fld (xmm 10) rsp 0x40, -- 147
    .fld (xmm 11) rsp 0x50, -- 148
    .fld (xmm 12) rsp 0x60, -- 149
    .fld (xmm 13) rsp 0x70, -- 150
    .fld (xmm 14) rsp 0x80, -- 151
    .fld (xmm 15) rsp 0x90, -- 152
    .fld mxcsr rsp 0xa0, -- 154
    .fld x87cw rsp 0xa4] -- 156
    )
  ++ [
    .la r10 Lab.tib, -- 160
    .ld rax rsp 0xb0, -- 162
    .mtb tibFiber rax r10 Lab.tib, -- 163
    .ld rax rsp 0xb8, -- 165
    .mtb tibDealloc rax r10 Lab.tib, -- 166
    .ld rax rsp 0xc0, -- 168
    .mtb tibLimit rax r10 Lab.tib, -- 169
    .ld rax rsp 0xc8, -- 171
    .mtb tibBase rax r10 Lab.tib, -- 172
    .ld r12 rsp 0xd0, -- 174
    .ld r13 rsp 0xd8, -- 175
    .ld r14 rsp 0xe0, -- 176
    .ld r15 rsp 0xe8, -- 177
    .ld rdi rsp 0xf0, -- 178
    .ld rsi rsp 0xf8, -- 179
    .ld rbx rsp 0x100, -- 180
    .ld rbp rsp 0x108, -- 181
    .ld rax rsp 0x110, -- 183
    .addi rsp rsp (off A 0x118), -- 186
    .ld r10 rsp 0x0, -- 189
    .addi rsp rsp (off A 0x8), -- 189
    .st r9 rax 0x0, -- 193
    .st r8 rax 0x8, -- 195
    .mov rcx rax] -- 198

def jump (cfg : Cfg) : Code A := .jmp (jumpIs cfg) r10

/-- ontop_x86_64_ms_pe_masm.asm lines 87-203 -/
def ontopIs (cfg : Cfg) : List (Instr A) :=
  [
    .addi rsp rsp (-off A 0x118)] -- 91
  ++ (if cfg.tsx then [] else [
    .fst (xmm 6) rsp 0x0, -- 94
    .fst (xmm 7) rsp 0x10, -- 95
    .fst (xmm 8) rsp 0x20, -- 96
    .fst (xmm 9) rsp 0x30, -- 97
    .fst (xmm 10) rsp 0x40, -- 98
    .fst (xmm 11) rsp 0x50, -- 99
    .fst (xmm 12) rsp 0x60, -- 100
    .fst (xmm 13) rsp 0x70, -- 101
    .fst (xmm 14) rsp 0x80, -- 102
    .fst (xmm 15) rsp 0x90, -- 103
    .fst mxcsr rsp 0xa0, -- 105
    .fst x87cw rsp 0xa4] -- 107
    )
  ++ [
    .la r10 Lab.tib, -- 111
    .mfb rax tibFiber r10 Lab.tib, -- 113
    .st rax rsp 0xb0, -- 114
    .mfb rax tibDealloc r10 Lab.tib, -- 116
    .st rax rsp 0xb8, -- 117
    .mfb rax tibLimit r10 Lab.tib, -- 119
    .st rax rsp 0xc0, -- 120
    .mfb rax tibBase r10 Lab.tib, -- 122
    .st rax rsp 0xc8, -- 123
    .st r12 rsp 0xd0, -- 125
    .st r13 rsp 0xd8, -- 126
    .st r14 rsp 0xe0, -- 127
    .st r15 rsp 0xe8, -- 128
    .st rdi rsp 0xf0, -- 129
    .st rsi rsp 0xf8, -- 130
    .st rbx rsp 0x100, -- 131
    .st rbp rsp 0x108, -- 132
    .st rcx rsp 0x110, -- 134
    .mov rcx rsp, -- 137
    .mov rsp rdx] -- 140
  ++ (if cfg.tsx then [] else [
    .fld (xmm 6) rsp 0x0, -- 143
    .fld (xmm 7) rsp 0x10, -- 144
    .fld (xmm 8) rsp 0x20, -- 145
    .fld (xmm 9) rsp 0x30, -- 146
    .fld (xmm 10) rsp 0x40, -- 147
    .fld (xmm 11) rsp 0x50, -- 148
    .fld (xmm 12) rsp 0x60, -- 149
    .fld (xmm 13) rsp 0x70, -- 150
    .fld (xmm 14) rsp 0x80, -- 151
    .fld (xmm 15) rsp 0x90, -- 152
    .fld mxcsr rsp 0xa0, -- 154
    .fld x87cw rsp 0xa4] -- 156
    )
  ++ [
    .la r10 Lab.tib, -- 160
    .ld rax rsp 0xb0, -- 162
    .mtb tibFiber rax r10 Lab.tib, -- 163
    .ld rax rsp 0xb8, -- 165
    .mtb tibDealloc rax r10 Lab.tib, -- 166
    .ld rax rsp 0xc0, -- 168
    .mtb tibLimit rax r10 Lab.tib, -- 169
    .ld rax rsp 0xc8, -- 171
    .mtb tibBase rax r10 Lab.tib, -- 172
    .ld r12 rsp 0xd0, -- 174
    .ld r13 rsp 0xd8, -- 175
    .ld r14 rsp 0xe0, -- 176
    .ld r15 rsp 0xe8, -- 177
    .ld rdi rsp 0xf0, -- 178
    .ld rsi rsp 0xf8, -- 179
    .ld rbx rsp 0x100, -- 180
    .ld rbp rsp 0x108, -- 181
    .ld rax rsp 0x110, -- 183
    .addi rsp rsp (off A 0x118), -- 186
    .st rcx rax 0x0, -- 192
    .st r8 rax 0x8, -- 194
    .mov rcx rax, -- 198
    .mov rdx rax] -- 200

def ontop (cfg : Cfg) : Code A := .jmp (ontopIs cfg) r9

/-- make_x86_64_ms_pe_masm.asm lines 90-147 -/
def makeIs (cfg : Cfg) : List (Instr A) :=
  [
    .mov rax rcx, -- 95
    .andi rax rax (mask A 4), -- 99
    .addi rax rax (-off A 0x150), -- 103
    .st r8 rax 0x100, -- 107
    .st rcx rax 0xc8, -- 111
    .neg rdx rdx, -- 114
    .add rcx rcx rdx, -- 116
    .st rcx rax 0xc0, -- 118
    .st rcx rax 0xb8, -- 120
    .movi rcx (off A 0x0), -- 122
    .st rcx rax 0xb0, -- 123
    .fst mxcsr rax 0xa0, -- 126
    .fst x87cw rax 0xa4, -- 128
    .addi rcx rax (off A 0x140), -- 131
    .st rcx rax 0x110, -- 133
    .la rcx Lab.trampoline, -- 136
    .st rcx rax 0x118, -- 139
    .la rcx Lab.finish, -- 142
    .st rcx rax 0x108, -- 145
    .ld rip rsp 0x0, -- 147
    .addi rsp rsp (off A 0x8)] -- 147

def make (cfg : Cfg) : Code A := .jmp (makeIs cfg) rip

/-- make_x86_64_ms_pe_masm.asm lines 149-154 -/
def trampIs (cfg : Cfg) : List (Instr A) :=
  [
    .addi rsp rsp (-off A 0x8), -- 152
    .st rbp rsp 0x0] -- 152

def tramp (cfg : Cfg) : Code A := .jmp (trampIs cfg) rbx

end Verif.Asm.X86_64PeMasm
