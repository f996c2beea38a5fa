import Verif.Asm.X86_64PeCode

/-!
# x86_64 Windows, PE (clang): transcription of `/repo/src/asm/{jump,ontop,make}_x86_64_ms_pe_clang_gas.S`

Generated by `tools/asm2lean.py X86_64PeClang` from the text of these files; the number behind each instruction is its source line.
-/

namespace Verif.Asm.X86_64PeClang

open Verif.Asm.X86_64Pe

/-- jump_x86_64_ms_pe_clang_gas.S lines 95-205 -/
def jumpIs (cfg : Cfg) : List (Instr A) :=
  [
    .addi rsp rsp (-off A 0x118)] -- 98
  ++ (if cfg.tsx then [] else [
    .fst (xmm 6) rsp 0x0, -- 102
    .fst (xmm 7) rsp 0x10, -- 103
    .fst (xmm 8) rsp 0x20, -- 104
    .fst (xmm 9) rsp 0x30, -- 105
    .fst (xmm 10) rsp 0x40, -- 106
    .fst (xmm 11) rsp 0x50, -- 107
    .fst (xmm 12) rsp 0x60, -- 108
    .fst (xmm 13) rsp 0x70, -- 109
    .fst (xmm 14) rsp 0x80, -- 110
    .fst (xmm 15) rsp 0x90, -- 111
    .fst mxcsr rsp 0xa0, -- 112
    .fst x87cw rsp 0xa4] -- 113
    )
  ++ [
    .la r10 Lab.tib, -- 117
    .mfb rax tibFiber r10 Lab.tib, -- 119
    .st rax rsp 0xb0, -- 120
    .mfb rax tibDealloc r10 Lab.tib, -- 122
    .st rax rsp 0xb8, -- 123
    .mfb rax tibLimit r10 Lab.tib, -- 125
    .st rax rsp 0xc0, -- 126
    .mfb rax tibBase r10 Lab.tib, -- 128
    .st rax rsp 0xc8, -- 129
    .st r12 rsp 0xd0, -- 131
    .st r13 rsp 0xd8, -- 132
    .st r14 rsp 0xe0, -- 133
    .st r15 rsp 0xe8, -- 134
    .st rdi rsp 0xf0, -- 135
    .st rsi rsp 0xf8, -- 136
    .st rbx rsp 0x100, -- 137
    .st rbp rsp 0x108, -- 138
    .st rcx rsp 0x110, -- 140
    .mov r9 rsp, -- 143
    .mov rsp rdx] -- 146
  ++ (if cfg.tsx then [] else [
    .fld (xmm 6) rsp 0x0, -- 150
    .fld (xmm 7) rsp 0x10, -- 151
    .fld (xmm 8) rsp 0x20, -- 152
    .fld (xmm 9) rsp 0x30, -- 153
    .fld (xmm 10) rsp 0x40, -- 154
    .fld (xmm 11) rsp 0x50, -- 155
    .fld (xmm 12) rsp 0x60, -- 156
    .fld (xmm 13) rsp 0x70, -- 157
    .fld (xmm 14) rsp 0x80, -- 158
    .fld (xmm 15) rsp 0x90, -- 159
    .fld mxcsr rsp 0xa0, -- 160
    .fld x87cw rsp 0xa4] -- 161
    )
  ++ [
    .la r10 Lab.tib, -- 165
    .ld rax rsp 0xb0, -- 167
    .mtb tibFiber rax r10 Lab.tib, -- 168
    .ld rax rsp 0xb8, -- 170
    .mtb tibDealloc rax r10 Lab.tib, -- 171
    .ld rax rsp 0xc0, -- 173
    .mtb tibLimit rax r10 Lab.tib, -- 174
    .ld rax rsp 0xc8, -- 176
    .mtb tibBase rax r10 Lab.tib, -- 177
    .ld r12 rsp 0xd0, -- 179
    .ld r13 rsp 0xd8, -- 180
    .ld r14 rsp 0xe0, -- 181
    .ld r15 rsp 0xe8, -- 182
    .ld rdi rsp 0xf0, -- 183
    .ld rsi rsp 0xf8, -- 184
    .ld rbx rsp 0x100, -- 185
    .ld rbp rsp 0x108, -- 186
    .ld rax rsp 0x110, -- 188
    .addi rsp rsp (off A 0x118), -- 190
    .ld r10 rsp 0x0, -- 193
    .addi rsp rsp (off A 0x8), -- 193
    .st r9 rax 0x0, -- 197
    .st r8 rax 0x8, -- 199
    .mov rcx rax] -- 202

def jump (cfg : Cfg) : Code A := .jmp (jumpIs cfg) r10

/-- ontop_x86_64_ms_pe_clang_gas.S lines 95-207 -/
def ontopIs (cfg : Cfg) : List (Instr A) :=
  [
    .addi rsp rsp (-off A 0x118)] -- 98
  ++ (if cfg.tsx then [] else [
    .fst (xmm 6) rsp 0x0, -- 102
    .fst (xmm 7) rsp 0x10, -- 103
    .fst (xmm 8) rsp 0x20, -- 104
    .fst (xmm 9) rsp 0x30, -- 105
    .fst (xmm 10) rsp 0x40, -- 106
    .fst (xmm 11) rsp 0x50, -- 107
    .fst (xmm 12) rsp 0x60, -- 108
    .fst (xmm 13) rsp 0x70, -- 109
    .fst (xmm 14) rsp 0x80, -- 110
    .fst (xmm 15) rsp 0x90, -- 111
    .fst mxcsr rsp 0xa0, -- 112
    .fst x87cw rsp 0xa4] -- 113
    )
  ++ [
    .la r10 Lab.tib, -- 117
    .mfb rax tibFiber r10 Lab.tib, -- 119
    .st rax rsp 0xb0, -- 120
    .mfb rax tibDealloc r10 Lab.tib, -- 122
    .st rax rsp 0xb8, -- 123
    .mfb rax tibLimit r10 Lab.tib, -- 125
    .st rax rsp 0xc0, -- 126
    .mfb rax tibBase r10 Lab.tib, -- 128
    .st rax rsp 0xc8, -- 129
    .st r12 rsp 0xd0, -- 131
    .st r13 rsp 0xd8, -- 132
    .st r14 rsp 0xe0, -- 133
    .st r15 rsp 0xe8, -- 134
    .st rdi rsp 0xf0, -- 135
    .st rsi rsp 0xf8, -- 136
    .st rbx rsp 0x100, -- 137
    .st rbp rsp 0x108, -- 138
    .st rcx rsp 0x110, -- 140
    .mov rcx rsp, -- 143
    .mov rsp rdx] -- 146
  ++ (if cfg.tsx then [] else [
    .fld (xmm 6) rsp 0x0, -- 150
    .fld (xmm 7) rsp 0x10, -- 151
    .fld (xmm 8) rsp 0x20, -- 152
    .fld (xmm 9) rsp 0x30, -- 153
    .fld (xmm 10) rsp 0x40, -- 154
    .fld (xmm 11) rsp 0x50, -- 155
    .fld (xmm 12) rsp 0x60, -- 156
    .fld (xmm 13) rsp 0x70, -- 157
    .fld (xmm 14) rsp 0x80, -- 158
    .fld (xmm 15) rsp 0x90, -- 159
    .fld mxcsr rsp 0xa0, -- 160
    .fld x87cw rsp 0xa4] -- 161
    )
  ++ [
    .la r10 Lab.tib, -- 165
    .ld rax rsp 0xb0, -- 167
    .mtb tibFiber rax r10 Lab.tib, -- 168
    .ld rax rsp 0xb8, -- 170
    .mtb tibDealloc rax r10 Lab.tib, -- 171
    .ld rax rsp 0xc0, -- 173
    .mtb tibLimit rax r10 Lab.tib, -- 174
    .ld rax rsp 0xc8, -- 176
    .mtb tibBase rax r10 Lab.tib, -- 177
    .ld r12 rsp 0xd0, -- 179
    .ld r13 rsp 0xd8, -- 180
    .ld r14 rsp 0xe0, -- 181
    .ld r15 rsp 0xe8, -- 182
    .ld rdi rsp 0xf0, -- 183
    .ld rsi rsp 0xf8, -- 184
    .ld rbx rsp 0x100, -- 185
    .ld rbp rsp 0x108, -- 186
    .ld rax rsp 0x110, -- 188
    .addi rsp rsp (off A 0x118), -- 190
    .st rcx rax 0x0, -- 196
    .st r8 rax 0x8, -- 198
    .mov rcx rax, -- 202
    .mov rdx rax] -- 204

def ontop (cfg : Cfg) : Code A := .jmp (ontopIs cfg) r9

/-- make_x86_64_ms_pe_clang_gas.S lines 95-150 -/
def makeIs (cfg : Cfg) : List (Instr A) :=
  [
    .mov rax rcx, -- 99
    .andi rax rax (mask A 4), -- 103
    .addi rax rax (-off A 0x150), -- 107
    .st r8 rax 0x100, -- 110
    .st rcx rax 0xc8, -- 114
    .neg rdx rdx, -- 117
    .add rcx rcx rdx, -- 119
    .st rcx rax 0xc0, -- 121
    .st rcx rax 0xb8, -- 123
    .movi rcx (off A 0x0), -- 125
    .st rcx rax 0xb0, -- 126
    .fst mxcsr rax 0xa0, -- 129
    .fst x87cw rax 0xa4, -- 131
    .addi rcx rax (off A 0x140), -- 134
    .st rcx rax 0x110, -- 136
    .la rcx Lab.trampoline, -- 139
    .st rcx rax 0x118, -- 142
    .la rcx Lab.finish, -- 145
    .st rcx rax 0x108, -- 148
    .ld rip rsp 0x0, -- 150
    .addi rsp rsp (off A 0x8)] -- 150

def make (cfg : Cfg) : Code A := .jmp (makeIs cfg) rip

/-- make_x86_64_ms_pe_clang_gas.S lines 152-157 -/
def trampIs (cfg : Cfg) : List (Instr A) :=
  [
    .addi rsp rsp (-off A 0x8), -- 155
    .st rbp rsp 0x0] -- 155

def tramp (cfg : Cfg) : Code A := .jmp (trampIs cfg) rbx

end Verif.Asm.X86_64PeClang
