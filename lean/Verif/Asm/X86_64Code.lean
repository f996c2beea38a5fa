import Verif.Asm.Lemmas

/-!
# x86_64 SysV, ELF (LP64): transcription of `/repo/src/asm/{jump,ontop,make}_x86_64_sysv_elf_gas.S`

Generated by `tools/asm2lean.py X86_64` from the text of these files; the number behind each instruction is its source line.
-/

namespace Verif.Asm.X86_64

/-- general registers; `rip` is the target of `ret` (`ret` is `rip := [rsp]; rsp += 8; jump to rip`) -/
inductive R | rax | rbx | rcx | rdx | rsi | rdi | rbp | rsp | r8 | r9 | r10 | r11 | r12 | r13 | r14 | r15 | rip deriving DecidableEq
/-- control words of the floating point units and the stack guard word at `%fs:0x28` -/
inductive F | mxcsr | x87cw | guard deriving DecidableEq
inductive Lab | trampoline | finish deriving DecidableEq

def A : Arch := { k := 8, R := R, F := F, Lab := Lab, fb := fun | .mxcsr => 4 | .x87cw => 2 | .guard => 8 }

/-- build options `BOOST_USE_TSX`, `BOOST_CONTEXT_TLS_STACK_PROTECTOR`; shadow stacks (CET) are off, the ABI is LP64 -/
structure Cfg where
  tsx : Bool
  guard : Bool

abbrev rax : A.R := R.rax
abbrev rbx : A.R := R.rbx
abbrev rcx : A.R := R.rcx
abbrev rdx : A.R := R.rdx
abbrev rsi : A.R := R.rsi
abbrev rdi : A.R := R.rdi
abbrev rbp : A.R := R.rbp
abbrev rsp : A.R := R.rsp
abbrev r8 : A.R := R.r8
abbrev r9 : A.R := R.r9
abbrev r10 : A.R := R.r10
abbrev r11 : A.R := R.r11
abbrev r12 : A.R := R.r12
abbrev r13 : A.R := R.r13
abbrev r14 : A.R := R.r14
abbrev r15 : A.R := R.r15
abbrev rip : A.R := R.rip
abbrev mxcsr : A.F := F.mxcsr
abbrev x87cw : A.F := F.x87cw
abbrev guard : A.F := F.guard

/-- jump_x86_64_sysv_elf_gas.S lines 50-142 -/
def jumpIs (cfg : Cfg) : List (Instr A) :=
  [
    .addi rsp rsp (-off A 0x40)] -- 52
  ++ (if cfg.tsx then [] else [
    .fst mxcsr rsp 0x0, -- 55
    .fst x87cw rsp 0x4] -- 56
    )
  ++ (if cfg.guard then [
    .mfs rcx guard, -- 60
    .st rcx rsp 0x8] -- 61
    else [])
  ++ [
    .st r12 rsp 0x10, -- 64
    .st r13 rsp 0x18, -- 65
    .st r14 rsp 0x20, -- 66
    .st r15 rsp 0x28, -- 67
    .st rbx rsp 0x30, -- 68
    .st rbp rsp 0x38, -- 69
    .mov rax rsp, -- 80
    .mov rsp rdi, -- 83
    .ld r8 rsp 0x40] -- 103
  ++ (if cfg.tsx then [] else [
    .fld mxcsr rsp 0x0, -- 106
    .fld x87cw rsp 0x4] -- 107
    )
  ++ (if cfg.guard then [
    .ld rdx rsp 0x8, -- 111
    .mts guard rdx] -- 112
    else [])
  ++ [
    .ld r12 rsp 0x10, -- 115
    .ld r13 rsp 0x18, -- 116
    .ld r14 rsp 0x20, -- 117
    .ld r15 rsp 0x28, -- 118
    .ld rbx rsp 0x30, -- 119
    .ld rbp rsp 0x38, -- 120
    .addi rsp rsp (off A 0x48), -- 122
    .mov rdx rsi, -- 127
    .mov rdi rax] -- 139

def jump (cfg : Cfg) : Code A := .jmp (jumpIs cfg) r8

/-- ontop_x86_64_sysv_elf_gas.S lines 46-135 -/
def ontopIs (cfg : Cfg) : List (Instr A) :=
  [
    .mov r8 rdx, -- 49
    .addi rsp rsp (-off A 0x40)] -- 51
  ++ (if cfg.tsx then [] else [
    .fst mxcsr rsp 0x0, -- 54
    .fst x87cw rsp 0x4] -- 55
    )
  ++ (if cfg.guard then [
    .mfs rcx guard, -- 59
    .st rcx rsp 0x8] -- 60
    else [])
  ++ [
    .st r12 rsp 0x10, -- 63
    .st r13 rsp 0x18, -- 64
    .st r14 rsp 0x20, -- 65
    .st r15 rsp 0x28, -- 66
    .st rbx rsp 0x30, -- 67
    .st rbp rsp 0x38, -- 68
    .mov rax rsp, -- 79
    .mov rsp rdi] -- 82
  ++ (if cfg.tsx then [] else [
    .fld mxcsr rsp 0x0, -- 97
    .fld x87cw rsp 0x4] -- 98
    )
  ++ (if cfg.guard then [
    .ld rdx rsp 0x8, -- 102
    .mts guard rdx] -- 103
    else [])
  ++ [
    .ld r12 rsp 0x10, -- 106
    .ld r13 rsp 0x18, -- 107
    .ld r14 rsp 0x20, -- 108
    .ld r15 rsp 0x28, -- 109
    .ld rbx rsp 0x30, -- 110
    .ld rbp rsp 0x38, -- 111
    .addi rsp rsp (off A 0x40), -- 113
    .mov rdx rsi, -- 118
    .mov rdi rax] -- 130

def ontop (cfg : Cfg) : Code A := .jmp (ontopIs cfg) r8

/-- make_x86_64_sysv_elf_gas.S lines 50-133 -/
def makeIs (cfg : Cfg) : List (Instr A) :=
  [
    .mov rax rdi, -- 59
    .andi rax rax (mask A 4), -- 62
    .addi rax rax (-off A 0x48), -- 66
    .st rdx rax 0x30, -- 70
    .fst mxcsr rax 0x0, -- 73
    .fst x87cw rax 0x4] -- 75
  ++ (if cfg.guard then [
    .mfs rcx guard, -- 79
    .st rcx rsp 0x8] -- 80
    else [])
  ++ [
    .la rcx Lab.trampoline, -- 84
    .st rcx rax 0x40, -- 87
    .la rcx Lab.finish, -- 90
    .st rcx rax 0x38, -- 93
    .ld rip rsp 0x0, -- 133
    .addi rsp rsp (off A 0x8)] -- 133

def make (cfg : Cfg) : Code A := .jmp (makeIs cfg) rip

/-- make_x86_64_sysv_elf_gas.S lines 135-149 -/
def trampIs (cfg : Cfg) : List (Instr A) :=
  [
    .addi rsp rsp (-off A 0x8), -- 146
    .st rbp rsp 0x0] -- 146

def tramp (cfg : Cfg) : Code A := .jmp (trampIs cfg) rbx

end Verif.Asm.X86_64
