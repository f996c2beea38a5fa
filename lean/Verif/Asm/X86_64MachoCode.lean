import Verif.Asm.Lemmas

/-!
# x86_64 SysV, Mach-O: transcription of `/repo/src/asm/{jump,ontop,make}_x86_64_sysv_macho_gas.S`

Generated by `tools/asm2lean.py X86_64Macho` from the text of these files; the number behind each instruction is its source line.
-/

namespace Verif.Asm.X86_64Macho

/-- general registers; `rip` is the target of `ret` (`ret` is `rip := [rsp]; rsp += 8; jump to rip`) -/
inductive R | rax | rbx | rcx | rdx | rsi | rdi | rbp | rsp | r8 | r9 | r10 | r11 | r12 | r13 | r14 | r15 | rip deriving DecidableEq
/-- control words of the floating point units -/
inductive F | mxcsr | x87cw deriving DecidableEq
inductive Lab | trampoline | finish deriving DecidableEq

def A : Arch := { k := 8, R := R, F := F, Lab := Lab, fb := fun | .mxcsr => 4 | .x87cw => 2 }

/-- build option `BOOST_USE_TSX` -/
structure Cfg where
  tsx : Bool

abbrev rax : A.R := R.rax
abbrev rbx : A.R := R.rbx
abbrev rcx : A.R := R.rcx
abbrev rdx : A.R := R.rdx
abbrev rsi : A.R := R.rsi
abbrev rdi : A.R := R.rdi
abbrev rbp : A.R := R.rbp
abbrev rsp : A.R := R.rsp
abbrev r8 : A.R := R.r8
abbrev r9 : A.R := R.r9
abbrev r10 : A.R := R.r10
abbrev r11 : A.R := R.r11
abbrev r12 : A.R := R.r12
abbrev r13 : A.R := R.r13
abbrev r14 : A.R := R.r14
abbrev r15 : A.R := R.r15
abbrev rip : A.R := R.rip
abbrev mxcsr : A.F := F.mxcsr
abbrev x87cw : A.F := F.x87cw

/-- jump_x86_64_sysv_macho_gas.S lines 31-76 -/
def jumpIs (cfg : Cfg) : List (Instr A) :=
  [
    .addi rsp rsp (-off A 0x38)] -- 32
  ++ (if cfg.tsx then [] else [
    .fst mxcsr rsp 0x0, -- 35
    .fst x87cw rsp 0x4] -- 36
    )
  ++ [
    .st r12 rsp 0x8, -- 39
    .st r13 rsp 0x10, -- 40
    .st r14 rsp 0x18, -- 41
    .st r15 rsp 0x20, -- 42
    .st rbx rsp 0x28, -- 43
    .st rbp rsp 0x30, -- 44
    .mov rax rsp, -- 47
    .mov rsp rdi, -- 50
    .ld r8 rsp 0x38] -- 52
  ++ (if cfg.tsx then [] else [
    .fld mxcsr rsp 0x0, -- 55
    .fld x87cw rsp 0x4] -- 56
    )
  ++ [
    .ld r12 rsp 0x8, -- 59
    .ld r13 rsp 0x10, -- 60
    .ld r14 rsp 0x18, -- 61
    .ld r15 rsp 0x20, -- 62
    .ld rbx rsp 0x28, -- 63
    .ld rbp rsp 0x30, -- 64
    .addi rsp rsp (off A 0x40), -- 66
    .mov rdx rsi, -- 70
    .mov rdi rax] -- 73

def jump (cfg : Cfg) : Code A := .jmp (jumpIs cfg) r8

/-- ontop_x86_64_sysv_macho_gas.S lines 31-79 -/
def ontopIs (cfg : Cfg) : List (Instr A) :=
  [
    .mov r8 rdx, -- 33
    .addi rsp rsp (-off A 0x38)] -- 35
  ++ (if cfg.tsx then [] else [
    .fst mxcsr rsp 0x0, -- 38
    .fst x87cw rsp 0x4] -- 39
    )
  ++ [
    .st r12 rsp 0x8, -- 42
    .st r13 rsp 0x10, -- 43
    .st r14 rsp 0x18, -- 44
    .st r15 rsp 0x20, -- 45
    .st rbx rsp 0x28, -- 46
    .st rbp rsp 0x30, -- 47
    .mov rax rsp, -- 50
    .mov rsp rdi] -- 53
  ++ (if cfg.tsx then [] else [
    .fld mxcsr rsp 0x0, -- 56
    .fld x87cw rsp 0x4] -- 57
    )
  ++ [
    .ld r12 rsp 0x8, -- 60
    .ld r13 rsp 0x10, -- 61
    .ld r14 rsp 0x18, -- 62
    .ld r15 rsp 0x20, -- 63
    .ld rbx rsp 0x28, -- 64
    .ld rbp rsp 0x30, -- 65
    .addi rsp rsp (off A 0x38), -- 67
    .mov rdx rsi, -- 71
    .mov rdi rax] -- 74

def ontop (cfg : Cfg) : Code A := .jmp (ontopIs cfg) r8

/-- make_x86_64_sysv_macho_gas.S lines 31-63 -/
def makeIs (cfg : Cfg) : List (Instr A) :=
  [
    .mov rax rdi, -- 33
    .andi rax rax (mask A 4), -- 36
    .addi rax rax (-off A 0x40), -- 40
    .st rdx rax 0x28, -- 44
    .fst mxcsr rax 0x0, -- 47
    .fst x87cw rax 0x4, -- 49
    .la rcx Lab.trampoline, -- 52
    .st rcx rax 0x38, -- 55
    .la rcx Lab.finish, -- 58
    .st rcx rax 0x30, -- 61
    .ld rip rsp 0x0, -- 63
    .addi rsp rsp (off A 0x8)] -- 63

def make (cfg : Cfg) : Code A := .jmp (makeIs cfg) rip

/-- make_x86_64_sysv_macho_gas.S lines 65-70 -/
def trampIs (cfg : Cfg) : List (Instr A) :=
  [
    .addi rsp rsp (-off A 0x8), -- 68
    .st rbp rsp 0x0] -- 68

def tramp (cfg : Cfg) : Code A := .jmp (trampIs cfg) rbx

end Verif.Asm.X86_64Macho
