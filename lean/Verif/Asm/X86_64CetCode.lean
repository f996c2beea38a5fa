import Verif.Asm.Lemmas

/-!
# x86_64 SysV, ELF (LP64) with shadow stacks: transcription of `/repo/src/asm/{jump,ontop,make}_x86_64_sysv_elf_gas.S`

Generated by `tools/asm2lean.py X86_64Cet` from the text of these files; the number behind each instruction is its source line.
-/

namespace Verif.Asm.X86_64Cet

/-- general registers; `rip` is the target of `ret`; `ssp` is the shadow stack pointer -/
inductive R | rax | rbx | rcx | rdx | rsi | rdi | rbp | rsp | r8 | r9 | r10 | r11 | r12 | r13 | r14 | r15 | rip | ssp deriving DecidableEq
/-- control words of the floating point units and the stack guard word at `%fs:0x28` -/
inductive F | mxcsr | x87cw | guard deriving DecidableEq
/-- `l1`: the instruction `jmp trampoline` behind `call 1f`; `l2`: the instruction `jmp *%rbp` behind `call 2f` -/
inductive Lab | trampoline | finish | l1 | l2 deriving DecidableEq

def A : Arch := { k := 8, R := R, F := F, Lab := Lab, fb := fun | .mxcsr => 4 | .x87cw => 2 | .guard => 8 }

/-- build options `BOOST_USE_TSX`, `BOOST_CONTEXT_TLS_STACK_PROTECTOR`; shadow stacks (CET) are on, the ABI is LP64 -/
structure Cfg where
  tsx : Bool
  guard : Bool

abbrev rax : A.R := R.rax
abbrev rbx : A.R := R.rbx
abbrev rcx : A.R := R.rcx
abbrev rdx : A.R := R.rdx
abbrev rsi : A.R := R.rsi
abbrev rdi : A.R := R.rdi
abbrev rbp : A.R := R.rbp
abbrev rsp : A.R := R.rsp
abbrev r8 : A.R := R.r8
abbrev r9 : A.R := R.r9
abbrev r10 : A.R := R.r10
abbrev r11 : A.R := R.r11
abbrev r12 : A.R := R.r12
abbrev r13 : A.R := R.r13
abbrev r14 : A.R := R.r14
abbrev r15 : A.R := R.r15
abbrev rip : A.R := R.rip
abbrev ssp : A.R := R.ssp
abbrev mxcsr : A.F := F.mxcsr
abbrev x87cw : A.F := F.x87cw
abbrev guard : A.F := F.guard

/-- Instructions: `i`: those that have nothing to do with shadow stacks; `rdsspq r`; `rstorssp o(b)`; `saveprevssp`; `incsspq r`; `call l`: a call that pushes the label
`l` and continues behind it; `ret`.  The instructions `jmp trampoline` at `l1` and `jmp *%rbp` at `l2` are not in the lists: they are jumped over. -/
inductive CI
  | i (x : Instr A)
  | rdssp (r : A.R)
  | rstorssp (b : A.R) (o : A.W)
  | saveprev
  | incssp (r : A.R)
  | call (l : A.Lab)
  | ret

/-- jump_x86_64_sysv_elf_gas.S lines 50-142 -/
def jumpIs (cfg : Cfg) : List CI :=
  [
    .i (.addi rsp rsp (-off A 0x40))] -- 52
  ++ (if cfg.tsx then [] else [
    .i (.fst mxcsr rsp 0x0), -- 55
    .i (.fst x87cw rsp 0x4)] -- 56
    )
  ++ (if cfg.guard then [
    .i (.mfs rcx guard), -- 60
    .i (.st rcx rsp 0x8)] -- 61
    else [])
  ++ [
    .i (.st r12 rsp 0x10), -- 64
    .i (.st r13 rsp 0x18), -- 65
    .i (.st r14 rsp 0x20), -- 66
    .i (.st r15 rsp 0x28), -- 67
    .i (.st rbx rsp 0x30), -- 68
    .i (.st rbp rsp 0x38), -- 69
    .i (.addi rsp rsp (-off A 0x8)), -- 73
    .rdssp rcx, -- 75
    .i (.st rcx rsp 0x0), -- 76
    .i (.mov rax rsp), -- 80
    .i (.mov rsp rdi), -- 83
    .i (.ld rcx rsp 0x0), -- 87
    .i (.addi rsp rsp (off A 0x8)), -- 88
    .rstorssp rcx (-off A 0x8), -- 91
    .saveprev, -- 94
    .i (.movi rcx (off A 1)), -- 99
    .incssp rcx, -- 100
    .i (.ld r8 rsp 0x40)] -- 103
  ++ (if cfg.tsx then [] else [
    .i (.fld mxcsr rsp 0x0), -- 106
    .i (.fld x87cw rsp 0x4)] -- 107
    )
  ++ (if cfg.guard then [
    .i (.ld rdx rsp 0x8), -- 111
    .i (.mts guard rdx)] -- 112
    else [])
  ++ [
    .i (.ld r12 rsp 0x10), -- 115
    .i (.ld r13 rsp 0x18), -- 116
    .i (.ld r14 rsp 0x20), -- 117
    .i (.ld r15 rsp 0x28), -- 118
    .i (.ld rbx rsp 0x30), -- 119
    .i (.ld rbp rsp 0x38), -- 120
    .i (.addi rsp rsp (off A 0x48)), -- 122
    .i (.mov rdx rsi), -- 127
    .i (.mov rdi rax)] -- 139

/-- ontop_x86_64_sysv_elf_gas.S lines 46-135 -/
def ontopIs (cfg : Cfg) : List CI :=
  [
    .i (.mov r8 rdx), -- 49
    .i (.addi rsp rsp (-off A 0x40))] -- 51
  ++ (if cfg.tsx then [] else [
    .i (.fst mxcsr rsp 0x0), -- 54
    .i (.fst x87cw rsp 0x4)] -- 55
    )
  ++ (if cfg.guard then [
    .i (.mfs rcx guard), -- 59
    .i (.st rcx rsp 0x8)] -- 60
    else [])
  ++ [
    .i (.st r12 rsp 0x10), -- 63
    .i (.st r13 rsp 0x18), -- 64
    .i (.st r14 rsp 0x20), -- 65
    .i (.st r15 rsp 0x28), -- 66
    .i (.st rbx rsp 0x30), -- 67
    .i (.st rbp rsp 0x38), -- 68
    .i (.addi rsp rsp (-off A 0x8)), -- 72
    .rdssp rcx, -- 74
    .i (.st rcx rsp 0x0), -- 75
    .i (.mov rax rsp), -- 79
    .i (.mov rsp rdi), -- 82
    .i (.ld rcx rsp 0x0), -- 86
    .i (.addi rsp rsp (off A 0x8)), -- 87
    .rstorssp rcx (-off A 0x8), -- 90
    .saveprev] -- 93
  ++ (if cfg.tsx then [] else [
    .i (.fld mxcsr rsp 0x0), -- 97
    .i (.fld x87cw rsp 0x4)] -- 98
    )
  ++ (if cfg.guard then [
    .i (.ld rdx rsp 0x8), -- 102
    .i (.mts guard rdx)] -- 103
    else [])
  ++ [
    .i (.ld r12 rsp 0x10), -- 106
    .i (.ld r13 rsp 0x18), -- 107
    .i (.ld r14 rsp 0x20), -- 108
    .i (.ld r15 rsp 0x28), -- 109
    .i (.ld rbx rsp 0x30), -- 110
    .i (.ld rbp rsp 0x38), -- 111
    .i (.addi rsp rsp (off A 0x40)), -- 113
    .i (.mov rdx rsi), -- 118
    .i (.mov rdi rax)] -- 130

/-- make_x86_64_sysv_elf_gas.S lines 50-133 -/
def makeIs (cfg : Cfg) : List CI :=
  [
    .i (.addi r9 rdi (-off A 0x8)), -- 55
    .i (.ld r9 r9 0x0), -- 55
    .i (.mov rax rdi), -- 59
    .i (.andi rax rax (mask A 4)), -- 62
    .i (.addi rax rax (-off A 0x48)), -- 66
    .i (.st rdx rax 0x30), -- 70
    .i (.fst mxcsr rax 0x0), -- 73
    .i (.fst x87cw rax 0x4)] -- 75
  ++ (if cfg.guard then [
    .i (.mfs rcx guard), -- 79
    .i (.st rcx rsp 0x8)] -- 80
    else [])
  ++ [
    .i (.la rcx Lab.trampoline), -- 84
    .i (.st rcx rax 0x40), -- 87
    .i (.la rcx Lab.finish), -- 90
    .i (.st rcx rax 0x38), -- 93
    .rdssp r8, -- 99
    .rstorssp r9 (-off A 0x8), -- 101
    .saveprev, -- 103
    .call Lab.l1, -- 106
    .i (.ld rip rsp 0x0), -- 111
    .i (.addi rsp rsp (off A 0x8)), -- 111
    .i (.st rip rax 0x38), -- 111
    .rdssp r9, -- 113
    .rstorssp r8 (-off A 0x8), -- 115
    .saveprev, -- 117
    .i (.addi rax rax (-off A 0x8)), -- 128
    .i (.st r9 rax 0x0), -- 130
    .ret] -- 133

/-- make_x86_64_sysv_elf_gas.S lines 135-149 -/
def trampIs (cfg : Cfg) : List CI :=
  [
    .call Lab.l2] -- 142

end Verif.Asm.X86_64Cet
