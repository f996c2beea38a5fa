#!/usr/bin/env python3
"""Transcribes the routines of /repo/src/asm/*.S into instruction lists of Verif.Asm.Machine.
usage: asm2lean.py <arch>  ->  writes lean/Verif/Asm/<Arch>Code.lean
Every emitted instruction carries the line of the .S file it comes from.  Anything not recognised is an error."""
import re, sys
SRC='/repo/src/asm/'
def num(s):
    s=s.strip()
    neg=s.startswith('-'); s=s.lstrip('-')
    v=int(s,0) if s else 0
    return -v if neg else v
def imm(s):
    v=num(s); return f'(off A {hex(v)})' if v>=0 else f'(-off A {hex(-v)})'
ARCH={}
# --- arm64 ---
def a64(l):
    def r(x): return 'sp' if x=='sp' else f'(x {x[1:]})'
    def f(x): return f'(d {x[1:]})'
    if m:=re.fullmatch(r'(sub|add) (\w+), (\w+), #(\w+)',l):
        return [f'.addi {r(m[2])} {r(m[3])} {imm(("-" if m[1]=="sub" else "")+m[4])}']
    if m:=re.fullmatch(r'stp (d\d+), (d\d+), \[(\w+), #(\w+)\]',l): return [f'.fst {f(m[1])} {r(m[3])} {hex(num(m[4]))}',f'.fst {f(m[2])} {r(m[3])} {hex(num(m[4])+8)}']
    if m:=re.fullmatch(r'ldp (d\d+), (d\d+), \[(\w+), #(\w+)\]',l): return [f'.fld {f(m[1])} {r(m[3])} {hex(num(m[4]))}',f'.fld {f(m[2])} {r(m[3])} {hex(num(m[4])+8)}']
    if m:=re.fullmatch(r'stp (x\d+), (x\d+), \[(\w+), #(\w+)\]',l): return [f'.st {r(m[1])} {r(m[3])} {hex(num(m[4]))}',f'.st {r(m[2])} {r(m[3])} {hex(num(m[4])+8)}']
    if m:=re.fullmatch(r'ldp (x\d+), (x\d+), \[(\w+), #(\w+)\]',l): return [f'.ld {r(m[1])} {r(m[3])} {hex(num(m[4]))}',f'.ld {r(m[2])} {r(m[3])} {hex(num(m[4])+8)}']
    if m:=re.fullmatch(r'str (x\d+), \[(\w+), #(\w+)\]',l): return [f'.st {r(m[1])} {r(m[2])} {hex(num(m[3]))}']
    if m:=re.fullmatch(r'ldr (x\d+), \[(\w+), #(\w+)\]',l): return [f'.ld {r(m[1])} {r(m[2])} {hex(num(m[3]))}']
    if m:=re.fullmatch(r'mov (\w+), (\w+)',l): return [f'.mov {r(m[1])} {r(m[2])}']
    if m:=re.fullmatch(r'and (\w+), (\w+), ~0xF',l): return [f'.andi {r(m[1])} {r(m[2])} (mask A 4)']
    if m:=re.fullmatch(r'adr (\w+), finish',l): return [f'.la {r(m[1])} Lab.finish']
    if m:=re.fullmatch(r'ret (\w+)',l): return ('end',r(m[1]))
ARCH['Arm64']=dict(abi='arm64_aapcs_elf',title='ARM64 AAPCS, ELF',f=a64,cond={},head='''/-- `x n` = Xn (n ≤ 30, X30 = LR), `sp` -/
inductive R | x (n : Nat) | sp deriving DecidableEq
/-- `d n`: low 64 bits of Vn -/
inductive F | d (n : Nat) deriving DecidableEq
inductive Lab | finish deriving DecidableEq

def A : Arch := { k := 8, R := R, F := F, Lab := Lab, fb := fun _ => 8 }

abbrev x (n : Nat) : A.R := R.x n
abbrev sp : A.R := R.sp
abbrev d (n : Nat) : A.F := F.d n''')
# --- riscv64 ---
def rv(l):
    if m:=re.fullmatch(r'addi (\w+), (\w+), (-?\w+)',l): return [f'.addi {m[1]} {m[2]} {imm(m[3])}']
    if m:=re.fullmatch(r'(fsd|fld) fs(\d+), (\w+)\((\w+)\)',l): return [f'.{"fst" if m[1]=="fsd" else "fld"} (fs {m[2]}) {m[4]} {hex(num(m[3]))}']
    if m:=re.fullmatch(r'(sd|ld) (\w+), (\w+)\((\w+)\)',l):
        return [f'.{"st" if m[1]=="sd" else "ld"} {rvr(m[2])} {rvr(m[4])} {hex(num(m[3]))}']
    if m:=re.fullmatch(r'mv (\w+), (\w+)',l): return [f'.mov {rvr(m[1])} {rvr(m[2])}']
    if m:=re.fullmatch(r'andi (\w+), (\w+), ~0xF',l): return [f'.andi {rvr(m[1])} {rvr(m[2])} (mask A 4)']
    if m:=re.fullmatch(r'lla (\w+), finish',l): return [f'.la {rvr(m[1])} Lab.finish']
    if m:=re.fullmatch(r'jr (\w+)',l): return ('end',rvr(m[1]))
    if re.fullmatch(r'ret.*',l): return ('end','ra')
def rvr(x):
    if x in('sp','ra','fp','gp','zero'): return x
    m=re.fullmatch(r'([savt])(\d+)',x); return f'({m[1]} {m[2]})'
def rv1(l):
    r=rv(l)
    return [re.sub(r'\.addi (\w+) (\w+) ',lambda m:f'.addi {rvr(m[1])} {rvr(m[2])} ',i) for i in r] if isinstance(r,list) else r
ARCH['RiscV64']=dict(abi='riscv64_sysv_elf',title='RISC-V 64 SysV, ELF',f=rv1,cond={},head='''/-- `a n`, `s n`: argument and saved registers, `ra`: return address, `sp` -/
inductive R | a (n : Nat) | s (n : Nat) | ra | sp deriving DecidableEq
/-- `fs n`: saved floating point registers -/
inductive F | fs (n : Nat) deriving DecidableEq
inductive Lab | finish deriving DecidableEq

def A : Arch := { k := 8, R := R, F := F, Lab := Lab, fb := fun _ => 8 }

abbrev a (n : Nat) : A.R := R.a n
abbrev s (n : Nat) : A.R := R.s n
abbrev sp : A.R := R.sp
abbrev ra : A.R := R.ra
abbrev fs (n : Nat) : A.F := F.fs n''')
# --- loongarch64 ---
def la(l):
    l=l.replace('$','')
    if m:=re.fullmatch(r'addi.d (\w+), (\w+), (-?\w+)',l): return [f'.addi {rvr(m[1])} {rvr(m[2])} {imm(m[3])}']
    if m:=re.fullmatch(r'(fst|fld).d fs(\d+), (\w+), (\w+)',l): return [f'.{m[1]} (fs {m[2]}) {rvr(m[3])} {hex(num(m[4]))}']
    if m:=re.fullmatch(r'(st|ld).d (\w+), (\w+), (\w+)',l): return [f'.{m[1]} {rvr(m[2])} {rvr(m[3])} {hex(num(m[4]))}']
    if m:=re.fullmatch(r'move (\w+), (\w+)',l): return [f'.mov {rvr(m[1])} {rvr(m[2])}']
    if m:=re.fullmatch(r'bstrins.d (\w+), zero, 3, 0',l): return [f'.andi {rvr(m[1])} {rvr(m[1])} (mask A 4)']
    if m:=re.fullmatch(r'la.local (\w+), finish',l): return [f'.la {rvr(m[1])} Lab.finish']
    if m:=re.fullmatch(r'jr (\w+)',l): return ('end',rvr(m[1]))
ARCH['LoongArch64']=dict(abi='loongarch64_sysv_elf',title='LoongArch64 SysV, ELF',f=la,cond={},head='''/-- `a n`, `s n`: argument and saved registers, `fp`, `ra`: return address, `sp` -/
inductive R | a (n : Nat) | s (n : Nat) | fp | ra | sp deriving DecidableEq
/-- `fs n`: saved floating point registers -/
inductive F | fs (n : Nat) deriving DecidableEq
inductive Lab | finish deriving DecidableEq

def A : Arch := { k := 8, R := R, F := F, Lab := Lab, fb := fun _ => 8 }

abbrev a (n : Nat) : A.R := R.a n
abbrev s (n : Nat) : A.R := R.s n
abbrev sp : A.R := R.sp
abbrev fp : A.R := R.fp
abbrev ra : A.R := R.ra
abbrev fs (n : Nat) : A.F := F.fs n''')
# --- mips64 ---
def mips(l):
    l=l.replace('$','')
    if l.startswith('.set') or l.startswith('.cpload') or l.startswith('.set'): return []
    if m:=re.fullmatch(r'd?addiu (\w+), (\w+), (-?\w+)',l): return [f'.addi {rvr(m[1])} {rvr(m[2])} {imm(m[3])}']
    if m:=re.fullmatch(r'(s|l)\.d f(\d+), ?(\w*)\((\w+)\)',l): return [f'.{"fst" if m[1]=="s" else "fld"} (f {m[2]}) {rvr(m[4])} {hex(num(m[3]))}']
    if m:=re.fullmatch(r'(sd|ld|sw|lw) (\w+), ?(\w*)\((\w+)\)',l): return [f'.{"st" if m[1][0]=="s" else "ld"} {rvr(m[2])} {rvr(m[4])} {hex(num(m[3]))}']
    if m:=re.fullmatch(r'move (\w+), (\w+)',l): return [f'.mov {rvr(m[1])} {rvr(m[2])}']
    if m:=re.fullmatch(r'li (\w+), 0xfffffffffffffff0',l): return [f'.movi {rvr(m[1])} (mask A 4)']
    if m:=re.fullmatch(r'li (\w+), -16.*',l): return [f'.movi {rvr(m[1])} (mask A 4)']
    if m:=re.fullmatch(r'and (\w+), (\w+), (\w+)',l): return [f'.and {rvr(m[1])} {rvr(m[2])} {rvr(m[3])}']
    if m:=re.fullmatch(r'd?la (\w+), finish',l): return [f'.la {rvr(m[1])} Lab.finish']
    if m:=re.fullmatch(r'jr (\w+).*',l): return ('end',rvr(m[1]))
MHEAD='''/-- general registers by their ABI names -/
inductive R | a (n : Nat) | s (n : Nat) | t (n : Nat) | v (n : Nat) | fp | gp | ra | sp deriving DecidableEq
/-- `f n`: floating point registers -/
inductive F | f (n : Nat) deriving DecidableEq
inductive Lab | finish deriving DecidableEq

def A : Arch := { k := %d, R := R, F := F, Lab := Lab, fb := fun _ => 8 }

abbrev a (n : Nat) : A.R := R.a n
abbrev s (n : Nat) : A.R := R.s n
abbrev t (n : Nat) : A.R := R.t n
abbrev v (n : Nat) : A.R := R.v n
abbrev sp : A.R := R.sp
abbrev fp : A.R := R.fp
abbrev gp : A.R := R.gp
abbrev ra : A.R := R.ra
abbrev f (n : Nat) : A.F := F.f n'''
ARCH['Mips64']=dict(abi='mips64_n64_elf',title='MIPS64 n64, ELF',f=mips,cond={'defined(__mips_hard_float)':'hf','defined(__PIC__)':False},head=MHEAD%8,param='(hf : Bool)')
ARCH['Mips32']=dict(abi='mips32_o32_elf',title='MIPS32 o32, ELF',f=mips,cond={'defined(__mips_hard_float)':'hf','defined(__PIC__)':False},head=MHEAD%4,param='(hf : Bool)')

# --- x86_64 ---
def x86(l):
    def r(x): return x.strip('%')
    if l=='_CET_ENDBR': return []
    if m:=re.fullmatch(r'leaq (-?0x\w+)\(%(\w+)\), %(\w+)',l): return [f'.addi {m[3]} {m[2]} {imm(m[1])}']
    if m:=re.fullmatch(r'leaq (\w+)\(%rip\), %(\w+)',l): return [f'.la {m[2]} Lab.{m[1]}']
    if m:=re.fullmatch(r'stmxcsr (\w*)\(%(\w+)\)',l): return [f'.fst mxcsr {m[2]} {hex(num(m[1]))}']
    if m:=re.fullmatch(r'ldmxcsr (\w*)\(%(\w+)\)',l): return [f'.fld mxcsr {m[2]} {hex(num(m[1]))}']
    if m:=re.fullmatch(r'fnstcw (\w*)\(%(\w+)\)',l): return [f'.fst x87cw {m[2]} {hex(num(m[1]))}']
    if m:=re.fullmatch(r'fldcw (\w*)\(%(\w+)\)',l): return [f'.fld x87cw {m[2]} {hex(num(m[1]))}']
    if m:=re.fullmatch(r'movq %fs:0x28, %(\w+)',l): return [f'.mfs {m[1]} guard']
    if m:=re.fullmatch(r'movq %(\w+), %fs:0x28',l): return [f'.mts guard {m[1]}']
    if m:=re.fullmatch(r'movq %(\w+), %(\w+)',l): return [f'.mov {m[2]} {m[1]}']
    if m:=re.fullmatch(r'movq %(\w+), (-?\w*)\(%(\w+)\)',l): return [f'.st {m[1]} {m[3]} {hex(num(m[2]))}']
    if m:=re.fullmatch(r'movq (-?\w*)\(%(\w+)\), %(\w+)',l): return [f'.ld {m[3]} {m[2]} {hex(num(m[1]))}']
    if m:=re.fullmatch(r'andq \$-16, %(\w+)',l): return [f'.andi {m[1]} {m[1]} (mask A 4)']
    if m:=re.fullmatch(r'push %(\w+)',l): return ['.addi rsp rsp (-off A 0x8)',f'.st {m[1]} rsp 0x0']
    if m:=re.fullmatch(r'jmp \*%(\w+)',l): return ('end',m[1])
    if l=='ret': return ('end','rip',['.ld rip rsp 0x0','.addi rsp rsp (off A 0x8)'])
X86REGS='rax rbx rcx rdx rsi rdi rbp rsp r8 r9 r10 r11 r12 r13 r14 r15 rip'.split()
ARCH['X86_64']=dict(abi='x86_64_sysv_elf',title='x86_64 SysV, ELF (LP64)',f=x86,param='(cfg : Cfg)',
 cond={'defined(BOOST_USE_TSX)':'cfg.tsx','defined(BOOST_CONTEXT_TLS_STACK_PROTECTOR)':'cfg.guard','BOOST_CONTEXT_SHADOW_STACK':False,'defined(_ILP32)':False,'SHSTK':False},
 extra=[('tramp','make','trampoline')],
 head='''/-- general registers; `rip` is the target of `ret` (`ret` is `rip := [rsp]; rsp += 8; jump to rip`) -/
inductive R | '''+' | '.join(X86REGS)+''' deriving DecidableEq
/-- control words of the floating point units and the stack guard word at `%fs:0x28` -/
inductive F | mxcsr | x87cw | guard deriving DecidableEq
inductive Lab | trampoline | finish deriving DecidableEq

def A : Arch := { k := 8, R := R, F := F, Lab := Lab, fb := fun | .mxcsr => 4 | .x87cw => 2 | .guard => 8 }

/-- build options `BOOST_USE_TSX`, `BOOST_CONTEXT_TLS_STACK_PROTECTOR`; shadow stacks (CET) are off, the ABI is LP64 -/
structure Cfg where
  tsx : Bool
  guard : Bool

'''+'\n'.join(f'abbrev {r} : A.R := R.{r}' for r in X86REGS)+'''
abbrev mxcsr : A.F := F.mxcsr
abbrev x87cw : A.F := F.x87cw
abbrev guard : A.F := F.guard''')

# --- x86_64 with shadow stacks (CET) ---
def x86cet(l):
    if l in('1:','2:','jmp trampoline','jmp *%rbp'): return []
    if m:=re.fullmatch(r'rdsspq %(\w+)',l): return [f'.rdssp {m[1]}']
    if m:=re.fullmatch(r'rstorssp (-\w+)\(%(\w+)\)',l): return [f'.rstorssp {m[2]} {imm(m[1])}']
    if l=='saveprevssp': return ['.saveprev']
    if m:=re.fullmatch(r'movq \$(\d+), %(\w+)',l): return [f'.i (.movi {m[2]} (off A {m[1]}))']
    if m:=re.fullmatch(r'incsspq %(\w+)',l): return [f'.incssp {m[1]}']
    if m:=re.fullmatch(r'call (\d)f',l): return [f'.call Lab.l{m[1]}']
    if m:=re.fullmatch(r'movq -0x8\(%rdi\), %r9',l): return ['.i (.addi r9 rdi (-off A 0x8))','.i (.ld r9 r9 0x0)']
    if m:=re.fullmatch(r'pop (\w+)\(%(\w+)\)',l): return ['.i (.ld rip rsp 0x0)','.i (.addi rsp rsp (off A 0x8))',f'.i (.st rip {m[2]} {hex(num(m[1]))})']
    if l=='ret': return ('end','rip',['.ret'])
    r=x86(l)
    return [f'.i ({x})' for x in r] if isinstance(r,list) else r
CETREGS=X86REGS+['ssp']
ARCH['X86_64Cet']=dict(abi='x86_64_sysv_elf',title='x86_64 SysV, ELF (LP64) with shadow stacks',f=x86cet,ci=True,param='(cfg : Cfg)',
 cond=dict(ARCH['X86_64']['cond'],BOOST_CONTEXT_SHADOW_STACK=True,SHSTK=True),
 extra=[('tramp','make','trampoline')],
 head="""/-- general registers; `rip` is the target of `ret`; `ssp` is the shadow stack pointer -/
inductive R | """+' | '.join(CETREGS)+""" deriving DecidableEq
/-- control words of the floating point units and the stack guard word at `%fs:0x28` -/
inductive F | mxcsr | x87cw | guard deriving DecidableEq
/-- `l1`: the instruction `jmp trampoline` behind `call 1f`; `l2`: the instruction `jmp *%rbp` behind `call 2f` -/
inductive Lab | trampoline | finish | l1 | l2 deriving DecidableEq

def A : Arch := { k := 8, R := R, F := F, Lab := Lab, fb := fun | .mxcsr => 4 | .x87cw => 2 | .guard => 8 }

/-- build options `BOOST_USE_TSX`, `BOOST_CONTEXT_TLS_STACK_PROTECTOR`; shadow stacks (CET) are on, the ABI is LP64 -/
structure Cfg where
  tsx : Bool
  guard : Bool

"""+'\n'.join(f'abbrev {r} : A.R := R.{r}' for r in CETREGS)+"""
abbrev mxcsr : A.F := F.mxcsr
abbrev x87cw : A.F := F.x87cw
abbrev guard : A.F := F.guard

/-- Instructions: `i`: those that have nothing to do with shadow stacks; `rdsspq r`; `rstorssp o(b)`; `saveprevssp`; `incsspq r`; `call l`: a call that pushes the label
`l` and continues behind it; `ret`.  The instructions `jmp trampoline` at `l1` and `jmp *%rbp` at `l2` are not in the lists: they are jumped over. -/
inductive CI
  | i (x : Instr A)
  | rdssp (r : A.R)
  | rstorssp (b : A.R) (o : A.W)
  | saveprev
  | incssp (r : A.R)
  | call (l : A.Lab)
  | ret""")

# --- i386 ---
def i386(l):
    l=re.sub(r'^\d: *','',l)
    if l.startswith('movl ') and '%gs:0x14' in l:
        if m:=re.fullmatch(r'movl %gs:0x14, %(\w+)',l): return [f'.mfs {m[1]} guard']
        if m:=re.fullmatch(r'movl %(\w+), %gs:0x14',l): return [f'.mts guard {m[1]}']
    if m:=re.fullmatch(r'call (\d)f',l): return [f'.la eip Lab.l{m[1]}','.addi esp esp (-off A 0x4)','.st eip esp 0x0']
    if m:=re.fullmatch(r'popl %(\w+)',l): return [f'.ld {m[1]} esp 0x0','.addi esp esp (off A 0x4)']
    if m:=re.fullmatch(r'pushl %(\w+)',l): return ['.addi esp esp (-off A 0x4)',f'.st {m[1]} esp 0x0']
    if m:=re.fullmatch(r'addl \$(\w+)-(\d)b, %(\w+)',l): return [f'.addl {m[3]} Lab.{m[1]} Lab.l{m[2]}']
    if l=='ret': return ('end','eip',['.ld eip esp 0x0','.addi esp esp (off A 0x4)'])
    if m:=re.fullmatch(r'(lea|mov|and)l (.*)',l): return x86(m[1]+'q '+m[2])
    return x86(l)
I386REGS='eax ebx ecx edx esi edi ebp esp eip'.split()
ARCH['I386']=dict(abi='i386_sysv_elf',title='i386 SysV, ELF',f=i386,param='(cfg : Cfg)',
 cond={'defined(BOOST_USE_TSX)':'cfg.tsx','defined(BOOST_CONTEXT_TLS_STACK_PROTECTOR)':'cfg.guard'},
 extra=[('tramp','make','trampoline')],
 head="""/-- general registers; `eip` is the target of `ret` (`ret` is `eip := [esp]; esp += 4; jump to eip`); `call 1f` is `eip := 1f; push eip` -/
inductive R | """+' | '.join(I386REGS)+""" deriving DecidableEq
/-- control words of the floating point units and the stack guard word at `%gs:0x14` -/
inductive F | mxcsr | x87cw | guard deriving DecidableEq
/-- `l1`, `l2`: the numbered labels of the position independent address computations -/
inductive Lab | trampoline | finish | l1 | l2 deriving DecidableEq

def A : Arch := { k := 4, R := R, F := F, Lab := Lab, fb := fun | .mxcsr => 4 | .x87cw => 2 | .guard => 4 }

/-- build options `BOOST_USE_TSX`, `BOOST_CONTEXT_TLS_STACK_PROTECTOR` -/
structure Cfg where
  tsx : Bool
  guard : Bool

"""+'\n'.join(f'abbrev {r} : A.R := R.{r}' for r in I386REGS)+"""
abbrev mxcsr : A.F := F.mxcsr
abbrev x87cw : A.F := F.x87cw
abbrev guard : A.F := F.guard""")

# --- arm32 ---
def arm(l):
    l=re.sub(r'\s*@.*','',l)
    if not l: return []
    def r(x):
        if x in('sp','lr','pc'): return x
        m=re.fullmatch(r'([av])(\d)',x); return f'({m[1]} {m[2]})'
    def regs(x):
        o=[]
        for y in x.split(','):
            y=y.strip()
            if m:=re.fullmatch(r'v(\d)-v(\d)',y): o+=[f'(v {i})' for i in range(int(m[1]),int(m[2])+1)]
            else: o.append(r(y))
        return o
    if m:=re.fullmatch(r'push \{(.*)\}',l):
        R=regs(m[1]); return [f'.addi sp sp (-off A {hex(4*len(R))})']+[f'.st {x} sp {hex(4*i)}' for i,x in enumerate(R)]
    if l=='pop {pc}': return ('end','pc',['.ld pc sp 0x0','.addi sp sp (off A 0x4)'])
    if m:=re.fullmatch(r'pop \{(.*)\}',l):
        R=regs(m[1]); return [f'.ld {x} sp {hex(4*i)}' for i,x in enumerate(R)]+[f'.addi sp sp (off A {hex(4*len(R))})']
    if m:=re.fullmatch(r'v(st|ld)mia (\w+), \{d(\d+)-d(\d+)\}',l): return [f'.f{m[1]} (d {i}) {r(m[2])} {hex(8*(i-int(m[3])))}' for i in range(int(m[3]),int(m[4])+1)]
    if m:=re.fullmatch(r'(sub|add) (\w+), (\w+), #(\w+)',l): return [f'.addi {r(m[2])} {r(m[3])} {imm(("-" if m[1]=="sub" else "")+m[4])}']
    if m:=re.fullmatch(r'bic (\w+), (\w+), #15',l): return [f'.andi {r(m[1])} {r(m[2])} (mask A 4)']
    if m:=re.fullmatch(r'mov (\w+), (\w+)',l): return [f'.mov {r(m[1])} {r(m[2])}']
    if m:=re.fullmatch(r'(st|ld)r (\w+), \[(\w+), #(\w+)\]',l): return [f'.{m[1]} {r(m[2])} {r(m[3])} {hex(num(m[4]))}']
    if m:=re.fullmatch(r'adr (\w+), finish',l): return [f'.la {r(m[1])} Lab.finish']
    if m:=re.fullmatch(r'bx (\w+)',l): return ('end',r(m[1]))
ARCH['Arm32']=dict(abi='arm_aapcs_elf',title='ARM (32 bit) AAPCS, ELF',f=arm,param='(vfp : Bool)',cond={'(defined(__VFP_FP__) && !defined(__SOFTFP__))':'vfp'},head='''/-- `a n` = r(n-1) (n = 1..4), `v n` = r(n+3) (n = 1..8), `lr`, `sp`; `pc` is the target of `pop {pc}` -/
inductive R | a (n : Nat) | v (n : Nat) | lr | sp | pc deriving DecidableEq
/-- `d n`: double precision registers -/
inductive F | d (n : Nat) deriving DecidableEq
inductive Lab | finish deriving DecidableEq

def A : Arch := { k := 4, R := R, F := F, Lab := Lab, fb := fun _ => 8 }

abbrev a (n : Nat) : A.R := R.a n
abbrev v (n : Nat) : A.R := R.v n
abbrev sp : A.R := R.sp
abbrev lr : A.R := R.lr
abbrev pc : A.R := R.pc
abbrev d (n : Nat) : A.F := F.d n''')

# --- s390x ---
S390DEF=dict(ARG_OFFSET=0,GR_OFFSET=16,R14_OFFSET=88,FP_OFFSET=96,FPC_OFFSET=160,PC_OFFSET=168,CONTEXT_SIZE=176,REG_SAVE_AREA_SIZE=160)
def s390(l):
    l=re.sub(r'\b([A-Z0-9_]{5,})\b',lambda m:str(S390DEF[m[1]]),l)
    l=re.sub(r'\s*,\s*',',',l)
    def r(x): return f'(r {x[2:]})'
    if l.startswith('.machine'): return []
    if m:=re.fullmatch(r'aghi (%r\d+),(.*)',l): return [f'.addi {r(m[1])} {r(m[1])} {imm(str(eval(m[2])))}']
    if m:=re.fullmatch(r'la (%r\d+),([\d+]+)\((%r\d+)\)',l): return [f'.addi {r(m[1])} {r(m[3])} {imm(str(eval(m[2])))}']
    if m:=re.fullmatch(r'(stg|lg) (%r\d+),([\d+]+)\((%r\d+)\)',l): return [f'.{"st" if m[1]=="stg" else "ld"} {r(m[2])} {r(m[4])} {hex(eval(m[3]))}']
    if m:=re.fullmatch(r'(stmg|lmg) %r(\d+),%r(\d+),([\d+]+)\((%r\d+)\)',l):
        return [f'.{"st" if m[1]=="stmg" else "ld"} (r {i}) {r(m[5])} {hex(eval(m[4])+8*(i-int(m[2])))}' for i in range(int(m[2]),int(m[3])+1)]
    if m:=re.fullmatch(r'(std|ld) %f(\d+),([\d+]+)\((%r\d+)\)',l): return [f'.{"fst" if m[1]=="std" else "fld"} (f {m[2]}) {r(m[4])} {hex(eval(m[3]))}']
    if m:=re.fullmatch(r'(stfpc|lfpc) ([\d+]+)\((%r\d+)\)',l): return [f'.{"fst" if m[1]=="stfpc" else "fld"} fpc {r(m[3])} {hex(eval(m[2]))}']
    if m:=re.fullmatch(r'lgr (%r\d+),(%r\d+)',l): return [f'.mov {r(m[1])} {r(m[2])}']
    if m:=re.fullmatch(r'nill (%r\d+),0xfff8',l): return [f'.andi {r(m[1])} {r(m[1])} (mask A 3)']
    if m:=re.fullmatch(r'mvghi ([\d+]+)\((%r\d+)\),(\d+)',l): return [f'.sti (off A {m[3]}) {r(m[2])} {hex(eval(m[1]))}']
    if m:=re.fullmatch(r'larl (%r\d+),finish',l): return [f'.la {r(m[1])} Lab.finish']
    if m:=re.fullmatch(r'ltg (%r\d+),([\d+]+)\((%r\d+)\)',l): s390.cc=r(m[1]); return [f'.ld {r(m[1])} {r(m[3])} {hex(eval(m[2]))}']
    if m:=re.fullmatch(r'jnz (\w+)',l): return ('brnz',s390.cc,m[1])
    if m:=re.fullmatch(r'br (%r\d+)',l): return ('end',r(m[1]))
ARCH['S390x']=dict(abi='s390x_sysv_elf',title='s390x SysV, ELF',f=s390,cond={},head='''/-- `r n`: general registers; r14 is the return address, r15 the stack pointer -/
inductive R | r (n : Nat) deriving DecidableEq
/-- `f n`: floating point registers, `fpc`: floating point control register -/
inductive F | f (n : Nat) | fpc deriving DecidableEq
inductive Lab | finish deriving DecidableEq

def A : Arch := { k := 8, R := R, F := F, Lab := Lab, fb := fun | .f _ => 8 | .fpc => 4 }

abbrev r (n : Nat) : A.R := R.r n
abbrev f (n : Nat) : A.F := F.f n
abbrev fpc : A.F := F.fpc''')

# --- ppc ---
def ppc(l):
    l=re.sub(r'^\d: *','',l)
    l=re.sub(r'\s*,\s*',',',l)
    if not l: return []
    def r(x): return f'(r {x[2:]})'
    def f(x): return f'(f {x[2:]})'
    if m:=re.fullmatch(r'mf(lr|cr|ctr) (%r\d+)',l): return [f'.mov {r(m[2])} {m[1]}']
    if m:=re.fullmatch(r'mt(lr|cr|ctr) (%r\d+)',l): return [f'.mov {m[1]} {r(m[2])}']
    if m:=re.fullmatch(r'mffs (%f\d+)',l): return [f'.fmov {f(m[1])} fpscr']
    if m:=re.fullmatch(r'mtfsf 0xff,(%f\d+)',l): return [f'.fmov fpscr {f(m[1])}']
    if m:=re.fullmatch(r'stwu %r1,-(\d+)\(%r1\)',l): return ['.mov tmp (r 1)',f'.addi (r 1) (r 1) (-off A {hex(int(m[1]))})','.st tmp (r 1) 0x0']
    if m:=re.fullmatch(r'(stw|std|lwz|ld) (%r\d+),(\d+)\((%r\d+)\)',l): return [f'.{"st" if m[1][0]=="s" else "ld"} {r(m[2])} {r(m[4])} {hex(int(m[3]))}']
    if m:=re.fullmatch(r'(stfd|lfd) (%f\d+),(\d+)\((%r\d+)\)',l): return [f'.{"fst" if m[1][0]=="s" else "fld"} {f(m[2])} {r(m[4])} {hex(int(m[3]))}']
    if m:=re.fullmatch(r'mr (%r\d+),(%r\d+)',l): return [f'.mov {r(m[1])} {r(m[2])}']
    if m:=re.fullmatch(r'(addi|subi) (%r\d+),(%r\d+),([\d +]+)',l): return [f'.addi {r(m[2])} {r(m[3])} {imm(("-" if m[1]=="subi" else "")+str(eval(m[4])))}']
    if m:=re.fullmatch(r'addi (%r\d+),(%r\d+),(\w+) - (\d)b',l): return ([] if m[1]==m[2] else [f'.mov {r(m[1])} {r(m[2])}'])+[f'.addl {r(m[1])} Lab.{m[3]} Lab.l{m[4]}']
    if m:=re.fullmatch(r'la (%r\d+),(\d+)\((%r\d+)\)',l): return [f'.addi {r(m[1])} {r(m[3])} {imm(m[2])}']
    if m:=re.fullmatch(r'clrr[wd]i (%r\d+),(%r\d+),4',l): return [f'.andi {r(m[1])} {r(m[2])} (mask A 4)']
    if m:=re.fullmatch(r'li (%r\d+),0',l): return [f'.movi {r(m[1])} (off A 0)']
    if m:=re.fullmatch(r'bl (\d)f',l): return [f'.la lr Lab.l{m[1]}']
    if l=='blr': return ('end','lr')
    if l=='bctr': return ('end','ctr')
    if l=='b ontop_fcontext_tail': return ('end','npc',['.la npc Lab.tail'])
    if l in('return_to_ctx:',): return []
PPCHEAD="""/-- `r n`: general registers (r1 is the stack pointer); link, count and condition register; `tmp`: the old value of r1 in `stwu`; `npc`: target of `b ontop_fcontext_tail` -/
inductive R | r (n : Nat) | lr | ctr | cr | tmp | npc deriving DecidableEq
/-- `f n`: floating point registers, `fpscr`: floating point status and control register (32 bit; `mffs` and `mtfsf` move it to and from the low half of a floating
point register; modelled with 64 bits, so that these instructions are moves) -/
inductive F | f (n : Nat) | fpscr deriving DecidableEq
/-- `tail`: `ontop_fcontext_tail` of `src/asm/tail_ontop_ppc32_sysv.cpp`; `l1`: the label `1` of `make_fcontext` -/
inductive Lab | finish | trampoline | tail | l1 deriving DecidableEq

def A : Arch := { k := %d, R := R, F := F, Lab := Lab, fb := fun _ => 8 }

abbrev r (n : Nat) : A.R := R.r n
abbrev lr : A.R := R.lr
abbrev ctr : A.R := R.ctr
abbrev cr : A.R := R.cr
abbrev tmp : A.R := R.tmp
abbrev npc : A.R := R.npc
abbrev f (n : Nat) : A.F := F.f n
abbrev fpscr : A.F := F.fpscr"""
ARCH['Ppc32']=dict(abi='ppc32_sysv_elf',title='PowerPC 32 SysV, ELF, Linux',f=ppc,cond={'defined(__linux__)':True},head=PPCHEAD%4)
ARCH['Ppc32b']=dict(abi='ppc32_sysv_elf',title='PowerPC 32 SysV, ELF, other than Linux',f=ppc,cond={'defined(__linux__)':False},head=PPCHEAD%4,extra=[('tramp','make','trampoline')])
ARCH['Ppc64']=dict(abi='ppc64_sysv_elf',title='PowerPC 64 SysV, ELFv2',f=ppc,cond={'_CALL_ELF == 2':True,'_CALL_ELF != 2':False,'defined(_CALL_LINUX)':True},head=PPCHEAD%8,skip='.localentry')

# --- ppc64 with function descriptors: ELFv1, AIX ---
def ppcv1(l):
    k=' '.join(l.split())
    if k in('cmpdi %r3, 0','nop'): return []
    if k=='beq use_entry_arg': return ('end','ctr')
    if k=='b return_to_ctx': return ('end','ctr')
    if k=='bctrl': return ('end','ctr',['.la lr Lab.back'])
    return ppc(l)
PPCV1HEAD=re.sub(r'/-- `tail`.*\n.*',"/-- `back`: the instruction behind the call (`bctrl`) of `ontop_fcontext`; `l1`: the label `1` of `make_fcontext` -/\ninductive Lab | finish | back | l1 deriving DecidableEq",PPCHEAD%8).replace('; `npc`: target of `b ontop_fcontext_tail`','').replace(' | tmp | npc','').replace('; `tmp`: the old value of r1 in `stwu`','').replace('abbrev tmp : A.R := R.tmp\nabbrev npc : A.R := R.npc\n','')
PPCV1CODE='''/-- {j}: after `jumpPreIs` a null result address (a new context) makes control go to `use_entry_arg` (`jumpZIs`) -/
def jump : Code A := .brz jumpPreIs (r 3) (.jmp jumpZIs ctr) (.jmp jumpNzIs ctr)

/-- {o}: after `ontopPreIs` a null result address makes control go to `use_entry_arg` (`ontopZIs`), which calls the on-top function -/
def ontop : Code A := .brz ontopPreIs (r 3) (.jmp ontopZIs ctr) (.jmp ontopNzIs ctr)

/-- {o}: what `ontop_fcontext` executes after the return of an on-top function called by `ontopZIs` (label `back`) -/
def back : Code A := .jmp (backIs ++ ontopNzIs) ctr
'''
PPCV1=dict(isonly=['jumpPre','jumpNz','jumpZ','ontopPre','ontopNz','ontopZ','back'],routines=[('jumpPre','jump',None),('jumpNz','jump','=beq use_entry_arg'),('jumpZ','jump','use_entry_arg'),
  ('ontopPre','ontop',None),('ontopNz','ontop','return_to_ctx'),('ontopZ','ontop','use_entry_arg'),('back','ontop','=bctrl'),('make','make',None)])
ARCH['Ppc64v1']=dict(PPCV1,abi='ppc64_sysv_elf',title='PowerPC 64 SysV, ELFv1 (function descriptors)',f=ppcv1,lab='.L.',stack=[[False,True],[True,False]],
  cond={'_CALL_ELF == 2':False,'_CALL_ELF != 2':True,'defined(_CALL_LINUX)':True},head=PPCV1HEAD,code=PPCV1CODE)
def xc(l):
    k=re.sub(r'\s*,\s*',', ',' '.join(l.split()))
    R=lambda x:'%r'+x
    if m:=re.fullmatch(r'(std|ld|stw|lwz|stfd|lfd) (\d+), (\d+)\((\d+)\)',k): return f'{m[1]} {"%f" if "f" in m[1] else "%r"}{m[2]},{m[3]}({R(m[4])})'
    if m:=re.fullmatch(r'(subi|addi|clrrdi|clrrwi) (\d+), (\d+), ([^,]*)',k): return f'{m[1]} {R(m[2])},{R(m[3])},{m[4]}'
    if m:=re.fullmatch(r'(mflr|mtlr|mfcr|mtcr|mtctr|mffs) (\d+)',k): return f'{m[1]} {"%f" if m[1]=="mffs" else "%r"}{m[2]}'
    if m:=re.fullmatch(r'mr (\d+), (\d+)',k): return f'mr {R(m[1])},{R(m[2])}'
    if m:=re.fullmatch(r'(li|cmpdi|cmpwi) (\d+), 0',k): return f'{m[1]} {R(m[2])}, 0'
    if m:=re.fullmatch(r'mtfsf 0xff, (\d+)',k): return f'mtfsf 0xff,%f{m[1]}'
    return k
def ppcx(l):
    k=xc(l)
    if k=='bl .Label': return ['.la lr Lab.l1']
    if k=='.Label:': return []
    if m:=re.fullmatch(r'addi %r(\d+),%r\d+,.L_finish - .Label',k): return [f'.addl (r {m[1]}) Lab.finish Lab.l1']
    return ppcv1(k)
ARCH['Ppc64Xcoff']=dict(PPCV1,abi='ppc64_sysv_xcoff',title='PowerPC 64 SysV, XCOFF (AIX)',f=ppcx,lab='.',cond={},share='Ppc64v1',code=PPCV1CODE)

def ppcx32(l):
    k=xc(l)
    # 8 byte store in a 32 bit port: the register holds 0 (`li 0, 0`), so both words become 0
    if k=='std %r0,244(%r3)': return ['.st (r 0) (r 3) 0xf4','.st (r 0) (r 3) 0xf8']
    assert not k.startswith('std') and not k.startswith('ld ')
    return ppcx(l)
ARCH['Ppc32Xcoff']=dict(PPCV1,abi='ppc32_sysv_xcoff',title='PowerPC 32 SysV, XCOFF (AIX)',f=ppcx32,lab='.',cond={},head=PPCV1HEAD.replace('k := 8','k := 4'),code=PPCV1CODE)
def ppcm(l):
    l=re.sub(r'\s*;.*','',l)
    if not l: return []
    k=re.sub(r'\b([rf]\d+)\b',r'%\1',' '.join(l.split()))
    if k=='bcl 20, 31, L1': return ['.la lr Lab.l1']
    if k=='L1:': return []
    if m:=re.fullmatch(r'addi %r(\d+), %r(\d+), lo16\(L(\w+) - L1\)',k): return ([] if m[1]==m[2] else [f'.mov (r {m[1]}) (r {m[2]})'])+[f'.addl (r {m[1]}) Lab.{m[3]} Lab.l1']
    if k=='b _ontop_fcontext_tail': k='b ontop_fcontext_tail'
    return ppc(k)
ARCH['Ppc32Macho']=dict(abi='ppc32_sysv_macho',title='PowerPC 32 SysV, Mach-O',f=ppcm,cond={},lab='_',head=PPCHEAD%4,extra=[('tramp','make','Ltrampoline')])

def ppcm64(l):
    l=re.sub(r'\s*;.*','',l)
    k=' '.join(l.split())
    if k in('','cmpdi r3, 0','l1:'): return []
    if k=='beq use_entry_arg': return ('end','ctr')
    # 32 bit instructions in a 64 bit port
    if k=='clrrwi r3, r3, 4': return ['.andi (r 3) (r 3) (BitVec.ofNat _ 0xfffffff0)']
    if k=='stw r5, 176(r3)': return ['.mts lo5 (r 5)','.fst lo5 (r 3) 0xb4']
    if k=='bl l1': return ['.la lr Lab.l1']
    if k=='addi r4, r4, lo16((finish - .) + 4)': return ['.addl (r 4) Lab.finish Lab.l1']
    assert 'w' not in k.split()[0],k
    return ppcm(l)
ARCH['Ppc64Macho']=dict(abi='ppc64_sysv_macho',title='PowerPC 64 SysV, Mach-O',f=ppcm64,cond={},lab='_',isonly=['jumpPre','jumpNz','jumpZ'],routines=[('jumpPre','jump',None),('jumpNz','jump','=beq use_entry_arg'),('jumpZ','jump','use_entry_arg'),('ontop','ontop',None),('make','make',None)],
  head=PPCV1HEAD.replace(' | fpscr deriving',' | fpscr | lo5 deriving').replace('/-- `back`: the instruction behind the call (`bctrl`) of `ontop_fcontext`; ','/-- ').replace(' | back','').replace('fb := fun _ => 8','fb := fun | .lo5 => 4 | _ => 8').replace('abbrev fpscr : A.F := F.fpscr','abbrev fpscr : A.F := F.fpscr\nabbrev lo5 : A.F := F.lo5').replace('so that these instructions are moves)','so that these instructions are moves); `lo5`: the low half of r5, as stored by `stw` (the machine is big-endian, so the word stored at 176 becomes the upper half of the\ndouble word at 176; words are modelled with the least significant byte first, so that it is stored at 180)'),
  code=PPCV1CODE.split('/-- {o}')[0])

# --- macho ---
ARCH['X86_64Macho']=dict(abi='x86_64_sysv_macho',title='x86_64 SysV, Mach-O',f=x86,param='(cfg : Cfg)',lab='_',
 cond={'defined(BOOST_USE_TSX)':'cfg.tsx'},extra=[('tramp','make','trampoline')],
 head="""/-- general registers; `rip` is the target of `ret` (`ret` is `rip := [rsp]; rsp += 8; jump to rip`) -/
inductive R | """+' | '.join(X86REGS)+""" deriving DecidableEq
/-- control words of the floating point units -/
inductive F | mxcsr | x87cw deriving DecidableEq
inductive Lab | trampoline | finish deriving DecidableEq

def A : Arch := { k := 8, R := R, F := F, Lab := Lab, fb := fun | .mxcsr => 4 | .x87cw => 2 }

/-- build option `BOOST_USE_TSX` -/
structure Cfg where
  tsx : Bool

"""+'\n'.join(f'abbrev {r} : A.R := R.{r}' for r in X86REGS)+"""
abbrev mxcsr : A.F := F.mxcsr
abbrev x87cw : A.F := F.x87cw""")
ARCH['I386Macho']=dict(abi='i386_sysv_macho',title='i386 SysV, Mach-O',f=i386,param='(cfg : Cfg)',lab='_',
 cond={'defined(BOOST_USE_TSX)':'cfg.tsx'},extra=[('tramp','make','trampoline')],
 head="""/-- general registers; `eip` is the target of `ret` (`ret` is `eip := [esp]; esp += 4; jump to eip`); `call 1f` is `eip := 1f; push eip` -/
inductive R | """+' | '.join(I386REGS)+""" deriving DecidableEq
/-- control words of the floating point units -/
inductive F | mxcsr | x87cw deriving DecidableEq
/-- `l1`, `l2`: the numbered labels of the position independent address computations -/
inductive Lab | trampoline | finish | l1 | l2 deriving DecidableEq

def A : Arch := { k := 4, R := R, F := F, Lab := Lab, fb := fun | .mxcsr => 4 | .x87cw => 2 }

/-- build option `BOOST_USE_TSX` -/
structure Cfg where
  tsx : Bool

"""+'\n'.join(f'abbrev {r} : A.R := R.{r}' for r in I386REGS)+"""
abbrev mxcsr : A.F := F.mxcsr
abbrev x87cw : A.F := F.x87cw""")
def a64m(l):
    l=re.sub(r'\s*;.*','',l)
    if not l: return []
    l=re.sub(r'\bfp\b','x29',l); l=re.sub(r'\blr\b','x30',l)
    return a64(l)
ARCH['Arm64Macho']=dict(abi='arm64_aapcs_macho',title='ARM64, Mach-O',f=a64m,cond={},lab='_',head=ARCH['Arm64']['head'],share='Arm64')

def armm(l):
    l=re.sub(r'\s*@.*','',l)
    if l=='mrc p15, 0, v2, c13, c0, #3': return ['.la (v 2) Lab.tls']
    if l=='bic v2, v2, #3': return []
    if l=='ldr v1, [v2, #72]': return ['.mfb (v 1) sjlj (v 2) Lab.tls']
    if l=='str v1, [v2, #72]': return ['.mtb sjlj (v 1) (v 2) Lab.tls']
    return arm(l)
ARCH['ArmMacho']=dict(abi='arm_aapcs_macho',title='ARM (32 bit), Mach-O',f=armm,lab='_',param='(vfp : Bool)',cond=ARCH['Arm32']['cond'],head="""/-- `a n` = r(n-1) (n = 1..4), `v n` = r(n+3) (n = 1..8), `lr`, `sp`; `pc` is the target of `pop {pc}` -/
inductive R | a (n : Nat) | v (n : Nat) | lr | sp | pc deriving DecidableEq
/-- `d n`: double precision registers; `sjlj`: the word `TLS[18]`, the head of the thread's list of SjLj exception handlers -/
inductive F | d (n : Nat) | sjlj deriving DecidableEq
/-- `tls`: the thread pointer (the coprocessor register read by `mrc`, with the two lowest bits cleared by the following `bic`); an access to `[v2, #72]` after that is
an access to `sjlj` -/
inductive Lab | finish | tls deriving DecidableEq

def A : Arch := { k := 4, R := R, F := F, Lab := Lab, fb := fun | .d _ => 8 | .sjlj => 4 }

abbrev a (n : Nat) : A.R := R.a n
abbrev v (n : Nat) : A.R := R.v n
abbrev sp : A.R := R.sp
abbrev lr : A.R := R.lr
abbrev pc : A.R := R.pc
abbrev d (n : Nat) : A.F := F.d n
abbrev sjlj : A.F := F.sjlj""")

# --- x86_64 PE (Windows) ---
TIB64={0x8:'tibBase',0x10:'tibLimit',0x20:'tibFiber',0x1478:'tibDealloc'}
def x86pe(l):
    if m:=re.fullmatch(r'movq %gs:\(0x30\), %r10',l): return ['.la r10 Lab.tib']
    if m:=re.fullmatch(r'movq (\w+)\(%r10\), %(\w+)',l): return [f'.mfb {m[2]} {TIB64[num(m[1])]} r10 Lab.tib']
    if m:=re.fullmatch(r'movq %(\w+), (\w+)\(%r10\)',l): return [f'.mtb {TIB64[num(m[2])]} {m[1]} r10 Lab.tib']
    if m:=re.fullmatch(r'movaps %xmm(\d+), (\w+)\(%(\w+)\)',l): return [f'.fst (xmm {m[1]}) {m[3]} {hex(num(m[2]))}']
    if m:=re.fullmatch(r'movaps (\w+)\(%(\w+)\), %xmm(\d+)',l): return [f'.fld (xmm {m[3]}) {m[2]} {hex(num(m[1]))}']
    if m:=re.fullmatch(r'negq %(\w+)',l): return [f'.neg {m[1]} {m[1]}']
    if m:=re.fullmatch(r'leaq \(%(\w+),%(\w+)\), %(\w+)',l): return [f'.add {m[3]} {m[1]} {m[2]}']
    if m:=re.fullmatch(r'xorq %(\w+), %(\w+)',l): assert m[1]==m[2]; return [f'.movi {m[1]} (off A 0x0)']
    if m:=re.fullmatch(r'popq %(\w+)',l): return [f'.ld {m[1]} rsp 0x0','.addi rsp rsp (off A 0x8)']
    if m:=re.fullmatch(r'pushq %(\w+)',l): return x86('push %'+m[1])
    if l=='.seh_endprologue': return []
    return x86(l)
PE64HEAD="""/-- general registers; `rip` is the target of `ret` (`ret` is `rip := [rsp]; rsp += 8; jump to rip`) -/
inductive R | """+' | '.join(X86REGS)+""" deriving DecidableEq
/-- `xmm n`: XMM registers; control words of the floating point units; the fields of the thread information block that describe the stack of the running
context (`base` at 8, `limit` at 0x10, fiber data at 0x20, deallocation stack at 0x1478) -/
inductive F | xmm (n : Nat) | mxcsr | x87cw | tibBase | tibLimit | tibFiber | tibDealloc deriving DecidableEq
/-- `tib`: the thread information block, whose address is read from `%gs:(0x30)`; accesses relative to `r10` are accesses to its fields (`mfb`, `mtb`) -/
inductive Lab | trampoline | finish | tib deriving DecidableEq

def A : Arch := { k := 8, R := R, F := F, Lab := Lab, fb := fun | .xmm _ => 16 | .mxcsr => 4 | .x87cw => 2 | _ => 8 }

/-- build option `BOOST_USE_TSX` -/
structure Cfg where
  tsx : Bool

"""+'\n'.join(f'abbrev {r} : A.R := R.{r}' for r in X86REGS)+"""
abbrev xmm (n : Nat) : A.F := F.xmm n
"""+'\n'.join(f'abbrev {r} : A.F := F.{r}' for r in 'mxcsr x87cw tibBase tibLimit tibFiber tibDealloc'.split())
ARCH['X86_64Pe']=dict(abi='x86_64_ms_pe',sfx='_gas.asm',title='x86_64 Windows, PE (MinGW)',f=x86pe,param='(cfg : Cfg)',cond={'defined(BOOST_USE_TSX)':'cfg.tsx'},extra=[('tramp','make','trampoline')],head=PE64HEAD)
ARCH['X86_64PeClang']=dict(abi='x86_64_ms_pe',sfx='_clang_gas.S',title='x86_64 Windows, PE (clang)',f=x86pe,param='(cfg : Cfg)',cond={'defined(BOOST_USE_TSX)':'cfg.tsx'},extra=[('tramp','make','trampoline')],head=PE64HEAD,share='X86_64Pe')
def hx(x):
    x=x.strip()
    return '0x0' if x=='' else '0x'+x.lstrip('0')[:-1] if x.endswith('h') and x.lstrip('0')!='h' else ('0x0' if x.endswith('h') else hex(int(x)))
def masm64(l):
    """MASM (Intel syntax) to the AT&T syntax above"""
    l=re.sub(r'\s*;.*','',l); l=re.sub(r'\s*,\s*',', ',l); l=l.replace('qword ptr ','').replace('dword ptr ','')
    if not l: return []
    if l=='.endprolog' or l.startswith('.'): return []
    def mem(x):
        if m:=re.fullmatch(r'\[(\w+)\]',x): return f'0x0(%{m[1]})'
        if m:=re.fullmatch(r'\[(\w+)([+-])(0[0-9a-f]+h)\]',x): return ('-' if m[2]=='-' else '')+hx(m[3])+f'(%{m[1]})'
    if m:=re.fullmatch(r'lea (\w+), (trampoline|finish)',l): return x86pe(f'leaq {m[2]}(%rip), %{m[1]}')
    if m:=re.fullmatch(r'lea (\w+), \[(\w+)\+(r\w+)\]',l): return x86pe(f'leaq (%{m[2]},%{m[3]}), %{m[1]}')
    if m:=re.fullmatch(r'lea (\w+), (\[.*\])',l): return x86pe(f'leaq {mem(m[2])}, %{m[1]}')
    if m:=re.fullmatch(r'mov r10, gs:\[030h\]',l): return x86pe('movq %gs:(0x30), %r10')
    if m:=re.fullmatch(r'(mov|movaps) (\[.*\]), (\w+)',l): return x86pe(f'{m[1] if m[1]!="mov" else "movq"} %{m[3]}, {mem(m[2])}')
    if m:=re.fullmatch(r'(mov|movaps) (\w+), (\[.*\])',l): return x86pe(f'{m[1] if m[1]!="mov" else "movq"} {mem(m[3])}, %{m[2]}')
    if m:=re.fullmatch(r'mov (\w+), (\w+)',l): return x86pe(f'movq %{m[2]}, %{m[1]}')
    if m:=re.fullmatch(r'(stmxcsr|ldmxcsr|fnstcw|fldcw) (\[.*\])',l): return x86pe(f'{m[1]} {mem(m[2])}')
    if m:=re.fullmatch(r'sub (\w+), (0\w+h)',l): return x86pe(f'leaq -{hx(m[2])}(%{m[1]}), %{m[1]}')
    if m:=re.fullmatch(r'and (\w+), -16',l): return x86pe(f'andq $-16, %{m[1]}')
    if m:=re.fullmatch(r'neg (\w+)',l): return x86pe(f'negq %{m[1]}')
    if m:=re.fullmatch(r'xor (\w+), (\w+)',l): return x86pe(f'xorq %{m[1]}, %{m[2]}')
    if m:=re.fullmatch(r'pop (\w+)',l): return x86pe(f'popq %{m[1]}')
    if m:=re.fullmatch(r'push (\w+)',l): return x86pe(f'pushq %{m[1]}')
    if m:=re.fullmatch(r'jmp (\w+)',l): return x86pe(f'jmp *%{m[1]}')
    if l=='ret': return x86pe('ret')
ARCH['X86_64PeMasm']=dict(abi='x86_64_ms_pe',sfx='_masm.asm',title='x86_64 Windows, PE (MASM)',f=masm64,masm=True,param='(cfg : Cfg)',cond={'defined(BOOST_USE_TSX)':'cfg.tsx'},extra=[('tramp','make','trampoline')],head=PE64HEAD,share='X86_64Pe')

# --- arm64 PE (Windows) ---
def a64pe(l):
    l=re.sub(r'\s*;.*','',l); l=re.sub(r'\s*,\s*',', ',l)
    if not l or l=='.seh_endprologue': return []
    l=re.sub(r'\bfp\b','x29',l); l=re.sub(r'\blr\b','x30',l)
    if m:=re.fullmatch(r'ldp (x\d+), (x\d+), \[x18, #(\w+)\]',l): return [f'.mfs (x {m[1][1:]}) {TIB64[num(m[3])]}',f'.mfs (x {m[2][1:]}) {TIB64[num(m[3])+8]}']
    if m:=re.fullmatch(r'stp (x\d+), (x\d+), \[x18, #(\w+)\]',l): return [f'.mts {TIB64[num(m[3])]} (x {m[1][1:]})',f'.mts {TIB64[num(m[3])+8]} (x {m[2][1:]})']
    if m:=re.fullmatch(r'ldr (x\d+), \[x18, #(\w+)\]',l): return [f'.mfs (x {m[1][1:]}) {TIB64[num(m[2])]}']
    if m:=re.fullmatch(r'str (x\d+), \[x18, #(\w+)\]',l): return [f'.mts {TIB64[num(m[2])]} (x {m[1][1:]})']
    if m:=re.fullmatch(r'str xzr, \[x(\d+), #(\w+)\]',l): return [f'.sti (off A 0x0) (x {m[1]}) {hex(num(m[2]))}']
    if m:=re.fullmatch(r'sub x(\d+), x(\d+), x(\d+)',l): return [f'.sub (x {m[1]}) (x {m[2]}) (x {m[3]})']
    if m:=re.fullmatch(r'adr x(\d+), (trampoline|finish)',l): return [f'.la (x {m[1]}) Lab.{m[2]}']
    if m:=re.fullmatch(r'stp x(\d+), x(\d+), \[sp, #-0x10\]!',l): return ['.addi sp sp (-off A 0x10)',f'.st (x {m[1]}) sp 0x0',f'.st (x {m[2]}) sp 0x8']
    if m:=re.fullmatch(r'blr x(\d+)',l): return ('end',f'(x {m[1]})',['.la (x 30) Lab.finish'])
    return a64(l)
A64PEHEAD="""/-- `x n` = Xn (n ≤ 30, X30 = LR), `sp` -/
inductive R | x (n : Nat) | sp deriving DecidableEq
/-- `d n`: low 64 bits of Vn; the fields of the thread environment block, to which X18 always points, that describe the stack of the running context (`base` at 8,
`limit` at 0x10, fiber data at 0x20, deallocation stack at 0x1478) -/
inductive F | d (n : Nat) | tibBase | tibLimit | tibFiber | tibDealloc deriving DecidableEq
inductive Lab | trampoline | finish deriving DecidableEq

def A : Arch := { k := 8, R := R, F := F, Lab := Lab, fb := fun _ => 8 }

abbrev x (n : Nat) : A.R := R.x n
abbrev sp : A.R := R.sp
abbrev d (n : Nat) : A.F := F.d n
"""+'\n'.join(f'abbrev {r} : A.F := F.{r}' for r in 'tibBase tibLimit tibFiber tibDealloc'.split())
ARCH['Arm64Pe']=dict(abi='arm64_aapcs_pe',sfx='_armclang.S',title='ARM64 Windows, PE (armclang); `blr` in the stub is followed by the label `finish`',f=a64pe,cond={},extra=[('tramp','make','trampoline')],head=A64PEHEAD)
ARCH['Arm64PeMasm']=dict(abi='arm64_aapcs_pe',sfx='_armasm.asm',title='ARM64 Windows, PE (armasm)',f=a64pe,cond={},masm=True,extra=[('tramp','make','trampoline')],head=A64PEHEAD,share='Arm64Pe')

# --- arm PE (Windows) ---
TIB32={0x4:'tibBase',0x8:'tibLimit',0xe0c:'tibDealloc'}
def armpe(l):
    l=re.sub(r'\s*;.*','',l)
    if not l: return []
    if l=='mrc p15, #0, v1, c13, c0, #2': return ['.la (v 1) Lab.tib']
    if m:=re.fullmatch(r'ldr (a\d), \[v1, #(\w+)\]',l): return [f'.mfb (a {m[1][1:]}) {TIB32[num(m[2])]} (v 1) Lab.tib']
    if m:=re.fullmatch(r'str (a\d), \[v1, #(\w+)\]',l): return [f'.mtb {TIB32[num(m[2])]} (a {m[1][1:]}) (v 1) Lab.tib']
    if m:=re.fullmatch(r'sub (\w)(\d), (\w)(\d), (\w)(\d)',l): return [f'.sub ({m[1]} {m[2]}) ({m[3]} {m[4]}) ({m[5]} {m[6]})']
    l=l.replace('#0x0f','#15')
    return arm(l)
ARCH['ArmPe']=dict(abi='arm_aapcs_pe',sfx='_armasm.asm',title='ARM (32 bit) Windows, PE (armasm)',f=armpe,cond={},masm=True,head="""/-- `a n` = r(n-1) (n = 1..4), `v n` = r(n+3) (n = 1..8), `lr`, `sp`; `pc` is the target of `pop {pc}`.  `jump_fcontext` uses a register `a5`, which does not exist in
the procedure call standard (armasm knows a1-a4); here it is a scratch register different from all others. -/
inductive R | a (n : Nat) | v (n : Nat) | lr | sp | pc deriving DecidableEq
/-- `d n`: double precision registers; the fields of the thread information block that describe the stack of the running context (`base` at 4, `limit` at 8,
deallocation stack at 0xe0c) -/
inductive F | d (n : Nat) | tibBase | tibLimit | tibDealloc deriving DecidableEq
/-- `tib`: the thread information block, whose address is read by `mrc`; accesses relative to `v1` are accesses to its fields (`mfb`, `mtb`) -/
inductive Lab | finish | tib deriving DecidableEq

def A : Arch := { k := 4, R := R, F := F, Lab := Lab, fb := fun | .d _ => 8 | _ => 4 }

abbrev a (n : Nat) : A.R := R.a n
abbrev v (n : Nat) : A.R := R.v n
abbrev sp : A.R := R.sp
abbrev lr : A.R := R.lr
abbrev pc : A.R := R.pc
abbrev d (n : Nat) : A.F := F.d n
"""+'\n'.join(f'abbrev {r} : A.F := F.{r}' for r in 'tibBase tibLimit tibDealloc'.split()))

# --- i386 PE (Windows) ---
TIB32={0x10:'tibFiber',0xe0c:'tibDealloc',8:'tibLimit',4:'tibBase',0:'tibSeh'}
def i386pe(l):
    if l in('walk:','jz found','jmp walk'): return ('end','eip')
    if m:=re.fullmatch(r'movl %fs:\(0x18\), %edx',l): return ['.la edx Lab.tib']
    if m:=re.fullmatch(r'movl %fs:\(0x0\), %ecx',l): return ['.mfs ecx tibSeh']
    if m:=re.fullmatch(r'movl (\w*)\(%edx\), %(\w+)',l): return [f'.mfb {m[2]} {TIB32[num(m[1])]} edx Lab.tib']
    if m:=re.fullmatch(r'movl %(\w+), (\w*)\(%edx\)',l): return [f'.mtb {TIB32[num(m[2])]} {m[1]} edx Lab.tib']
    if m:=re.fullmatch(r'movl \$(trampoline|finish), %(\w+)',l): return [f'.la {m[2]} Lab.{m[1]}']
    if m:=re.fullmatch(r'movl \$0xffffffff, %(\w+)',l): return [f'.movi {m[1]} (-off A 0x1)']
    if m:=re.fullmatch(r'negl %(\w+)',l): return [f'.neg {m[1]} {m[1]}']
    if m:=re.fullmatch(r'leal \(%(\w+),%(\w+)\), %(\w+)',l): return [f'.add {m[3]} {m[1]} {m[2]}']
    if m:=re.fullmatch(r'xorl %(\w+), %(\w+)',l): assert m[1]==m[2]; return [f'.movi {m[1]} (off A 0x0)']
    if m:=re.fullmatch(r'(inc|dec)l %(\w+)',l): return [f'.addi {m[2]} {m[2]} {imm("1" if m[1]=="inc" else "-1")}']
    if m:=re.fullmatch(r'xchgl %(\w+), %(\w+)',l): return [f'.mov tmp {m[1]}',f'.mov {m[1]} {m[2]}',f'.mov {m[2]} tmp']
    return i386(l)
def i386pm(l):
    def mem(x):
        if m:=re.fullmatch(r'\[(\w+)\]',x): return f'0x0(%{m[1]})'
        if m:=re.fullmatch(r'\[(\w+)([+-])(0[0-9a-f]+h)\]',x): return ('-' if m[2]=='-' else '')+hx(m[3])+f'(%{m[1]})'
    l=re.sub(r'\s*,\s*',', ',l)
    if l in('walk:','jz found','jmp walk'): return ('end','eip')
    if l=='mov edx, fs:[018h]': return i386pe('movl %fs:(0x18), %edx')
    if l=='mov ecx, fs:[0h]': return i386pe('movl %fs:(0x0), %ecx')
    if m:=re.fullmatch(r'mov (\w+), (trampoline|finish)',l): return i386pe(f'movl ${m[2]}, %{m[1]}')
    if m:=re.fullmatch(r'mov (\w+), 0ffffffffh',l): return i386pe(f'movl $0xffffffff, %{m[1]}')
    if m:=re.fullmatch(r'lea (\w+), \[(\w+)\+(e\w+)\]',l): return i386pe(f'leal (%{m[2]},%{m[3]}), %{m[1]}')
    if m:=re.fullmatch(r'lea (\w+), (\[.*\])',l): return i386pe(f'leal {mem(m[2])}, %{m[1]}')
    if m:=re.fullmatch(r'mov (\[.*\]), (\w+)',l): return i386pe(f'movl %{m[2]}, {mem(m[1])}')
    if m:=re.fullmatch(r'mov (\w+), (\[.*\])',l): return i386pe(f'movl {mem(m[2])}, %{m[1]}')
    if m:=re.fullmatch(r'mov (\w+), (\w+)',l): return i386pe(f'movl %{m[2]}, %{m[1]}')
    if m:=re.fullmatch(r'(stmxcsr|ldmxcsr|fnstcw|fldcw) (\[.*\])',l): return i386pe(f'{m[1]} {mem(m[2])}')
    if m:=re.fullmatch(r'and (\w+), -16',l): return i386pe(f'andl $-16, %{m[1]}')
    if m:=re.fullmatch(r'(neg|inc|dec|push) (\w+)',l): return i386pe(f'{m[1]}l %{m[2]}')
    if m:=re.fullmatch(r'(xor|xchg) (\w+), (\w+)',l): return i386pe(f'{m[1]}l %{m[3]}, %{m[2]}')
    if m:=re.fullmatch(r'jmp (e\w+)',l): return i386pe(f'jmp *%{m[1]}')
    if l=='ret': return i386pe('ret')
I386PEREGS=I386REGS+['tmp']
I386PEHEAD="""/-- general registers; `eip` is the target of `ret` (`ret` is `eip := [esp]; esp += 4; jump to eip`); `tmp` is the temporary of `xchg` (which is rendered as three moves) -/
inductive R | """+' | '.join(I386PEREGS)+""" deriving DecidableEq
/-- control words of the floating point units; the fields of the thread information block (to which `fs` refers) that belong to a context: head of the chain of exception
handlers (at 0), stack base (4), stack limit (8), fiber data (0x10), deallocation stack (0xe0c).  `mov edx, fs:[0x18]` yields the address of the block; memory
accesses relative to edx in `jump_fcontext` and `ontop_fcontext` are accesses to these fields -/
inductive F | mxcsr | x87cw | tibSeh | tibBase | tibLimit | tibFiber | tibDealloc deriving DecidableEq
/-- `walk` is the head of the loop of `make_fcontext`, `tib` the address of the thread information block -/
inductive Lab | trampoline | finish | walk | tib deriving DecidableEq

def A : Arch := { k := 4, R := R, F := F, Lab := Lab, fb := fun | .x87cw => 2 | _ => 4 }

/-- build option `BOOST_USE_TSX` -/
structure Cfg where
  tsx : Bool

"""+'\n'.join(f'abbrev {r} : A.R := R.{r}' for r in I386PEREGS)+'\n'+'\n'.join(f'abbrev {r} : A.F := F.{r}' for r in 'mxcsr x87cw tibSeh tibBase tibLimit tibFiber tibDealloc'.split())
I386PEP=dict(abi='i386_ms_pe',param='(cfg : Cfg)',cond={'defined(BOOST_USE_TSX)':'cfg.tsx'},head=I386PEHEAD,isonly=['mhead','mtest','mnext'],
 routines=[('jump','jump',None),('ontop','ontop',None),('mhead','make',None),('mtest','make','walk'),('mnext','make','=jz found'),('mtail','make','found'),('tramp','make','trampoline')])
ARCH['I386Pe']=dict(I386PEP,sfx='_gas.asm',lab='_',title='i386 Windows, PE (MinGW)',f=i386pe)
ARCH['I386PeClang']=dict(I386PEP,sfx='_clang_gas.S',lab='_',title='i386 Windows, PE (clang)',f=i386pe,share='I386Pe')
ARCH['I386PeMasm']=dict(I386PEP,sfx='_masm.asm',title='i386 Windows, PE (MASM)',f=i386pm,masm=True,share='I386Pe')

def routine(arch,fn,label=None):
    P=ARCH[arch]; path=f'{fn}_{P["abi"]}{P.get("sfx","_gas.S")}'
    raw=open(SRC+path).read()
    # strip C comments keeping lines
    raw=re.sub(r'/\*.*?\*/',lambda m:'\n'*m[0].count('\n'),raw,flags=re.S)
    if P.get('masm'):
        raw=re.sub(r'(?m)^\s*IFNDEF (\w+)',r'#if !defined(\1)',raw); raw=re.sub(r'(?m)^\s*IFDEF (\w+)',r'#if defined(\1)',raw); raw=re.sub(r'(?m)^\s*ENDIF',r'#endif',raw)
        raw=re.sub(r'(?mi)^(\w+_fcontext) PROC.*',r'\1:',raw); raw=re.sub(r'(?m)^(trampoline|finish)$',r'\1:',raw); raw=re.sub(r'(?m)^\s*assume .*','',raw); raw=re.sub(r';.*','',raw)
    lines=raw.split('\n'); lb=(label or f'{P.get("lab","")}{fn}_fcontext'); lb=lb[1:] if lb[0]=='=' else lb+':'
    start=next(i for i,l in enumerate(lines) if ' '.join(l.split())==lb)
    if P.get('skip'): start=next(i for i in range(start,len(lines)) if lines[i].strip().startswith(P['skip']))
    out=[]; stack=[[True,False]] if P.get('skip') else [list(x) for x in P.get('stack',[])] if not label else []; end=None; last=start; br=None
    for i in range(start+1,len(lines)):
        l=lines[i].strip()
        if re.match(r'#\s*if',l):
            c=re.sub(r'^#\s*ifdef\s+(\w+).*',r'defined(\1)',l); c=re.sub(r'^#\s*ifndef\s+(\w+).*',r'!defined(\1)',c); c=re.sub(r'^#\s*if\s+','',c).strip(); c=re.sub(r'^#\s*if','',c).strip()
            neg=c.startswith('!'); c0=c.lstrip('!').strip()
            if c0 not in P['cond']: raise SystemExit(f'{path}:{i+1}: unknown condition {c}')
            stack.append([P['cond'][c0],neg]); continue
        if re.match(r'#\s*else\b',l): stack[-1][1]=not stack[-1][1]; continue
        if re.match(r'#\s*endif\b',l): stack[-1:]=[]; continue
        l=re.sub(r'#\s.*$','',l) if not re.search(r'#0x|#\d',l) else l
        l=re.sub(r'//.*$','',l)
        l=re.sub(r'#$','',l)
        l=' '.join(l.split())
        if not l or l.startswith('#'): continue
        if any(isinstance(c,bool) and c==n for c,n in stack): continue
        guard=[(c,n) for c,n in stack if not isinstance(c,bool)]
        if br and len(br)==2 and l==br[1]+':': br=br+(len(out),); continue
        r=P['f'](l)
        if r is None: raise SystemExit(f'{path}:{i+1}: {l}')
        if isinstance(r,tuple) and r[0]=='brnz': br=(r[1],r[2]); brpos=len(out); continue
        if isinstance(r,tuple):
            for ins in (r[2] if len(r)>2 else []): out.append((i+1,ins,tuple(guard)))
            end=r[1]; last=i+1; break
        for ins in r: out.append((i+1,ins,tuple(guard)))
    return path,start+1,last,out,(end if not br else ('br',br[0],brpos,br[2],end))
def emit(arch):
    P=ARCH[arch]
    sh=P.get('share'); hd=f'open Verif.Asm.{sh}' if sh else P['head']
    o=[f'import Verif.Asm.{sh}Code' if sh else f'import Verif.Asm.Lemmas','',f'/-!\n# {P["title"]}: transcription of `/repo/src/asm/{{jump,ontop,make}}_{P["abi"]}{P.get("sfx","_gas.S")}`\n\nGenerated by `tools/asm2lean.py {arch}` from the text of these files; the number behind each instruction is its source line.\n-/','',f'namespace Verif.Asm.{arch}','',hd,'']
    for nm,fn,label in P.get('routines',[('jump','jump',None),('ontop','ontop',None),('make','make',None)])+P.get('extra',[]):
        path,a,b,out,end=routine(arch,fn,label); fn=nm
        if isinstance(end,tuple):
            o.append(f'/-! {path} lines {a}-{b}: `{nm}Pre` up to the conditional branch, `{nm}Z` executed only if {end[1]} is zero, `{nm}Tail` the rest -/')
            for part,l in (('Pre',out[:end[2]]),('Z',out[end[2]:end[3]]),('Tail',out[end[3]:])):
                o.append(f'def {nm}{part} : List (Instr A) := [\n'+'\n'.join(f'    {ins}{"," if k<len(l)-1 else "]":1} -- {ln}' for k,(ln,ins,g) in enumerate(l)))
            o.append(f'\n/-- {path} lines {a}-{b} -/\ndef {nm} : Code A := .brz {nm}Pre {end[1]} (.jmp ({nm}Z ++ {nm}Tail) {end[4]}) (.jmp {nm}Tail {end[4]})\n')
            continue
        par=P.get('param',''); 
        o.append(f'/-- {path} lines {a}-{b} -/')
        groups=[]
        for ln,ins,g in out:
            if groups and groups[-1][0]==g: groups[-1][1].append((ln,ins))
            else: groups.append([g,[(ln,ins)]])
        parts=[]
        for g,l in groups:
            body='[\n'+'\n'.join(f'    {ins}{"," if k<len(l)-1 else "]":1} -- {ln}' for k,(ln,ins) in enumerate(l))
            for c,n in g: body=f'(if {c} then [] else {body}\n    )' if n else f'(if {c} then {body}\n    else [])'
            parts.append(body)
        if P.get('ci'):
            o.append(f'def {fn}Is {par} : List CI :=\n  '+'\n  ++ '.join(parts)+'\n'); continue
        o.append(f'def {fn}Is {par} : List (Instr A) :=\n  '.replace('  :',' :')+'\n  ++ '.join(parts))
        if fn in P.get('isonly',[]): o.append(''); continue
        o.append(f'\ndef {fn} {par} : Code A := .jmp {"("+fn+"Is "+par.split()[0][1:]+")" if par else fn+"Is"} {end}\n'.replace('  :',' :'))
    if P.get('code'): o.append(P['code'].format(j=f'jump_{P["abi"]}_gas.S',o=f'ontop_{P["abi"]}_gas.S'))
    o.append(f'end Verif.Asm.{arch}')
    open(f'/verif/lean/Verif/Asm/{arch}Code.lean','w').write('\n'.join(o)+'\n')
for a in sys.argv[1:]: emit(a)
