import Verif.Asm.Lemmas

/-!
# SPARC V9, 64 bit: register windows, and transcription of `/repo/src/asm/{jump,ontop,make}_sparc64_sysv_elf_gas.S`

SPARC keeps the local and in registers of the innermost activations in register windows; older ones have been spilled to the *save area* of
their activation, 128 bytes at `%sp + 2047`.  `save` opens a window (the outs become the ins), `restore` closes it, and
fetches the window of the caller from its save area if it is not in the register file any more.

Model: `wins` are the windows of callers still in the register file, innermost first.  When `save` finds the register file full the
system spills some of the oldest windows; how many is left open (`Env.room`), so every number of register windows is covered, as are windows
spilled by interrupts.  The contents of the locals and outs of a new window are left open as well (`Env.jl`, `Env.jo`).
Traps for misaligned addresses are not modelled (alignment is a conclusion of the theorems). -/

namespace Verif.Asm.Sparc64

def A : Arch := { k := 8, R := Unit, F := Unit, Lab := Unit, fb := fun _ => 8 }
abbrev W := A.W

/-- the local and in registers of an activation -/
structure Win where
  l : Fin 8 → W
  i : Fin 8 → W

structure St where
  g : Fin 8 → W
  o : Fin 8 → W
  l : Fin 8 → W
  i : Fin 8 → W
  wins : List Win
  mem : Mem A

inductive Reg | g (n : Fin 8) | o (n : Fin 8) | l (n : Fin 8) | i (n : Fin 8)
  deriving DecidableEq

abbrev sp : Reg := .o 6
abbrev fp : Reg := .i 6

/-- the stack bias of the 64 bit ABI (jump line 19) -/
def BIAS : Nat := 2047
/-- minimal frame: save area, argument slots (jump line 18) -/
def CC64FSZ : Nat := 176

structure Env where
  /-- the address of `trampoline` in make_sparc64 (line 56) -/
  tramp : W
  /-- the address of label `1` in make_sparc64 (line 43) -/
  one : W
  /-- locals and outs of a window just opened -/
  jl : Fin 8 → W
  jo : Fin 8 → W
  /-- number of callers' windows `save` leaves in the register file -/
  room : Nat

def get (s : St) : Reg → W
  | .g n => if n = 0 then 0#_ else s.g n
  | .o n => s.o n
  | .l n => s.l n
  | .i n => s.i n

def upd (f : Fin 8 → W) (n : Fin 8) (v : W) : Fin 8 → W := fun k => if k = n then v else f k

def set (s : St) (r : Reg) (v : W) : St :=
  match r with
  | .g n => { s with g := upd s.g n v }
  | .o n => { s with o := upd s.o n v }
  | .l n => { s with l := upd s.l n v }
  | .i n => { s with i := upd s.i n v }

/-- writes consecutive words -/
def words (m : Mem A) (a : W) : List W → Mem A
  | [] => m
  | v :: vs => store (words m (a + off A 8) vs) a A.k v

/-- spills the window `w` of the activation with stack pointer `p` -/
def spill (m : Mem A) (p : W) (w : Win) : Mem A :=
  words m (p + off A BIAS) [w.l 0, w.l 1, w.l 2, w.l 3, w.l 4, w.l 5, w.l 6, w.l 7, w.i 0, w.i 1, w.i 2, w.i 3, w.i 4, w.i 5, w.i 6, w.i 7]

/-- fetches the window of the activation with stack pointer `p` -/
def fill (m : Mem A) (p : W) : Win where
  l := fun n => load m (p + off A BIAS + off A (8 * n.val)) A.k
  i := fun n => load m (p + off A BIAS + off A (64 + 8 * n.val)) A.k

/-- Spills the windows `ws`, the innermost of which belongs to stack pointer `p`, except the first `k`; oldest first.  The stack pointer of
the caller of an activation is its `%fp = %i6`. -/
def spillFrom (m : Mem A) : Nat → W → List Win → Mem A
  | _, _, [] => m
  | 0, p, w :: ws => spill (spillFrom m 0 (w.i 6) ws) p w
  | k + 1, _, w :: ws => spillFrom m k (w.i 6) ws

inductive Instr
  | save (rs : Reg) (imm : W) (rd : Reg)
  | restore (rs : Reg) (imm : W) (rd : Reg)
  | stx (r b : Reg) (o : Nat)
  | ldx (b : Reg) (o : Nat) (r : Reg)
  /-- `add`, `sub`, `mov` (`or %g0`) with immediate -/
  | add (rs : Reg) (imm : W) (rd : Reg)
  | and (rs : Reg) (imm : W) (rd : Reg)
  | flushw
  /-- `rd %pc` at label `1` -/
  | rdpc1 (rd : Reg)
  /-- `add` of `trampoline - 1b - 8` -/
  | addTramp (rs rd : Reg)
  | nop

def step (e : Env) (s : St) : Instr → St
  | .save rs imm rd =>
    let v := get s rs + imm
    set { s with mem := spillFrom s.mem e.room (s.i 6) s.wins, wins := ⟨s.l, s.i⟩ :: s.wins.take e.room, i := s.o, l := e.jl, o := e.jo } rd v
  | .restore rs imm rd =>
    let v := get s rs + imm
    match s.wins with
    | w :: ws => set { s with o := s.i, l := w.l, i := w.i, wins := ws } rd v
    | [] => set { s with o := s.i, l := (fill s.mem (s.i 6)).l, i := (fill s.mem (s.i 6)).i } rd v
  | .stx r b o => { s with mem := store s.mem (get s b + off A o) A.k (get s r) }
  | .ldx b o r => set s r (load s.mem (get s b + off A o) A.k)
  | .add rs imm rd => set s rd (get s rs + imm)
  | .and rs imm rd => set s rd (get s rs &&& imm)
  | .flushw => { s with mem := spillFrom s.mem 0 (s.i 6) s.wins, wins := [] }
  | .rdpc1 rd => set s rd e.one
  | .addTramp rs rd => set s rd (get s rs + (e.tramp - e.one - off A 8))
  | .nop => s

def steps (e : Env) : List Instr → St → St
  | [], s => s
  | x :: xs, s => steps e xs (step e s x)

/-- Straight-line code, then an indirect jump to `tgt + disp` with a delay slot; `link`: the register that gets the address of the jump -/
structure Code where
  is : List Instr
  tgt : Reg
  disp : W
  link : Option (Reg × (Env → W))
  delay : Instr

/-- final state and the address control goes to -/
def exec (e : Env) (c : Code) (s : St) : St × W :=
  let s := steps e c.is s
  let pc := get s c.tgt + c.disp
  let s := match c.link with | none => s | some (r, a) => set s r (a e)
  (step e s c.delay, pc)

/-- jump_sparc64_sysv_elf_gas.S lines 28-46 (18-21: `SP` = 128, `I7` = 136) -/
def jump : Code where
  is := [
    .save sp (-off A CC64FSZ) sp,        -- 30
    .stx fp sp (BIAS + 128),             -- 34
    .stx (.i 7) sp (BIAS + 136),         -- 35
    .add sp 0#_ (.o 0),                  -- 36
    .flushw,                             -- 38
    .add (.i 0) 0#_ sp,                  -- 40
    .ldx sp (BIAS + 128) fp,             -- 42
    .ldx sp (BIAS + 136) (.i 7)]         -- 43
  tgt := .i 7                            -- 45
  disp := off A 8
  link := none
  delay := .restore (.o 0) 0#_ (.o 0)    -- 46

/-- ontop_sparc64_sysv_elf_gas.S lines 21-47 -/
def ontop : Code where
  is := [
    .save sp (-off A CC64FSZ) sp,        -- 23
    .stx fp sp (BIAS + 128),             -- 27
    .stx (.i 7) sp (BIAS + 136),         -- 28
    .add sp 0#_ (.o 0),                  -- 29
    .flushw,                             -- 31
    .add (.i 0) 0#_ sp,                  -- 33
    .ldx sp (BIAS + 128) fp,             -- 35
    .ldx sp (BIAS + 136) (.i 7),         -- 36
    .restore (.o 0) 0#_ (.o 0)]          -- 42
  tgt := .o 2                            -- 46
  disp := 0#_
  link := none
  delay := .nop                          -- 47

/-- make_sparc64_sysv_elf_gas.S lines 22-54 (11-15: `FP` = 112) -/
def make : Code where
  is := [
    .save sp (-off A CC64FSZ) sp,        -- 23
    .and (.i 0) (-off A 0xf) (.i 0),     -- 26
    .add (.i 0) (-off A (2 * CC64FSZ)) (.i 0),  -- 31
    .stx (.i 2) (.i 0) (CC64FSZ + 136),  -- 36
    .stx (.g 0) (.i 0) (CC64FSZ + 112),  -- 37
    .rdpc1 (.l 0),                       -- 44
    .addTramp (.l 0) (.l 0),             -- 45
    .stx (.l 0) (.i 0) 136,              -- 46
    .add (.i 0) (off A CC64FSZ - off A BIAS) (.l 0),  -- 49
    .stx (.l 0) (.i 0) 128]              -- 50
  tgt := .i 7                            -- 53
  disp := off A 8
  link := none
  delay := .restore (.i 0) (-off A BIAS) (.o 0)  -- 54

/-- make_sparc64_sysv_elf_gas.S lines 56-61; the `call _exit` of line 63 is at `trampoline + 12` -/
def tramp : Code where
  is := [.ldx sp (BIAS + 136) (.l 0)]    -- 57
  tgt := .l 0                            -- 60
  disp := 0#_
  link := some (.o 7, fun e => e.tramp + off A 4)
  delay := .nop                          -- 61

end Verif.Asm.Sparc64
