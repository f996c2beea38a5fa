import Verif.Fiber.Eff

/-!
# Happens-before

Fibers may move between threads.  The library uses no atomic operation and no lock: a context is handed over through a `fiber` object, and the program synchronises the accesses of several threads
to one `fiber` object (as it must for any object).  Vocabulary for C94: in an execution of the machine of `Verif.Fiber.Model`, the steps of a thread, the start of a thread and the
program's synchronisation of `fiber` objects order steps; which steps use the stack of a context.
-/

namespace Verif.Sync
open Verif.Fiber

/-- Step `i` is ordered before step `j` in an execution of `len` steps: steps of one thread; the start of a thread before its steps; two writes of the same object of the program; transitively. -/
inductive HB (len : Nat) (tid : Nat → Tid) (starts : Nat → Tid → Prop) (writes : Nat → Var → Prop) : Nat → Nat → Prop
  | thread {i j} (h : i < j) (hj : j < len) (ht : tid i = tid j) : HB len tid starts writes i j
  | start {i j} (h : i < j) (hj : j < len) (hs : starts i (tid j)) : HB len tid starts writes i j
  | object {i j x} (h : i < j) (hj : j < len) (hi : writes i x) (hx : writes j x) : HB len tid starts writes i j
  | trans {i j k} : HB len tid starts writes i j → HB len tid starts writes j k → HB len tid starts writes i k

/-- An execution of `len` steps: states, the thread of each step, its operation. -/
structure Run where
  st : Nat → State
  tid : Nat → Tid
  op : Nat → Op
  len : Nat
  start : st 0 = init
  step : ∀ i, i < len → step (st i) (tid i) (op i) = .ok (st (i + 1))

/-- a step from `s` to `s'` changes the stack, the registers or the control record of context `d` -/
def Alters (s s' : State) (d : CtxId) : Prop := s'.frames d ≠ s.frames d ∨ s'.status d ≠ s.status d ∨ s'.seq d ≠ s.seq d ∨ s'.caps d ≠ s.caps d

/-- step `i` uses context `d`: executes code on its stack, switches from or to it, starts it, unwinds it, releases it -/
def Uses (r : Run) (i : Nat) (d : CtxId) : Prop := (r.st i).cur (r.tid i) = some d ∨ Alters (r.st i) (r.st (i + 1)) d

/-- step `i` writes the `fiber` object `x` of the program (assigns to it, moves from it, creates or destroys it, …) -/
def Writes (r : Run) (i : Nat) (x : Var) : Prop :=
  (Handle (r.st i) x ∨ Handle (r.st (i + 1)) x) ∧ ((r.st (i + 1)).val x ≠ (r.st i).val x ∨ (r.st (i + 1)).kind x ≠ (r.st i).kind x)

/-- thread `t` is started by step `i` -/
def Starts (r : Run) (i : Nat) (t : Tid) : Prop := (r.st i).cur t = none ∧ (r.st (i + 1)).cur t ≠ none

/-- happens-before in an execution -/
def Run.HB (r : Run) : Nat → Nat → Prop := Sync.HB r.len r.tid (Starts r) (Writes r)

end Verif.Sync
