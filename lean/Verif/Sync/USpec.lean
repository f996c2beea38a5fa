import Verif.Sync.Spec
import Verif.UFiber.Spec

/-! # Happens-before for the ucontext implementation: executions and uses (see `Verif.Sync.Spec`) -/

namespace Verif.Sync.U
open Verif.UFiber
open Verif.Fiber (CtxId Var Tid Op)

/-- An execution of `len` steps in which no destructor is executed on a never started fiber (which is a defect of this implementation, C24). -/
structure Run where
  st : Nat → State
  tid : Nat → Tid
  op : Nat → Op
  len : Nat
  start : st 0 = init
  step : ∀ i, i < len → step (st i) (tid i) (op i) = .ok (st (i + 1))
  noEarly : NoEarlyDestroy (st len)

/-- a step from `s` to `s'` changes the stack, the registers or the activation record of context `d` -/
def Alters (s s' : State) (d : CtxId) : Prop :=
  s'.frames d ≠ s.frames d ∨ s'.status d ≠ s.status d ∨ s'.caps d ≠ s.caps d ∨ s'.root d ≠ s.root d ∨ s'.frm d ≠ s.frm d ∨ s'.ontop d ≠ s.ontop d ∨ s'.term d ≠ s.term d ∨ s'.unw d ≠ s.unw d

/-- the object that designates `d` is used up or destroyed (which reads the record of `d`) -/
def Consumes (s s' : State) (d : CtxId) : Prop := (∃ x, s.val x = some d) ∧ ∀ y, s'.val y ≠ some d

/-- step `i` uses context `d`: executes code on its stack, switches from or to it, starts it, unwinds it, releases it, reads or writes its activation record -/
def Uses (r : Run) (i : Nat) (d : CtxId) : Prop := (r.st i).cur (r.tid i) = some d ∨ Alters (r.st i) (r.st (i + 1)) d ∨ Consumes (r.st i) (r.st (i + 1)) d

/-- step `i` writes the `fiber` object `x` of the program -/
def Writes (r : Run) (i : Nat) (x : Var) : Prop :=
  (Handle (r.st i) x ∨ Handle (r.st (i + 1)) x) ∧ ((r.st (i + 1)).val x ≠ (r.st i).val x ∨ (r.st (i + 1)).kind x ≠ (r.st i).kind x)

/-- thread `t` is started by step `i` -/
def Starts (r : Run) (i : Nat) (t : Tid) : Prop := (r.st i).cur t = none ∧ (r.st (i + 1)).cur t ≠ none

/-- happens-before in an execution -/
def Run.HB (r : Run) : Nat → Nat → Prop := Sync.HB r.len r.tid (Starts r) (Writes r)

end Verif.Sync.U
