import Verif.Asm.Machine

/-!
# What a platform's `jump_fcontext` / `ontop_fcontext` / `make_fcontext` have to do

`Port` collects the *calling convention* of a platform (where arguments, results and return address are, which registers a
function must preserve) and the three routines.  The specifications below mention only the calling convention, never the
instructions.
-/

namespace Verif.Asm

structure Port (A : Arch) where
  jump : Code A
  ontop : Code A
  make : Code A
  /-- stub executed between the first switch to a new context and the context function (x86) -/
  tramp : Option (A.Lab × Code A)
  finish : A.Lab
  /-- stack pointer register -/
  sp : A.R
  /-- registers a function must preserve according to the ABI (other than the stack pointer), as far as claimed for this port -/
  saved : List A.R
  fsaved : List A.F
  /-- at the entry of a function: the return address, and the stack pointer the caller expects after the return -/
  ra : St A → A.W
  spRet : St A → A.W
  /-- at the entry of `jump_fcontext(to, data)` / `ontop_fcontext(to, data, fn)` -/
  argF : St A → A.W
  argD : St A → A.W
  argFn : St A → A.W
  /-- bytes of the result object of a call (empty if the result is returned in registers), given the state at its entry -/
  slot : St A → A.W → Prop
  /-- result `transfer_t{fctx, data}` of the call with entry state `σ`, in state `τ` after the return -/
  resF : (σ τ : St A) → A.W
  resD : (σ τ : St A) → A.W
  /-- at the entry of a context function (which returns nothing): its parameter `transfer_t{fctx, data}` -/
  inF : St A → A.W
  inD : St A → A.W
  /-- at the entry of an on-top function (which returns a `transfer_t`): its parameter `transfer_t{fctx, data}` -/
  oinF : St A → A.W
  oinD : St A → A.W
  /-- the `fcontext_t` that designates the context suspended by a call with this entry state -/
  fctx : St A → A.W
  /-- number of bytes from there that the call writes, and number that must survive until resumption -/
  frame : Nat
  keep : Nat
  /-- bytes of the result object of the context to which the call with this entry state switches -/
  tslot : St A → A.W → Prop
  /-- additional bytes an on-top call may write, in the argument area of the suspended call `σ` -/
  oarea : St A → A.W → Prop
  /-- what the platform demands of a call with this entry state, beyond the general conditions of `Intact` (e.g. that its result pointer is not null) -/
  ok : St A → Prop
  /-- arguments and result of `make_fcontext(top, size, fn)` -/
  argTop : St A → A.W
  argMFn : St A → A.W
  resM : St A → A.W
  /-- the stack pointer the caller of `make_fcontext` expects after the return -/
  mspRet : St A → A.W
  /-- bytes below its stack pointer that `make_fcontext` uses -/
  mscratch : Nat
  /-- bytes of context data of a new context that must survive until its first activation -/
  mkeep : Nat
  /-- bytes a first activation writes into the new context's own data -/
  mslot : (c : A.W) → A.W → Prop
  /-- alignment of the stack pointer the ABI demands at the entry of a function -/
  aligned : A.W → Prop
  /-- further demands of the ABI on the state after the return of a call that returns a `transfer_t` (i386: `eax` holds the address of the result object) -/
  also : (σ τ : St A) → Prop := fun _ _ => True

namespace Port
variable {A : Arch} (P : Port A)

/-- After a call with entry state `σ`, control is at `pc` in state `τ`: the call has returned as the ABI demands, leaving the stack pointer at `w`. -/
structure ReturnedTo (w : A.W) (σ τ : St A) (pc : A.W) : Prop where
  pc : pc = P.ra σ
  sp : τ.gpr P.sp = w
  saved : ∀ r ∈ P.saved, τ.gpr r = σ.gpr r
  fsaved : ∀ f ∈ P.fsaved, τ.fpr f = σ.fpr f

/-- the same for functions that return a `transfer_t` -/
def Returned (σ τ : St A) (pc : A.W) : Prop := P.ReturnedTo (P.spRet σ) σ τ pc

/-- State `τ` looks to a function entered in it as if it had been called, with argument `transfer_t{f, d}`, by the caller of the
call with entry state `σ`. -/
structure CalledAs (σ τ : St A) (f d : A.W) : Prop where
  ra : P.ra τ = P.ra σ
  spRet : P.spRet τ = P.spRet σ
  saved : ∀ r ∈ P.saved, τ.gpr r = σ.gpr r
  fsaved : ∀ q ∈ P.fsaved, τ.fpr q = σ.fpr q
  slot : ∀ a, P.slot τ a ↔ P.slot σ a
  argF : P.oinF τ = f
  argD : P.oinD τ = d

/-- The call with entry state `σ` (of `jump_fcontext` or `ontop_fcontext`) has left its context with memory `m`. -/
def Left (e : Env A) (σ : St A) (m : Mem A) : Prop := (exec e P.jump σ).1.mem = m ∨ (exec e P.ontop σ).1.mem = m

/-- Between the suspension in `σ` (leaving memory `m`) and the call with entry state `τ` that switches back: the result object of
the target of `σ`, the result object of `σ` itself and the frame of `τ` do not overlap the suspended frame, and the suspended frame
still has the content it had. -/
structure Intact (σ : St A) (m : Mem A) (τ : St A) : Prop where
  ok : P.ok σ
  ok' : P.ok τ
  tslot : ∀ a, P.tslot σ a → ¬ InR a (P.fctx σ) (max P.frame P.keep)
  slot : ∀ a, P.slot σ a → ¬ InR a (P.fctx σ) P.keep ∧ ¬ InR a (P.fctx τ) P.frame
  mem : ∀ a, InR a (P.fctx σ) P.keep → τ.mem a = m a
  frame : ∀ a, InR a (P.fctx σ) P.keep → ¬ InR a (P.fctx τ) P.frame

/-- **Switching away and back.** A context suspended by a call `σ` is resumed by any later `jump_fcontext(fctx σ, data)` exactly
as if `σ` returned `transfer_t{fctx of the resuming context, data}`; only the frame of the resuming call and the result object of
`σ` are written. -/
def JumpSpec : Prop := ∀ (e : Env A) (σ τ : St A) (m : Mem A), P.Left e σ m → P.Intact σ m τ → P.argF τ = P.fctx σ →
  P.Returned σ (exec e P.jump τ).1 (exec e P.jump τ).2 ∧
  P.resF σ (exec e P.jump τ).1 = P.fctx τ ∧ P.resD σ (exec e P.jump τ).1 = P.argD τ ∧
  (∀ a, (exec e P.jump τ).1.mem a ≠ τ.mem a → InR a (P.fctx τ) P.frame ∨ P.slot σ a) ∧
  (∀ a, P.tslot τ a ↔ P.slot σ a) ∧ P.also σ (exec e P.jump τ).1

/-- **On-top calls**, with `f` the address control goes to: any later `ontop_fcontext(fctx σ, data, fn)` enters `f` on the stack of the suspended context as if it
had been called, with `transfer_t{fctx of the resuming context, data}`, in place of the suspended call `σ`. -/
def OntopSpecTo (f : Env A → St A → A.W) : Prop := ∀ (e : Env A) (σ τ : St A) (m : Mem A), P.Left e σ m → P.Intact σ m τ → P.argF τ = P.fctx σ →
  (exec e P.ontop τ).2 = f e τ ∧ P.CalledAs σ (exec e P.ontop τ).1 (P.fctx τ) (P.argD τ) ∧
  (∀ a, (exec e P.ontop τ).1.mem a ≠ τ.mem a → InR a (P.fctx τ) P.frame ∨ P.slot σ a ∨ P.oarea σ a) ∧
  ∀ a, P.tslot τ a ↔ P.slot σ a

/-- **On-top calls.** Any later `ontop_fcontext(fctx σ, data, fn)` enters `fn` on the stack of the suspended context as if `fn`
had been called, with `transfer_t{fctx of the resuming context, data}`, in place of the suspended call `σ`. -/
def OntopSpec : Prop := P.OntopSpecTo fun _ τ => P.argFn τ

/-- first activation: the switch, then the stub if the platform has one -/
def enter (e : Env A) (τ : St A) : St A × A.W :=
  match P.tramp with
  | none => exec e P.jump τ
  | some (_, c) => exec e c (exec e P.jump τ).1

/-- **New contexts.** `make_fcontext(top, size, fn)` returns to its caller with a context `c` below `top`; it writes only below
`top` from `c` on (and its own scratch area).  The first `jump_fcontext(c, data)` enters `fn` with
`transfer_t{fctx of the resuming context, data}`, an ABI-aligned stack pointer between `c` and `top`, and the address of the
`finish` stub as return address; it writes only its own frame and `c`'s data. -/
def MakeSpec : Prop := ∀ (e : Env A) (σ : St A),
  (∀ a, InR a (P.resM (exec e P.make σ).1) (P.argTop σ - P.resM (exec e P.make σ).1).toNat →
    ¬ InR a (σ.gpr P.sp - off A P.mscratch) (P.mscratch + A.k)) →
  P.ReturnedTo (P.mspRet σ) σ (exec e P.make σ).1 (exec e P.make σ).2 ∧
  (P.mkeep ≤ (P.argTop σ - P.resM (exec e P.make σ).1).toNat ∧ (P.argTop σ - P.resM (exec e P.make σ).1).toNat ≤ P.mkeep + 64) ∧
  (∀ a, (exec e P.make σ).1.mem a ≠ σ.mem a →
    InR a (P.resM (exec e P.make σ).1) (P.argTop σ - P.resM (exec e P.make σ).1).toNat ∨
    InR a (σ.gpr P.sp - off A P.mscratch) P.mscratch) ∧
  ∀ τ : St A, P.argF τ = P.resM (exec e P.make σ).1 →
    (∀ a, InR a (P.argF τ) P.mkeep → τ.mem a = (exec e P.make σ).1.mem a) →
    (∀ a, InR a (P.argF τ) P.mkeep → ¬ InR a (P.fctx τ) P.frame) →
    (∀ l c, P.tramp = some (l, c) → (exec e P.jump τ).2 = e l) ∧
    (P.enter e τ).2 = P.argMFn σ ∧
    P.inF (P.enter e τ).1 = P.fctx τ ∧ P.inD (P.enter e τ).1 = P.argD τ ∧
    P.ra (P.enter e τ).1 = e P.finish ∧
    P.aligned ((P.enter e τ).1.gpr P.sp) ∧
    ((P.enter e τ).1.gpr P.sp - P.argF τ).toNat ≤ (P.argTop σ - P.argF τ).toNat ∧
    (∀ a, (P.enter e τ).1.mem a ≠ τ.mem a → InR a (P.fctx τ) P.frame ∨ P.mslot (P.argF τ) a) ∧
    ∀ a, P.mslot (P.argF τ) a → InR a (P.argF τ) P.mkeep

/-- A function entered as in `OntopSpec` that returns as the ABI demands returns from the suspended call `σ`. -/
theorem CalledAs.returned {P : Port A} {σ τ τ' : St A} {f d pc} (h : P.CalledAs σ τ f d) (hr : P.Returned τ τ' pc) : P.Returned σ τ' pc :=
  ⟨hr.pc.trans h.ra, hr.sp.trans h.spRet, fun r hm => (hr.saved r hm).trans (h.saved r hm), fun r hm => (hr.fsaved r hm).trans (h.fsaved r hm)⟩

end Port
end Verif.Asm
