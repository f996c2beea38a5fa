import Verif.Asm.Many

/-!
# A context function that returns (C92)

`make_fcontext` stores the address of a stub, `finish`, as return address of the context function.  The stub calls `_exit(0)`.  This file states what that means, in terms of the
calling convention; `ExitPorts` proves it for the ports.  (No code of `/repo` is modelled in this file.)
-/

namespace Verif.Asm

variable {A : Arch}

/-- Where a stub goes at its end: to the address of the symbol `_exit`, which the linker puts into the instruction, or to the address in a register. -/
inductive Tgt (A : Arch)
  | sym
  | reg (r : A.R)

/-- A stub that calls `_exit`: straight-line code, given the address of the instruction after the call, then the branch. -/
structure Stub (A : Arch) where
  is : A.W → List (Instr A)
  to : Tgt A

/-- Runs a stub, with `x` the address of `_exit`; the result is the state and the address control goes to. -/
def Stub.run (S : Stub A) (e : Env A) (x nxt : A.W) (s : St A) : St A × A.W :=
  (steps e (S.is nxt) s, match S.to with | .sym => x | .reg r => (steps e (S.is nxt) s).gpr r)

/-- The part of the calling convention that concerns functions that return nothing. -/
structure VoidConv (P : Port A) where
  /-- the stack pointer after the return of a function that returns nothing, given the state at its entry -/
  vret : St A → A.W
  /-- at the entry of a function that returns nothing: its first parameter, an `int` -/
  arg : St A → A.W
  /-- how far below and above the stack pointer with which the context function was entered the stub may write -/
  lo : Nat
  hi : Nat
  /-- demands on the call of `make_fcontext` beyond those of `MakeSpec` (see `Extra.mok`) -/
  mok : Env A → St A → Prop := fun _ _ => True
  /-- what the context function must have left alone beyond what a return demands: `σ` entry of `make_fcontext`, `ε` entry of the context function, `ρ` state after its return,
  `x` address of `_exit` -/
  kept : (σ ε ρ : St A) → (x : A.W) → Prop := fun _ _ _ _ => True

/-- **C92.**  `make_fcontext(top, size, fn)` is called with entry state `σ`; a call with entry state `τ` switches to the new context for the first time, so that `fn` is entered; `fn`
executes whatever it likes and returns as the ABI demands, leaving state `ρ` and control at `pc`.  Then `pc` is the stub, and the stub ends with control at the address of `_exit`,
whose parameter is 0, with a stack pointer that is aligned as at the entry of any function and at most `lo` bytes below the one `fn` was entered with; it writes only there. -/
def Port.ExitSpec (P : Port A) (C : VoidConv P) (S : Stub A) : Prop := ∀ (e : Env A) (σ τ ρ : St A) (pc x nxt : A.W), C.mok e σ →
  (∀ a, InR a (P.resM (exec e P.make σ).1) (P.argTop σ - P.resM (exec e P.make σ).1).toNat →
    ¬ InR a (σ.gpr P.sp - off A P.mscratch) (P.mscratch + A.k)) →
  P.argF τ = P.resM (exec e P.make σ).1 →
  (∀ a, InR a (P.argF τ) P.mkeep → τ.mem a = (exec e P.make σ).1.mem a) →
  (∀ a, InR a (P.argF τ) P.mkeep → ¬ InR a (P.fctx τ) P.frame) →
  P.ReturnedTo (C.vret (P.enter e τ).1) (P.enter e τ).1 ρ pc → C.kept σ (P.enter e τ).1 ρ x →
  pc = e P.finish ∧ (S.run e x nxt ρ).2 = x ∧ C.arg (S.run e x nxt ρ).1 = 0#_ ∧ P.aligned ((S.run e x nxt ρ).1.gpr P.sp) ∧
  ((P.enter e τ).1.gpr P.sp - (S.run e x nxt ρ).1.gpr P.sp).toNat ≤ C.lo ∧
  ∀ a, (S.run e x nxt ρ).1.mem a ≠ ρ.mem a → InR a ((P.enter e τ).1.gpr P.sp - off A C.lo) (C.lo + C.hi)

/-- what a stub has to do: `ε` entry of the context function, `ρ` state after its return -/
def Port.StubOk (P : Port A) (C : VoidConv P) (S : Stub A) : Prop := ∀ (e : Env A) (σ ε ρ : St A) (x nxt : A.W),
  P.aligned (ε.gpr P.sp) → ρ.gpr P.sp = C.vret ε → C.kept σ ε ρ x →
  (S.run e x nxt ρ).2 = x ∧ C.arg (S.run e x nxt ρ).1 = 0#_ ∧ P.aligned ((S.run e x nxt ρ).1.gpr P.sp) ∧
  (ε.gpr P.sp - (S.run e x nxt ρ).1.gpr P.sp).toNat ≤ C.lo ∧
  ∀ a, (S.run e x nxt ρ).1.mem a ≠ ρ.mem a → InR a (ε.gpr P.sp - off A C.lo) (C.lo + C.hi)

theorem Port.ExitSpec.of {P : Port A} {C : VoidConv P} {S : Stub A} (hM : ∀ e σ, C.mok e σ →
      (∀ a, InR a (P.resM (exec e P.make σ).1) (P.argTop σ - P.resM (exec e P.make σ).1).toNat →
        ¬ InR a (σ.gpr P.sp - off A P.mscratch) (P.mscratch + A.k)) → P.MakeAt e σ) (hS : P.StubOk C S) : P.ExitSpec C S := by
  intro e σ τ ρ pc x nxt hm hd h1 h2 h3 hr hk
  obtain ⟨_, _, _, h⟩ := hM e σ hm hd
  obtain ⟨_, _, _, _, hra, hal, _⟩ := h τ h1 h2 h3
  exact ⟨hr.pc.trans hra, hS e σ _ ρ x nxt hal hr.sp hk⟩

theorem Port.ExitSpec.of_make {P : Port A} {C : VoidConv P} {S : Stub A} (hM : P.MakeSpec) (hS : P.StubOk C S) : P.ExitSpec C S :=
  .of (fun e σ _ h => hM e σ h) hS

/-- a stub that neither writes memory nor moves the stack pointer, on a port whose functions return with the stack pointer they were entered with -/
theorem Port.StubOk.plain {P : Port A} {C : VoidConv P} {S : Stub A} (hv : ∀ s, C.vret s = s.gpr P.sp)
    (hm : ∀ e nxt s, (steps e (S.is nxt) s).mem = s.mem) (hsp : ∀ e nxt s, (steps e (S.is nxt) s).gpr P.sp = s.gpr P.sp)
    (ha : ∀ e nxt s, C.arg (steps e (S.is nxt) s) = 0#_) (ht : S.to = .sym) : P.StubOk C S := by
  intro e σ ε ρ x nxt hal hsr _
  have hs : (S.run e x nxt ρ).1.gpr P.sp = ε.gpr P.sp := (hsp e nxt ρ).trans (hsr.trans (hv ε))
  refine ⟨?_, ha e nxt ρ, ?_, ?_, fun a h => absurd (congrFun (hm e nxt ρ) a) h⟩
  · simp only [Stub.run, ht]
  · rw [hs]; exact hal
  · rw [hs, BitVec.sub_self]; exact Nat.zero_le _

/-- The hypotheses of `ExitSpec` about the return are met by a context function that returns at once, with memory unchanged and the value 42 in a register `r` of its choice that need
not be preserved; those about `make_fcontext` and the first activation are the ones of `MakeSpec`. -/
theorem VoidConv.returns {P : Port A} (C : VoidConv P) (ε : St A) (r : A.R) (hsp : P.sp ∉ P.saved) (hr : r ∉ P.saved) (hn : r ≠ P.sp) :
    ∃ ρ, P.ReturnedTo (C.vret ε) ε ρ (P.ra ε) ∧ ρ.mem = ε.mem ∧ ρ.gpr r = 42#_ := by
  refine ⟨⟨fun q => if q = P.sp then C.vret ε else if q = r then 42#_ else ε.gpr q, ε.fpr, ε.mem⟩, ⟨rfl, if_pos rfl, fun q hq => ?_, fun _ _ => rfl⟩, rfl, ?_⟩
  · exact (if_neg (fun h : q = P.sp => hsp (h ▸ hq))).trans (if_neg (fun h : q = r => hr (h ▸ hq)))
  · exact (if_neg hn).trans (if_pos rfl)

end Verif.Asm
