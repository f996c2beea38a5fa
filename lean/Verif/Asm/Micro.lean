import Verif.Asm.Foot

/-!
# Switches instruction by instruction, on any number of threads (C82)

The transition system of `Many` with the atomicity removed: a thread that calls one of the routines executes it instruction by instruction, and the other threads execute
their own code and routines (instruction by instruction) in between, in any order.  (No code of `/repo` is modelled in this file beyond the routines of the port.)

The demands on user code are those of `Many`, and that it does not write bytes that a call in progress on another thread accesses (data race freedom), nor switches
to a context to which another thread is already switching (a handle is used once).  That the *routines* do not interfere with each other is proved, not assumed.
Memory is sequentially consistent (justified by the absence of data races).
-/

namespace Verif.Asm
namespace Micro
open Many

variable {A : Arch}

/-- the registers of a thread -/
structure Regs (A : Arch) where
  gpr : A.R → A.W
  fpr : (f : A.F) → BitVec (8 * A.fb f)

def Regs.on (r : Regs A) (m : Mem A) : St A := ⟨r.gpr, r.fpr, m⟩

/-- One step of a sequence of routines: an instruction, a branch, or the jump from a routine to the next. -/
def mic (e : Env A) : List (Code A) → St A → Option (List (Code A) × St A)
  | .jmp (i :: is) r :: cs, s => some (.jmp is r :: cs, step e s i)
  | .jmp [] _ :: c :: cs, s => some (c :: cs, s)
  | .jmp [] _ :: [], _ => none
  | .brz (i :: is) r z nz :: cs, s => some (.brz is r z nz :: cs, step e s i)
  | .brz [] r z nz :: cs, s => some ((if s.gpr r = 0#_ then z else nz) :: cs, s)
  | [], _ => none

/-- the bytes this step accesses -/
def micAcc (x : Acc) : List (Code A) → St A → A.W → Prop
  | .jmp (i :: _) _ :: _, s => i.acc x s
  | .brz (i :: _) _ _ _ :: _, s => i.acc x s
  | _, _ => fun _ => False

/-- any number of steps -/
inductive Mics (e : Env A) (p : List (Code A)) (σ : St A) : List (Code A) → St A → Prop
  | refl : Mics e p σ p σ
  | tail {cs s cs' s'} : Mics e p σ cs s → mic e cs s = some (cs', s') → Mics e p σ cs' s'

theorem mic_same (hk : A.Sane) {e : Env A} {S : A.W → Prop} {cs cs' : List (Code A)} {s s' s1 : St A} (h : Same S s s') (hr : ∀ a, micAcc .rd cs s a → S a)
    (hm : mic e cs s = some (cs', s1)) : ∃ s1', mic e cs s' = some (cs', s1') ∧ Same (fun a => S a ∨ micAcc .wr cs s a) s1 s1' := by
  have hid : Same (fun a => S a ∨ False) s s' := h.mono fun a ha => ha.resolve_right id
  match cs with
  | [] => cases hm
  | .jmp (i :: is) r :: cs =>
    simp only [mic, Option.some.injEq, Prod.mk.injEq] at hm
    obtain ⟨rfl, rfl⟩ := hm
    exact ⟨_, rfl, step_same hk i h hr⟩
  | [.jmp [] r] => cases hm
  | .jmp [] r :: c :: cs =>
    simp only [mic, Option.some.injEq, Prod.mk.injEq] at hm
    obtain ⟨rfl, rfl⟩ := hm
    exact ⟨_, rfl, hid⟩
  | .brz (i :: is) r z nz :: cs =>
    simp only [mic, Option.some.injEq, Prod.mk.injEq] at hm
    obtain ⟨rfl, rfl⟩ := hm
    exact ⟨_, rfl, step_same hk i h hr⟩
  | .brz [] r z nz :: cs =>
    simp only [mic, Option.some.injEq, Prod.mk.injEq] at hm
    obtain ⟨rfl, rfl⟩ := hm
    refine ⟨s', ?_, hid⟩
    simp only [mic, h.1]

theorem mic_out {e : Env A} {cs cs' : List (Code A)} {s s1 : St A} (hm : mic e cs s = some (cs', s1)) (a : A.W) (h : ¬ micAcc .wr cs s a) : s1.mem a = s.mem a := by
  match cs with
  | [] => cases hm
  | .jmp (i :: is) r :: cs =>
    simp only [mic, Option.some.injEq, Prod.mk.injEq] at hm
    obtain ⟨rfl, rfl⟩ := hm
    exact step_out e s i a h
  | [.jmp [] r] => cases hm
  | .jmp [] r :: c :: cs =>
    simp only [mic, Option.some.injEq, Prod.mk.injEq] at hm
    obtain ⟨rfl, rfl⟩ := hm
    rfl
  | .brz (i :: is) r z nz :: cs =>
    simp only [mic, Option.some.injEq, Prod.mk.injEq] at hm
    obtain ⟨rfl, rfl⟩ := hm
    exact step_out e s i a h
  | .brz [] r z nz :: cs =>
    simp only [mic, Option.some.injEq, Prod.mk.injEq] at hm
    obtain ⟨rfl, rfl⟩ := hm
    rfl

/-- accesses and result of the rest of the run -/
theorem mic_rest {e : Env A} {cs cs' : List (Code A)} {s s1 : St A} (hm : mic e cs s = some (cs', s1)) :
    (∀ x a, progAccs x e cs s a ↔ micAcc x cs s a ∨ progAccs x e cs' s1 a) ∧ execs e cs s = execs e cs' s1 := by
  match cs with
  | [] => cases hm
  | .jmp (i :: is) r :: cs =>
    simp only [mic, Option.some.injEq, Prod.mk.injEq] at hm
    obtain ⟨rfl, rfl⟩ := hm
    refine ⟨fun x a => ?_, ?_⟩
    · simp only [progAccs, Code.accs, accs, micAcc, exec, steps, or_assoc]
    · cases cs <;> rfl
  | [.jmp [] r] => cases hm
  | .jmp [] r :: c :: cs =>
    simp only [mic, Option.some.injEq, Prod.mk.injEq] at hm
    obtain ⟨rfl, rfl⟩ := hm
    refine ⟨fun x a => ?_, rfl⟩
    simp only [progAccs, Code.accs, accs, micAcc, exec, steps, false_or]
  | .brz (i :: is) r z nz :: cs =>
    simp only [mic, Option.some.injEq, Prod.mk.injEq] at hm
    obtain ⟨rfl, rfl⟩ := hm
    refine ⟨fun x a => ?_, ?_⟩
    · simp only [progAccs, Code.accs, accs, micAcc, exec, steps, or_assoc]; rfl
    · cases cs <;> rfl
  | .brz [] r z nz :: cs =>
    simp only [mic, Option.some.injEq, Prod.mk.injEq] at hm
    obtain ⟨rfl, rfl⟩ := hm
    refine ⟨fun x a => ?_, ?_⟩
    · simp only [progAccs, Code.accs, accs, micAcc, exec, steps, false_or]
      by_cases hz : s.gpr r = 0#_ <;> simp only [hz, if_true, if_false]
    · cases cs <;> simp only [execs, exec, steps] <;> by_cases hz : s.gpr r = 0#_ <;> simp only [hz, if_true, if_false]

theorem Mics.rest {e : Env A} {p cs : List (Code A)} {σ s : St A} (h : Mics e p σ cs s) :
    (∀ x a, progAccs x e cs s a → progAccs x e p σ a) ∧ execs e p σ = execs e cs s ∧ ∀ a, ¬ progAccs .wr e p σ a → s.mem a = σ.mem a := by
  induction h with
  | refl => exact ⟨fun _ _ h => h, rfl, fun _ _ => rfl⟩
  | tail _ hm ih =>
    obtain ⟨i1, i2, i3⟩ := ih
    obtain ⟨m1, m2⟩ := mic_rest hm
    refine ⟨fun x a h => i1 x a ((m1 x a).2 (.inr h)), i2.trans m2, fun a ha => ?_⟩
    rw [← i3 a ha]
    exact mic_out hm a fun h => ha (i1 _ a ((m1 _ a).2 (.inl h)))

/-! ## The transition system -/

/-- A context: made and not started, suspended (with its `fcontext_t`), running user code on thread `t`, calling a routine on thread `t` (the call, its entry
state, the routine, the registers now, the rest of the routine), or being made by a call in progress. -/
inductive MCtx (A : Arch)
  | fresh (f : A.W)
  | susp (f : A.W)
  | user (t : Nat) (r : Regs A)
  | busy (t : Nat) (l : Act) (σ : St A) (p : List (Code A)) (r : Regs A) (rest : List (Code A))
  | born

structure MCfg (A : Arch) where
  mem : Mem A
  stk : Nat → A.W → Prop
  ctx : Nat → Option (MCtx A)

variable {P : Port A}

/-- the context a call is about -/
def tgt : Act → Option Nat
  | .jump k => some k
  | .ontop k => some k
  | .make k => some k
  | _ => none

/-- the part of the stack that belongs to a call of a switching routine, and data it reads elsewhere (`Reads`) -/
def area (X : Extra P) (D : Reads A) (e : Env A) : Act → St A → A.W → Prop
  | .jump _, σ, a => InR a (P.fctx σ) X.fp
  | .ontop _, σ, a => InR a (P.fctx σ) X.fp ∨ D.desc e σ a
  | .make _, σ, a => D.mdesc e σ a
  | _, _, _ => False

/-- the bytes that matter to a call -/
def uses (X : Extra P) (D : Reads A) (e : Env A) (l : Act) (σ : St A) (p : List (Code A)) (a : A.W) : Prop :=
  area X D e l σ a ∨ progAccs .rd e p σ a ∨ progAccs .wr e p σ a

/-- bytes that the code of other contexts must not write: data of contexts that do not run, bytes a call in progress accesses -/
def used (X : Extra P) (D : Reads A) (e : Env A) : MCtx A → A.W → Prop
  | .fresh f, a => InR a f P.mkeep
  | .susp f, a => InR a f P.keep
  | .user _ _, _ => False
  | .busy _ l σ p _ _, a => uses X D e l σ p a
  | .born, _ => False

/-- a call in progress is about context `k` -/
def Claimed (M : MCfg A) (k : Nat) : Prop := ∃ i t l σ p r rs, M.ctx i = some (.busy t l σ p r rs) ∧ tgt l = some k

def runs (M : MCfg A) (i : Nat) : Prop := (∃ t r, M.ctx i = some (.user t r)) ∨ ∃ t l σ p r rs, M.ctx i = some (.busy t l σ p r rs)

/-- Context `i` calls one of the switching routines as the ABI demands: on its own stack, with a result object on its own stack. -/
structure CallAt (X : Extra P) (M : MCfg A) (i : Nat) (σ : St A) : Prop where
  foot : ∀ a, InR a (P.fctx σ) X.fp → M.stk i a
  slot : ∀ a, P.slot σ a → M.stk i a ∧ ¬ InR a (P.fctx σ) X.fp
  nn : X.nn σ

/-- the call `l` of context `i`, with entry state `σ`, executes `p` -/
inductive Ready (X : Extra P) (D : Reads A) (e : Env A) (M : MCfg A) (i : Nat) (σ : St A) : Act → List (Code A) → Prop
  | resume {k f} : M.ctx k = some (.susp f) → P.argF σ = f → CallAt X M i σ → Ready X D e M i σ (.jump k) [P.jump]
  | start {k f} : M.ctx k = some (.fresh f) → P.argF σ = f → CallAt X M i σ → Ready X D e M i σ (.jump k) (P.jump :: P.stub)
  | ontop {k f} : M.ctx k = some (.susp f) → P.argF σ = f → CallAt X M i σ → X.oot → (∀ j a, M.ctx j ≠ none → D.desc e σ a → ¬ M.stk j a) →
      Ready X D e M i σ (.ontop k) [P.ontop]
  | make {j} : M.ctx j = some .born →
      (∀ a, InR a (P.resM (exec e P.make σ).1) (P.argTop σ - P.resM (exec e P.make σ).1).toNat → M.stk j a) →
      (∀ a, InR a (σ.gpr P.sp - off A P.mscratch) (P.mscratch + A.k) → M.stk i a) → X.mok e σ →
      (∀ k a, M.ctx k ≠ none → k ≠ i → D.mdesc e σ a → ¬ M.stk k a) → Ready X D e M i σ (.make j) [P.make]

def upd {β : Type _} (f : Nat → β) (i : Nat) (v : β) : Nat → β := fun k => if k = i then v else f k

/-- what a step does: nothing visible; user code runs; context `i` completes the call `l` it made in state `σ`; a context is given up; a thread starts -/
inductive Lab (A : Arch)
  | tau
  | run
  | done (i : Nat) (l : Act) (σ : St A)
  | drop (j : Nat)
  | spawn (j : Nat)

inductive MStep (X : Extra P) (D : Reads A) (e : Env A) : MCfg A → Lab A → MCfg A → Prop
  /-- arbitrary code of context `i` -/
  | run {M : MCfg A} (i t : Nat) (r r' : Regs A) (m' : Mem A) : M.ctx i = some (.user t r) →
      (∀ j x a, M.ctx j = some x → used X D e x a → m' a = M.mem a) → MStep X D e M .run { M with mem := m', ctx := upd M.ctx i (some (.user t r')) }
  /-- a call of `jump_fcontext` or `ontop_fcontext` begins -/
  | call {M : MCfg A} (i t k : Nat) (l : Act) (r : Regs A) (p : List (Code A)) : M.ctx i = some (.user t r) → (l = .jump k ∨ l = .ontop k) → ¬ Claimed M k →
      Ready X D e M i (r.on M.mem) l p → MStep X D e M .tau { M with ctx := upd M.ctx i (some (.busy t l (r.on M.mem) p r p)) }
  /-- a call of `make_fcontext` begins, with a new stack `R` -/
  | make {M : MCfg A} (i t j : Nat) (r : Regs A) (R : A.W → Prop) (p : List (Code A)) : M.ctx i = some (.user t r) → M.ctx j = none →
      (∀ k a, M.ctx k ≠ none → M.stk k a → ¬ R a) → (∀ a, R a → ¬ X.null a) → (∀ k x a, M.ctx k = some x → used X D e x a → ¬ R a) →
      Ready X D e { M with stk := upd M.stk j R, ctx := upd M.ctx j (some .born) } i (r.on M.mem) (.make j) p →
      MStep X D e M .tau { M with stk := upd M.stk j R, ctx := upd (upd M.ctx j (some .born)) i (some (.busy t (.make j) (r.on M.mem) p r p)) }
  /-- one instruction of a routine -/
  | mic {M : MCfg A} (i t : Nat) (l : Act) (σ : St A) (p : List (Code A)) (r : Regs A) (rest rest' : List (Code A)) (s' : St A) :
      M.ctx i = some (.busy t l σ p r rest) → mic e rest (r.on M.mem) = some (rest', s') →
      MStep X D e M .tau { M with mem := s'.mem, ctx := upd M.ctx i (some (.busy t l σ p ⟨s'.gpr, s'.fpr⟩ rest')) }
  /-- the last instruction of a switch: control is at the address in `q`, in context `k` -/
  | switch {M : MCfg A} (i t k : Nat) (l : Act) (σ : St A) (p : List (Code A)) (r : Regs A) (q : A.R) :
      M.ctx i = some (.busy t l σ p r [.jmp [] q]) → (l = .jump k ∨ l = .ontop k) →
      MStep X D e M (.done i l σ) { M with ctx := upd (upd M.ctx k (some (.user t r))) i (some (.susp (P.fctx σ))) }
  /-- the last instruction of `make_fcontext` -/
  | made {M : MCfg A} (i t j : Nat) (σ : St A) (p : List (Code A)) (r : Regs A) (q : A.R) :
      M.ctx i = some (.busy t (.make j) σ p r [.jmp [] q]) →
      MStep X D e M (.done i (.make j) σ) { M with ctx := upd (upd M.ctx j (some (.fresh (P.resM (r.on M.mem))))) i (some (.user t r)) }
  /-- a context is given up (so that its stack can be used again), or a thread ends -/
  | drop {M : MCfg A} (j k : Nat) : M.ctx j ≠ some .born → (∀ t l σ p r rs, M.ctx j ≠ some (.busy t l σ p r rs)) → ¬ Claimed M j → k ≠ j → runs M k →
      MStep X D e M (.drop j) { M with ctx := upd M.ctx j none }
  /-- a thread starts -/
  | spawn {M : MCfg A} (j t : Nat) (R : A.W → Prop) (r : Regs A) : M.ctx j = none → (∀ k a, M.ctx k ≠ none → M.stk k a → ¬ R a) → (∀ a, R a → ¬ X.null a) →
      (∀ k x a, M.ctx k = some x → used X D e x a → ¬ R a) → (∀ k r, M.ctx k ≠ some (.user t r)) → (∀ k l σ p r rs, M.ctx k ≠ some (.busy t l σ p r rs)) →
      MStep X D e M (.spawn j) { M with stk := upd M.stk j R, ctx := upd M.ctx j (some (.user t r)) }

/-- in the beginning there is one thread with one context, which runs -/
inductive MReach (X : Extra P) (D : Reads A) (e : Env A) : MCfg A → Prop
  | init (M : MCfg A) (i t : Nat) (r : Regs A) : M.ctx = upd (fun _ => none) i (some (.user t r)) → (∀ a, M.stk i a → ¬ X.null a) → MReach X D e M
  | step {M M' : MCfg A} {l : Lab A} : MReach X D e M → MStep X D e M l M' → MReach X D e M'

/-- Any number of steps none of which completes a switch to context `i` or gives it up; user code writes only at addresses in `W`. -/
inductive MAway (X : Extra P) (D : Reads A) (e : Env A) (i : Nat) (W : A.W → Prop) : MCfg A → MCfg A → Prop
  | refl (M : MCfg A) : MAway X D e i W M M
  | step {M M1 M2 : MCfg A} {l : Lab A} : MAway X D e i W M M1 → MStep X D e M1 l M2 → (∀ k σ, l ≠ .done k (.jump i) σ ∧ l ≠ .done k (.ontop i) σ) → l ≠ .drop i →
      (l = .run → ∀ a, M2.mem a ≠ M1.mem a → W a) → MAway X D e i W M M2

end Micro
end Verif.Asm
