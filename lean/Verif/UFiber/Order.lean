import Verif.UFiber.Props
import Verif.UCont.Props

/-!
# ucontext/winfib: comparison and output of `fiber` and `continuation` objects (C90)

`operator bool`, `operator!`, `operator<`, `operator<<` (`fiber_ucontext.hpp` 518-542, `fiber_winfib.hpp` 378-402, `continuation_ucontext.hpp` 468-492,
`continuation_winfib.hpp` 379-403) work on the address of an activation record.  `adr` gives the address of the record of each context; records that exist at the same time
have different addresses, none of them 0.
-/

namespace Verif.UFiber
open Verif.Fiber (CtxId Var Tid Kind Exc Mode UKind Frame Status Event Op CreateOutcome upd)

/-- the records of all contexts that are suspended or have finished and not been released, lie at different addresses, not at 0 -/
structure Placed (s : State) {w : Nat} (adr : CtxId → BitVec w) : Prop where
  inj : ∀ c d, (Suspended s c ∨ Finished s c) → (Suspended s d ∨ Finished s d) → adr c = adr d → c = d
  ne : ∀ c, (Suspended s c ∨ Finished s c) → adr c ≠ 0#w

variable {w : Nat}

/-- member `ptr_` (`fiber_ucontext.hpp` 424) of object `x` as a machine word -/
def word (adr : CtxId → BitVec w) (s : State) (x : Var) : BitVec w :=
  match s.val x with
  | none => 0#w
  | some c => adr c

/-- `explicit operator bool` (518-520): `nullptr != ptr_ && ! ptr_->terminated` -/
def toBool (adr : CtxId → BitVec w) (s : State) (x : Var) : Bool :=
  match s.val x with
  | none => false
  | some c => 0#w != adr c && !s.term c

/-- `operator!` (522-524): `nullptr == ptr_ || ptr_->terminated` -/
def isEmpty (adr : CtxId → BitVec w) (s : State) (x : Var) : Bool :=
  match s.val x with
  | none => true
  | some c => 0#w == adr c || s.term c

/-- `operator<` (526-528) -/
def less (adr : CtxId → BitVec w) (s : State) (x y : Var) : Bool := (word adr s x).ult (word adr s y)

/-- what `operator<<` writes (532-541): `none` is the text `{not-a-context}` -/
def output (adr : CtxId → BitVec w) (s : State) (x : Var) : Option (BitVec w) := if 0#w ≠ word adr s x then some (word adr s x) else none

/-- **C90**: `operator bool` tells whether the object designates a suspended context, `operator!` the opposite. -/
theorem C90_ucontext_bool {s : State} (h : Reachable s) (he : NoEarlyDestroy s) {adr : CtxId → BitVec w} (hp : Placed s adr) (x : Var) :
    (toBool adr s x = true ↔ ∃ c, Designates s x c ∧ Suspended s c) ∧ isEmpty adr s x = !toBool adr s x := by
  rw [← C22_bool h he]
  unfold toBool isEmpty Valid
  cases hv : s.val x with
  | none => simp
  | some c =>
    have := hp.ne c (C22_no_dangling h he hv).1
    have e : (0#w == adr c) = false := beq_eq_false_iff_ne.2 (Ne.symm this)
    simp [bne, e]

/-- **C90**: two distinct objects that hold handles are never equivalent. -/
theorem C90_ucontext_total {s : State} (h : Reachable s) (he : NoEarlyDestroy s) {adr : CtxId → BitVec w} (hp : Placed s adr) {x y : Var} {c d : CtxId} (hxy : x ≠ y)
    (hx : Designates s x c) (hy : Designates s y d) : less adr s x y = !less adr s y x := by
  have hne : adr c ≠ adr d := fun hh => by
    have := hp.inj c d (C22_no_dangling h he hx).1 (C22_no_dangling h he hy).1 hh
    subst this
    exact hxy (C22_exclusive h he hx hy)
  have hx : s.val x = some c := hx
  have hy : s.val y = some d := hy
  unfold less word
  rw [hx, hy]
  have hne : (adr c).toNat ≠ (adr d).toNat := fun h => hne (BitVec.eq_of_toNat_eq h)
  simp only [BitVec.ult]
  by_cases hl : (adr c).toNat < (adr d).toNat
  · simp [hl, Nat.le_of_lt hl]
  · have : (adr d).toNat < (adr c).toNat := by omega
    simp [this, Nat.le_of_lt this]

/-- **C90**: an object without a handle is less than one with a handle, and two without are equivalent. -/
theorem C90_ucontext_empty {s : State} (h : Reachable s) (he : NoEarlyDestroy s) {adr : CtxId → BitVec w} (hp : Placed s adr) {x y : Var} (hx : s.val x = none) :
    (less adr s x y = true ↔ ∃ c, Designates s y c) ∧ less adr s y x = false ∧ output adr s x = none := by
  unfold less word output word Designates
  rw [hx]
  cases hv : s.val y with
  | none => simp [BitVec.ult]
  | some c =>
    have := hp.ne c (C22_no_dangling h he hv).1
    have hn : (adr c).toNat ≠ 0 := fun h => this (BitVec.eq_of_toNat_eq (by simpa using h))
    simp [BitVec.ult, Nat.pos_of_ne_zero hn]

/-- **C90**, the order does not change while the objects keep their handles and the records stay where they are. -/
theorem C90_ucontext_stable {s s' : State} {adr : CtxId → BitVec w} {x y : Var} (hx : s'.val x = s.val x) (hy : s'.val y = s.val y) :
    less adr s' x y = less adr s x y ∧ output adr s' x = output adr s x := by
  unfold less output word; rw [hx, hy]; exact ⟨rfl, rfl⟩

/-- **C90** (difference from the fcontext implementation): an object that designates a finished fiber tests as empty but is printed as a pointer and compares as non-empty. -/
theorem C90_ucontext_finished {s : State} (h : Reachable s) (he : NoEarlyDestroy s) {adr : CtxId → BitVec w} (hp : Placed s adr) {x y : Var} {c : CtxId}
    (hx : Designates s x c) (hf : Finished s c) (hy : s.val y = none) :
    toBool adr s x = false ∧ isEmpty adr s x = true ∧ output adr s x = some (adr c) ∧ less adr s y x = true := by
  have hb := C90_ucontext_bool h he hp x
  have hx' : s.val x = some c := hx
  have h0 : toBool adr s x = false := by
    cases ht : toBool adr s x with
    | false => rfl
    | true =>
      obtain ⟨d, d1, d2⟩ := hb.1.1 ht
      have : some c = some d := hx'.symm.trans d1
      injection this with this
      subst this
      have a : s.status c = .suspended := d2
      rw [show s.status c = .terminated from hf] at a; cases a
  refine ⟨h0, by rw [hb.2, h0]; rfl, ?_, (C90_ucontext_empty h he hp hy).1.2 ⟨c, hx⟩⟩
  have := hp.ne c (.inr hf)
  simp [output, word, hx', Ne.symm this]

/-! ## `continuation` -/

end Verif.UFiber

namespace Verif.UCont
open Verif.Fiber (CtxId Var Tid)
variable {w : Nat}

/-- **C90**, `continuation_ucontext.hpp` 468-492, `continuation_winfib.hpp` 379-403 -/
theorem C90_ucontext_cont_bool {s : State} (h : Reachable s) {adr : CtxId → BitVec w} (hp : UFiber.Placed s.abs adr) (x : Var) :
    (UFiber.toBool adr s.abs x = true ↔ ∃ c, Designates s x c ∧ Suspended s c) ∧ UFiber.isEmpty adr s.abs x = !UFiber.toBool adr s.abs x :=
  UFiber.C90_ucontext_bool (reachable_facts h).reach (reachable_facts h).early hp x

theorem C90_ucontext_cont_total {s : State} (h : Reachable s) {adr : CtxId → BitVec w} (hp : UFiber.Placed s.abs adr) {x y : Var} {c d : CtxId} (hxy : x ≠ y)
    (hx : Designates s x c) (hy : Designates s y d) : UFiber.less adr s.abs x y = !UFiber.less adr s.abs y x :=
  UFiber.C90_ucontext_total (reachable_facts h).reach (reachable_facts h).early hp hxy hx hy

theorem C90_ucontext_cont_empty {s : State} (h : Reachable s) {adr : CtxId → BitVec w} (hp : UFiber.Placed s.abs adr) {x y : Var} (hx : s.val x = none) :
    (UFiber.less adr s.abs x y = true ↔ ∃ c, Designates s y c) ∧ UFiber.less adr s.abs y x = false ∧ UFiber.output adr s.abs x = none :=
  UFiber.C90_ucontext_empty (reachable_facts h).reach (reachable_facts h).early hp hx

end Verif.UCont

namespace Verif.UFiber
open Verif.Fiber (CtxId Var Tid)

/-! ### The hypotheses can be met -/

/-- record of context `c` at `0x1000 * (c + 1)` -/
def adrEx (c : CtxId) : BitVec 64 := BitVec.ofNat 64 (0x1000 * (c + 1))

/-- main creates two fibers (objects 0 and 1) -/
def hTwo : List (Tid × Verif.Fiber.Op) := [(0, .create [] .success), (0, .create [] .success)]

/-- main creates and starts a fiber (context 1), whose function returns; main then has an object that designates the finished fiber, and an empty one -/
def hEnd : List (Tid × Verif.Fiber.Op) := [(0, .create [] .success), (0, .resume 0), (0, .retHandle 1), (0, .tick), (0, .tick), (0, .newHeap)]

theorem adr_inj (c d : Nat) (h1 : c < 0x1000) (h2 : d < 0x1000) (he : adrEx c = adrEx d) : c = d := by
  have := congrArg BitVec.toNat he
  simp only [adrEx, BitVec.toNat_ofNat] at this
  omega

theorem adr_ne (c : Nat) (h1 : c < 0x1000) (he : adrEx c = 0#64) : False := by
  have := congrArg BitVec.toNat he
  simp only [adrEx, BitVec.toNat_ofNat] at this
  omega

theorem placed_of {s : State} (h : ∀ c : Nat, (Suspended s c ∨ Finished s c) → c < 0x1000) : Placed s adrEx where
  inj c d hc hd he := adr_inj c d (h c hc) (h d hd) he
  ne c hc he := adr_ne c (h c hc) he

theorem two_status : (exec hTwo).status = fun c => if c = 2 then .suspended else if c = 1 then .suspended else if c = 0 then .running 0 else .absent := by
  funext c; rfl

example : Reachable (exec hTwo) ∧ NoEarlyDestroy (exec hTwo) ∧ Placed (exec hTwo) adrEx ∧ Designates (exec hTwo) 0 1 ∧ Designates (exec hTwo) 1 2 :=
  ⟨reachable_exec (by decide), (by decide : (exec hTwo).early = false), placed_of (by
    intro c hc
    simp only [Suspended, Finished, two_status] at hc
    by_cases h2 : c = 2
    · subst h2; decide
    · by_cases h1 : c = 1
      · subst h1; decide
      · by_cases h0 : c = 0
        · subst h0; decide
        · simp [h2, h1, h0] at hc), (by decide : (exec hTwo).val 0 = some 1), (by decide : (exec hTwo).val 1 = some 2)⟩

theorem end_absent : ∀ c : Nat, c ≠ 0 → c ≠ 1 → (exec hEnd).status c = .absent
  | 0, h, _ => absurd rfl h
  | 1, _, h => absurd rfl h
  | _ + 2, _, _ => rfl

example : Reachable (exec hEnd) ∧ NoEarlyDestroy (exec hEnd) ∧ Placed (exec hEnd) adrEx ∧ Designates (exec hEnd) 3 1 ∧ Finished (exec hEnd) 1 ∧ (exec hEnd).val 4 = none :=
  ⟨reachable_exec (by decide), (by decide : (exec hEnd).early = false), placed_of (by
    intro c hc
    by_cases h1 : c = 1
    · subst h1; decide
    · by_cases h0 : c = 0
      · subst h0; decide
      · have := end_absent c h0 h1
        simp [Suspended, Finished, this] at hc), (by decide : (exec hEnd).val 3 = some 1), (by decide : (exec hEnd).status 1 = .terminated), by decide⟩

end Verif.UFiber
