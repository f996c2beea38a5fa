import Verif.Mem.Word

/-!
# Helpers of `boost/context/detail` (C48, C50-C53)
-/

namespace Verif.Detail
open Verif.Mem

/-! ## Objects that can be moved from -/

/-- content of an object: a value, or moved from -/
inductive Cell (V : Type)
  | val (v : V)
  | moved
deriving DecidableEq

/-! ## tuples (C50)

Tuples are lists of cells; conversions between element types are modelled as the identity.  `index_sequence_for< T... >` and `make_index_sequence< N >` (the standard
library's or Boost.MP11's) are `0, 1, ..., N-1`. -/

section tuple
variable {V : Type}

/-- `make_index_sequence< n >` -/
def indices (n : Nat) : List Nat := List.range n

/-- `std::get< i >( s)` of an lvalue: `none` would be a compile-time error -/
def getL (s : List (Cell V)) (i : Nat) : Option (Cell V) := s[i]?

/-- evaluating `{ std::get< I >( s) ... }` -/
def buildL (s : List (Cell V)) : List Nat → Option (List (Cell V))
  | [] => some []
  | i :: is => do let x ← getL s i; let xs ← buildL s is; pure (x :: xs)

/-- `std::get< i >( std::move( s) )` used to initialise an element: the source element is moved from -/
def getR (s : List (Cell V)) (i : Nat) : Option (Cell V × List (Cell V)) := do let x ← s[i]?; pure (x, s.set i .moved)

/-- evaluating `{ std::get< I >( std::move( s) ) ... }`, left to right; returns the list and what is left of `s` -/
def buildR (s : List (Cell V)) : List Nat → Option (List (Cell V) × List (Cell V))
  | [] => some ([], s)
  | i :: is => do let (x, s) ← getR s i; let (xs, s) ← buildR s is; pure (x :: xs, s)

/-- `head( t) = s` for an lvalue `s` and a `t` with `n` elements: tuple.hpp lines 26-31, 69-74; `none` if the `static_assert` fails -/
def headL (n : Nat) (s : List (Cell V)) : Option (List (Cell V)) := if n ≤ s.length then buildL s (indices n) else none

/-- `head( t) = std::move( s)`: tuple.hpp lines 33-38, 75-80 -/
def headR (n : Nat) (s : List (Cell V)) : Option (List (Cell V) × List (Cell V)) := if n ≤ s.length then buildR s (indices n) else none

/-- `tail( t) = s`: tuple.hpp lines 40-46, 96-101 -/
def tailL (n : Nat) (s : List (Cell V)) : Option (List (Cell V)) :=
  if n ≤ s.length then
    let idx := (indices s.length).length - (indices n).length
    buildL s ((indices n).map (idx + ·))
  else none

/-- `tail( t) = std::move( s)`: tuple.hpp lines 48-54, 103-108 -/
def tailR (n : Nat) (s : List (Cell V)) : Option (List (Cell V) × List (Cell V)) :=
  if n ≤ s.length then
    let idx := (indices s.length).length - (indices n).length
    buildR s ((indices n).map (idx + ·))
  else none

/-- `apply( fn, tpl)`: apply.hpp lines 36-62; `call` is `std::invoke` / `detail::invoke` -/
def apply {R F : Type} (call : F → List (Cell V) → R) (fn : F) (tpl : List (Cell V)) : Option R := (buildL tpl (indices tpl.length)).map (call fn)

/-! Proofs -/

theorem buildL_range (s : List (Cell V)) (a n : Nat) (h : a + n ≤ s.length) : buildL s (List.range' a n) = some ((s.drop a).take n) := by
  induction n generalizing a with
  | zero => simp [buildL]
  | succ n ih =>
    rw [List.range'_succ]
    have ha : a < s.length := by omega
    have h1 : s[a]? = some s[a] := List.getElem?_eq_getElem ha
    simp only [buildL, getL, h1, ih (a + 1) (by omega)]
    rw [List.drop_eq_getElem_cons ha, List.take_succ_cons]
    rfl

theorem buildR_range (s : List (Cell V)) (a n : Nat) (h : a + n ≤ s.length) :
    buildR s (List.range' a n) = some ((s.drop a).take n, s.take a ++ List.replicate n .moved ++ s.drop (a + n)) := by
  induction n generalizing a s with
  | zero => simp [buildR]
  | succ n ih =>
    rw [List.range'_succ]
    have ha : a < s.length := by omega
    have h1 : s[a]? = some s[a] := List.getElem?_eq_getElem ha
    have h2 := ih (s.set a .moved) (a + 1) (by rw [List.length_set]; omega)
    simp only [buildR, getR, h1, Option.pure_def, Option.bind_eq_bind, Option.bind_some]
    rw [h2]
    simp only [Option.bind_some, Option.some.injEq, Prod.mk.injEq]
    constructor
    · rw [List.drop_eq_getElem_cons ha, List.take_succ_cons, List.drop_set_of_lt (by omega)]
    · have e0 : ∀ (l : List (Cell V)) (x y : Cell V), (l ++ [x]).set l.length y = l ++ [y] := by
        intro l x y; induction l with
        | nil => rfl
        | cons z l ih => simp only [List.cons_append, List.length_cons, List.set_cons_succ, ih]
      have e1 : (s.take a ++ [s[a]]).set a .moved = s.take a ++ [.moved] := by
        have := e0 (s.take a) s[a] .moved
        rwa [List.length_take, Nat.min_eq_left (by omega)] at this
      rw [List.drop_set_of_lt (by omega), List.take_set, List.take_succ_eq_append_getElem ha, e1]
      simp only [List.append_assoc, List.singleton_append, List.replicate_succ, List.cons_append, List.nil_append]
      rw [show a + 1 + n = a + (n + 1) by omega]

theorem indices_eq (n : Nat) : indices n = List.range' 0 n := List.range_eq_range'
theorem indices_shift (a n : Nat) : (indices n).map (a + ·) = List.range' a n := by
  rw [indices, List.range_eq_range', List.map_add_range']; rfl

/-- **C50**: `head( t) = s` copies exactly the first elements, in order. -/
theorem C50_head (n : Nat) (s : List (Cell V)) (h : n ≤ s.length) : headL n s = some (s.take n) := by
  unfold headL; rw [if_pos h, indices_eq, buildL_range _ _ _ (by omega)]; simp

/-- **C50**: `tail( t) = s` copies exactly the last elements, in order. -/
theorem C50_tail (n : Nat) (s : List (Cell V)) (h : n ≤ s.length) : tailL n s = some (s.drop (s.length - n)) := by
  unfold tailL
  have e : (indices s.length).length - (indices n).length = s.length - n := by simp [indices]
  simp only [if_pos h, e]
  rw [indices_shift, buildL_range _ _ _ (by omega), List.take_of_length_le (by simp; omega)]

/-- **C50**: head and tail of complementary sizes lose nothing and keep the order. -/
theorem C50_split (m n : Nat) (s : List (Cell V)) (h : m + n = s.length) : ∃ a b, headL m s = some a ∧ tailL n s = some b ∧ a ++ b = s :=
  ⟨_, _, C50_head m s (by omega), C50_tail n s (by omega), by rw [show s.length - n = m by omega, List.take_append_drop]⟩

/-- **C50**: moving head and tail out of the same tuple, one after the other, also yields all elements: no element is moved twice. -/
theorem C50_split_move (m n : Nat) (s : List (Cell V)) (h : m + n = s.length) :
    ∃ a s' b s'', headR m s = some (a, s') ∧ tailR n s' = some (b, s'') ∧ a ++ b = s ∧ s'' = List.replicate s.length .moved := by
  have h1 : headR m s = some (s.take m, List.replicate m .moved ++ s.drop m) := by
    unfold headR; rw [if_pos (by omega), indices_eq, buildR_range _ _ _ (by omega)]; simp
  refine ⟨_, _, s.drop m, _, h1, ?_, ?_, rfl⟩
  · unfold tailR
    have hl : (List.replicate m (Cell.moved : Cell V) ++ s.drop m).length = s.length := by simp; omega
    have e : (indices (List.replicate m (Cell.moved : Cell V) ++ s.drop m).length).length - (indices n).length = m := by rw [hl]; simp [indices]; omega
    simp only [e]
    rw [if_pos (by omega), indices_shift, buildR_range _ _ _ (by omega)]
    have e1 : List.drop m (List.replicate m (Cell.moved : Cell V) ++ s.drop m) = s.drop m := by
      rw [List.drop_append_of_le_length (by simp)]; simp
    have e2 : List.take m (List.replicate m (Cell.moved : Cell V) ++ s.drop m) = List.replicate m .moved := by
      rw [List.take_append_of_le_length (by simp)]; simp
    have e3 : List.drop (m + n) (List.replicate m (Cell.moved : Cell V) ++ s.drop m) = [] := List.drop_eq_nil_of_le (by omega)
    rw [e1, e2, e3, List.take_of_length_le (by simp; omega), List.append_nil, List.replicate_append_replicate, h]
  · exact List.take_append_drop m s

/-- **C50**: `apply` calls the function with exactly the elements, in order. -/
theorem C50_apply {R F : Type} (call : F → List (Cell V) → R) (fn : F) (tpl : List (Cell V)) : apply call fn tpl = some (call fn tpl) := by
  unfold apply
  rw [indices_eq, buildL_range _ _ _ (by omega)]
  simp

example : headL 2 [Cell.val 'a', .val 'b', .val 'c'] = some [.val 'a', .val 'b'] ∧ tailL 1 [Cell.val 'a', .val 'b', .val 'c'] = some [.val 'c'] := by decide

end tuple

/-! ## invoke (C51) -/

section invoke
variable {Obj Arg Res : Type}

/-- callables: pointer to member function, pointer to data member, other (function, lambda, functor whose call operator may depend on the value category) -/
inductive Callable (Obj Arg Res : Type)
  | memFn (f : Obj → List Arg → Res)
  | memData (f : Obj → Res)
  | other (f : (rvalue : Bool) → List Arg → Res)

/-- how the object is given: by value or reference, or by (smart) pointer or reference wrapper -/
inductive Recv (Obj : Type)
  | direct (o : Obj)
  | indirect (o : Obj)

def Recv.obj : Recv Obj → Obj
  | .direct o => o
  | .indirect o => o

/-- `std::is_member_pointer` -/
def Callable.isMember : Callable Obj Arg Res → Bool
  | .memFn _ => true
  | .memData _ => true
  | .other _ => false

/-- arguments: the first one may denote an object -/
structure Args (Obj Arg : Type) where
  recv : Option (Recv Obj)
  rest : List Arg
  /-- all arguments as plain values (what a callable other than a member pointer gets) -/
  all : List Arg

/-- `std::mem_fn( fn)( args...)`: binds the object; `none`: ill-formed -/
def memFn (c : Callable Obj Arg Res) (a : Args Obj Arg) : Option Res :=
  match c, a.recv with
  | .memFn f, some r => some (f r.obj a.rest)
  | .memData f, some r => if a.rest.isEmpty then some (f r.obj) else none
  | _, _ => none

/-- the two overloads of `invoke`, invoke.hpp lines 26-33 and 35-42, selected by `std::enable_if`; `rv`: `fn` is an rvalue -/
def invoke (c : Callable Obj Arg Res) (rv : Bool) (a : Args Obj Arg) : Option Res :=
  let first := if c.isMember then some (memFn c a) else none
  let second := if !c.isMember then (match c with | .other f => some (some (f rv a.all)) | _ => some none) else none
  match first, second with
  | some r, none => r
  | none, some r => r
  -- ambiguous or no viable overload
  | _, _ => none

/-- **C51**: exactly one overload is viable, and `invoke` has the effect the standard prescribes for `INVOKE`: a member function pointer is called on the object
with the remaining arguments, a data member pointer selects the member, anything else is called directly, with its value category and all arguments. -/
theorem C51_invoke (rv : Bool) (a : Args Obj Arg) :
    (∀ f r, a.recv = some r → invoke (.memFn f : Callable Obj Arg Res) rv a = some (f r.obj a.rest)) ∧
    (∀ f r, a.recv = some r → a.rest = [] → invoke (.memData f : Callable Obj Arg Res) rv a = some (f r.obj)) ∧
    (∀ f, invoke (.other f : Callable Obj Arg Res) rv a = some (f rv a.all)) := by
  refine ⟨fun f r h => ?_, fun f r h h' => ?_, fun f => rfl⟩
  · simp [invoke, Callable.isMember, memFn, h]
  · simp [invoke, Callable.isMember, memFn, h, h']

example : invoke (.memFn fun o l => o + l.length : Callable Nat Nat Nat) false ⟨some (.indirect 5), [1, 2], []⟩ = some 7 := by decide

end invoke

/-! ## exchange (C52) -/

section exchange
variable {V : Type}

/-- `exchange( t, nv)`, exchange.hpp lines 23-28, on a store of objects; `t` is the address of the first argument, `nv` that of the object the second argument
refers to, `rv`: it is an rvalue (as in `exchange( p, nullptr)` and `exchange( p, std::move( q))`).  Moving from an object leaves it moved from; assigning an object to
itself by move leaves it moved from. -/
def exchange (m : Nat → Cell V) (t nv : Nat) (rv : Bool) : Cell V × (Nat → Cell V) :=
  let ov := m t
  let m := fun a => if a = t then .moved else m a
  let x := m nv
  let m := if rv then (fun a => if a = nv then .moved else m a) else m
  let m := fun a => if a = t then x else m a
  (ov, m)

/-- **C52**: `exchange` returns the previous content and stores the new one; nothing else changes, except that an rvalue argument is moved from. -/
theorem C52_exchange (m : Nat → Cell V) (t nv : Nat) (rv : Bool) (h : t ≠ nv) :
    (exchange m t nv rv).1 = m t ∧ (exchange m t nv rv).2 t = m nv ∧ (exchange m t nv rv).2 nv = (if rv then .moved else m nv) ∧
    ∀ a, a ≠ t → a ≠ nv → (exchange m t nv rv).2 a = m a := by
  unfold exchange
  have h' : nv ≠ t := fun e => h e.symm
  cases rv <;> simp [h'] <;> intro a h1 h2 <;> simp [h1, h2]

/-- **C52**, limitation: if the second argument is the object itself, it does not keep its value (unlike with `std::exchange` of a copy). -/
theorem C52_alias (m : Nat → Cell V) (t : Nat) (rv : Bool) : (exchange m t t rv).1 = m t ∧ (exchange m t t rv).2 t = .moved := by
  unfold exchange; cases rv <;> simp

example : ((exchange (fun a => Cell.val a) 1 2 true).1, (exchange (fun a => Cell.val a) 1 2 true).2 1, (exchange (fun a => Cell.val a) 1 2 true).2 2) = (.val 1, .val 2, .moved) := by decide

end exchange

/-! ## prefetch_range (C53) -/

section prefetch
variable {w : Nat}

/-- detail/config.hpp lines 116-119 -/
def stride : Nat := 4 * 64

/-- the loop of prefetch.hpp lines 62-66, started with `vp`, terminates after prefetching `l` -/
inductive Loop (e : BitVec w) : BitVec w → List (BitVec w) → Prop
  | done {vp} : ¬ vp < e → Loop e vp []
  | step {vp l} : vp < e → Loop e (vp + BitVec.ofNat w stride) l → Loop e vp (vp :: l)

/-- `prefetch_range( addr, len)`, prefetch.hpp lines 57-68, terminates after prefetching `l` -/
def Prefetch (addr len : BitVec w) (l : List (BitVec w)) : Prop := Loop (addr + len) addr l

theorem loop_up (e : BitVec w) (hs : stride < 2 ^ w) : ∀ (k : Nat) (vp : BitVec w), vp.toNat ≤ e.toNat → e.toNat ≤ vp.toNat + stride * k → vp.toNat + stride * k < 2 ^ w →
    (∀ j, j < k → vp.toNat + stride * j < e.toNat) → Loop e vp ((List.range k).map fun i => vp + BitVec.ofNat w (stride * i)) := by
  intro k
  induction k with
  | zero => intro vp h1 h2 _ _; refine Loop.done ?_; rw [BitVec.lt_def]; omega
  | succ k ih =>
    intro vp h1 h2 h3 h4
    have h5 := h4 0 (by omega)
    have e1 : (vp + BitVec.ofNat w stride).toNat = vp.toNat + stride := by
      rw [add_toNat_lt, ofNat_toNat_lt hs]
      rw [ofNat_toNat_lt hs]; rw [Nat.mul_succ] at h3; omega
    have e2 : ((List.range (k + 1)).map fun i => vp + BitVec.ofNat w (stride * i)) =
        vp :: ((List.range k).map fun i => vp + BitVec.ofNat w stride + BitVec.ofNat w (stride * i)) := by
      rw [List.range_succ_eq_map, List.map_cons, List.map_map]
      congr 1
      · simp
      · apply List.map_congr_left
        intro i _
        show vp + BitVec.ofNat w (stride * (i + 1)) = _
        rw [Nat.mul_succ, BitVec.add_assoc, ← BitVec.ofNat_add, Nat.add_comm]
    rw [e2]
    refine Loop.step (by rw [BitVec.lt_def]; omega) ?_
    by_cases hk : k = 0
    · subst hk
      refine Loop.done ?_
      rw [BitVec.lt_def, e1]; omega
    · refine ih _ ?_ ?_ ?_ ?_
      · rw [e1]; have := h4 1 (by omega); omega
      · rw [e1]; rw [Nat.mul_succ] at h2; omega
      · rw [e1]; rw [Nat.mul_succ] at h3; omega
      · intro j hj
        rw [e1]
        have := h4 (j + 1) (by omega)
        rw [Nat.mul_succ] at this
        omega

/-- **C53**: if the range and one stride beyond it lie within the address space, `prefetch_range` terminates and prefetches the addresses `addr`, `addr+256`, ...
below `addr+len`, each once, in order. -/
theorem C53_prefetch (addr len : BitVec w) (h : addr.toNat + len.toNat + stride ≤ 2 ^ w) :
    Prefetch addr len ((List.range ((len.toNat + (stride - 1)) / stride)).map fun i => addr + BitVec.ofNat w (stride * i)) := by
  have hs : 0 < stride := by decide
  have e : (addr + len).toNat = addr.toNat + len.toNat := add_toNat_lt (by omega)
  obtain ⟨q, hq⟩ : ∃ q, q = (len.toNat + (stride - 1)) / stride := ⟨_, rfl⟩
  have h1 := Nat.div_add_mod (len.toNat + (stride - 1)) stride
  have h2 := Nat.mod_lt (len.toNat + (stride - 1)) hs
  rw [← hq] at h1 ⊢
  by_cases hl : len.toNat = 0
  · have : q = 0 := by rw [hq, hl]; decide
    subst this
    refine Loop.done ?_
    rw [BitVec.lt_def, e]; omega
  · refine loop_up _ (by omega) q addr (by omega) (by omega) (by omega) ?_
    intro j hj
    rw [e]
    have : stride * (j + 1) ≤ stride * q := Nat.mul_le_mul_left _ hj
    rw [Nat.mul_succ] at this
    omega

/-- **C53**: whatever the arguments, only addresses below `addr+len` (as computed, modulo `2^w`) are prefetched, all congruent to `addr`; and if `addr+len` wraps
around, none. -/
theorem C53_inside (addr len : BitVec w) (l : List (BitVec w)) (h : Prefetch addr len l) : (∀ a ∈ l, a < addr + len ∧ ∃ i, a = addr + BitVec.ofNat w (stride * i)) ∧
    (2 ^ w ≤ addr.toNat + len.toNat → l = []) := by
  unfold Prefetch at h
  constructor
  · generalize addr + len = e at h
    have : ∀ l vp, Loop e vp l → ∀ i, vp = addr + BitVec.ofNat w (stride * i) → ∀ a ∈ l, a < e ∧ ∃ i, a = addr + BitVec.ofNat w (stride * i) := by
      intro l vp hl
      induction hl with
      | done _ => intro i _ a ha; cases ha
      | @step vp l h1 h2 ih =>
        intro i hi a ha
        rcases List.mem_cons.mp ha with rfl | ha
        · exact ⟨h1, i, hi⟩
        · refine ih (i + 1) ?_ a ha
          rw [hi, Nat.mul_succ, BitVec.add_assoc, ← BitVec.ofNat_add]
    exact this l addr h 0 (by simp)
  · intro hw
    have h1 := addr.isLt
    have h2 := len.isLt
    have e : (addr + len).toNat = addr.toNat + len.toNat - 2 ^ w := by
      rw [BitVec.toNat_add, Nat.mod_eq_sub_mod hw, Nat.mod_eq_of_lt (by omega)]
    cases h with
    | done _ => rfl
    | step hlt _ => rw [BitVec.lt_def, e] at hlt; omega

/-- **C53**, limitation: if the range is not empty and ends so close to the end of the address space that no address congruent to `addr` lies between, the loop
never terminates. -/
theorem C53_diverges (addr len : BitVec w) (hs : stride ∣ 2 ^ w) (hw : stride < 2 ^ w) (h : addr.toNat + len.toNat < 2 ^ w)
    (hc : 2 ^ w - stride + addr.toNat % stride < addr.toNat + len.toNat) (l : List (BitVec w)) : ¬ Prefetch addr len l := by
  have e : (addr + len).toNat = addr.toNat + len.toNat := add_toNat_lt h
  have hpos : 0 < stride := by decide
  have key : ∀ vp : BitVec w, Loop (addr + len) vp l → vp.toNat % stride = addr.toNat % stride → False := by
    intro vp hl
    induction hl with
    | @done vp hn =>
      intro hm
      rw [BitVec.lt_def, e] at hn
      have hv := vp.isLt
      obtain ⟨q, hq⟩ := hs
      -- the greatest address congruent to `addr`
      have h1 := Nat.div_add_mod vp.toNat stride
      rw [hm] at h1
      have h2 : vp.toNat / stride < q := by
        rw [Nat.div_lt_iff_lt_mul hpos, Nat.mul_comm, ← hq]; exact hv
      have h3 : stride * (vp.toNat / stride + 1) ≤ stride * q := Nat.mul_le_mul_left _ h2
      rw [Nat.mul_succ, ← hq] at h3
      omega
    | @step vp l h1 h2 ih =>
      intro hm
      refine ih ?_
      rw [BitVec.toNat_add, Nat.mod_mod_of_dvd _ hs, ofNat_toNat_lt hw, Nat.add_mod_right, hm]
  exact fun hp => key addr hp rfl

/-- three cache line groups of a 600 byte object -/
example : Prefetch 0x1010#64 600#64 [0x1010#64, 0x1110#64, 0x1210#64] := C53_prefetch 0x1010#64 600#64 (by decide)
/-- the last 16 bytes but one of the address space -/
example (l) : ¬ Prefetch 0xfffffffffffffff0#64 15#64 l := C53_diverges _ _ (by decide) (by decide) (by decide) (by decide) l

end prefetch

/-! ## Passing a pointer through `makecontext` on macOS (C48) -/

/-- fiber_ucontext.hpp lines 340-343 and 391-394: the two `uint32_t` arguments of `makecontext` -/
def packHigh (record : BitVec 64) : BitVec 32 := ((record >>> 32) &&& 0xFFFFFFFF#64).setWidth 32
def packLow (record : BitVec 64) : BitVec 32 := record.setWidth 32

/-- fiber_ucontext.hpp lines 70-74: `std::uint64_t(data_high) << 32 | data_low` -/
def unpack (high low : BitVec 32) : BitVec 64 := (high.setWidth 64 <<< 32) ||| low.setWidth 64

/-- **C48**: the entry function of a fiber gets exactly the address of its record, for all addresses. -/
theorem C48_roundtrip (record : BitVec 64) : unpack (packHigh record) (packLow record) = record := by
  apply BitVec.eq_of_getLsbD_eq
  intro i hi
  have hm : ∀ j, (0xFFFFFFFF#64).getLsbD j = decide (j < 32) := by
    intro j
    show (BitVec.ofNat 64 (2 ^ 32 - 1)).getLsbD j = _
    rw [BitVec.getLsbD_ofNat, Nat.testBit_two_pow_sub_one]
    by_cases h : j < 32
    · simp [h]; omega
    · simp [h]
  simp only [unpack, packHigh, packLow, BitVec.getLsbD_or, BitVec.getLsbD_shiftLeft, BitVec.getLsbD_setWidth, BitVec.getLsbD_and, BitVec.getLsbD_ushiftRight, hm, hi,
    decide_true, Bool.true_and]
  by_cases h : i < 32
  · simp [h]
  · have h1 : i - 32 < 32 := by omega
    have h2 : i - 32 < 64 := by omega
    have h3 : 32 + (i - 32) = i := by omega
    simp [h, h1, h2, h3]

end Verif.Detail
