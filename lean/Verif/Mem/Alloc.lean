import Verif.Mem.Layout

/-!
# Stack allocators (C42, C43)

An operating system (heap, page mappings, access rights) with arbitrary answers, and the allocators on top of it.  Histories are arbitrary sequences of
`allocate()` by any number of allocators of any kind and size, and `deallocate()` of any outstanding stack by an allocator of the same kind.
-/

namespace Verif.Mem
variable {w : Nat}

/-! ## Operating system -/

/-- access right of an address: not part of any allocation, no access, guard page (Windows), read and write -/
inductive Prot
  | unmapped | none | guard | rw
deriving DecidableEq

/-- system service a block was obtained from -/
inductive Sys
  | heap | mmap | virtual
deriving DecidableEq

/-- a block the system has handed out and not yet got back -/
structure Block (w : Nat) where
  sys : Sys
  base : BitVec w
  len : BitVec w
deriving DecidableEq

/-- the block's bytes; a block of length zero (`malloc(0)`) still occupies an address of its own -/
def Block.Has (b : Block w) (a : BitVec w) : Prop := In a b.base.toNat (b.base.toNat + max b.len.toNat 1)
/-- two blocks without common byte -/
def Block.Apart (b c : Block w) : Prop := ∀ a, ¬ (b.Has a ∧ c.Has a)

/-- `fault`: the system has been asked to take back something it had not handed out (double free, wrong pointer or size) -/
structure OS (w : Nat) where
  live : List (Block w)
  prot : BitVec w → Prot
  fault : Bool

open Classical in
/-- access right of `[base, base+len)` becomes `p` -/
noncomputable def OS.protect (s : OS w) (base len : BitVec w) (p : Prot) : OS w :=
  { s with prot := fun a => if In a base.toNat (base.toNat + len.toNat) then p else s.prot a }

/-- possible answers of `malloc`/`mmap`/`VirtualAlloc`: a non-null block inside the address space, away from all others; page mappings are not empty -/
def OS.CanGet (s : OS w) (b : Block w) : Prop :=
  b.base ≠ 0#w ∧ b.base.toNat + b.len.toNat < 2 ^ w ∧ (b.sys ≠ .heap → 0 < b.len.toNat) ∧ ∀ c ∈ s.live, b.Apart c

noncomputable def OS.get (s : OS w) (b : Block w) : OS w := { s with live := b :: s.live }.protect b.base b.len .rw

/-- what identifies the block to take back: `free(base)`, `munmap(base, len)`, `VirtualFree(base, 0, MEM_RELEASE)` -/
def Block.is (b : Block w) (sys : Sys) (base len : BitVec w) : Bool := b.sys == sys && b.base == base && (sys != .mmap || b.len == len)

noncomputable def OS.put (s : OS w) (sys : Sys) (base len : BitVec w) : OS w :=
  match s.live.find? (·.is sys base len) with
  | some b => { s with live := s.live.erase b }.protect b.base b.len .unmapped
  | none => { s with fault := true }

/-! ## Allocators -/

inductive Kind
  /-- `fixedsize_stack`, using `malloc` -/
  | fixed
  /-- `fixedsize_stack` with `BOOST_CONTEXT_USE_MAP_STACK` -/
  | fixedMap
  /-- `protected_fixedsize_stack`, POSIX -/
  | prot
  /-- `protected_fixedsize_stack`, Windows -/
  | winProt
deriving DecidableEq

def Kind.sys : Kind → Sys
  | .fixed => .heap
  | .fixedMap => .mmap
  | .prot => .mmap
  | .winProt => .virtual

/-- posix/protected_fixedsize_stack.hpp lines 54-56, windows/protected_fixedsize_stack.hpp lines 47-49 -/
def protSize (size page : BitVec w) : BitVec w :=
  let pages := (size + page - 1#w) / page
  (pages + 1#w) * page

/-- number of bytes `allocate()` requests: fixedsize_stack.hpp lines 52 and 57; otherwise `protSize` -/
def Kind.request (k : Kind) (size page : BitVec w) : BitVec w :=
  match k with
  | .fixed => size
  | .fixedMap => size
  | .prot => protSize size page
  | .winProt => protSize size page

/-- `allocate()` after the system has returned `vp`: fixedsize_stack.hpp lines 62-69, posix/protected_fixedsize_stack.hpp lines 65-78, windows/protected_fixedsize_stack.hpp
lines 52-63.  `ok`: answer of `mprotect`/`VirtualProtect`; a failure is an assertion failure or, with assertions disabled, ignored as modelled here. -/
noncomputable def allocate (k : Kind) (page : BitVec w) (s : OS w) (vp len : BitVec w) (ok : Bool) : OS w × StackCtx w :=
  let s := s.get ⟨k.sys, vp, len⟩
  let s := match k, ok with
    | .prot, true => s.protect vp page .none
    | .winProt, true => s.protect vp page .guard
    | _, _ => s
  (s, { size := len, sp := vp + len })

/-- `deallocate()`: fixedsize_stack.hpp lines 71-83, posix/protected_fixedsize_stack.hpp lines 81-91, windows/protected_fixedsize_stack.hpp lines 66-71 -/
noncomputable def deallocate (k : Kind) (s : OS w) (sctx : StackCtx w) : OS w :=
  let vp := sctx.sp - sctx.size
  s.put k.sys vp sctx.size

/-! ## Histories -/

/-- a stack in the hands of the user, with the size requested from the allocator -/
structure Out (w : Nat) where
  kind : Kind
  want : BitVec w
  guarded : Bool
  sctx : StackCtx w

/-- system and outstanding stacks; `page` is the page size -/
inductive Hist (page : BitVec w) : OS w → List (Out w) → Prop
  | start (p) : Hist page ⟨[], p, false⟩ []
  /-- `allocate()` by an allocator of any kind and size.  If the system has no memory (`std::bad_alloc`) nothing changes. -/
  | alloc {s out} (k : Kind) (size vp : BitVec w) (ok : Bool) : Hist page s out → s.CanGet ⟨k.sys, vp, k.request size page⟩ →
      Hist page (allocate k page s vp (k.request size page) ok).1 (⟨k, size, ok, (allocate k page s vp (k.request size page) ok).2⟩ :: out)
  /-- `deallocate()` of any outstanding stack, by any allocator of the same kind -/
  | dealloc {s out₁ out₂} (o : Out w) : Hist page s (out₁ ++ o :: out₂) → Hist page (deallocate o.kind s o.sctx) (out₁ ++ out₂)

/-! ## Specification -/

/-- the stack `[sp-size, sp)`, as a block of the system -/
def Out.block (o : Out w) : Block w := ⟨o.kind.sys, o.sctx.sp - o.sctx.size, o.sctx.size⟩

/-- the address lies in the stack -/
def Out.Has (o : Out w) (a : BitVec w) : Prop := In a (o.sctx.sp.toNat - o.sctx.size.toNat) o.sctx.sp.toNat

/-- number of bytes at the low end without access -/
def Out.guard (o : Out w) (page : BitVec w) : Nat :=
  match o.kind, o.guarded with
  | .prot, true => page.toNat
  | .winProt, true => page.toNat
  | _, _ => 0

/-! ## Proofs -/

theorem put_base (vp len : BitVec w) : vp + len - len = vp := BitVec.add_sub_cancel _ _

theorem Block.is_iff {b : Block w} {sys base len} : b.is sys base len = true ↔ b.sys = sys ∧ b.base = base ∧ (sys = .mmap → b.len = len) := by
  unfold Block.is
  cases sys <;> simp [and_assoc]

theorem Block.apart_symm {b c : Block w} (h : b.Apart c) : c.Apart b := fun a ⟨x, y⟩ => h a ⟨y, x⟩

theorem Block.has_base (b : Block w) : b.Has b.base := ⟨Nat.le_refl _, by omega⟩

theorem protect_live (s : OS w) (a b : BitVec w) (p : Prot) : (s.protect a b p).live = s.live := rfl
theorem protect_fault (s : OS w) (a b : BitVec w) (p : Prot) : (s.protect a b p).fault = s.fault := rfl

theorem protect_in {s : OS w} {a b l : BitVec w} {p : Prot} (h : In a b.toNat (b.toNat + l.toNat)) : (s.protect b l p).prot a = p := if_pos h
theorem protect_out {s : OS w} {a b l : BitVec w} {p : Prot} (h : ¬ In a b.toNat (b.toNat + l.toNat)) : (s.protect b l p).prot a = s.prot a := if_neg h

theorem alloc_live (k : Kind) (page : BitVec w) (s : OS w) (vp len : BitVec w) (ok : Bool) :
    (allocate k page s vp len ok).1.live = ⟨k.sys, vp, len⟩ :: s.live := by
  cases k <;> cases ok <;> rfl
theorem alloc_fault (k : Kind) (page : BitVec w) (s : OS w) (vp len : BitVec w) (ok : Bool) : (allocate k page s vp len ok).1.fault = s.fault := by
  cases k <;> cases ok <;> rfl
theorem alloc_block (k : Kind) (page : BitVec w) (s : OS w) (vp len want : BitVec w) (ok g : Bool) :
    Out.block ⟨k, want, g, (allocate k page s vp len ok).2⟩ = ⟨k.sys, vp, len⟩ := by
  show (⟨k.sys, vp + len - len, len⟩ : Block w) = _
  rw [put_base]

structure Inv (page : BitVec w) (s : OS w) (out : List (Out w)) : Prop where
  fault : s.fault = false
  live : s.live = out.map Out.block
  apart : s.live.Pairwise Block.Apart
  fits : ∀ o ∈ out, (o.sctx.sp - o.sctx.size) ≠ 0#w ∧ (o.sctx.sp - o.sctx.size).toNat + o.sctx.size.toNat < 2 ^ w
  req : ∀ o ∈ out, o.sctx.size = o.kind.request o.want page ∧ (o.kind.sys ≠ .heap → 0 < o.sctx.size.toNat)

theorem find_mid {α} (p : α → Bool) (l₁ l₂ : List α) (b : α) (h1 : ∀ c ∈ l₁, p c = false) (hb : p b = true) : (l₁ ++ b :: l₂).find? p = some b := by
  rw [List.find?_append, List.find?_eq_none.mpr (fun c hc => by simp [h1 c hc])]
  simp [hb]

theorem erase_mid {α} [DecidableEq α] (l₁ l₂ : List α) (b : α) (h1 : b ∉ l₁) : (l₁ ++ b :: l₂).erase b = l₁ ++ l₂ := by
  rw [List.erase_append_right _ h1, List.erase_cons_head]

theorem Inv.put {page : BitVec w} {s : OS w} {out₁ out₂ : List (Out w)} {o : Out w} (h : Inv page s (out₁ ++ o :: out₂)) :
    deallocate o.kind s o.sctx = { s with live := (out₁ ++ out₂).map Out.block }.protect o.block.base o.block.len .unmapped := by
  have hl : s.live = out₁.map Out.block ++ o.block :: out₂.map Out.block := by rw [h.live, List.map_append, List.map_cons]
  have ha : ∀ c ∈ out₁.map Out.block, c.Apart o.block := by
    intro c hc
    have := h.apart
    rw [hl, List.pairwise_append] at this
    exact this.2.2 c hc o.block (List.mem_cons_self ..)
  have hp : ∀ c ∈ out₁.map Out.block, Block.is c o.kind.sys (o.sctx.sp - o.sctx.size) o.sctx.size = false := by
    intro c hc
    cases hb : Block.is c o.kind.sys (o.sctx.sp - o.sctx.size) o.sctx.size
    · rfl
    have hh := Block.is_iff.mp hb
    refine absurd ?_ (ha c hc o.block.base)
    refine ⟨?_, Block.has_base _⟩
    have := Block.has_base c
    rwa [hh.2.1] at this
  have hself : o.block.is o.kind.sys (o.sctx.sp - o.sctx.size) o.sctx.size = true := Block.is_iff.mpr ⟨rfl, rfl, fun _ => rfl⟩
  have hn : o.block ∉ out₁.map Out.block := by
    intro hm
    exact ha _ hm o.block.base ⟨Block.has_base _, Block.has_base _⟩
  unfold deallocate OS.put
  simp only [hl]
  rw [find_mid _ _ _ _ hp hself]
  simp only [erase_mid _ _ _ hn, List.map_append]

theorem Hist.inv {page : BitVec w} {s : OS w} {out : List (Out w)} (h : Hist page s out) : Inv page s out := by
  induction h with
  | start p => exact ⟨rfl, rfl, List.Pairwise.nil, by simp, by simp⟩
  | @alloc s out k size vp ok h hc ih =>
    refine ⟨?_, ?_, ?_, ?_, ?_⟩
    · rw [alloc_fault]; exact ih.fault
    · rw [alloc_live, List.map_cons, alloc_block, ih.live]
    · rw [alloc_live]; exact List.Pairwise.cons hc.2.2.2 ih.apart
    · intro o ho
      rcases List.mem_cons.mp ho with rfl | ho
      · show (vp + k.request size page - k.request size page) ≠ 0#w ∧ (vp + k.request size page - k.request size page).toNat + (k.request size page).toNat < 2 ^ w
        rw [put_base]
        exact ⟨hc.1, hc.2.1⟩
      · exact ih.fits o ho
    · intro o ho
      rcases List.mem_cons.mp ho with rfl | ho
      · exact ⟨rfl, hc.2.2.1⟩
      · exact ih.req o ho
  | @dealloc s out₁ out₂ o h ih =>
    rw [ih.put]
    refine ⟨ih.fault, rfl, ?_, ?_, ?_⟩
    · show ((out₁ ++ out₂).map Out.block).Pairwise _
      have := ih.apart
      rw [ih.live] at this
      refine List.Pairwise.sublist ?_ this
      exact List.Sublist.map _ (List.Sublist.append (List.Sublist.refl _) (List.sublist_cons_self _ _))
    · intro o' ho'
      refine ih.fits o' ?_
      rcases List.mem_append.mp ho' with h1 | h1
      · exact List.mem_append_left _ h1
      · exact List.mem_append_right _ (List.mem_cons_of_mem _ h1)
    · intro o' ho'
      refine ih.req o' ?_
      rcases List.mem_append.mp ho' with h1 | h1
      · exact List.mem_append_left _ h1
      · exact List.mem_append_right _ (List.mem_cons_of_mem _ h1)

theorem out_has {o : Out w} {a : BitVec w} (h : (o.sctx.sp - o.sctx.size).toNat + o.sctx.size.toNat < 2 ^ w) :
    o.Has a ↔ In a (o.sctx.sp - o.sctx.size).toNat ((o.sctx.sp - o.sctx.size).toNat + o.sctx.size.toNat) := by
  have h1 : o.sctx.sp.toNat = (o.sctx.sp - o.sctx.size).toNat + o.sctx.size.toNat := by
    rw [← add_toNat_lt h, BitVec.sub_add_cancel]
  unfold Out.Has In
  omega

theorem Out.Has.block {o : Out w} {a : BitVec w} (h : (o.sctx.sp - o.sctx.size).toNat + o.sctx.size.toNat < 2 ^ w) (ha : o.Has a) : o.block.Has a := by
  rw [out_has h] at ha
  unfold In at ha
  exact ⟨ha.1, by show a.toNat < (o.sctx.sp - o.sctx.size).toNat + max o.sctx.size.toNat 1; omega⟩

/-- **C42**, meaning of `fault`: it is raised exactly when the system is asked to take back what is no outstanding block (a double `free`, say), and then nothing else happens. -/
theorem C42_fault_iff (s : OS w) (hs : s.fault = false) (sys : Sys) (base len : BitVec w) :
    (s.put sys base len).fault = true ↔ ¬ ∃ b ∈ s.live, b.sys = sys ∧ b.base = base ∧ (sys = .mmap → b.len = len) := by
  have key : ∀ b : Block w, b.is sys base len = true ↔ b.sys = sys ∧ b.base = base ∧ (sys = .mmap → b.len = len) := by
    intro b
    unfold Block.is
    by_cases hm : sys = .mmap <;> simp [hm, and_assoc]
  unfold OS.put
  cases hf : s.live.find? (·.is sys base len) with
  | none =>
    simp only [true_iff]
    rintro ⟨b, hb, h⟩
    exact absurd ((key b).mpr h) (by simpa using List.find?_eq_none.mp hf b hb)
  | some b =>
    have h1 := List.find?_some hf
    have h2 := List.mem_of_find?_eq_some hf
    simp only [protect_fault, hs]
    simp only [Bool.false_eq_true, false_iff]
    exact fun hn => hn ⟨b, h2, (key b).mp h1⟩

/-- **C42**: in every history the system never gets back anything but exactly what it handed out, the outstanding blocks are exactly the outstanding stacks
(base and size as described by their `stack_context`), and the assertion on `sp` in `deallocate()` holds. -/
theorem C42_exact {page : BitVec w} {s : OS w} {out : List (Out w)} (h : Hist page s out) :
    s.fault = false ∧ s.live = out.map Out.block ∧
    ∀ o ∈ out, o.sctx.sp ≠ 0#w ∧ o.sctx.size.toNat ≤ o.sctx.sp.toNat ∧ o.sctx.size = o.kind.request o.want page := by
  have hi := h.inv
  refine ⟨hi.fault, hi.live, fun o ho => ?_⟩
  obtain ⟨h1, h2⟩ := hi.fits o ho
  have h3 : o.sctx.sp.toNat = (o.sctx.sp - o.sctx.size).toNat + o.sctx.size.toNat := by
    rw [← add_toNat_lt h2, BitVec.sub_add_cancel]
  refine ⟨fun h0 => h1 ?_, by omega, (hi.req o ho).1⟩
  apply BitVec.eq_of_toNat_eq
  rw [h0] at h3
  rw [h0]
  simp only [BitVec.toNat_ofNat, Nat.zero_mod] at *
  omega

/-- **C42**: `allocate()` describes exactly the block it obtained. -/
theorem C42_describes (k : Kind) (page : BitVec w) (s : OS w) (vp len : BitVec w) (ok : Bool) (h : vp.toNat + len.toNat < 2 ^ w) :
    (allocate k page s vp len ok).2.size = len ∧ (allocate k page s vp len ok).2.sp.toNat = vp.toNat + len.toNat :=
  ⟨rfl, add_toNat_lt h⟩

/-- **C42**: outstanding stacks do not overlap. -/
theorem C42_disjoint {page : BitVec w} {s : OS w} {out : List (Out w)} (h : Hist page s out) :
    out.Pairwise fun o o' => ∀ a, ¬ (o.Has a ∧ o'.Has a) := by
  have hi := h.inv
  have := hi.apart
  rw [hi.live, List.pairwise_map] at this
  refine this.imp_of_mem fun {o o'} ho ho' hp a ha => hp a ⟨ha.1.block (hi.fits o ho).2, ha.2.block (hi.fits o' ho').2⟩

/-- **C42**: when all stacks have been deallocated, the system has everything back. -/
theorem C42_all_returned {page : BitVec w} {s : OS w} (h : Hist page s []) : s.live = [] := h.inv.live

/-! ## Guard page -/

/-- **C43**, arithmetic: as long as size plus two pages do not exceed the address space, the mapping consists of one page plus the size rounded up to pages. -/
theorem C43_size (size page : BitVec w) (hp : 0 < page.toNat) (h : size.toNat + 2 * page.toNat ≤ 2 ^ w) :
    (protSize size page).toNat = page.toNat + (size.toNat + page.toNat - 1) / page.toNat * page.toNat ∧
    size.toNat ≤ (protSize size page).toNat - page.toNat ∧ (protSize size page).toNat - page.toNat < size.toNat + page.toNat := by
  have h1w : (1#w).toNat = 1 := ofNat_toNat_lt (by omega)
  have e1 : (size + page - 1#w).toNat = size.toNat + page.toNat - 1 := by
    rw [sub_toNat_le, add_toNat_lt (by omega), h1w]
    rw [add_toNat_lt (by omega), h1w]; omega
  have e2 : ((size + page - 1#w) / page).toNat = (size.toNat + page.toNat - 1) / page.toNat := by rw [BitVec.toNat_udiv, e1]
  have e3 := Nat.div_add_mod (size.toNat + page.toNat - 1) page.toNat
  have e4 := Nat.mod_lt (size.toNat + page.toNat - 1) hp
  have e5 : (size.toNat + page.toNat - 1) / page.toNat ≤ size.toNat + page.toNat - 1 := Nat.div_le_self _ _
  have e6 : ((size + page - 1#w) / page + 1#w).toNat = (size.toNat + page.toNat - 1) / page.toNat + 1 := by
    rw [add_toNat_lt, e2, h1w]
    rw [e2, h1w]
    omega
  have e7 : (protSize size page).toNat = ((size.toNat + page.toNat - 1) / page.toNat + 1) * page.toNat := by
    unfold protSize
    simp only []
    rw [BitVec.toNat_mul, e6, Nat.mod_eq_of_lt]
    rw [Nat.add_mul, Nat.mul_comm]
    omega
  rw [e7, Nat.add_mul, Nat.one_mul]
  generalize hq : (size.toNat + page.toNat - 1) / page.toNat = q at *
  rw [Nat.mul_comm] at e3
  omega

/-- **C42**: the size described by the `stack_context` is the one asked for (`fixedsize_stack`), or one page plus the size asked for rounded up to whole pages
(`protected_fixedsize_stack`, as long as that does not exceed the address space). -/
theorem C42_size {page : BitVec w} {s : OS w} {out : List (Out w)} (h : Hist page s out) (o : Out w) (ho : o ∈ out) :
    (o.kind = .fixed ∨ o.kind = .fixedMap → o.sctx.size = o.want) ∧
    (o.kind = .prot ∨ o.kind = .winProt → 0 < page.toNat → o.want.toNat + 2 * page.toNat ≤ 2 ^ w →
      page.toNat ∣ o.sctx.size.toNat ∧ page.toNat + o.want.toNat ≤ o.sctx.size.toNat ∧ o.sctx.size.toNat < 2 * page.toNat + o.want.toNat) := by
  obtain ⟨-, -, h1⟩ := C42_exact h
  obtain ⟨-, -, h2⟩ := h1 o ho
  refine ⟨?_, ?_⟩
  · rintro (hk | hk) <;> rw [h2, hk] <;> rfl
  · intro hk hp hw
    have h3 : o.sctx.size = protSize o.want page := by rcases hk with hk | hk <;> rw [h2, hk] <;> rfl
    obtain ⟨a, b, c⟩ := C43_size o.want page hp hw
    rw [h3]
    refine ⟨⟨(o.want.toNat + page.toNat - 1) / page.toNat + 1, ?_⟩, by omega, by omega⟩
    rw [a, Nat.mul_add, Nat.mul_one, Nat.mul_comm page.toNat]; omega

/-- **C43**, overflow: for sizes within one page of the largest `size_t` the rounding wraps around and the mapping is the guard page alone. -/
theorem C43_overflow (size page : BitVec w) (hp : 0 < page.toNat) (h : 2 ^ w < size.toNat + page.toNat) : protSize size page = page := by
  have hs := size.isLt
  have hpl := page.isLt
  have h1w : (1#w).toNat = 1 := ofNat_toNat_lt (by omega)
  have e0 : (size + page).toNat = size.toNat + page.toNat - 2 ^ w := by
    rw [BitVec.toNat_add, Nat.mod_eq_sub_mod (by omega), Nat.mod_eq_of_lt (by omega)]
  have e1 : (size + page - 1#w).toNat = size.toNat + page.toNat - 2 ^ w - 1 := by
    rw [sub_toNat_le (by omega), e0, h1w]
  have e2 : ((size + page - 1#w) / page).toNat = 0 := by
    rw [BitVec.toNat_udiv, e1, Nat.div_eq_of_lt (by omega)]
  have e3 : (size + page - 1#w) / page = 0#w := BitVec.eq_of_toNat_eq (by rw [e2]; simp)
  unfold protSize
  simp only []
  rw [e3, BitVec.zero_add, BitVec.one_mul]

/-- **C43**, overflow: for sizes between one and two pages below that, the length passed to `mmap` is zero, so that `allocate()` fails. -/
theorem C43_overflow_zero (size page : BitVec w) (j : Nat) (hj : j < w) (hp : page.toNat = 2 ^ j) (h : 2 ^ w < size.toNat + 2 * page.toNat) (h' : size.toNat + page.toNat ≤ 2 ^ w) :
    protSize size page = 0#w := by
  have hp0 : 0 < page.toNat := by rw [hp]; exact Nat.two_pow_pos j
  have hs := size.isLt
  have h1w : (1#w).toNat = 1 := ofNat_toNat_lt (by have : 0 < j ∨ j = 0 := by omega
                                                   have := Nat.pow_lt_pow_right (a := 2) (by decide) hj
                                                   have := Nat.two_pow_pos j; omega)
  obtain ⟨q, hq⟩ : ∃ q, 2 ^ w = (q + 1) * page.toNat := by
    refine ⟨2 ^ (w - j) - 1, ?_⟩
    have : 2 ^ w = 2 ^ (w - j) * 2 ^ j := by rw [← Nat.pow_add]; congr 1; omega
    rw [hp, Nat.sub_add_cancel (Nat.two_pow_pos _), this]
  have e1 : (size + page - 1#w).toNat = size.toNat + page.toNat - 1 := by
    by_cases hc : size.toNat + page.toNat = 2 ^ w
    · have e0 : size + page = 0#w := BitVec.eq_of_toNat_eq (by rw [BitVec.toNat_add, hc]; simp)
      rw [e0, sub_toNat_gt (by rw [h1w]; simp), h1w]
      simp
      omega
    · rw [sub_toNat_le, add_toNat_lt (by omega), h1w]
      rw [add_toNat_lt (by omega), h1w]; omega
  rw [Nat.add_mul, Nat.one_mul] at hq
  have e2 : (size.toNat + page.toNat - 1) / page.toNat = q := by
    rw [Nat.div_eq_iff hp0]
    omega
  have e3 : ((size + page - 1#w) / page).toNat = q := by rw [BitVec.toNat_udiv, e1, e2]
  apply BitVec.eq_of_toNat_eq
  unfold protSize
  simp only []
  rw [BitVec.toNat_mul, BitVec.toNat_add, e3, h1w, Nat.mod_mul_mod, Nat.add_mul, Nat.one_mul, ← hq]
  simp

theorem protSize_ge (size page : BitVec w) (j : Nat) (hp : page.toNat = 2 ^ j) (h : 0 < (protSize size page).toNat) : page.toNat ≤ (protSize size page).toNat := by
  unfold protSize at *
  simp only [] at *
  generalize (size + page - 1#w) / page + 1#w = x at *
  have hpl := page.isLt
  have hj : j < w := by
    rw [hp] at hpl
    exact (Nat.pow_lt_pow_iff_right (by decide)).mp hpl
  have : page.toNat ∣ (x * page).toNat := by
    rw [BitVec.toNat_mul, Nat.dvd_mod_iff]
    · exact Nat.dvd_mul_left _ _
    · rw [hp]; exact Nat.pow_dvd_pow 2 (Nat.le_of_lt hj)
  exact Nat.le_of_dvd h this

/-- access right of byte `a` of stack `o` -/
def Out.right (o : Out w) (page a : BitVec w) : Prot :=
  if a.toNat < o.sctx.sp.toNat - o.sctx.size.toNat + o.guard page then (if o.kind = .winProt then .guard else .none) else .rw

theorem Hist.prot {page : BitVec w} {j : Nat} (hp : page.toNat = 2 ^ j) {s : OS w} {out : List (Out w)} (h : Hist page s out) :
    ∀ o ∈ out, ∀ a, o.Has a → s.prot a = o.right page a := by
  induction h with
  | start p => simp
  | @alloc s out k size vp ok h hc ih =>
    have hi := h.inv
    have hni := (Hist.alloc k size vp ok h hc).inv
    have hge : k.sys ≠ .heap → (k = .prot ∨ k = .winProt) → page.toNat ≤ (k.request size page).toNat := by
      intro h1 h2
      have h3 := hc.2.2.1 h1
      rcases h2 with rfl | rfl <;> exact protSize_ge size page j hp h3
    intro o ho a ha
    rcases List.mem_cons.mp ho with rfl | ho'
    · have hf := (hni.fits _ ho).2
      rw [out_has hf] at ha
      have e1 : (vp + k.request size page - k.request size page) = vp := put_base _ _
      have e2 : (vp + k.request size page).toNat = vp.toNat + (k.request size page).toNat := add_toNat_lt hc.2.1
      have ha : In a vp.toNat (vp.toNat + (k.request size page).toNat) := by
        have := ha
        simp only [allocate] at this
        rwa [e1] at this
      generalize k.request size page = len at *
      have e3 : (vp + len).toNat - len.toNat = vp.toNat := by omega
      have hw : (OS.get s ⟨k.sys, vp, len⟩).prot a = .rw := protect_in ha
      have hr : ∀ g, Out.right ⟨k, size, g, ⟨len, vp + len⟩⟩ page a =
          if a.toNat < vp.toNat + Out.guard ⟨k, size, g, ⟨len, vp + len⟩⟩ page then (if k = .winProt then .guard else .none) else .rw := by
        intro g; unfold Out.right; simp only [e3]
      show _ = Out.right ⟨k, size, ok, ⟨len, vp + len⟩⟩ page a
      rw [hr]
      have hlo := ha.1
      cases k <;> cases ok
      all_goals first
        | (rw [show Out.guard _ page = 0 from rfl, if_neg (by omega)]; exact hw)
        | skip
      · rw [show Out.guard _ page = page.toNat from rfl, if_neg (show ¬ Kind.prot = Kind.winProt by decide)]
        by_cases hx : a.toNat < vp.toNat + page.toNat
        · rw [if_pos hx]; exact protect_in ⟨hlo, hx⟩
        · rw [if_neg hx]; exact (protect_out fun y => hx y.2).trans hw
      · rw [show Out.guard _ page = page.toNat from rfl, if_pos (show Kind.winProt = Kind.winProt from rfl)]
        by_cases hx : a.toNat < vp.toNat + page.toNat
        · rw [if_pos hx]; exact protect_in ⟨hlo, hx⟩
        · rw [if_neg hx]; exact (protect_out fun y => hx y.2).trans hw
    · have hf := (hi.fits _ ho').2
      have hb := ha.block hf
      have hap : ¬ Block.Has ⟨k.sys, vp, k.request size page⟩ a := by
        intro hx
        refine hc.2.2.2 o.block ?_ a ⟨hx, hb⟩
        rw [hi.live]; exact List.mem_map_of_mem ho'
      rw [← ih o ho' a ha]
      have h1 : ¬ In a vp.toNat (vp.toNat + (k.request size page).toNat) := by
        intro hx; exact hap ⟨hx.1, by have := hx.2; show a.toNat < vp.toNat + max (k.request size page).toNat 1; omega⟩
      have h2 : k.sys ≠ .heap → (k = .prot ∨ k = .winProt) → ¬ In a vp.toNat (vp.toNat + page.toNat) := by
        intro x y hx
        have := hge x y
        exact h1 ⟨hx.1, by have := hx.2; omega⟩
      have hw : (OS.get s ⟨k.sys, vp, k.request size page⟩).prot a = s.prot a := protect_out h1
      cases k <;> cases ok
      all_goals first
        | exact hw
        | exact (protect_out (h2 (by decide) (by decide))).trans hw
  | @dealloc s out₁ out₂ o h ih =>
    have hi := h.inv
    intro o' ho' a ha
    rw [hi.put]
    have ho'' : o' ∈ out₁ ++ o :: out₂ := by
      rcases List.mem_append.mp ho' with h1 | h1
      · exact List.mem_append_left _ h1
      · exact List.mem_append_right _ (List.mem_cons_of_mem _ h1)
    rw [← ih o' ho'' a ha]
    have hb := ha.block (hi.fits _ ho'').2
    have hap : ¬ o.block.Has a := by
      intro hx
      have := hi.apart
      rw [hi.live, List.pairwise_map, List.pairwise_append] at this
      obtain ⟨-, p2, p3⟩ := this
      rcases List.mem_append.mp ho' with h1 | h1
      · exact p3 o' h1 o (List.mem_cons_self ..) a ⟨hb, hx⟩
      · exact (List.pairwise_cons.mp p2).1 o' h1 a ⟨hx, hb⟩
    refine protect_out ?_
    intro hx
    exact hap ⟨hx.1, by have := hx.2; show a.toNat < o.block.base.toNat + max o.block.len.toNat 1; omega⟩

/-- **C43**: in every history, every outstanding protected stack for which the system granted the protection consists of an inaccessible page (on Windows: a guard page) at the low end and
read-write memory above it, whatever other allocations and deallocations have happened; and the accessible part is as large as requested unless size plus two
pages exceed the address space. -/
theorem C43_guard_page {page : BitVec w} {j : Nat} (hp : page.toNat = 2 ^ j) {s : OS w} {out : List (Out w)} (h : Hist page s out) (o : Out w) (ho : o ∈ out)
    (hk : o.kind = .prot ∨ o.kind = .winProt) (hg : o.guarded = true) :
    ∃ lo hi : Nat, lo = o.sctx.sp.toNat - o.sctx.size.toNat ∧ hi = o.sctx.sp.toNat ∧ lo + page.toNat ≤ hi ∧
      (∀ a, In a lo (lo + page.toNat) → s.prot a = if o.kind = .winProt then .guard else .none) ∧ (∀ a, In a (lo + page.toNat) hi → s.prot a = .rw) ∧
      (o.want.toNat + 2 * page.toNat ≤ 2 ^ w → o.want.toNat ≤ hi - (lo + page.toNat)) := by
  have hi := h.inv
  obtain ⟨-, -, h1⟩ := C42_exact h
  obtain ⟨-, h2, h3⟩ := h1 o ho
  have h4 := (hi.req o ho).2 (by rcases hk with hk | hk <;> rw [hk] <;> decide)
  have h3 : o.sctx.size = protSize o.want page := by rcases hk with hk | hk <;> rw [hk] at h3 <;> exact h3
  have hge : page.toNat ≤ o.sctx.size.toNat := by
    rw [h3] at h4 ⊢
    exact protSize_ge _ _ j hp h4
  have hguard : o.guard page = page.toNat := by unfold Out.guard; rcases hk with hk | hk <;> rw [hk, hg]
  refine ⟨_, _, rfl, rfl, by omega, fun a ha => ?_, fun a ha => ?_, fun hw => ?_⟩
  · unfold In at ha
    rw [h.prot hp o ho a ⟨ha.1, by omega⟩]
    unfold Out.right
    rw [hguard, if_pos ha.2]
  · unfold In at ha
    rw [h.prot hp o ho a ⟨by omega, ha.2⟩]
    unfold Out.right
    rw [hguard, if_neg (by omega)]
  · have := (C43_size o.want page (by rw [hp]; exact Nat.two_pow_pos j) hw).2.1
    rw [← h3] at this
    omega

/-- **C41/C43**: a fiber whose record of `n` bytes is at least 319 bytes smaller than the size requested from a protected allocator is well placed on the stack,
and record and gap are accessible. -/
theorem C43_record_accessible {page : BitVec w} {j : Nat} (hp : page.toNat = 2 ^ j) {s : OS w} {out : List (Out w)} (h : Hist page s out) (o : Out w) (ho : o ∈ out)
    (hk : o.kind = .prot ∨ o.kind = .winProt) (hg : o.guarded = true) (n : BitVec w) (hn : n.toNat + 319 ≤ o.want.toNat) (hw : o.want.toNat + 2 * page.toNat ≤ 2 ^ w) :
    WellPlaced (create1 o.sctx n) n.toNat (o.sctx.sp.toNat - o.sctx.size.toNat) o.sctx.sp.toNat ∧
    ∀ a, In a (create1 o.sctx n).top.toNat ((create1 o.sctx n).storage.toNat + n.toNat) → s.prot a = .rw := by
  obtain ⟨lo, hi, h1, h2, h3, h4, h5, h6⟩ := C43_guard_page hp h o ho hk hg
  have h6 := h6 hw
  obtain ⟨-, -, h7⟩ := C42_exact h
  obtain ⟨-, h8, -⟩ := h7 o ho
  have hpl := C41_placement o.sctx n h8 (by omega)
  refine ⟨hpl, fun a ha => h5 a ?_⟩
  obtain ⟨p1, p2, p3, p4, p5, p6⟩ := hpl
  unfold In at *
  omega

/-- **C42/C43**: stacks of all other kinds, and those for which protection was refused, are accessible throughout. -/
theorem C43_no_guard {page : BitVec w} {j : Nat} (hp : page.toNat = 2 ^ j) {s : OS w} {out : List (Out w)} (h : Hist page s out) (o : Out w) (ho : o ∈ out)
    (hk : o.kind = .fixed ∨ o.kind = .fixedMap ∨ o.guarded = false) (a : BitVec w) (ha : o.Has a) : s.prot a = .rw := by
  rw [h.prot hp o ho a ha]
  have hg : o.guard page = 0 := by
    unfold Out.guard
    rcases hk with hk | hk | hk <;> rw [hk] <;> cases o.kind <;> rfl
  unfold Out.right
  have := ha.1
  rw [hg, if_neg (by omega)]

/-- A history with three outstanding stacks of different kinds, one of them allocated after another has been returned. -/
example : ∃ (s : OS 32) (o₁ o₂ o₃ : Out 32), Hist 0x1000#32 s [o₁, o₂, o₃] ∧ o₁.kind = .prot ∧ o₁.guarded = true ∧ o₁.want = 10000#32 ∧ o₁.sctx.size = 0x4000#32 ∧
    o₁.sctx.sp = 0x14000#32 := by
  have h0 : Hist 0x1000#32 ⟨[], fun _ => .unmapped, false⟩ [] := .start _
  have h1 := h0.alloc .fixed 5000#32 0x50000#32 true ⟨by decide, by decide, by decide, by simp⟩
  have h2 := h1.alloc .prot 10000#32 0x10000#32 true ⟨by decide, by decide, by decide, by
    rw [alloc_live]; intro c hc; rcases List.mem_cons.mp hc with rfl | hc
    · intro a ⟨x, y⟩; have x := x.2; have y := y.1; simp [protSize, Kind.request] at x y; omega
    · cases hc⟩
  have h3 := Hist.dealloc (out₁ := []) _ h2
  have h4 := h3.alloc .fixedMap 8192#32 0x60000#32 true ⟨by decide, by decide, by decide, by
    rw [h3.inv.live]; intro c hc; simp only [List.nil_append, List.map_cons, List.map_nil, List.mem_singleton] at hc; subst hc
    intro a ⟨x, y⟩; have x := x.1; have y := y.2; rw [alloc_block] at y; simp [Kind.request] at x y; omega⟩
  have h5 := h4.alloc .prot 10000#32 0x10000#32 true ⟨by decide, by decide, by decide, by
    rw [h4.inv.live]; intro c hc; simp only [List.nil_append, List.map_cons, List.map_nil, List.mem_cons, List.not_mem_nil, or_false] at hc
    rcases hc with rfl | rfl <;> rw [alloc_block] <;> intro a ⟨x, y⟩ <;> have x := x.2 <;> have y := y.1 <;> simp [protSize, Kind.request] at x y <;> omega⟩
  exact ⟨_, _, _, _, h5, rfl, rfl, rfl, rfl, rfl⟩

end Verif.Mem
