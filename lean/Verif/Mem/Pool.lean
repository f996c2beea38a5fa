/-!
# Lifetime of the storage shared by the copies of a `pooled_fixedsize_stack` (C45)

Any number of threads copy, move and destroy allocators, allocate and deallocate.  Steps are the atomic operations on `use_count_` and the (unsynchronised, hence
non-atomic: begin and end) operations on the pool.  `intrusive_ptr` (Boost.SmartPtr) is modelled as: each live non-null pointer has incremented the count once and
decrements it once.
-/

namespace Verif.Mem.Pool

/-- an operation on the pool (`storage_.malloc()` or `storage_.free()`) in progress: thread, allocator copy through which it was called -/
structure Busy where
  thread : Nat
  via : Nat
deriving DecidableEq

structure St where
  /-- `use_count_`, pooled_fixedsize_stack.hpp line 72 -/
  count : Nat
  /-- allocator objects (copies) whose `storage_` is not null -/
  copies : List Nat
  /-- threads that have decremented the count to zero and not yet executed `delete s` (line 119) -/
  deleting : Nat
  /-- number of executed `delete s` -/
  deleted : Nat
  /-- stacks allocated and not deallocated: base address, the allocator copy kept with it (the member `salloc_` of the fiber's record) -/
  stacks : List (Nat × Nat)
  busy : List Busy

/-- the constructor (lines 129-133): `new storage` with count 0 (line 82), then the `intrusive_ptr` increments it (lines 113-115) -/
def init (c : Nat) : St := { count := 0 + 1, copies := [c], deleting := 0, deleted := 0, stacks := [], busy := [] }

/-- `intrusive_ptr_add_ref`, lines 113-115, for the new copy `c` -/
def addRef (s : St) (c : Nat) : St := { s with count := s.count + 1, copies := c :: s.copies }

/-- `intrusive_ptr_release`, lines 117-121, up to the decision; `delete` follows as a step of its own -/
def release (s : St) (c : Nat) : St :=
  let n := s.count - 1
  { s with count := n, copies := s.copies.erase c, deleting := if 0 = n then s.deleting + 1 else s.deleting }

/-- copies a history may not destroy: those kept with a stack, and those through which a call is in progress -/
def St.Kept (s : St) (c : Nat) : Prop := (∃ b, (b, c) ∈ s.stacks) ∨ (∃ t, (⟨t, c⟩ : Busy) ∈ s.busy)

/-- histories; threads act in any order -/
inductive Reach : St → Prop
  | start (c) : Reach (init c)
  /-- copy construction from `c` -/
  | copy {s} (c c' : Nat) : Reach s → c ∈ s.copies → c' ∉ s.copies → Reach (addRef s c')
  /-- move construction: `c'` takes the place of `c`, which becomes null (count unchanged) -/
  | move {s} (c c' : Nat) : Reach s → c ∈ s.copies → c' ∉ s.copies → ¬ s.Kept c → Reach { s with copies := c' :: s.copies.erase c }
  /-- destruction of `c`: a fiber destroys its record's allocator only after having deallocated the stack (fiber_fcontext.hpp lines 128-135) -/
  | drop {s} (c : Nat) : Reach s → c ∈ s.copies → ¬ s.Kept c → Reach (release s c)
  /-- `delete s` by a thread that has found the count to be zero -/
  | delete {s} : Reach s → 0 < s.deleting → Reach { s with deleting := s.deleting - 1, deleted := s.deleted + 1 }
  /-- thread `t` enters `storage_->allocate()` or `storage_->deallocate()` through copy `c` (lines 135-141) -/
  | enter {s} (t c : Nat) : Reach s → c ∈ s.copies → (∀ b ∈ s.busy, b.thread ≠ t) →
      Reach { s with busy := ⟨t, c⟩ :: s.busy }
  /-- the call was `allocate()` and returns a stack at `base`; copy `keep` is kept with the stack -/
  | allocated {s} (b : Busy) (base keep : Nat) : Reach s → b ∈ s.busy → keep ∈ s.copies → (∀ k, (base, k) ∉ s.stacks) →
      Reach { s with busy := s.busy.erase b, stacks := (base, keep) :: s.stacks }
  /-- the call was `deallocate()` of an outstanding stack -/
  | deallocated {s} (b : Busy) (x : Nat × Nat) : Reach s → b ∈ s.busy → x ∈ s.stacks →
      Reach { s with busy := s.busy.erase b, stacks := s.stacks.erase x }

/-! ## Proofs -/

structure Inv (s : St) : Prop where
  nodup : s.copies.Nodup
  count : s.count = s.copies.length
  kept : ∀ c, s.Kept c → c ∈ s.copies
  alive : s.copies ≠ [] → s.deleting = 0 ∧ s.deleted = 0
  dead : s.copies = [] → s.deleting + s.deleted = 1

theorem Reach.inv {s : St} (h : Reach s) : Inv s := by
  induction h with
  | start c => exact ⟨by simp [init], rfl, (by intro c' h; rcases h with ⟨b, h⟩ | ⟨t, h⟩ <;> cases h), fun _ => ⟨rfl, rfl⟩, by simp [init]⟩
  | @copy s c c' h hc hn ih =>
    have ha := ih.alive (List.ne_nil_of_mem hc)
    refine ⟨List.nodup_cons.mpr ⟨hn, ih.nodup⟩, ?_, fun x hx => List.mem_cons_of_mem _ (ih.kept x hx), fun _ => ha, ?_⟩
    · show s.count + 1 = (c' :: s.copies).length
      rw [ih.count]; rfl
    · intro h0; exact absurd h0 (by simp [addRef])
  | @move s c c' h hc hn hk ih =>
    have ha := ih.alive (List.ne_nil_of_mem hc)
    refine ⟨?_, ?_, ?_, fun _ => ha, by simp⟩
    · exact List.nodup_cons.mpr ⟨fun hm => hn (List.mem_of_mem_erase hm), ih.nodup.erase c⟩
    · show s.count = (c' :: s.copies.erase c).length
      have := List.length_pos_of_mem hc
      rw [ih.count, List.length_cons, List.length_erase_of_mem hc]; omega
    · intro x hx
      have : x ≠ c := by rintro rfl; exact hk hx
      exact List.mem_cons_of_mem _ ((List.mem_erase_of_ne this).mpr (ih.kept x hx))
  | @drop s c h hc hk ih =>
    have ha := ih.alive (List.ne_nil_of_mem hc)
    have hl : (s.copies.erase c).length = s.count - 1 := by rw [List.length_erase_of_mem hc, ih.count]
    refine ⟨ih.nodup.erase c, hl.symm, ?_, ?_, ?_⟩
    · intro x hx
      have : x ≠ c := by rintro rfl; exact hk hx
      exact (List.mem_erase_of_ne this).mpr (ih.kept x hx)
    · intro hne
      have hne : s.copies.erase c ≠ [] := hne
      have : s.count - 1 ≠ 0 := by rw [← hl]; exact fun h0 => hne (List.eq_nil_of_length_eq_zero h0)
      refine ⟨?_, ha.2⟩
      show (if 0 = s.count - 1 then s.deleting + 1 else s.deleting) = 0
      rw [if_neg (by omega)]; exact ha.1
    · intro he
      have he : s.copies.erase c = [] := he
      rw [he] at hl
      have hl : 0 = s.count - 1 := hl
      show (if 0 = s.count - 1 then s.deleting + 1 else s.deleting) + s.deleted = 1
      rw [if_pos hl, ha.1, ha.2]
  | @delete s h hd ih =>
    have he : s.copies = [] := by
      by_cases he : s.copies = []
      · exact he
      · have := (ih.alive he).1; omega
    have := ih.dead he
    exact ⟨ih.nodup, ih.count, ih.kept, fun hne => absurd he hne, fun _ => by show s.deleting - 1 + (s.deleted + 1) = 1; omega⟩
  | @enter s t c h hc hb ih =>
    have ha := ih.alive (List.ne_nil_of_mem hc)
    refine ⟨ih.nodup, ih.count, ?_, ih.alive, ih.dead⟩
    rintro x (⟨b, hx⟩ | ⟨t', hx⟩)
    · exact ih.kept x (.inl ⟨b, hx⟩)
    · rcases List.mem_cons.mp hx with h1 | h1
      · cases h1; exact hc
      · exact ih.kept x (.inr ⟨t', h1⟩)
  | @allocated s b base keep h hb hk hn ih =>
    have ha := ih.alive (List.ne_nil_of_mem hk)
    refine ⟨ih.nodup, ih.count, ?_, ih.alive, ih.dead⟩
    rintro x (⟨b', hx⟩ | ⟨t', hx⟩)
    · rcases List.mem_cons.mp hx with h1 | h1
      · cases h1; exact hk
      · exact ih.kept x (.inl ⟨b', h1⟩)
    · exact ih.kept x (.inr ⟨t', List.mem_of_mem_erase hx⟩)
  | @deallocated s b x h hb hx ih =>
    have hc : x.2 ∈ s.copies := ih.kept x.2 (.inl ⟨x.1, hx⟩)
    have ha := ih.alive (List.ne_nil_of_mem hc)
    refine ⟨ih.nodup, ih.count, ?_, ih.alive, ih.dead⟩
    rintro y (⟨b', hy⟩ | ⟨t', hy⟩)
    · exact ih.kept y (.inl ⟨b', List.mem_of_mem_erase hy⟩)
    · exact ih.kept y (.inr ⟨t', List.mem_of_mem_erase hy⟩)

/-- **C45**: in every interleaving, the storage is never deleted while an allocator copy exists, a stack is outstanding or a call is in progress; hence it is never used after its
deletion, since every use starts from an allocator copy (`Reach.copy`, `.move`, `.drop`, `.enter`) or happens inside a call. -/
theorem C45_alive {s : St} (h : Reach s) : s.copies ≠ [] ∨ s.stacks ≠ [] ∨ s.busy ≠ [] → s.deleted = 0 ∧ s.deleting = 0 := by
  have hi := h.inv
  intro hc
  have : s.copies ≠ [] := by
    rcases hc with hc | hc | hc
    · exact hc
    · obtain ⟨x, hx⟩ := List.exists_mem_of_ne_nil _ hc
      exact List.ne_nil_of_mem (hi.kept x.2 (.inl ⟨x.1, hx⟩))
    · obtain ⟨x, hx⟩ := List.exists_mem_of_ne_nil _ hc
      exact List.ne_nil_of_mem (hi.kept x.via (.inr ⟨x.thread, hx⟩))
  exact (hi.alive this).symm

/-- **C45**: it is deleted at most once; and as soon as the last copy is gone, it has been deleted or a thread is about to do so. -/
theorem C45_once {s : St} (h : Reach s) : s.deleted ≤ 1 ∧ (s.copies = [] → s.deleted = 1 ∨ s.deleting = 1 ∧ s.deleted = 0 ∧ Reach { s with deleting := 0, deleted := 1 }) := by
  have hi := h.inv
  constructor
  · by_cases he : s.copies = []
    · have := hi.dead he; omega
    · have := (hi.alive he).2; omega
  · intro he
    have h1 := hi.dead he
    by_cases hd : s.deleted = 1
    · exact .inl hd
    · have hd1 : s.deleting = 1 := by omega
      have hd0 : s.deleted = 0 := by omega
      refine .inr ⟨hd1, hd0, ?_⟩
      have := Reach.delete h (by omega)
      rwa [hd1, hd0] at this

/-- **C45**: the count is the number of copies. -/
theorem C45_count {s : St} (h : Reach s) : s.count = s.copies.length := h.inv.count

/-- **C45**, limitation: nothing keeps two threads from being inside the (unsynchronised) pool at the same time, each through its own copy of the allocator. -/
theorem C45_unsynchronised : ∃ s, Reach s ∧ ⟨1, 10⟩ ∈ s.busy ∧ ⟨2, 11⟩ ∈ s.busy ∧ (10 : Nat) ≠ 11 := by
  have h0 := Reach.start 10
  have h1 := h0.copy 10 11 (by decide) (by decide)
  have h2 := h1.enter 1 10 (by decide) (by decide)
  have h3 := h2.enter 2 11 (by decide) (by decide)
  exact ⟨_, h3, by decide, by decide, by decide⟩

/-- A history in which a stack outlives the allocator object it was allocated with, and the storage is deleted after the stack is returned. -/
example : ∃ s, Reach s ∧ s.stacks = [(4096, 11)] ∧ 10 ∉ s.copies ∧ s.deleted = 0 ∧ ∃ s', Reach s' ∧ s'.copies = [] ∧ s'.deleted = 1 := by
  have h0 := Reach.start 10
  have h1 := h0.copy 10 11 (by decide) (by decide)
  have h2 := h1.enter 1 10 (by decide) (by decide)
  have h3 := h2.allocated ⟨1, 10⟩ 4096 11 (by decide) (by decide) (by simp [init, addRef])
  have h4 := h3.drop 10 (by decide) (by simp [St.Kept, init, addRef])
  have h5 := h4.enter 2 11 (by decide) (by decide)
  have h6 := h5.deallocated ⟨2, 11⟩ (4096, 11) (by decide) (by decide)
  have h7 := h6.drop 11 (by decide) (by simp [St.Kept, init, addRef, release])
  have h8 := h7.delete (by decide)
  exact ⟨_, h4, by decide, by decide, by decide, _, h8, by decide, by decide⟩

end Verif.Mem.Pool
