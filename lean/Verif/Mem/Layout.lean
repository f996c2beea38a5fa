import Verif.Mem.Word

/-!
# Where the control block of a fiber is placed on its stack (C41, C47)

Models the address computations of `create_fiber1/2`, `create_context1/2` (fcontext) and of the ucontext variants.  The shadow stack is in `Shadow.lean`.
-/

namespace Verif.Mem

/-- `stack_context` (stack_context.hpp lines 24-34), without the members for segmented stacks and valgrind -/
structure StackCtx (w : Nat) where
  size : BitVec w
  sp : BitVec w

/-- `preallocated` (preallocated.hpp lines 23-31) -/
structure Prealloc (w : Nat) where
  sp : BitVec w
  size : BitVec w
  sctx : StackCtx w

/-- what `create_*` computes: address of the control block, the arguments of `make_fcontext` (`top`, `size`) and the lowest address of the stack -/
structure Place (w : Nat) where
  storage : BitVec w
  top : BitVec w
  bottom : BitVec w
  size : BitVec w
  /-- the `stack_context` stored in the control block, later passed to the allocator -/
  sctx : StackCtx w

variable {w : Nat}

/-- fiber_fcontext.hpp lines 169-184 (`create_fiber1`), the same in continuation_fcontext.hpp lines 172-187 (`create_context1`); `n` is `sizeof(Record)` -/
def create1 (sctx : StackCtx w) (n : BitVec w) : Place w :=
  let storage := (sctx.sp - n) &&& ~~~ BitVec.ofNat w 0xff
  let stack_top := storage - BitVec.ofNat w 64
  let stack_bottom := sctx.sp - sctx.size
  { storage := storage, top := stack_top, bottom := stack_bottom, size := stack_top - stack_bottom, sctx := sctx }

/-- fiber_fcontext.hpp lines 212-225 (`create_fiber2`), the same in continuation_fcontext.hpp lines 215-228 (`create_context2`) -/
def create2 (palloc : Prealloc w) (n : BitVec w) : Place w :=
  let storage := (palloc.sp - n) &&& ~~~ BitVec.ofNat w 0xff
  let stack_top := storage - BitVec.ofNat w 64
  let stack_bottom := palloc.sctx.sp - palloc.sctx.size
  { storage := storage, top := stack_top, bottom := stack_bottom, size := stack_top - stack_bottom, sctx := palloc.sctx }

/-- fiber_ucontext.hpp lines 310-337 (`create_fiber1`), the same in continuation_ucontext.hpp lines 285-307; `top` is not computed there: the machine's `makecontext` derives it
from `ss_sp` and `ss_size` -/
def ucreate1 (sctx : StackCtx w) (n : BitVec w) : Place w :=
  let storage := (sctx.sp - n) &&& ~~~ BitVec.ofNat w 0xff
  let stack_bottom := sctx.sp - sctx.size
  let ss_size := storage - stack_bottom - BitVec.ofNat w 64
  { storage := storage, top := stack_bottom + ss_size, bottom := stack_bottom, size := ss_size, sctx := sctx }

/-- fiber_ucontext.hpp lines 361-388 (`create_fiber2`), the same in continuation_ucontext.hpp lines 328-350 -/
def ucreate2 (palloc : Prealloc w) (n : BitVec w) : Place w :=
  let storage := (palloc.sp - n) &&& ~~~ BitVec.ofNat w 0xff
  let stack_bottom := palloc.sctx.sp - palloc.sctx.size
  let ss_size := storage - stack_bottom - BitVec.ofNat w 64
  { storage := storage, top := stack_bottom + ss_size, bottom := stack_bottom, size := ss_size, sctx := palloc.sctx }

/-! ## Specification -/

/-- The control block of `n` bytes and the usable stack are well placed in the memory `[lo, hi)`: from low to high addresses the memory consists of the usable
stack `[bottom, bottom+size)`, a gap of exactly 64 bytes, the control block, at a multiple of 256, and less than 256 unused bytes. -/
structure WellPlaced (p : Place w) (n lo hi : Nat) : Prop where
  bottom : p.bottom.toNat = lo
  top : p.top.toNat = lo + p.size.toNat
  gap : p.top.toNat + 64 = p.storage.toNat
  aligned : p.storage.toNat % 256 = 0
  inside : p.storage.toNat + n ≤ hi
  tight : hi < p.storage.toNat + n + 256

/-- consequence, in terms of single bytes: no byte belongs to two of usable stack, gap and control block, and all lie inside the memory -/
theorem WellPlaced.disjoint {p : Place w} {n lo hi : Nat} (h : WellPlaced p n lo hi) (a : BitVec w) :
    ¬ (In a lo p.top.toNat ∧ In a p.storage.toNat (p.storage.toNat + n)) ∧
    ¬ (In a lo p.top.toNat ∧ In a p.top.toNat p.storage.toNat) ∧
    ¬ (In a p.top.toNat p.storage.toNat ∧ In a p.storage.toNat (p.storage.toNat + n)) ∧
    (In a lo p.top.toNat ∨ In a p.top.toNat p.storage.toNat ∨ In a p.storage.toNat (p.storage.toNat + n) → In a lo hi) := by
  obtain ⟨h1, h2, h3, h4, h5, h6⟩ := h
  unfold In
  omega

/-! ## Theorems -/

/-- **C41** for stacks obtained from an allocator: if the stack `[sp-size, sp)` can hold the record, the gap and 255 bytes for alignment, everything is well
placed. -/
theorem C41_placement (sctx : StackCtx w) (n : BitVec w) (h0 : sctx.size.toNat ≤ sctx.sp.toNat) (h : n.toNat + 64 + 255 ≤ sctx.size.toNat) :
    WellPlaced (create1 sctx n) n.toNat (sctx.sp.toNat - sctx.size.toNat) sctx.sp.toNat := by
  have hlt := sctx.sp.isLt
  have h1 : (sctx.sp - n).toNat = sctx.sp.toNat - n.toNat := sub_toNat_le (by omega)
  have h2 := and_not_toNat (sctx.sp - n) 8
  have h3 : (sctx.sp - n).toNat % 2 ^ 8 < 2 ^ 8 := Nat.mod_lt _ (by decide)
  have h4 : (BitVec.ofNat w 64).toNat = 64 := ofNat_toNat_lt (by omega)
  obtain ⟨s, hs⟩ : ∃ s, s = (sctx.sp - n) &&& ~~~ BitVec.ofNat w 0xff := ⟨_, rfl⟩
  have hs2 : s.toNat = (sctx.sp - n).toNat - (sctx.sp - n).toNat % 2 ^ 8 := by rw [hs]; exact h2
  have h5 : (sctx.sp - sctx.size).toNat = sctx.sp.toNat - sctx.size.toNat := sub_toNat_le h0
  have h6 : (s - BitVec.ofNat w 64).toNat = s.toNat - 64 := by rw [sub_toNat_le (by omega), h4]
  have h7 : (s - BitVec.ofNat w 64 - (sctx.sp - sctx.size)).toNat = s.toNat - 64 - (sctx.sp.toNat - sctx.size.toNat) := by
    rw [sub_toNat_le (by omega), h5, h6]
  have h8 : s.toNat % 256 = 0 := by omega
  unfold create1
  simp only [← hs]
  constructor <;> simp only [h5, h6, h7] <;> omega

/-- **C41/C47** for stacks supplied by the user: the part `[sp, …)` of the user's stack that the user has reserved is left alone, everything below is well
placed, provided there is enough room. -/
theorem C47_placement (pa : Prealloc w) (n : BitVec w) (h0 : pa.sctx.size.toNat ≤ pa.sctx.sp.toNat)
    (h : pa.sctx.sp.toNat - pa.sctx.size.toNat + n.toNat + 64 + 255 ≤ pa.sp.toNat) :
    WellPlaced (create2 pa n) n.toNat (pa.sctx.sp.toNat - pa.sctx.size.toNat) pa.sp.toNat ∧ (create2 pa n).sctx = pa.sctx := by
  refine ⟨?_, rfl⟩
  have hlt := pa.sp.isLt
  have h1 : (pa.sp - n).toNat = pa.sp.toNat - n.toNat := sub_toNat_le (by omega)
  have h2 := and_not_toNat (pa.sp - n) 8
  have h3 : (pa.sp - n).toNat % 2 ^ 8 < 2 ^ 8 := Nat.mod_lt _ (by decide)
  have h4 : (BitVec.ofNat w 64).toNat = 64 := ofNat_toNat_lt (by omega)
  obtain ⟨s, hs⟩ : ∃ s, s = (pa.sp - n) &&& ~~~ BitVec.ofNat w 0xff := ⟨_, rfl⟩
  have hs2 : s.toNat = (pa.sp - n).toNat - (pa.sp - n).toNat % 2 ^ 8 := by rw [hs]; exact h2
  have h5 : (pa.sctx.sp - pa.sctx.size).toNat = pa.sctx.sp.toNat - pa.sctx.size.toNat := sub_toNat_le h0
  have h6 : (s - BitVec.ofNat w 64).toNat = s.toNat - 64 := by rw [sub_toNat_le (by omega), h4]
  have h7 : (s - BitVec.ofNat w 64 - (pa.sctx.sp - pa.sctx.size)).toNat = s.toNat - 64 - (pa.sctx.sp.toNat - pa.sctx.size.toNat) := by
    rw [sub_toNat_le (by omega), h5, h6]
  have h8 : s.toNat % 256 = 0 := by omega
  unfold create2
  simp only [← hs]
  constructor <;> simp only [h5, h6, h7] <;> omega

/-- **C47**: the user's `size` member plays no role, and a stack of which nothing is reserved is treated as one from an allocator. -/
theorem C47_same (sctx : StackCtx w) (size n : BitVec w) : create2 ⟨sctx.sp, size, sctx⟩ n = create1 sctx n := rfl

/-- **C41**: the ucontext implementation places the record at the same address and uses the same stack. -/
theorem C41_ucontext_same (sctx : StackCtx w) (n : BitVec w) : ucreate1 sctx n = create1 sctx n := by
  unfold ucreate1 create1
  generalize (sctx.sp - n) &&& ~~~ BitVec.ofNat w 0xff = s
  generalize sctx.sp - sctx.size = b
  generalize BitVec.ofNat w 64 = g
  have h1 : b + (s - b - g) = s - g := by grind
  have h2 : s - b - g = s - g - b := by grind
  simp only [h1]
  simp only [h2]

/-- **C47**: likewise for stacks supplied by the user. -/
theorem C47_ucontext_same (pa : Prealloc w) (n : BitVec w) : ucreate2 pa n = create2 pa n := by
  unfold ucreate2 create2
  generalize (pa.sp - n) &&& ~~~ BitVec.ofNat w 0xff = s
  generalize pa.sctx.sp - pa.sctx.size = b
  generalize BitVec.ofNat w 64 = g
  have h1 : b + (s - b - g) = s - g := by grind
  have h2 : s - b - g = s - g - b := by grind
  simp only [h1]
  simp only [h2]

/-- **C41**, the other case: on a stack too small for the record and the gap the control block is not inside the stack and the size passed to `make_fcontext` has
wrapped around: it is almost the whole address space.  Nothing in the library checks this. -/
theorem C41_too_small (sctx : StackCtx w) (n : BitVec w) (h0 : sctx.size.toNat ≤ sctx.sp.toNat) (hn : n.toNat + 319 ≤ sctx.sp.toNat)
    (h : sctx.size.toNat < n.toNat + 64) :
    (create1 sctx n).top.toNat < sctx.sp.toNat - sctx.size.toNat ∧
    2 ^ w - (n.toNat + 319) ≤ (create1 sctx n).size.toNat ∧
    (sctx.size.toNat < n.toNat → (create1 sctx n).storage.toNat < sctx.sp.toNat - sctx.size.toNat) := by
  have hlt := sctx.sp.isLt
  have h1 : (sctx.sp - n).toNat = sctx.sp.toNat - n.toNat := sub_toNat_le (by omega)
  have h2 := and_not_toNat (sctx.sp - n) 8
  have h3 : (sctx.sp - n).toNat % 2 ^ 8 < 2 ^ 8 := Nat.mod_lt _ (by decide)
  have h4 : (BitVec.ofNat w 64).toNat = 64 := ofNat_toNat_lt (by omega)
  obtain ⟨s, hs⟩ : ∃ s, s = (sctx.sp - n) &&& ~~~ BitVec.ofNat w 0xff := ⟨_, rfl⟩
  have hs2 : s.toNat = (sctx.sp - n).toNat - (sctx.sp - n).toNat % 2 ^ 8 := by rw [hs]; exact h2
  have h5 : (sctx.sp - sctx.size).toNat = sctx.sp.toNat - sctx.size.toNat := sub_toNat_le h0
  have h6 : (s - BitVec.ofNat w 64).toNat = s.toNat - 64 := by rw [sub_toNat_le (by omega), h4]
  have h7 : (s - BitVec.ofNat w 64 - (sctx.sp - sctx.size)).toNat = 2 ^ w + (s.toNat - 64) - (sctx.sp.toNat - sctx.size.toNat) := by
    rw [sub_toNat_gt (by omega), h5, h6]
  unfold create1
  simp only [← hs, h6, h7]
  omega

/-- **C41**: the context's stack starts at a multiple of 64, hence meets the alignment every supported ABI demands. -/
theorem C41_top_aligned (sctx : StackCtx w) (n : BitVec w) (h0 : sctx.size.toNat ≤ sctx.sp.toNat) (h : n.toNat + 64 + 255 ≤ sctx.size.toNat) :
    (create1 sctx n).top.toNat % 64 = 0 := by
  have := C41_placement sctx n h0 h
  have h1 := this.gap
  have h2 := this.aligned
  omega

/-- a 128 KiB stack at a typical address and a record of 120 bytes -/
example : ((create1 (w := 64) ⟨0x20000#64, 0x7f0000021010#64⟩ 120#64).storage, (create1 (w := 64) ⟨0x20000#64, 0x7f0000021010#64⟩ 120#64).size) =
    (0x7f0000020f00#64, 0x1feb0#64) := by decide
example : (⟨0x20000#64, 0x7f0000021010#64⟩ : StackCtx 64).size.toNat ≤ (⟨0x20000#64, 0x7f0000021010#64⟩ : StackCtx 64).sp.toNat ∧
    (120#64).toNat + 64 + 255 ≤ (⟨0x20000#64, 0x7f0000021010#64⟩ : StackCtx 64).size.toNat := by decide
/-- a user-supplied stack with 1 KiB reserved at its upper end -/
example : (0x7f0000021010#64).toNat - (0x20000#64).toNat + (120#64).toNat + 64 + 255 ≤ (0x7f0000020c10#64).toNat := by decide
/-- a 128 byte stack and a record of 120 bytes -/
example : (create1 (w := 64) ⟨128#64, 0x7f0000001010#64⟩ 120#64).size = 0xffffffffffffff30#64 := by decide

end Verif.Mem
