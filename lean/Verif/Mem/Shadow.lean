import Verif.Mem.Layout
import Verif.Asm.X86_64Code
import Verif.Asm.Lemmas

/-!
# CET shadow stacks (C46)

With `BOOST_CONTEXT_SHADOW_STACK` (x86_64 only) `create_fiber1/2` map a shadow stack and remember its base and size in the gap between control block and stack;
`fiber_exit` unmaps it.
-/

namespace Verif.Mem
open Verif.Asm

/-- the platform: 64 bit little endian -/
abbrev X := X86_64.A

/-- size of the shadow stack, fiber_fcontext.hpp lines 187-191, the same at 228-232; `~7` is a sign-extended `int` -/
def ssSize (size : BitVec 64) : BitVec 64 :=
  let ss_size := size >>> 5
  let ss_size := (ss_size + 7#64) &&& ~~~ 7#64
  if ss_size > 4096#64 then size else 4096#64

/-- fiber_fcontext.hpp lines 186-203: `base` is the kernel's answer to `map_shadow_stack`; returns memory and the size passed to the kernel -/
def ssCreate (p : Place 64) (base : BitVec 64) (m : Mem X) : Mem X × BitVec 64 :=
  let ss_size := ssSize p.size
  let ss_sp := base + ss_size
  let m := store m (p.top - 8#64) X.k ss_sp
  let m := store m (p.storage - 8#64) X.k base
  let m := store m (p.storage - 16#64) X.k ss_size
  (m, ss_size)

/-- fiber_fcontext.hpp lines 76-81: arguments of `munmap` in `fiber_exit`; `rec` is the address of the control block -/
def ssExit (rec : BitVec 64) (m : Mem X) : BitVec 64 × BitVec 64 :=
  let ss_size := load m (rec - 16#64) X.k
  let ss_base := load m (rec - 8#64) X.k
  (ss_base, ss_size)

/-! ## Theorems -/

theorem two (m : Mem X) (s v v' : X.W) :
    load (store (store m (s + off X 8) X.k v) (s + off X 0) X.k v') (s + off X 0) X.k = v' ∧
    load (store (store m (s + off X 8) X.k v) (s + off X 0) X.k v') (s + off X 8) X.k = v :=
  ⟨load_store_same _ _ _ _ (by decide), by rw [load_store_off (by decide) (by decide) (by decide), load_store_same _ _ _ _ (by decide)]⟩

/-- **C46**: whatever the program does, if it leaves the gap between stack and control block alone, `fiber_exit` unmaps exactly the base and size that were mapped at creation. -/
theorem C46_roundtrip (sctx : StackCtx 64) (n base : BitVec 64) (m m' : Mem X) (h0 : sctx.size.toNat ≤ sctx.sp.toNat) (h : n.toNat + 64 + 255 ≤ sctx.size.toNat)
    (hm : ∀ a : BitVec 64, In a (create1 sctx n).top.toNat (create1 sctx n).storage.toNat → m' a = (ssCreate (create1 sctx n) base m).1 a) :
    ssExit (create1 sctx n).storage m' = (base, (ssCreate (create1 sctx n) base m).2) := by
  have hp := C41_placement sctx n h0 h
  generalize create1 sctx n = p at *
  obtain ⟨-, htop, hgap, -, -, -⟩ := hp
  have hlt := p.storage.isLt
  have e1 : (p.storage - 16#64).toNat = p.storage.toNat - 16 := sub_toNat_le (by simp; omega)
  have e2 : (p.storage - 8#64).toNat = p.storage.toNat - 8 := sub_toNat_le (by simp; omega)
  obtain ⟨s, hs⟩ : ∃ s : X.W, s = p.storage - 16#64 := ⟨_, rfl⟩
  have e3 : p.storage - 8#64 = s + off X 8 := by
    rw [hs]
    show p.storage - 8#64 = (p.storage - 16#64) + 8#64
    generalize p.storage = x
    grind
  have e4 : p.storage - 16#64 = s + off X 0 := by rw [hs]; exact (BitVec.add_zero _).symm
  have agree : ∀ o n, o + n ≤ 16 → load m' (s + off X o) n = load (ssCreate p base m).1 (s + off X o) n := by
    intro o n hn
    refine load_agree (A := X) (N := 16) (fun (a : BitVec 64) ha => hm a ?_) hn (by decide)
    rw [hs] at ha
    have h1 : (BitVec.toNat (w := 64) ((a : BitVec 64) - (p.storage - 16#64))) < 16 := ha
    unfold In
    by_cases hc : (p.storage - 16#64).toNat ≤ BitVec.toNat (w := 64) a
    · rw [sub_toNat_le hc, e1] at h1; omega
    · rw [sub_toNat_gt (by omega), e1] at h1; omega
  unfold ssExit
  have r1 : load m' (p.storage - 16#64) X.k = ssSize p.size := by
    rw [e4, agree 0 X.k (by decide)]
    unfold ssCreate
    simp only []
    rw [e3, e4]
    exact (two _ _ _ _).1
  have r2 : load m' (p.storage - 8#64) X.k = base := by
    rw [e3, agree 8 X.k (by decide)]
    unfold ssCreate
    simp only []
    rw [e3, e4]
    exact (two _ _ _ _).2
  simp only [r1, r2]
  rfl

theorem three_load (m : Mem X) (a b c v v' v'' : X.W) (h1 : ∀ x, InR x a X.k → ¬ InR x b X.k) (h2 : ∀ x, InR x a X.k → ¬ InR x c X.k) :
    load (store (store (store m a X.k v) b X.k v') c X.k v'') a X.k = v := by
  rw [load_store_out (by decide) h2, load_store_out (by decide) h1, load_store_same _ _ _ _ (by decide)]

theorem three_write (m : Mem X) (a b c v v' v'' x : X.W) (h : store (store (store m a X.k v) b X.k v') c X.k v'' x ≠ m x) : InR x a X.k ∨ InR x b X.k ∨ InR x c X.k := by
  by_cases h3 : InR x c X.k
  · exact .inr (.inr h3)
  · by_cases h2 : InR x b X.k
    · exact .inr (.inl h2)
    · by_cases h1 : InR x a X.k
      · exact .inl h1
      · rw [store_out h3, store_out h2, store_out h1] at h; exact absurd rfl h

/-- **C46**: `make_fcontext` finds the end of the new shadow stack in the word below the end of the new stack; the library writes nothing but this word and the two words below the
control block. -/
theorem C46_pointer (sctx : StackCtx 64) (n base : BitVec 64) (m : Mem X) (h0 : sctx.size.toNat ≤ sctx.sp.toNat) (h : n.toNat + 64 + 255 ≤ sctx.size.toNat) :
    load (ssCreate (create1 sctx n) base m).1 ((create1 sctx n).top - 8#64) X.k = base + (ssCreate (create1 sctx n) base m).2 ∧
    ∀ a : X.W, (ssCreate (create1 sctx n) base m).1 a ≠ m a → In a ((create1 sctx n).top.toNat - 8) (create1 sctx n).top.toNat ∨
      In a ((create1 sctx n).storage.toNat - 16) (create1 sctx n).storage.toNat := by
  have hp := C41_placement sctx n h0 h
  generalize create1 sctx n = p at *
  obtain ⟨-, htop, hgap, hal, -, -⟩ := hp
  have e0 : (p.top - 8#64).toNat = p.top.toNat - 8 := sub_toNat_le (by simp; omega)
  have e1 : (p.storage - 16#64).toNat = p.storage.toNat - 16 := sub_toNat_le (by simp; omega)
  have e2 : (p.storage - 8#64).toNat = p.storage.toNat - 8 := sub_toNat_le (by simp; omega)
  have inr : ∀ (a b : BitVec 64), InR (A := X) a b 8 → b.toNat + 8 ≤ 2 ^ 64 → b.toNat ≤ a.toNat ∧ a.toNat < b.toNat + 8 := by
    intro a b hab hb
    have h1 : (BitVec.toNat (w := 64) (a - b)) < 8 := hab
    have := a.isLt
    by_cases hc : b.toNat ≤ a.toNat
    · rw [sub_toNat_le hc] at h1; omega
    · rw [sub_toNat_gt (by omega)] at h1; omega
  have hlt := p.storage.isLt
  have i0 : ∀ a : BitVec 64, InR (A := X) a (p.top - 8#64) 8 → p.top.toNat - 8 ≤ a.toNat ∧ a.toNat < p.top.toNat := by
    intro a ha
    have := inr a _ ha (by omega)
    rw [e0] at this
    omega
  have i1 : ∀ a : BitVec 64, InR (A := X) a (p.storage - 16#64) 8 → p.storage.toNat - 16 ≤ a.toNat ∧ a.toNat < p.storage.toNat - 8 := by
    intro a ha
    have := inr a _ ha (by omega)
    rw [e1] at this
    omega
  have i2 : ∀ a : BitVec 64, InR (A := X) a (p.storage - 8#64) 8 → p.storage.toNat - 8 ≤ a.toNat ∧ a.toNat < p.storage.toNat := by
    intro a ha
    have := inr a _ ha (by omega)
    rw [e2] at this
    omega
  unfold ssCreate
  refine ⟨three_load _ _ _ _ _ _ _ ?_ ?_, fun a ha => ?_⟩
  · intro a ha hb
    have h1 := i0 a ha
    have h2 := i2 a hb
    omega
  · intro a ha hb
    have h1 := i0 a ha
    have h2 := i1 a hb
    omega
  · unfold In
    rcases three_write _ _ _ _ _ _ _ a ha with c | c | c
    · have := i0 a c; left; exact this
    · have := i2 a c; right; exact ⟨Nat.le_trans (by omega) this.1, this.2⟩
    · have := i1 a c; right; exact ⟨this.1, Nat.lt_of_lt_of_le this.2 (by omega)⟩

/-- **C46**: one shadow stack entry (8 bytes) per 256 bytes of stack fit, and at least 4096 bytes: whatever the size, the shadow stack holds size/32 bytes. -/
theorem C46_sufficient (size : BitVec 64) : size.toNat / 32 ≤ (ssSize size).toNat ∧ 4096 ≤ (ssSize size).toNat := by
  unfold ssSize
  have h1 : (size >>> 5).toNat = size.toNat / 32 := by rw [BitVec.toNat_ushiftRight, Nat.shiftRight_eq_div_pow]
  have h2 : (size >>> 5 + 7#64).toNat = size.toNat / 32 + 7 := by
    rw [add_toNat_lt, h1]
    · rfl
    · have := size.isLt; rw [h1]; simp; omega
  have h3 := and_not_toNat (size >>> 5 + 7#64) 3
  have h4 : (size >>> 5 + 7#64 &&& ~~~ 7#64).toNat = size.toNat / 32 + 7 - (size.toNat / 32 + 7) % 8 := by
    rw [← h2]; exact h3
  simp only []
  generalize (size >>> 5 + 7#64 &&& ~~~ 7#64) = s at *
  by_cases hc : s > 4096#64
  · rw [if_pos hc]
    have : (4096#64).toNat < s.toNat := hc
    simp at this
    omega
  · rw [if_neg hc]
    have : ¬ (4096#64).toNat < s.toNat := hc
    simp at this
    simp
    omega

/-- **C46**: the size passed to the kernel is a multiple of 8, as it demands, if the stack starts at a multiple of 8. -/
theorem C46_multiple (sctx : StackCtx 64) (n : BitVec 64) (h0 : sctx.size.toNat ≤ sctx.sp.toNat) (h : n.toNat + 64 + 255 ≤ sctx.size.toNat)
    (ha : (sctx.sp.toNat - sctx.size.toNat) % 8 = 0) : (ssSize (create1 sctx n).size).toNat % 8 = 0 := by
  have hp := C41_placement sctx n h0 h
  have : (create1 sctx n).size.toNat % 8 = 0 := by
    have h1 := hp.gap; have h2 := hp.aligned; have h3 := hp.top
    omega
  unfold ssSize
  simp only []
  split
  · exact this
  · rfl

/-- **C46**, a wasteful oversight: above 128 KiB the shadow stack is not a 32nd of the stack but as large as the stack. -/
theorem C46_oversized (size : BitVec 64) (h : 131072 < size.toNat) (hs : size.toNat % 32 = 0) : ssSize size = size := by
  unfold ssSize
  have h1 : (size >>> 5).toNat = size.toNat / 32 := by rw [BitVec.toNat_ushiftRight, Nat.shiftRight_eq_div_pow]
  have h2 : (size >>> 5 + 7#64).toNat = size.toNat / 32 + 7 := by
    rw [add_toNat_lt, h1]
    · rfl
    · have := size.isLt; rw [h1]; simp; omega
  have h3 := and_not_toNat (size >>> 5 + 7#64) 3
  have h4 : (size >>> 5 + 7#64 &&& ~~~ 7#64).toNat = size.toNat / 32 + 7 - (size.toNat / 32 + 7) % 8 := by
    rw [← h2]; exact h3
  simp only []
  generalize (size >>> 5 + 7#64 &&& ~~~ 7#64) = s at *
  rw [if_pos]
  show (4096#64).toNat < s.toNat
  simp
  omega

/-- a 1 MiB stack -/
example : (ssSize 0x100000#64, ssSize 0x10000#64) = (0x100000#64, 4096#64) := by decide

end Verif.Mem
