/-!
# Machine words of any width

`uintptr_t` and `std::size_t` are modelled as `BitVec w`, for every width `w`; pointers are such words.  C++ unsigned arithmetic is arithmetic modulo `2 ^ w`.
-/

namespace Verif.Mem

/-- address `a` lies in the half-open interval `[lo, hi)`, as natural numbers: no wrap-around -/
def In {w : Nat} (a : BitVec w) (lo hi : Nat) : Prop := lo ≤ a.toNat ∧ a.toNat < hi

/-- `x & ~(2^n-1)` rounds down to a multiple of `2^n` -/
theorem and_not_toNat {w : Nat} (x : BitVec w) (n : Nat) :
    (x &&& ~~~ BitVec.ofNat w (2 ^ n - 1)).toNat = x.toNat - x.toNat % 2 ^ n := by
  have h : x &&& ~~~ BitVec.ofNat w (2 ^ n - 1) = (x >>> n) <<< n := by
    apply BitVec.eq_of_getLsbD_eq
    intro i hi
    simp only [BitVec.getLsbD_and, BitVec.getLsbD_not, BitVec.getLsbD_ofNat, Nat.testBit_two_pow_sub_one, hi, decide_true, Bool.true_and,
      BitVec.getLsbD_shiftLeft, BitVec.getLsbD_ushiftRight]
    by_cases hn : i < n
    · simp [hn]
    · simp [hn]
      have : n + (i - n) = i := by omega
      rw [this]
  rw [h, BitVec.toNat_shiftLeft, BitVec.toNat_ushiftRight, Nat.shiftLeft_eq, Nat.shiftRight_eq_div_pow]
  have h1 := Nat.div_add_mod x.toNat (2 ^ n)
  rw [Nat.mul_comm] at h1
  rw [Nat.mod_eq_of_lt]
  · omega
  · exact Nat.lt_of_le_of_lt (by omega) x.isLt

theorem sub_toNat_le {w : Nat} {x y : BitVec w} (h : y.toNat ≤ x.toNat) : (x - y).toNat = x.toNat - y.toNat :=
  BitVec.toNat_sub_of_le (by rw [BitVec.le_def]; exact h)

theorem sub_toNat_gt {w : Nat} {x y : BitVec w} (h : x.toNat < y.toNat) : (x - y).toNat = 2 ^ w + x.toNat - y.toNat := by
  rw [BitVec.toNat_sub]
  have := y.isLt
  rw [Nat.mod_eq_of_lt (by omega)]
  omega

theorem add_toNat_lt {w : Nat} {x y : BitVec w} (h : x.toNat + y.toNat < 2 ^ w) : (x + y).toNat = x.toNat + y.toNat := by
  rw [BitVec.toNat_add, Nat.mod_eq_of_lt h]

theorem ofNat_toNat_lt {w n : Nat} (h : n < 2 ^ w) : (BitVec.ofNat w n).toNat = n := by
  rw [BitVec.toNat_ofNat, Nat.mod_eq_of_lt h]

end Verif.Mem
