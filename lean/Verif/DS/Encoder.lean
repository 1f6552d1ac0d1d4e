import Mathlib.Data.Nat.Basic
import Mathlib.Data.Nat.Bitwise
import Mathlib.Tactic.Ring

/-!
Model of the radix-heap key encoders (include/richdem/common/radix_heap.hpp:42-112).
Keys are bit vectors of the type's width `W`.
-/

namespace RichDEM

/-- `1 << (digits-1)`. -/
def topBit (W : Nat) : BitVec W := 1#W <<< (W - 1)

/-- radix_heap.hpp:50-56: unsigned integers are their own code. -/
def encodeUnsigned {W : Nat} (x : BitVec W) : BitVec W := x
/-- radix_heap.hpp:54-56. -/
def decodeUnsigned {W : Nat} (x : BitVec W) : BitVec W := x

/-- radix_heap.hpp:65-68: signed integers have the top bit flipped. -/
def encodeSigned {W : Nat} (x : BitVec W) : BitVec W := x ^^^ topBit W
/-- radix_heap.hpp:70-73. -/
def decodeSigned {W : Nat} (x : BitVec W) : BitVec W := x ^^^ topBit W

/-- radix_heap.hpp:82-86: `raw ^ ((-(raw >> (digits-1))) | (1 << (digits-1)))`. -/
def encodeDecimal {W : Nat} (x : BitVec W) : BitVec W :=
  x ^^^ ((-(x >>> (W - 1))) ||| topBit W)
/-- radix_heap.hpp:88-92: `x ^ (((x >> (digits-1)) - 1) | (1 << (digits-1)))`. -/
def decodeDecimal {W : Nat} (x : BitVec W) : BitVec W :=
  x ^^^ (((x >>> (W - 1)) - 1#W) ||| topBit W)

theorem topBit_toNat {W : Nat} (hW : 0 < W) : (topBit W).toNat = 2 ^ (W - 1) := by
  unfold topBit
  rw [BitVec.toNat_shiftLeft, BitVec.toNat_ofNat, Nat.shiftLeft_eq]
  have h1 : 1 < 2 ^ W := Nat.one_lt_two_pow (by omega)
  rw [Nat.mod_eq_of_lt h1, Nat.one_mul]
  exact Nat.mod_eq_of_lt (Nat.pow_lt_pow_right (by omega) (by omega))

theorem xor_topBit_toNat {W : Nat} (hW : 0 < W) (x : BitVec W) :
    (x ^^^ topBit W).toNat = if x.toNat < 2 ^ (W - 1) then x.toNat + 2 ^ (W - 1)
      else x.toNat - 2 ^ (W - 1) := by
  rw [BitVec.toNat_xor, topBit_toNat hW]
  have hx : x.toNat < 2 ^ (W - 1 + 1) := by
    have := x.isLt; rwa [show W - 1 + 1 = W by omega]
  generalize x.toNat = n at hx
  generalize W - 1 = k at hx
  have key : ∀ m, m < 2 ^ k → m ^^^ 2 ^ k = m + 2 ^ k := by
    intro m hm
    have h0 : 2 ^ k ^^^ m = 2 ^ k + m := by
      have := Nat.two_pow_add_eq_or_of_lt hm 1
      rw [Nat.mul_one] at this
      rw [this]
      apply Nat.eq_of_testBit_eq
      intro i
      rw [Nat.testBit_xor, Nat.testBit_or, Nat.testBit_two_pow]
      by_cases hik : k = i
      · subst hik; rw [Nat.testBit_lt_two_pow hm]; simp
      · simp [hik]
    rw [Nat.xor_comm, h0, Nat.add_comm]
  split
  · rename_i h; exact key n h
  · rename_i h
    have hm : n - 2 ^ k < 2 ^ k := by rw [Nat.pow_succ] at hx; omega
    have e := key (n - 2 ^ k) hm
    have h2 : n = (n - 2 ^ k) ^^^ 2 ^ k := by rw [e]; omega
    conv_lhs => rw [h2]
    rw [Nat.xor_assoc, Nat.xor_self, Nat.xor_zero]

theorem shiftRight_top {W : Nat} (hW : 0 < W) (x : BitVec W) :
    x >>> (W - 1) = if x.toNat < 2 ^ (W - 1) then 0#W else 1#W := by
  apply BitVec.eq_of_toNat_eq
  rw [BitVec.toNat_ushiftRight, Nat.shiftRight_eq_div_pow]
  have hx : x.toNat < 2 ^ (W - 1) * 2 := by
    have := x.isLt; rwa [← Nat.pow_succ, show (W - 1).succ = W by omega]
  split
  · rename_i h; rw [Nat.div_eq_of_lt h]; simp
  · rename_i h
    have h1 : 1 < 2 ^ W := Nat.one_lt_two_pow (by omega)
    rw [BitVec.toNat_ofNat, Nat.mod_eq_of_lt h1]
    have hp : 0 < 2 ^ (W - 1) := Nat.two_pow_pos _
    apply Nat.div_eq_of_lt_le <;> omega

theorem neg_one_bv (W : Nat) : -(1#W) = BitVec.allOnes W := by
  rw [BitVec.neg_one_eq_allOnes]

theorem encodeDecimal_toNat {W : Nat} (hW : 0 < W) (x : BitVec W) :
    (encodeDecimal x).toNat = if x.toNat < 2 ^ (W - 1) then x.toNat + 2 ^ (W - 1)
      else 2 ^ W - 1 - x.toNat := by
  unfold encodeDecimal
  rw [shiftRight_top hW]
  split
  · rename_i h
    have : -(0#W) ||| topBit W = topBit W := by simp
    rw [this, xor_topBit_toNat hW, if_pos h]
  · have : -(1#W) ||| topBit W = BitVec.allOnes W := by
      rw [BitVec.neg_one_eq_allOnes]; simp
    rw [this, BitVec.xor_allOnes, BitVec.toNat_not]

theorem decodeDecimal_encodeDecimal {W : Nat} (hW : 0 < W) (x : BitVec W) :
    decodeDecimal (encodeDecimal x) = x := by
  have he := encodeDecimal_toNat hW x
  have hp : 2 ^ W = 2 ^ (W - 1) * 2 := by rw [← Nat.pow_succ, show (W - 1).succ = W by omega]
  have hx := x.isLt
  unfold decodeDecimal
  rw [shiftRight_top hW]
  by_cases h : x.toNat < 2 ^ (W - 1)
  · rw [if_pos h] at he
    rw [if_neg (by omega)]
    have h1 : (1#W - 1#W) ||| topBit W = topBit W := by simp
    rw [h1]
    have h2 : encodeDecimal x = x ^^^ topBit W := by
      apply BitVec.eq_of_toNat_eq
      rw [he, xor_topBit_toNat hW, if_pos h]
    rw [h2, BitVec.xor_assoc, BitVec.xor_self, BitVec.xor_zero]
  · rw [if_neg h] at he
    rw [if_pos (by omega)]
    have h1 : (0#W - 1#W) ||| topBit W = BitVec.allOnes W := by
      rw [BitVec.zero_sub, BitVec.neg_one_eq_allOnes]; simp
    rw [h1]
    have h2 : encodeDecimal x = x ^^^ BitVec.allOnes W := by
      apply BitVec.eq_of_toNat_eq
      rw [he, BitVec.xor_allOnes, BitVec.toNat_not]
    rw [h2, BitVec.xor_assoc, BitVec.xor_self, BitVec.xor_zero]

end RichDEM
