import Verif.DS.Encoder

/-!
C31: radix-heap key encodings.
-/

namespace RichDEM

/-- **C31 (unsigned).** Order preserving and invertible. -/
theorem C31_unsigned {W : Nat} (x y : BitVec W) :
    (encodeUnsigned x < encodeUnsigned y ↔ x.toNat < y.toNat) ∧
      decodeUnsigned (encodeUnsigned x) = x := ⟨BitVec.lt_def, rfl⟩

/-- **C31 (signed).** The code of a two's-complement integer, compared as an unsigned
integer, orders like the integers themselves, and decoding inverts encoding.  Any width. -/
theorem C31_signed {W : Nat} (hW : 0 < W) (x y : BitVec W) :
    (encodeSigned x < encodeSigned y ↔ x.toInt < y.toInt) ∧
      decodeSigned (encodeSigned x) = x := by
  constructor
  · have hp : 2 ^ W = 2 ^ (W - 1) * 2 := by
      rw [← Nat.pow_succ, show (W - 1).succ = W by omega]
    unfold encodeSigned
    rw [BitVec.lt_def, xor_topBit_toNat hW, xor_topBit_toNat hW, BitVec.toInt_eq_toNat_cond,
      BitVec.toInt_eq_toNat_cond]
    have hx := x.isLt
    have hy := y.isLt
    generalize x.toNat = a at *
    generalize y.toNat = b at *
    rw [hp] at *
    generalize 2 ^ (W - 1) = t at *
    split <;> split <;> split <;> split <;> omega
  · unfold encodeSigned decodeSigned
    rw [BitVec.xor_assoc, BitVec.xor_self, BitVec.xor_zero]

/-! Specification of IEEE-754 binary formats: `W` bits, the low `p` of them the fraction. -/

/-- Sign bit. -/
def ieeeNeg {W : Nat} (u : BitVec W) : Bool := decide (2 ^ (W - 1) ≤ u.toNat)
/-- Biased exponent field. -/
def ieeeExp (p : Nat) {W : Nat} (u : BitVec W) : Nat := (u.toNat / 2 ^ p) % 2 ^ (W - 1 - p)
/-- Fraction field. -/
def ieeeFrac (p : Nat) {W : Nat} (u : BitVec W) : Nat := u.toNat % 2 ^ p
/-- NaN: exponent all ones, fraction not zero. -/
def ieeeNaN (p : Nat) {W : Nat} (u : BitVec W) : Prop :=
  ieeeExp p u = 2 ^ (W - 1 - p) - 1 ∧ ieeeFrac p u ≠ 0
/-- Magnitude in units of the smallest subnormal: the fraction for subnormals,
`(2^p + fraction)·2^(exponent-1)` otherwise (which puts the infinities above all finite
numbers). -/
def ieeeMag (p : Nat) {W : Nat} (u : BitVec W) : Nat :=
  if ieeeExp p u = 0 then ieeeFrac p u else (2 ^ p + ieeeFrac p u) * 2 ^ (ieeeExp p u - 1)
/-- The numeric value, in units of the smallest subnormal. -/
def ieeeVal (p : Nat) {W : Nat} (u : BitVec W) : Int :=
  if ieeeNeg u then -(ieeeMag p u : Int) else ieeeMag p u

/-- The low `W-1` bits, read as an integer. -/
theorem low_bits (p : Nat) {W : Nat} (hp : p < W) (u : BitVec W) :
    u.toNat % 2 ^ (W - 1) = ieeeExp p u * 2 ^ p + ieeeFrac p u := by
  unfold ieeeExp ieeeFrac
  have h : 2 ^ (W - 1) = 2 ^ p * 2 ^ (W - 1 - p) := by
    rw [← Nat.pow_add]; congr 1; omega
  rw [h, Nat.mod_mul, Nat.mul_comm, Nat.add_comm]

/-- Magnitudes order like the low bits. -/
theorem mag_lt_of_low (p e m e' m' : Nat) (hm : m < 2 ^ p) (hm' : m' < 2 ^ p)
    (h : (if e = 0 then m else (2 ^ p + m) * 2 ^ (e - 1)) <
      (if e' = 0 then m' else (2 ^ p + m') * 2 ^ (e' - 1))) :
    e * 2 ^ p + m < e' * 2 ^ p + m' := by
  by_contra hc
  have hc : e' * 2 ^ p + m' ≤ e * 2 ^ p + m := by omega
  have hle : e' ≤ e := by
    by_contra hlt
    have : (e + 1) * 2 ^ p ≤ e' * 2 ^ p := Nat.mul_le_mul_right _ (by omega)
    rw [Nat.add_mul] at this; omega
  rcases Nat.eq_or_lt_of_le hle with he | he
  · subst he
    have hmm : m' ≤ m := by omega
    split at h
    · omega
    · have : (2 ^ p + m') * 2 ^ (e' - 1) ≤ (2 ^ p + m) * 2 ^ (e' - 1) :=
        Nat.mul_le_mul_right _ (by omega)
      omega
  · have he0 : e ≠ 0 := by omega
    simp only [he0, if_false] at h
    have h1 : (2 ^ p + m) * 2 ^ (e - 1) ≥ 2 ^ p * 2 ^ (e - 1) := Nat.mul_le_mul_right _ (by omega)
    split at h
    · have : 2 ^ p * 1 ≤ 2 ^ p * 2 ^ (e - 1) := Nat.mul_le_mul_left _ Nat.one_le_two_pow
      omega
    · rename_i h0
      have h2 : (2 ^ p + m') * 2 ^ (e' - 1) ≤ (2 ^ p * 2) * 2 ^ (e' - 1) :=
        Nat.mul_le_mul_right _ (by omega)
      have h3 : (2 ^ p * 2) * 2 ^ (e' - 1) = 2 ^ p * 2 ^ e' := by
        rw [Nat.mul_assoc, ← Nat.pow_succ']; congr 2; omega
      have h4 : 2 ^ p * 2 ^ e' ≤ 2 ^ p * 2 ^ (e - 1) :=
        Nat.mul_le_mul_left _ (Nat.pow_le_pow_right (by omega) (by omega))
      omega

/-- **C31 (float, double).** For all bit patterns that are not NaN, a numerically smaller
value has the smaller code; decoding inverts encoding on every bit pattern, NaN included.
`p = 23, W = 32` is `float`, `p = 52, W = 64` is `double`. -/
theorem C31_decimal (p : Nat) {W : Nat} (hp : p + 1 < W) (u v : BitVec W)
    (_hu : ¬ ieeeNaN p u) (_hv : ¬ ieeeNaN p v) :
    (ieeeVal p u < ieeeVal p v → encodeDecimal u < encodeDecimal v) ∧
      (encodeDecimal u < encodeDecimal v → ieeeVal p u ≤ ieeeVal p v) ∧
      decodeDecimal (encodeDecimal u) = u := by
  have hW : 0 < W := by omega
  have hpw : 2 ^ W = 2 ^ (W - 1) * 2 := by
    rw [← Nat.pow_succ, show (W - 1).succ = W by omega]
  have main : ∀ u v : BitVec W, ieeeVal p u < ieeeVal p v → encodeDecimal u < encodeDecimal v := by
    intro u v h
    rw [BitVec.lt_def, encodeDecimal_toNat hW, encodeDecimal_toNat hW]
    have hx := u.isLt
    have hy := v.isLt
    have lu := low_bits p (by omega) u
    have lv := low_bits p (by omega) v
    have fu : ieeeFrac p u < 2 ^ p := Nat.mod_lt _ (Nat.two_pow_pos _)
    have fv : ieeeFrac p v < 2 ^ p := Nat.mod_lt _ (Nat.two_pow_pos _)
    have muv := mag_lt_of_low p (ieeeExp p u) (ieeeFrac p u) (ieeeExp p v) (ieeeFrac p v) fu fv
    have mvu := mag_lt_of_low p (ieeeExp p v) (ieeeFrac p v) (ieeeExp p u) (ieeeFrac p u) fv fu
    rw [← lu, ← lv] at muv mvu
    change ieeeMag p u < ieeeMag p v → _ at muv
    change ieeeMag p v < ieeeMag p u → _ at mvu
    unfold ieeeVal ieeeNeg at h
    have modu : u.toNat % 2 ^ (W - 1) = if u.toNat < 2 ^ (W - 1) then u.toNat
        else u.toNat - 2 ^ (W - 1) := by
      split
      · rename_i h; exact Nat.mod_eq_of_lt h
      · rename_i h
        rw [Nat.mod_eq_sub_mod (by omega), Nat.mod_eq_of_lt (by omega)]
    have modv : v.toNat % 2 ^ (W - 1) = if v.toNat < 2 ^ (W - 1) then v.toNat
        else v.toNat - 2 ^ (W - 1) := by
      split
      · rename_i h; exact Nat.mod_eq_of_lt h
      · rename_i h
        rw [Nat.mod_eq_sub_mod (by omega), Nat.mod_eq_of_lt (by omega)]
    rw [modu, modv] at muv mvu
    generalize u.toNat = a at *
    generalize v.toNat = b at *
    rw [hpw] at *
    generalize 2 ^ (W - 1) = t at *
    by_cases ha : a < t <;> by_cases hb : b < t
    · have : ¬ t ≤ a := by omega
      have : ¬ t ≤ b := by omega
      simp [*] at h muv ⊢
      exact muv h
    · have : ¬ t ≤ a := by omega
      have : t ≤ b := by omega
      simp [*] at h
      omega
    · simp [ha, hb]; omega
    · have : t ≤ a := by omega
      have : t ≤ b := by omega
      simp only [*, decide_true, if_true, if_false] at h mvu ⊢
      have := mvu (by omega)
      omega
  refine ⟨main u v, ?_, decodeDecimal_encodeDecimal hW u⟩
  intro h
  by_contra hc
  have := main v u (by omega)
  rw [BitVec.lt_def] at h this
  omega

/-- **C31, tie rule.** The two zeros are numerically equal but `-0.0` has the smaller code. -/
theorem C31_zeros (p : Nat) {W : Nat} (hp : p + 1 < W) :
    ieeeVal p (0#W) = 0 ∧ ieeeVal p (topBit W) = 0 ∧
      encodeDecimal (topBit W) < encodeDecimal (0#W) := by
  have hW : 0 < W := by omega
  have e1 : 2 ^ (W - 1) = 2 ^ p * 2 ^ (W - 1 - p) := by rw [← Nat.pow_add]; congr 1; omega
  refine ⟨?_, ?_, ?_⟩
  · have : ieeeMag p (0#W) = 0 := by simp [ieeeMag, ieeeExp, ieeeFrac]
    simp [ieeeVal, this]
  · have : ieeeMag p (topBit W) = 0 := by
      have h1 : ieeeExp p (topBit W) = 0 := by
        unfold ieeeExp
        rw [topBit_toNat hW, e1, Nat.mul_div_cancel_left _ (Nat.two_pow_pos p), Nat.mod_self]
      have h2 : ieeeFrac p (topBit W) = 0 := by
        unfold ieeeFrac
        rw [topBit_toNat hW, e1, Nat.mul_mod_right]
      simp [ieeeMag, h1, h2]
    simp [ieeeVal, this]
  · rw [BitVec.lt_def, encodeDecimal_toNat hW, encodeDecimal_toNat hW, topBit_toNat hW]
    have hpw : 2 ^ W = 2 ^ (W - 1) * 2 := by
      rw [← Nat.pow_succ, show (W - 1).succ = W by omega]
    have : 0 < 2 ^ (W - 1) := Nat.two_pow_pos _
    simp [this]; omega

/-- Non-vacuity: `-1.5f < 2.0f`, as bit patterns `0xBFC00000` and `0x40000000`. -/
example : ¬ ieeeNaN 23 (0xBFC00000#32) ∧ ¬ ieeeNaN 23 (0x40000000#32) ∧
    ieeeVal 23 (0xBFC00000#32) = -(3 * 2 ^ 148) ∧ ieeeVal 23 (0x40000000#32) = 2 * 2 ^ 149 ∧
    encodeDecimal (0xBFC00000#32) < encodeDecimal (0x40000000#32) := by
  refine ⟨?_, ?_, ?_, ?_, ?_⟩
  · unfold ieeeNaN; decide +kernel
  · unfold ieeeNaN; decide +kernel
  · decide +kernel
  · decide +kernel
  · decide +kernel

end RichDEM
