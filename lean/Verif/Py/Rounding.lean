import Verif.Py.Model
import Mathlib.Tactic.Linarith
import Mathlib.Tactic.Ring
import Mathlib.Tactic.FieldSimp
import Mathlib.Tactic.Positivity
import Mathlib.Algebra.Order.Field.Power

/-! Facts about the rounding to floating point of `Verif/Py/Model.lean`. -/

namespace RichDEM.Py

/-- `v` is a binary floating-point number of `p` digits (no limits on the exponent). -/
def IsFloat (p : Nat) (v : ℚ) : Prop := ∃ (m e : Int), |m| < 2 ^ p ∧ v = m * (2 : ℚ) ^ e

theorem roundEven_near (x : ℚ) (n : Int) : |(roundEven x : ℚ) - x| ≤ |(n : ℚ) - x| := by
  have h1 := Int.floor_le x
  have h2 := Int.lt_floor_add_one x
  -- an integer is at most the floor or at least one more
  have h3 : (n : ℚ) ≤ ⌊x⌋ ∨ (⌊x⌋ : ℚ) + 1 ≤ n := by
    rcases le_or_gt n ⌊x⌋ with h | h
    · left; exact_mod_cast h
    · right; exact_mod_cast h
  have key : ∀ r : ℚ, |r - x| ≤ x - ⌊x⌋ → |r - x| ≤ ⌊x⌋ + 1 - x → |r - x| ≤ |(n : ℚ) - x| := by
    intro r k1 k2
    rcases h3 with h | h
    · rw [abs_of_nonpos (a := (n : ℚ) - x) (by linarith)]; linarith
    · rw [abs_of_nonneg (a := (n : ℚ) - x) (by linarith)]; linarith
  have e1 : |(⌊x⌋ : ℚ) - x| = x - ⌊x⌋ := by rw [abs_of_nonpos (by linarith)]; ring
  have e2 : |((⌊x⌋ + 1 : Int) : ℚ) - x| = ⌊x⌋ + 1 - x := by
    push_cast
    rw [abs_of_nonneg (by linarith)]
  unfold roundEven
  split_ifs with c1 c2 c3
  · exact key _ (by rw [e1]) (by rw [e1]; linarith)
  · exact key _ (by rw [e2]; linarith) (by rw [e2])
  · exact key _ (by rw [e1]) (by rw [e1]; linarith)
  · exact key _ (by rw [e2]; linarith) (by rw [e2])

/-- Of two nearest integers the even one is taken. -/
theorem roundEven_tie (x : ℚ) (n : Int) (h1 : |(n : ℚ) - x| = |(roundEven x : ℚ) - x|) (h2 : n ≠ roundEven x) :
    roundEven x % 2 = 0 := by
  have f1 := Int.floor_le x
  have f2 := Int.lt_floor_add_one x
  have h3 : (n : ℚ) ≤ ⌊x⌋ - 1 ∨ n = ⌊x⌋ ∨ n = ⌊x⌋ + 1 ∨ (⌊x⌋ : ℚ) + 2 ≤ n := by
    rcases lt_trichotomy n ⌊x⌋ with h | h | h
    · left
      have : n + 1 ≤ ⌊x⌋ := h
      have : ((n + 1 : Int) : ℚ) ≤ (⌊x⌋ : ℚ) := by exact_mod_cast this
      push_cast at this; linarith
    · exact .inr (.inl h)
    · rcases eq_or_lt_of_le (show ⌊x⌋ + 1 ≤ n from h) with h' | h'
      · exact .inr (.inr (.inl h'.symm))
      · right; right; right
        have : ⌊x⌋ + 2 ≤ n := by omega
        exact_mod_cast this
  have e1 : |(⌊x⌋ : ℚ) - x| = x - ⌊x⌋ := by rw [abs_of_nonpos (by linarith)]; ring
  have e2 : |((⌊x⌋ + 1 : Int) : ℚ) - x| = ⌊x⌋ + 1 - x := by
    push_cast
    rw [abs_of_nonneg (by linarith)]
  have far1 : (n : ℚ) ≤ ⌊x⌋ - 1 → x - ⌊x⌋ + 1 ≤ |(n : ℚ) - x| := by
    intro h; rw [abs_of_nonpos (by linarith)]; linarith
  have far2 : (⌊x⌋ : ℚ) + 2 ≤ n → ⌊x⌋ + 2 - x ≤ |(n : ℚ) - x| := by
    intro h; rw [abs_of_nonneg (by linarith)]; linarith
  have hnear := roundEven_near x ⌊x⌋
  have hnear2 := roundEven_near x (⌊x⌋ + 1)
  rw [e1] at hnear
  rw [e2] at hnear2
  rcases h3 with h | h | h | h
  · have := far1 h; linarith
  · rw [h, e1] at h1
    revert h1 h2 hnear hnear2
    unfold roundEven
    split_ifs with c1 c2 c3
    · intro h1 h2; exact absurd h h2
    · intro h1 _ _ _; rw [e2] at h1; exfalso; linarith
    · intro _ _ _ _; exact c3
    · intro _ _ _ _; omega
  · rw [h, e2] at h1
    revert h1 h2 hnear hnear2
    unfold roundEven
    split_ifs with c1 c2 c3
    · intro h1 _ _ _; rw [e1] at h1; exfalso; linarith
    · intro _ h2; exact absurd h h2
    · intro _ _ _ _; exact c3
    · intro _ h2; exact absurd h h2
  · have := far2 h; linarith

/-- The scaling used by `roundBits`. -/
theorem scale_bounds (p : Nat) (q : ℚ) (hq : q ≠ 0) :
    0 < (2 : ℚ) ^ (Int.log 2 |q| + 1 - p) ∧
    (2 : ℚ) ^ ((p : Int) - 1) * (2 : ℚ) ^ (Int.log 2 |q| + 1 - p) ≤ |q| ∧
    |q| < (2 : ℚ) ^ (p : Int) * (2 : ℚ) ^ (Int.log 2 |q| + 1 - p) := by
  have hp : 0 < |q| := abs_pos.2 hq
  refine ⟨zpow_pos (by norm_num) _, ?_, ?_⟩
  · rw [← zpow_add₀ (by norm_num)]
    have := Int.zpow_log_le_self (b := 2) (by norm_num) hp
    rw [show (p : Int) - 1 + (Int.log 2 |q| + 1 - p) = Int.log 2 |q| by ring]
    exact_mod_cast this
  · rw [← zpow_add₀ (by norm_num)]
    have := Int.lt_zpow_succ_log_self (b := 2) (by norm_num) |q|
    rw [show (p : Int) + (Int.log 2 |q| + 1 - p) = Int.log 2 |q| + 1 by ring]
    exact_mod_cast this

/-- A float is a multiple of the unit used for `q`, or smaller than every number with the same leading digit. -/
theorem float_cases {p : Nat} {q v : ℚ} (hv : IsFloat p v) (E : Int) :
    (∃ n : Int, v = n * (2 : ℚ) ^ E) ∨ |v| < (2 : ℚ) ^ ((p : Int) - 1) * (2 : ℚ) ^ E := by
  obtain ⟨m, e, hm, rfl⟩ := hv
  by_cases he : E ≤ e
  · left
    obtain ⟨k, hk⟩ : ∃ k : Nat, e = E + k := ⟨(e - E).toNat, by omega⟩
    refine ⟨m * 2 ^ k, ?_⟩
    rw [hk, zpow_add₀ (by norm_num), zpow_natCast]
    push_cast
    ring
  · right
    have h1 : |((m : Int) : ℚ)| < 2 ^ p := by
      have : ((|m| : Int) : ℚ) < ((2 ^ p : Int) : ℚ) := by exact_mod_cast hm
      push_cast at this
      exact this
    rw [abs_mul, abs_of_pos (show (0 : ℚ) < 2 ^ e from zpow_pos (by norm_num) _)]
    calc |((m : Int) : ℚ)| * (2 : ℚ) ^ e < 2 ^ p * (2 : ℚ) ^ e :=
          mul_lt_mul_of_pos_right h1 (zpow_pos (by norm_num) _)
      _ ≤ 2 ^ p * (2 : ℚ) ^ (E - 1) := by
          apply mul_le_mul_of_nonneg_left _ (by positivity)
          exact zpow_le_zpow_right₀ (by norm_num) (by omega)
      _ = (2 : ℚ) ^ ((p : Int) - 1) * (2 : ℚ) ^ E := by
          rw [← zpow_natCast, ← zpow_add₀ (by norm_num), ← zpow_add₀ (by norm_num)]
          congr 1; ring

/-- Rounding gives a nearest float; of two nearest ones the one whose last digit is even. -/
theorem roundBits_nearest (p : Nat) (hp : 0 < p) (q v : ℚ) (hv : IsFloat p v) :
    |roundBits p q - q| ≤ |v - q| ∧
    (|v - q| = |roundBits p q - q| → v ≠ roundBits p q →
      ∃ m e : Int, m % 2 = 0 ∧ (2 : ℚ) ^ ((p : Int) - 1) ≤ |(m : ℚ)| ∧ roundBits p q = m * (2 : ℚ) ^ e) := by
  unfold roundBits
  by_cases hq : q = 0
  · rw [if_pos hq, hq]
    refine ⟨by simp, ?_⟩
    intro h1 h2
    simp only [sub_zero, abs_zero, abs_eq_zero] at h1
    exact absurd h1 h2
  rw [if_neg hq]
  obtain ⟨u0, hlo, hhi⟩ := scale_bounds p q hq
  set E := Int.log 2 |q| + 1 - (p : Int)
  set u := (2 : ℚ) ^ E with hu
  have hx : q = q / u * u := by field_simp
  set x := q / u with hxdef
  have dist : ∀ n : ℚ, |n * u - q| = |n - x| * u := by
    intro n
    rw [hx, ← sub_mul, abs_mul, abs_of_pos u0]
  have hpow : (2 : ℚ) ^ ((p : Int) - 1) = ((2 ^ (p - 1) : Int) : ℚ) := by
    rw [show (p : Int) - 1 = ((p - 1 : Nat) : Int) by omega, zpow_natCast]
    push_cast; rfl
  have hxabs : (2 : ℚ) ^ ((p : Int) - 1) ≤ |x| := by
    rw [hxdef, abs_div, abs_of_pos u0, le_div_iff₀ u0]; exact hlo
  rcases float_cases (q := q) hv E with ⟨n, hn⟩ | hsmall
  · rw [hn, dist, dist]
    refine ⟨mul_le_mul_of_nonneg_right (roundEven_near x n) u0.le, ?_⟩
    intro h1 h2
    have h3 := mul_right_cancel₀ u0.ne' h1
    have h4 : n ≠ roundEven x := fun e => h2 (by rw [e])
    refine ⟨roundEven x, E, roundEven_tie x n h3 h4, ?_, rfl⟩
    -- the rounded value keeps the leading digit
    rw [hpow] at hxabs ⊢
    rcases le_total 0 x with hx0 | hx0
    · rw [abs_of_nonneg hx0] at hxabs
      have h5 : (2 ^ (p - 1) : Int) ≤ roundEven x := by
        have : (2 ^ (p - 1) : Int) ≤ ⌊x⌋ := Int.le_floor.2 hxabs
        unfold roundEven; split_ifs <;> omega
      have h6 : (0 : Int) < 2 ^ (p - 1) := by positivity
      rw [abs_of_nonneg (by exact_mod_cast (by omega : (0 : Int) ≤ roundEven x))]
      exact_mod_cast h5
    · rw [abs_of_nonpos hx0] at hxabs
      have h5 : roundEven x ≤ -(2 ^ (p - 1) : Int) := by
        have h7 : x ≤ ((-(2 ^ (p - 1)) : Int) : ℚ) := by push_cast at hxabs ⊢; linarith
        by_contra hlt
        push Not at hlt
        have h8 := roundEven_near x (-(2 ^ (p - 1)))
        have h9 : ((-(2 ^ (p - 1)) : Int) : ℚ) + 1 ≤ roundEven x := by exact_mod_cast hlt
        rw [abs_of_nonneg (by linarith), abs_of_nonneg (by linarith)] at h8
        linarith
      have h6 : (0 : Int) < 2 ^ (p - 1) := by positivity
      rw [abs_of_nonpos (by exact_mod_cast (by omega : roundEven x ≤ (0 : Int)))]
      have : ((2 ^ (p - 1) : Int) : ℚ) ≤ ((-roundEven x : Int) : ℚ) := Int.cast_le.2 (by omega)
      push_cast at this ⊢
      exact this
  · -- a smaller number is farther away than the power of two below `q`
    have hb : |(roundEven x : ℚ) * u - q| < |v - q| := by
      have hb0 : |(roundEven x : ℚ) * u - q| ≤ |q| - (2 : ℚ) ^ ((p : Int) - 1) * u := by
        rcases le_total 0 q with h0 | h0
        · have := roundEven_near x (2 ^ (p - 1))
          rw [← hpow] at this
          have h1 := mul_le_mul_of_nonneg_right this u0.le
          rw [← dist, ← dist] at h1
          rw [abs_of_nonneg h0] at hlo ⊢
          rw [abs_of_nonpos (a := (2 : ℚ) ^ ((p : Int) - 1) * u - q) (by linarith)] at h1
          linarith
        · have := roundEven_near x (-(2 ^ (p - 1)))
          have e : (((-(2 ^ (p - 1)) : Int)) : ℚ) = -(2 : ℚ) ^ ((p : Int) - 1) := by rw [hpow]; push_cast; rfl
          rw [e] at this
          have h1 := mul_le_mul_of_nonneg_right this u0.le
          rw [← dist, ← dist] at h1
          rw [abs_of_nonpos h0] at hlo ⊢
          rw [abs_of_nonneg (a := -(2 : ℚ) ^ ((p : Int) - 1) * u - q) (by linarith)] at h1
          linarith
      have h2 : |q| - |v| ≤ |v - q| := by
        rw [abs_sub_comm]; exact abs_sub_abs_le_abs_sub q v
      linarith
    exact ⟨hb.le, fun h1 => absurd h1 hb.ne'⟩

theorem roundBits_isFloat (p : Nat) (hp : 0 < p) (q : ℚ) : IsFloat p (roundBits p q) := by
  unfold roundBits
  by_cases hq : q = 0
  · rw [if_pos hq]
    exact ⟨0, 0, by simp, by simp⟩
  rw [if_neg hq]
  obtain ⟨u0, hlo, hhi⟩ := scale_bounds p q hq
  set E := Int.log 2 |q| + 1 - (p : Int)
  set u := (2 : ℚ) ^ E with hu
  set x := q / u with hxdef
  have hx : |x| < 2 ^ p := by
    rw [hxdef, abs_div, abs_of_pos u0, div_lt_iff₀ u0]
    rw [zpow_natCast] at hhi; exact hhi
  have hle : |roundEven x| ≤ 2 ^ p := by
    rw [abs_lt] at hx
    have a1 := roundEven_near x (2 ^ p)
    have a2 := roundEven_near x (-(2 ^ p))
    push_cast at a1 a2
    rw [abs_of_nonneg (a := (2 : ℚ) ^ p - x) (by linarith)] at a1
    rw [abs_of_nonpos (a := -(2 : ℚ) ^ p - x) (by linarith)] at a2
    have b1 := abs_le.1 a1
    have b2 := abs_le.1 a2
    rw [abs_le]
    constructor
    · have : (-(2 ^ p) : ℚ) ≤ roundEven x := by linarith
      exact_mod_cast this
    · have : (roundEven x : ℚ) ≤ 2 ^ p := by linarith
      exact_mod_cast this
  rcases lt_or_eq_of_le hle with hlt | heq
  · exact ⟨roundEven x, E, hlt, rfl⟩
  · -- rounded up to the next power of two
    have hpp : (2 : Int) ^ p = 2 ^ (p - 1) * 2 := by
      rw [← pow_succ]; congr 1; omega
    have h1 : (2 : Int) ^ (p - 1) < 2 ^ p := by rw [hpp]; have : (0 : Int) < 2 ^ (p - 1) := by positivity
                                                omega
    have h0 : (0 : Int) < 2 ^ (p - 1) := by positivity
    have hz : (2 : ℚ) ^ (E + 1) = u * 2 := by rw [zpow_add_one₀ (by norm_num)]
    rcases le_total 0 (roundEven x) with hr | hr
    · rw [abs_of_nonneg hr] at heq
      refine ⟨2 ^ (p - 1), E + 1, by rw [abs_of_pos h0]; exact h1, ?_⟩
      rw [heq, hpp, hz]; push_cast; ring
    · rw [abs_of_nonpos hr] at heq
      refine ⟨-2 ^ (p - 1), E + 1, by rw [abs_neg, abs_of_pos h0]; exact h1, ?_⟩
      rw [show roundEven x = -(2 ^ (p - 1) * 2) by omega, hz]; push_cast; ring

/-- Floats are not changed. -/
theorem roundBits_float (p : Nat) (hp : 0 < p) (v : ℚ) (hv : IsFloat p v) : roundBits p v = v := by
  have := (roundBits_nearest p hp v v hv).1
  rw [sub_self, abs_zero] at this
  have := abs_nonpos_iff.1 this
  linarith

/-- Rounding keeps the order. -/
theorem roundBits_mono (p : Nat) (hp : 0 < p) : Monotone (roundBits p) := by
  intro a b hab
  by_contra hlt
  push Not at hlt
  have h1 := (roundBits_nearest p hp a _ (roundBits_isFloat p hp b)).1
  have h2 := (roundBits_nearest p hp b _ (roundBits_isFloat p hp a)).1
  have hne : a ≠ b := fun e => by rw [e] at hlt; exact lt_irrefl _ hlt
  have hab' : a < b := lt_of_le_of_ne hab hne
  -- both are nearer to the far value
  rcases abs_cases (roundBits p a - a) with ⟨e1, _⟩ | ⟨e1, _⟩ <;>
  rcases abs_cases (roundBits p b - a) with ⟨e2, _⟩ | ⟨e2, _⟩ <;>
  rcases abs_cases (roundBits p b - b) with ⟨e3, _⟩ | ⟨e3, _⟩ <;>
  rcases abs_cases (roundBits p a - b) with ⟨e4, _⟩ | ⟨e4, _⟩ <;>
  rw [e1, e2] at h1 <;> rw [e3, e4] at h2 <;> linarith

/-- Integers with at most `p` digits are floats. -/
theorem isFloat_int (p : Nat) (z : Int) (hz : |z| < 2 ^ p) : IsFloat p z := ⟨z, 0, hz, by simp⟩

end RichDEM.Py
