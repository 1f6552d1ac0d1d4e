/-
Property theorems C115: the multiple-flow metrics in floating-point arithmetic.
-/
import Verif.Flow.RoundedMetrics
import Verif.Props.Rounded
import Verif.Props.MultiFlow
import Mathlib.Analysis.Convex.SpecificFunctions.Basic
import Mathlib.Analysis.SpecialFunctions.Exp

namespace RichDEM

open Relation
open Py (roundBits)

/-- `b` is the real number `a` with a relative error of at most `t`. -/
def RelErr (t : ℚ) (a : ℝ) (b : ℚ) : Prop := (1 - t : ℝ) * a ≤ b ∧ (b : ℝ) ≤ (1 + t) * a

theorem roundBits_real (p : Nat) (q : ℚ) (hq : 0 ≤ q) :
    (1 - 1 / 2 ^ p : ℝ) * q ≤ roundBits p q ∧ (roundBits p q : ℝ) ≤ (1 + 1 / 2 ^ p) * q := by
  obtain ⟨h1, h2⟩ := roundBits_between p q hq
  constructor
  · have : ((((1 - 1 / 2 ^ p) * q : ℚ)) : ℝ) ≤ (roundBits p q : ℝ) := by exact_mod_cast h1
    push_cast at this; exact this
  · have : ((roundBits p q : ℚ) : ℝ) ≤ (((1 + 1 / 2 ^ p) * q : ℚ) : ℝ) := by exact_mod_cast h2
    push_cast at this; exact this

/-- Rounding keeps numbers positive (there is no underflow in the model). -/
theorem roundBits_pos {p : Nat} (hp : 0 < p) {q : ℚ} (hq : 0 < q) : 0 < roundBits p q := by
  have h1 := (roundBits_between p q hq.le).1
  have : (0 : ℚ) < (1 - 1 / 2 ^ p) * q := by
    apply mul_pos _ hq
    have : (1 : ℚ) / 2 ^ p < 1 := by
      rw [div_lt_one (by positivity)]
      exact one_lt_pow₀ (by norm_num) (by omega)
    linarith
  linarith

theorem lowerNbr_cast (w h : Nat) (dem : Cell → ℚ) (nd : ℚ) (c : Cell) (n : Nat) :
    lowerNbr w h (fun c => (dem c : ℝ)) (nd : ℝ) c n = lowerNbr w h dem nd c n := by
  unfold lowerNbr
  congr 1
  · congr 1
    congr 1
    exact decide_eq_decide.2 Rat.cast_inj
  · exact decide_eq_decide.2 Rat.cast_lt

/-! ### The sum of the weights -/

theorem mfWeightsR_sum (stored : Bool) (w h : Nat) (dem : Cell → ℚ) (nd : ℚ) (wgtR : Nat → ℚ → ℚ → ℚ) (c : Cell)
    (W : Nat → ℝ) (lo hi b : ℝ) (hb : b = 1 / 2 ^ 53) (hlo : 0 ≤ lo) (hW : ∀ n, 0 ≤ W n)
    (hW0 : ∀ n, lowerNbr w h dem nd c n = false → W n = 0)
    (hv : ∀ n, lowerNbr w h dem nd c n = true →
      0 ≤ (if stored then roundBits 24 (wgtR n (dem c) (dem (nbr .D8 c n))) else wgtR n (dem c) (dem (nbr .D8 c n))) ∧
      lo * W n ≤ ((if stored then roundBits 24 (wgtR n (dem c) (dem (nbr .D8 c n)))
        else wgtR n (dem c) (dem (nbr .D8 c n)) : ℚ) : ℝ) ∧
      ((if stored then roundBits 24 (wgtR n (dem c) (dem (nbr .D8 c n)))
        else wgtR n (dem c) (dem (nbr .D8 c n)) : ℚ) : ℝ) ≤ hi * W n)
    (l : List Nat) (s : (Nat → ℚ) × ℚ) (k : Nat) (S : ℝ) (hS : 0 ≤ S) (hhi : 0 ≤ hi) (hs0 : 0 ≤ s.2)
    (h1 : lo * (1 - b) ^ k * S ≤ s.2) (h2 : (s.2 : ℝ) ≤ hi * (1 + b) ^ k * S) :
    0 ≤ (mfWeightsR stored w h dem nd wgtR c l s).2 ∧
    lo * (1 - b) ^ (k + l.length) * (S + (l.map W).sum) ≤ (mfWeightsR stored w h dem nd wgtR c l s).2 ∧
    ((mfWeightsR stored w h dem nd wgtR c l s).2 : ℝ) ≤ hi * (1 + b) ^ (k + l.length) * (S + (l.map W).sum) := by
  have b0 : 0 ≤ b := by rw [hb]; positivity
  have b1 : b ≤ 1 := by rw [hb]; norm_num
  induction l generalizing s k S with
  | nil => simpa [mfWeightsR] using ⟨hs0, h1, h2⟩
  | cons a l ih =>
    rw [mfWeightsR_step]
    have e1 : k + (a :: l).length = (k + 1) + l.length := by simp; omega
    have e2 : S + ((a :: l).map W).sum = (S + W a) + (l.map W).sum := by simp [add_assoc]
    rw [e1, e2]
    have pk : (0 : ℝ) ≤ (1 - b) ^ k := pow_nonneg (by linarith) _
    have pk1 : (1 - b) ^ k ≤ (1 : ℝ) := pow_le_one₀ (by linarith) (by linarith)
    have qk : (1 : ℝ) ≤ (1 + b) ^ k := one_le_pow₀ (by linarith)
    by_cases hlow : lowerNbr w h dem nd c a = true
    · rw [if_pos hlow]
      obtain ⟨v0, v1, v2⟩ := hv a hlow
      set v : ℚ := if stored then roundBits 24 (wgtR a (dem c) (dem (nbr .D8 c a)))
        else wgtR a (dem c) (dem (nbr .D8 c a)) with hvdef
      have hsv : 0 ≤ s.2 + v := add_nonneg hs0 v0
      obtain ⟨r1, r2⟩ := roundBits_real 53 (s.2 + v) hsv
      rw [← hb] at r1 r2
      push_cast at r1 r2
      have l1 : lo * (1 - b) ^ k * W a ≤ lo * W a := by
        have : lo * W a * (1 - b) ^ k ≤ lo * W a * 1 := mul_le_mul_of_nonneg_left pk1 (mul_nonneg hlo (hW a))
        nlinarith
      have l2 : hi * W a ≤ hi * (1 + b) ^ k * W a := by
        have : hi * W a * 1 ≤ hi * W a * (1 + b) ^ k := mul_le_mul_of_nonneg_left qk (mul_nonneg hhi (hW a))
        nlinarith
      apply ih _ (k + 1) (S + W a) (add_nonneg hS (hW a))
      · have := (roundBits_between 53 (s.2 + v) hsv).1
        refine le_trans (mul_nonneg (by norm_num) hsv) this
      · refine le_trans ?_ r1
        have : (1 - b) * (lo * (1 - b) ^ k * (S + W a)) ≤ (1 - b) * ((s.2 : ℝ) + v) :=
          mul_le_mul_of_nonneg_left (by nlinarith) (by linarith)
        calc lo * (1 - b) ^ (k + 1) * (S + W a) = (1 - b) * (lo * (1 - b) ^ k * (S + W a)) := by ring
          _ ≤ _ := this
      · refine le_trans r2 ?_
        have : (1 + b) * ((s.2 : ℝ) + v) ≤ (1 + b) * (hi * (1 + b) ^ k * (S + W a)) :=
          mul_le_mul_of_nonneg_left (by nlinarith) (by linarith)
        calc _ ≤ (1 + b) * (hi * (1 + b) ^ k * (S + W a)) := this
          _ = hi * (1 + b) ^ (k + 1) * (S + W a) := by ring
    · rw [if_neg hlow]
      have hw0 := hW0 a (by simpa using hlow)
      rw [hw0, add_zero]
      apply ih s (k + 1) S hS hs0
      · refine le_trans ?_ h1
        have : lo * ((1 - b) ^ k * S) * (1 - b) ≤ lo * ((1 - b) ^ k * S) * 1 :=
          mul_le_mul_of_nonneg_left (by linarith) (mul_nonneg hlo (mul_nonneg pk hS))
        rw [pow_succ]; nlinarith
      · refine le_trans h2 ?_
        have : hi * ((1 + b) ^ k * S) * 1 ≤ hi * ((1 + b) ^ k * S) * (1 + b) :=
          mul_le_mul_of_nonneg_left (by linarith) (mul_nonneg hhi (mul_nonneg (by linarith) hS))
        rw [pow_succ]; nlinarith

/-! ### The proportions -/

/-- The errors of the arithmetic, put together. -/
theorem quotient_err {θ : ℝ} (h0 : 0 ≤ θ) (h1 : θ ≤ 1 / 8) :
    (1 + 1 / 2 ^ 24) ^ 2 * (1 + 1 / 2 ^ 53) ^ 2 * (1 + θ) ≤
      (1 + (3 * θ + 1 / 2 ^ 22)) * ((1 - θ) * (1 - 1 / 2 ^ 24) * (1 - 1 / 2 ^ 53) ^ 8) ∧
    (1 - (3 * θ + 1 / 2 ^ 22)) * ((1 + θ) * (1 + 1 / 2 ^ 24) * (1 + 1 / 2 ^ 53) ^ 8) ≤
      (1 - 1 / 2 ^ 24) ^ 2 * (1 - 1 / 2 ^ 53) ^ 2 * (1 - θ) := by
  have a1 : ((1 + 1 / 2 ^ 24) ^ 2 * (1 + 1 / 2 ^ 53) ^ 2 : ℝ) ≤ 1 + 2001 / 1000 / 2 ^ 24 := by norm_num
  have a2 : (1 - 1001 / 1000 / 2 ^ 24 : ℝ) ≤ (1 - 1 / 2 ^ 24) * (1 - 1 / 2 ^ 53) ^ 8 := by norm_num
  have a3 : ((1 + 1 / 2 ^ 24) * (1 + 1 / 2 ^ 53) ^ 8 : ℝ) ≤ 1 + 1001 / 1000 / 2 ^ 24 := by norm_num
  have a4 : (1 - 2001 / 1000 / 2 ^ 24 : ℝ) ≤ (1 - 1 / 2 ^ 24) ^ 2 * (1 - 1 / 2 ^ 53) ^ 2 := by norm_num
  set u : ℝ := 1 / 2 ^ 24 with hu
  have u0 : 0 < u := by rw [hu]; positivity
  have u1 : u ≤ 1 / 1000000 := by rw [hu]; norm_num
  have e22 : (1 / 2 ^ 22 : ℝ) = 4 * u := by rw [hu]; norm_num
  rw [e22]
  have b1 : (2001 / 1000 / 2 ^ 24 : ℝ) = 2001 / 1000 * u := by rw [hu]; ring
  have b2 : (1001 / 1000 / 2 ^ 24 : ℝ) = 1001 / 1000 * u := by rw [hu]; ring
  rw [b1] at a1 a4
  rw [b2] at a2 a3
  clear_value u
  clear b1 b2 e22 hu
  constructor
  · calc (1 + u) ^ 2 * (1 + 1 / 2 ^ 53) ^ 2 * (1 + θ) ≤ (1 + 2001 / 1000 * u) * (1 + θ) :=
          mul_le_mul_of_nonneg_right a1 (by linarith)
      _ ≤ (1 + (3 * θ + 4 * u)) * ((1 - θ) * (1 - 1001 / 1000 * u)) := by
          nlinarith [mul_nonneg h0 u0.le, mul_nonneg h0 h0, mul_nonneg h0 (sub_nonneg.2 h1),
            mul_nonneg u0.le (sub_nonneg.2 u1), mul_nonneg u0.le (sub_nonneg.2 h1)]
      _ ≤ _ := by
          rw [mul_assoc (1 - θ)]
          exact mul_le_mul_of_nonneg_left (mul_le_mul_of_nonneg_left a2 (by linarith)) (by linarith)
  · calc (1 - (3 * θ + 4 * u)) * ((1 + θ) * (1 + u) * (1 + 1 / 2 ^ 53) ^ 8)
        ≤ (1 - (3 * θ + 4 * u)) * ((1 + θ) * (1 + 1001 / 1000 * u)) := by
          rw [mul_assoc (1 + θ)]
          exact mul_le_mul_of_nonneg_left (mul_le_mul_of_nonneg_left a3 (by linarith)) (by linarith)
      _ ≤ (1 - 2001 / 1000 * u) * (1 - θ) := by
          nlinarith [mul_nonneg h0 u0.le, mul_nonneg h0 h0, mul_nonneg h0 (sub_nonneg.2 h1),
            mul_nonneg u0.le (sub_nonneg.2 u1), mul_nonneg u0.le (sub_nonneg.2 h1)]
      _ ≤ _ := mul_le_mul_of_nonneg_right a4 (by linarith)

/-- A float of a weight, multiplied by the rounded inverse of a sum, rounded to double and to float. -/
theorem proportion_err {θ : ℝ} (h0 : 0 ≤ θ) (h1 : θ ≤ 1 / 8) {W S : ℝ} {f C : ℚ} (hW : 0 < W) (hS : 0 < S)
    (hf : 0 < f) (hC : 0 < C)
    (f1 : (1 - 1 / 2 ^ 24) * ((1 - θ) * W) ≤ f) (f2 : (f : ℝ) ≤ (1 + 1 / 2 ^ 24) * ((1 + θ) * W))
    (C1 : (1 - θ) * (1 - 1 / 2 ^ 24) * (1 - 1 / 2 ^ 53) ^ 8 * S ≤ C)
    (C2 : (C : ℝ) ≤ (1 + θ) * (1 + 1 / 2 ^ 24) * (1 + 1 / 2 ^ 53) ^ 8 * S) :
    0 < roundBits 24 (roundBits 53 (f * roundBits 53 (1 / C))) ∧
    (1 - (3 * θ + 1 / 2 ^ 22)) * (W / S) ≤ roundBits 24 (roundBits 53 (f * roundBits 53 (1 / C))) ∧
    (roundBits 24 (roundBits 53 (f * roundBits 53 (1 / C))) : ℝ) ≤ (1 + (3 * θ + 1 / 2 ^ 22)) * (W / S) := by
  obtain ⟨q1, q2⟩ := quotient_err h0 h1
  set b : ℝ := 1 / 2 ^ 53 with hb
  set a : ℝ := 1 / 2 ^ 24 with ha
  have b0 : 0 < b := by rw [hb]; positivity
  have b1 : b < 1 := by rw [hb]; norm_num
  have a0 : 0 < a := by rw [ha]; positivity
  have a1 : a < 1 := by rw [ha]; norm_num
  have hi0 : (0 : ℚ) < 1 / C := by positivity
  have hr : 0 < roundBits 53 (1 / C) := roundBits_pos (by norm_num) hi0
  have hp : 0 < f * roundBits 53 (1 / C) := mul_pos hf hr
  have hp' := roundBits_pos (p := 53) (by norm_num) hp
  obtain ⟨i1, i2⟩ := roundBits_real 53 (1 / C) hi0.le
  obtain ⟨j1, j2⟩ := roundBits_real 53 (f * roundBits 53 (1 / C)) hp.le
  obtain ⟨k1, k2⟩ := roundBits_real 24 (roundBits 53 (f * roundBits 53 (1 / C))) hp'.le
  rw [← hb] at i1 i2 j1 j2
  rw [← ha] at k1 k2
  push_cast at i1 i2 j1 j2
  set g : ℝ := ((roundBits 53 (1 / C) : ℚ) : ℝ) with hg
  have hg0 : 0 < g := by rw [hg]; exact_mod_cast hr
  have hCr : (0 : ℝ) < C := by exact_mod_cast hC
  have hfr : (0 : ℝ) < f := by exact_mod_cast hf
  set Cl := (1 - θ) * (1 - a) * (1 - b) ^ 8 with hCl
  set Ch := (1 + θ) * (1 + a) * (1 + b) ^ 8 with hCh
  have hCl0 : 0 < Cl := mul_pos (mul_pos (by linarith) (by linarith)) (pow_pos (by linarith) _)
  have hCh0 : 0 < Ch := mul_pos (mul_pos (by linarith) (by linarith)) (pow_pos (by linarith) _)
  have g1 : (1 - b) / (Ch * S) ≤ g := by
    refine le_trans ?_ i1
    rw [div_eq_mul_inv]
    apply mul_le_mul_of_nonneg_left _ (by linarith)
    rw [one_div]
    exact inv_anti₀ hCr C2
  have g2 : g ≤ (1 + b) / (Cl * S) := by
    refine le_trans i2 ?_
    rw [div_eq_mul_inv (1 + b)]
    apply mul_le_mul_of_nonneg_left _ (by linarith)
    rw [one_div]
    exact inv_anti₀ (mul_pos hCl0 hS) C1
  refine ⟨roundBits_pos (by norm_num) hp', ?_, ?_⟩
  · calc (1 - (3 * θ + 1 / 2 ^ 22)) * (W / S)
        = (1 - (3 * θ + 1 / 2 ^ 22)) * Ch * (W / (Ch * S)) := by field_simp
      _ ≤ (1 - a) ^ 2 * (1 - b) ^ 2 * (1 - θ) * (W / (Ch * S)) :=
          mul_le_mul_of_nonneg_right q2 (by positivity)
      _ = (1 - a) * ((1 - b) * (((1 - a) * ((1 - θ) * W)) * ((1 - b) / (Ch * S)))) := by ring
      _ ≤ (1 - a) * ((1 - b) * (f * g)) := by
          apply mul_le_mul_of_nonneg_left _ (by linarith)
          apply mul_le_mul_of_nonneg_left _ (by linarith)
          exact mul_le_mul f1 g1 (div_nonneg (by linarith) (by positivity)) hfr.le
      _ ≤ (1 - a) * _ := mul_le_mul_of_nonneg_left j1 (by linarith)
      _ ≤ _ := k1
  · calc (roundBits 24 (roundBits 53 (f * roundBits 53 (1 / C))) : ℝ) ≤ _ := k2
      _ ≤ (1 + a) * ((1 + b) * (f * g)) := mul_le_mul_of_nonneg_left j2 (by linarith)
      _ ≤ (1 + a) * ((1 + b) * (((1 + a) * ((1 + θ) * W)) * ((1 + b) / (Cl * S)))) := by
          apply mul_le_mul_of_nonneg_left _ (by linarith)
          apply mul_le_mul_of_nonneg_left _ (by linarith)
          exact mul_le_mul f2 g2 hg0.le (by positivity)
      _ = (1 + a) ^ 2 * (1 + b) ^ 2 * (1 + θ) * (W / (Cl * S)) := by ring
      _ ≤ (1 + (3 * θ + 1 / 2 ^ 22)) * Cl * (W / (Cl * S)) := mul_le_mul_of_nonneg_right q1 (by positivity)
      _ = _ := by field_simp

/-- The proportions in floating point against the exact ones, for weights with a relative error of at most `θ`. -/
theorem multiFlowR_err (stored : Bool) (w h : Nat) (dem : Cell → ℚ) (nd : ℚ) (wgt : Nat → ℝ → ℝ → ℝ)
    (wgtR : Nat → ℚ → ℚ → ℚ) (θ : ℚ) (h0 : 0 ≤ θ) (h1 : θ ≤ 1 / 8)
    (hw : ∀ (n : Nat) (e ne : ℚ), ne < e → 0 < wgt n e ne ∧ RelErr θ (wgt n e ne) (wgtR n e ne)) :
    PropsErr (3 * θ + 1 / 2 ^ 22) (fun c => multiFlow w h (fun c => (dem c : ℝ)) (nd : ℝ) wgt c)
      (fun c => multiFlowR stored w h dem nd wgtR c) := by
  have hθ0 : (0 : ℝ) ≤ θ := by exact_mod_cast h0
  have hθ1 : (θ : ℝ) ≤ 1 / 8 := by
    have : ((θ : ℚ) : ℝ) ≤ ((1 / 8 : ℚ) : ℝ) := by exact_mod_cast h1
    push_cast at this; exact this
  have hrange : ∀ n ∈ List.range' 1 8, n ≠ 0 := by decide
  -- a single cell
  have key : ∀ c, (multiFlowR stored w h dem nd wgtR c 0 = -2 ↔
        multiFlow w h (fun c => (dem c : ℝ)) (nd : ℝ) wgt c 0 = -2) ∧
      ∀ n ∈ List.range' 1 8,
        (multiFlow w h (fun c => (dem c : ℝ)) (nd : ℝ) wgt c n ≤ 0 → multiFlowR stored w h dem nd wgtR c n ≤ 0) ∧
        (0 < multiFlow w h (fun c => (dem c : ℝ)) (nd : ℝ) wgt c n →
          0 < multiFlowR stored w h dem nd wgtR c n ∧
          (1 - (3 * (θ : ℝ) + 1 / 2 ^ 22)) * multiFlow w h (fun c => (dem c : ℝ)) (nd : ℝ) wgt c n
            ≤ multiFlowR stored w h dem nd wgtR c n ∧
          (multiFlowR stored w h dem nd wgtR c n : ℝ)
            ≤ (1 + (3 * (θ : ℝ) + 1 / 2 ^ 22)) * multiFlow w h (fun c => (dem c : ℝ)) (nd : ℝ) wgt c n) := by
    intro c
    by_cases hd : dem c = nd
    · have e1 : multiFlowR stored w h dem nd wgtR c = Function.update (fun _ => -1) 0 (-2) := by
        simp [multiFlowR, hd]
      have e2 : multiFlow w h (fun c => (dem c : ℝ)) (nd : ℝ) wgt c = Function.update (fun _ => -1) 0 (-2) := by
        simp [multiFlow, hd]
      rw [e1, e2]
      refine ⟨by simp, fun n hn => ?_⟩
      rw [Function.update_of_ne (hrange n hn), Function.update_of_ne (hrange n hn)]
      exact ⟨fun _ => by norm_num, fun k => absurd k (by norm_num)⟩
    have hd' : ((dem c : ℚ) : ℝ) ≠ (nd : ℝ) := fun e => hd (by exact_mod_cast e)
    by_cases he : isEdgeCell w h c = true
    · have e1 : multiFlowR stored w h dem nd wgtR c = fun _ => -1 := by simp [multiFlowR, hd, he]
      have e2 : multiFlow w h (fun c => (dem c : ℝ)) (nd : ℝ) wgt c = fun _ => -1 := by simp [multiFlow, hd', he]
      rw [e1, e2]
      exact ⟨by norm_num, fun n hn => ⟨fun _ => by norm_num, fun k => absurd k (by norm_num)⟩⟩
    have he' : isEdgeCell w h c = false := by simpa using he
    -- the weights
    set W : Nat → ℝ := fun n =>
      if lowerNbr w h dem nd c n = true then wgt n (dem c : ℝ) (dem (nbr .D8 c n) : ℝ) else 0 with hWd
    have hlt : ∀ n, lowerNbr w h dem nd c n = true → dem (nbr .D8 c n) < dem c := fun n hl => by
      unfold lowerNbr at hl
      simp only [Bool.and_eq_true, decide_eq_true_eq] at hl
      exact hl.2
    have hWpos : ∀ n, lowerNbr w h dem nd c n = true → 0 < W n := fun n hl => by
      rw [hWd]; simp only [hl, if_true]; exact (hw n _ _ (hlt n hl)).1
    have hW : ∀ n, 0 ≤ W n := fun n => by
      by_cases hl : lowerNbr w h dem nd c n = true
      · exact (hWpos n hl).le
      · rw [hWd]; simp [hl]
    have hR : ∀ n, lowerNbr w h dem nd c n = true → 0 < wgtR n (dem c) (dem (nbr .D8 c n)) ∧
        (1 - (θ : ℝ)) * W n ≤ wgtR n (dem c) (dem (nbr .D8 c n)) ∧
        (wgtR n (dem c) (dem (nbr .D8 c n)) : ℝ) ≤ (1 + θ) * W n := fun n hl => by
      obtain ⟨p0, p1, p2⟩ := hw n _ _ (hlt n hl)
      have : W n = wgt n (dem c : ℝ) (dem (nbr .D8 c n) : ℝ) := by rw [hWd]; simp [hl]
      rw [this]
      refine ⟨?_, p1, p2⟩
      have : (0 : ℝ) < wgtR n (dem c) (dem (nbr .D8 c n)) := lt_of_lt_of_le (mul_pos (by linarith) p0) p1
      exact_mod_cast this
    obtain ⟨s1, s2⟩ := mfWeights_spec w h (fun c => (dem c : ℝ)) (nd : ℝ) wgt c (dirs .D8) nodup_dirs (fun _ => -1, 0)
    set S : ℝ := ((dirs .D8).map W).sum with hSd
    have hS2 : (mfWeights w h (fun c => (dem c : ℝ)) (nd : ℝ) wgt c (dirs .D8) (fun _ => -1, 0)).2 = S := by
      rw [s2, zero_add, hSd]
      congr 1
      refine List.map_congr_left fun n _ => ?_
      rw [hWd]; simp only [lowerNbr_cast]
    have hF : ∀ n, lowerNbr w h dem nd c n = true → 0 < roundBits 24 (wgtR n (dem c) (dem (nbr .D8 c n))) ∧
        (1 - 1 / 2 ^ 24) * ((1 - (θ : ℝ)) * W n) ≤ roundBits 24 (wgtR n (dem c) (dem (nbr .D8 c n))) ∧
        (roundBits 24 (wgtR n (dem c) (dem (nbr .D8 c n))) : ℝ) ≤ (1 + 1 / 2 ^ 24) * ((1 + θ) * W n) := fun n hl => by
      obtain ⟨p0, p1, p2⟩ := hR n hl
      obtain ⟨r1, r2⟩ := roundBits_real 24 _ p0.le
      exact ⟨roundBits_pos (by norm_num) p0, le_trans (mul_le_mul_of_nonneg_left p1 (by norm_num)) r1,
        le_trans r2 (mul_le_mul_of_nonneg_left p2 (by norm_num))⟩
    have hsum := mfWeightsR_sum stored w h dem nd wgtR c W ((1 - θ) * (1 - 1 / 2 ^ 24)) ((1 + θ) * (1 + 1 / 2 ^ 24))
      (1 / 2 ^ 53) rfl (mul_nonneg (by linarith) (by norm_num)) hW (fun n hl => by rw [hWd]; simp [hl])
      (fun n hl => by
        obtain ⟨p0, p1, p2⟩ := hR n hl
        obtain ⟨f0, f1, f2⟩ := hF n hl
        have hWn := hW n
        cases stored
        · simp only [Bool.false_eq_true, if_false]
          refine ⟨p0.le, le_trans ?_ p1, le_trans p2 ?_⟩
          · rw [mul_right_comm]
            have : (1 - (θ : ℝ)) * W n * (1 - 1 / 2 ^ 24) ≤ (1 - θ) * W n * 1 :=
              mul_le_mul_of_nonneg_left (by norm_num) (mul_nonneg (by linarith) hWn)
            linarith
          · rw [mul_right_comm]
            have : (1 + (θ : ℝ)) * W n * 1 ≤ (1 + θ) * W n * (1 + 1 / 2 ^ 24) :=
              mul_le_mul_of_nonneg_left (by norm_num) (mul_nonneg (by linarith) hWn)
            linarith
        · simp only [if_true]
          exact ⟨f0.le, le_trans (le_of_eq (by ring)) f1, le_trans f2 (le_of_eq (by ring))⟩)
      (dirs .D8) (fun _ => -1, 0) 0 0 le_rfl (mul_nonneg (by linarith) (by norm_num)) le_rfl (by simp) (by simp)
    have hlen : 0 + (dirs .D8).length = 8 := by decide
    rw [hlen, zero_add] at hsum
    obtain ⟨t0, t1, t2⟩ := hsum
    rw [← hSd] at t1 t2
    have hst := mfWeightsR_stored stored w h dem nd wgtR c (dirs .D8) nodup_dirs (fun _ => -1, 0)
    set T := mfWeightsR stored w h dem nd wgtR c (dirs .D8) (fun _ => -1, 0) with hT
    have hS0 : 0 ≤ S := by
      rw [hSd]
      apply List.sum_nonneg
      intro x hx
      obtain ⟨n, _, rfl⟩ := List.mem_map.1 hx
      exact hW n
    rcases hS0.lt_or_eq with hSp | hSz
    · -- some lower neighbour
      have hTp : 0 < T.2 := by
        have : (0 : ℝ) < T.2 := lt_of_lt_of_le (mul_pos (mul_pos (mul_pos (by linarith) (by norm_num)) (by norm_num)) hSp) t1
        exact_mod_cast this
      have e1 : multiFlowR stored w h dem nd wgtR c =
          mfNormaliseR (roundBits 53 (1 / T.2)) (dirs .D8) (Function.update T.1 0 0) := by
        unfold multiFlowR
        rw [if_neg hd, he']
        simp only [Bool.false_eq_true, if_false, ← hT, if_pos hTp]
      have e2 : multiFlow w h (fun c => (dem c : ℝ)) (nd : ℝ) wgt c = mfNormalise (1 / S) (dirs .D8)
          (Function.update (mfWeights w h (fun c => (dem c : ℝ)) (nd : ℝ) wgt c (dirs .D8) (fun _ => -1, 0)).1 0 0) := by
        unfold multiFlow
        rw [if_neg hd', he']
        simp only [Bool.false_eq_true, if_false, hS2, if_pos hSp]
      rw [e1, e2]
      refine ⟨?_, fun n hn => ?_⟩
      · rw [mfNormaliseR_spec _ _ nodup_dirs, mfNormalise_spec _ _ nodup_dirs, if_neg (by decide), if_neg (by decide)]
        simp
      · have hn' : n ∈ dirs .D8 := hn
        rw [mfNormaliseR_spec _ _ nodup_dirs, mfNormalise_spec _ _ nodup_dirs, if_pos hn', if_pos hn',
          Function.update_of_ne (hrange n hn), Function.update_of_ne (hrange n hn)]
        have v1 := hst n
        have v2 := s1 n
        rw [lowerNbr_cast] at v2
        by_cases hl : lowerNbr w h dem nd c n = true
        · have hWn : W n = wgt n (dem c : ℝ) (dem (nbr .D8 c n) : ℝ) := by rw [hWd]; simp [hl]
          rw [if_pos ⟨hn', hl⟩] at v1 v2
          rw [← hWn] at v2
          rw [v1, v2, if_pos (hWpos n hl), if_pos (hF n hl).1]
          obtain ⟨f0, f1, f2⟩ := hF n hl
          obtain ⟨z0, z1, z2⟩ := proportion_err hθ0 hθ1 (hWpos n hl) hSp f0 hTp f1 f2 t1 t2
          have ed : W n * (1 / S) = W n / S := by ring
          rw [ed]
          exact ⟨fun k => absurd k (not_le.2 (div_pos (hWpos n hl) hSp)), fun _ => ⟨z0, z1, z2⟩⟩
        · rw [if_neg (fun hh => hl hh.2)] at v1 v2
          rw [v1, v2, if_neg (by norm_num), if_neg (by norm_num)]
          refine ?_
          simp only [Rat.cast_zero]
          exact ⟨fun _ => le_rfl, fun k => absurd k (lt_irrefl _)⟩
    · -- no lower neighbour
      have hnone : ∀ n ∈ dirs .D8, ¬ lowerNbr w h dem nd c n = true := by
        intro n hn hl
        have : ((dirs .D8).map W).sum ≠ 0 := by
          have h3 := List.single_le_sum (l := (dirs .D8).map W) (fun x hx => by
            obtain ⟨m, _, rfl⟩ := List.mem_map.1 hx; exact hW m) (W n) (List.mem_map.2 ⟨n, hn, rfl⟩)
          exact ne_of_gt (lt_of_lt_of_le (hWpos n hl) h3)
        exact this (hSd ▸ hSz.symm)
      have hTz : T.2 = 0 := by
        have : (T.2 : ℝ) ≤ 0 := by rw [← hSz, mul_zero] at t2; exact t2
        exact le_antisymm (by exact_mod_cast this) t0
      have e1 : multiFlowR stored w h dem nd wgtR c = T.1 := by
        unfold multiFlowR
        rw [if_neg hd, he']
        simp only [Bool.false_eq_true, if_false, ← hT, hTz, lt_irrefl]
      have e2 : multiFlow w h (fun c => (dem c : ℝ)) (nd : ℝ) wgt c =
          (mfWeights w h (fun c => (dem c : ℝ)) (nd : ℝ) wgt c (dirs .D8) (fun _ => -1, 0)).1 := by
        unfold multiFlow
        rw [if_neg hd', he']
        simp only [Bool.false_eq_true, if_false, hS2, ← hSz, lt_irrefl]
      rw [e1, e2]
      refine ⟨?_, fun n hn => ?_⟩
      · rw [hst 0, s1 0, if_neg (by intro hh; exact absurd hh.1 (by decide)),
          if_neg (by intro hh; exact absurd hh.1 (by decide))]
        norm_num
      · have v1 := hst n
        have v2 := s1 n
        rw [lowerNbr_cast, if_neg (fun hh => hnone n hn hh.2)] at v2
        rw [if_neg (fun hh => hnone n hn hh.2)] at v1
        rw [v1, v2]
        exact ⟨fun _ => by norm_num, fun k => absurd k (by norm_num)⟩
  refine ⟨fun c => (key c).1, fun c n hn => ((key c).2 n hn).1, fun c n hn hpos => ?_⟩
  obtain ⟨k0, k1, k2⟩ := ((key c).2 n hn).2 hpos
  refine ⟨k0, ?_, ?_⟩
  · push_cast; exact k1
  · push_cast; exact k2

/-! ### The weights -/

/-- Subtraction of elevations has a relative error of at most `t`. -/
def SubErr (t : ℚ) (sub : ℚ → ℚ → ℚ) : Prop :=
  ∀ e ne, ne < e → (1 - t) * (e - ne) ≤ sub e ne ∧ sub e ne ≤ (1 + t) * (e - ne)

theorem subErr_double : SubErr (1 / 2 ^ 53) subDouble := fun e ne hl => roundBits_between 53 _ (by linarith)

theorem subErr_float : SubErr (1 / 2 ^ 24) subFloat := fun e ne hl => roundBits_between 24 _ (by linarith)

theorem subErr_int : SubErr 0 subInt := fun e ne hl => by constructor <;> simp [subInt]

/-- `std::pow` for the exponent `x` has a relative error of at most `d`. -/
def PowErr (d x : ℚ) (pow : ℚ → ℚ → ℚ) : Prop :=
  ∀ g : ℚ, 0 < g → (1 - d : ℝ) * (g : ℝ) ^ (x : ℝ) ≤ pow g x ∧ (pow g x : ℝ) ≤ (1 + d) * (g : ℝ) ^ (x : ℝ)

theorem sqrt2D_val : sqrt2D = 6369051672525773 / 2 ^ 52 := by decide +kernel

theorem sqrt2D_err : (1 - 1 / 2 ^ 53) * Real.sqrt 2 ≤ (sqrt2D : ℝ) ∧ (sqrt2D : ℝ) ≤ (1 + 1 / 2 ^ 53) * Real.sqrt 2 := by
  rw [sqrt2D_val]
  push_cast
  have h2 : Real.sqrt 2 ^ 2 = 2 := Real.sq_sqrt (by norm_num)
  constructor
  · have : Real.sqrt 2 ≤ (6369051672525773 / 2 ^ 52 / (1 - 1 / 2 ^ 53) : ℝ) := by
      apply Real.sqrt_le_iff.2
      constructor <;> norm_num
    rw [le_div_iff₀ (by norm_num)] at this
    linarith
  · have : (6369051672525773 / 2 ^ 52 / (1 + 1 / 2 ^ 53) : ℝ) ≤ Real.sqrt 2 := by
      apply Real.le_sqrt_of_sq_le
      norm_num
    rw [div_le_iff₀ (by norm_num)] at this
    linarith

theorem drD_err (n : Nat) : 0 < drD n ∧ (1 - 1 / 2 ^ 53) * drR n ≤ (drD n : ℝ) ∧ (drD n : ℝ) ≤ (1 + 1 / 2 ^ 53) * drR n := by
  unfold drD drR
  split
  · exact ⟨by rw [sqrt2D_val]; norm_num, sqrt2D_err⟩
  · norm_num

theorem contourD_err (n : Nat) : 0 < contourD n ∧ (1 - 1 / 2 ^ 53) * contourL n ≤ (contourD n : ℝ) ∧
    (contourD n : ℝ) ≤ (1 + 1 / 2 ^ 53) * contourL n := by
  unfold contourD contourL
  split
  · obtain ⟨h1, h2⟩ := roundBits_real 53 (354 / 1000) (by norm_num)
    refine ⟨roundBits_pos (by norm_num) (by norm_num), ?_, ?_⟩
    · refine le_trans (le_of_eq ?_) h1
      push_cast; ring
    · refine le_trans h2 (le_of_eq ?_)
      push_cast; ring
  · norm_num

/-- The gradient: two roundings, and the error of √2. -/
theorem grad_err {t : ℚ} (ht0 : 0 ≤ t) (ht1 : t ≤ 1 / 2) {sub : ℚ → ℚ → ℚ} (hs : SubErr t sub) (n : Nat) (e ne : ℚ)
    (hl : ne < e) : 0 < roundBits 53 (sub e ne / drD n) ∧
      (1 - t : ℝ) * (1 - 1 / 2 ^ 53) ^ 2 * ((e - ne) / drR n) ≤ roundBits 53 (sub e ne / drD n) ∧
      (roundBits 53 (sub e ne / drD n) : ℝ) ≤ (1 + t) * (1 + 1 / 2 ^ 53) / (1 - 1 / 2 ^ 53) * ((e - ne) / drR n) := by
  obtain ⟨s1, s2⟩ := hs e ne hl
  obtain ⟨d0, d1, d2⟩ := drD_err n
  have hr := drR_pos n
  have hen : (0 : ℚ) < e - ne := by linarith
  have hs0 : 0 < sub e ne := lt_of_lt_of_le (mul_pos (by linarith) hen) s1
  have hq : 0 < sub e ne / drD n := div_pos hs0 d0
  obtain ⟨r1, r2⟩ := roundBits_real 53 _ hq.le
  push_cast at r1 r2
  have s1' : (1 - t : ℝ) * (e - ne) ≤ sub e ne := by
    have : (((1 - t) * (e - ne) : ℚ) : ℝ) ≤ sub e ne := by exact_mod_cast s1
    push_cast at this; exact this
  have s2' : (sub e ne : ℝ) ≤ (1 + t) * (e - ne) := by
    have : (sub e ne : ℝ) ≤ (((1 + t) * (e - ne) : ℚ) : ℝ) := by exact_mod_cast s2
    push_cast at this; exact this
  have d0' : (0 : ℝ) < drD n := by exact_mod_cast d0
  have hs0' : (0 : ℝ) < sub e ne := by exact_mod_cast hs0
  have hen' : (0 : ℝ) < (e : ℝ) - ne := by
    have : ((0 : ℚ) : ℝ) < ((e - ne : ℚ) : ℝ) := by exact_mod_cast hen
    push_cast at this; exact this
  have ht0' : (0 : ℝ) ≤ t := by exact_mod_cast ht0
  have ht1' : (t : ℝ) ≤ 1 / 2 := by
    have : ((t : ℚ) : ℝ) ≤ ((1 / 2 : ℚ) : ℝ) := by exact_mod_cast ht1
    push_cast at this; exact this
  refine ⟨roundBits_pos (by norm_num) hq, le_trans ?_ r1, le_trans r2 ?_⟩
  · have k : (1 - t : ℝ) * (1 - 1 / 2 ^ 53) * ((e - ne) / drR n) ≤ sub e ne / drD n := by
      rw [le_div_iff₀ d0']
      calc (1 - t : ℝ) * (1 - 1 / 2 ^ 53) * ((e - ne) / drR n) * drD n
          ≤ (1 - t : ℝ) * (1 - 1 / 2 ^ 53) * ((e - ne) / drR n) * ((1 + 1 / 2 ^ 53) * drR n) :=
            mul_le_mul_of_nonneg_left d2 (mul_nonneg (mul_nonneg (by linarith) (by norm_num)) (div_nonneg hen'.le hr.le))
        _ = (1 - t : ℝ) * (e - ne) * ((1 - 1 / 2 ^ 53) * (1 + 1 / 2 ^ 53)) := by field_simp
        _ ≤ (1 - t : ℝ) * (e - ne) * 1 := mul_le_mul_of_nonneg_left (by norm_num) (mul_nonneg (by linarith) hen'.le)
        _ ≤ sub e ne := by rw [mul_one]; exact s1'
    calc (1 - t : ℝ) * (1 - 1 / 2 ^ 53) ^ 2 * ((e - ne) / drR n)
        = (1 - 1 / 2 ^ 53) * ((1 - t : ℝ) * (1 - 1 / 2 ^ 53) * ((e - ne) / drR n)) := by ring
      _ ≤ _ := mul_le_mul_of_nonneg_left k (by norm_num)
  · have k : (sub e ne : ℝ) / drD n ≤ (1 + t) / (1 - 1 / 2 ^ 53) * ((e - ne) / drR n) := by
      rw [div_le_iff₀ d0']
      calc (sub e ne : ℝ) ≤ (1 + t) * (e - ne) := s2'
        _ = (1 + t) / (1 - 1 / 2 ^ 53) * ((e - ne) / drR n) * ((1 - 1 / 2 ^ 53) * drR n) := by field_simp
        _ ≤ _ := mul_le_mul_of_nonneg_left d1 (mul_nonneg (div_nonneg (by linarith) (by norm_num)) (div_nonneg hen'.le hr.le))
    calc (1 + 1 / 2 ^ 53 : ℝ) * (sub e ne / drD n)
        ≤ (1 + 1 / 2 ^ 53) * ((1 + t) / (1 - 1 / 2 ^ 53) * ((e - ne) / drR n)) := mul_le_mul_of_nonneg_left k (by norm_num)
      _ = _ := by ring

/-- The error of a gradient, or of a gradient times a contour length, is at most `t + 2^-50`. -/
theorem grad_err_numbers {t : ℝ} (h0 : 0 ≤ t) (h1 : t ≤ 1 / 2) :
    (1 - (t + 1 / 2 ^ 50) ≤ (1 - t) * (1 - 1 / 2 ^ 53) ^ 4 ∧
      (1 + t) * (1 + 1 / 2 ^ 53) / (1 - 1 / 2 ^ 53) * (1 + 1 / 2 ^ 53) ^ 2 ≤ 1 + (t + 1 / 2 ^ 50)) := by
  have a1 : (1 - 5 / 2 ^ 53 : ℝ) ≤ (1 - 1 / 2 ^ 53) ^ 4 := by norm_num
  have a2 : ((1 + 1 / 2 ^ 53) / (1 - 1 / 2 ^ 53) * (1 + 1 / 2 ^ 53) ^ 2 : ℝ) ≤ 1 + 5 / 2 ^ 53 := by norm_num
  have e50 : (1 / 2 ^ 50 : ℝ) = 8 * (1 / 2 ^ 53) := by norm_num
  have e5 : (5 / 2 ^ 53 : ℝ) = 5 * (1 / 2 ^ 53) := by norm_num
  rw [e5] at a1 a2
  rw [e50]
  have e3 : (1 + t) * (1 + 1 / 2 ^ 53) / (1 - 1 / 2 ^ 53) * (1 + 1 / 2 ^ 53) ^ 2 =
    (1 + t) * ((1 + 1 / 2 ^ 53) / (1 - 1 / 2 ^ 53) * (1 + 1 / 2 ^ 53) ^ 2) := by ring
  rw [e3]
  have hb : (0 : ℝ) ≤ 1 / 2 ^ 53 := by positivity
  constructor
  · refine le_trans ?_ (mul_le_mul_of_nonneg_left a1 (by linarith))
    nlinarith [mul_nonneg h0 hb]
  · refine le_trans (mul_le_mul_of_nonneg_left a2 (by linarith)) ?_
    nlinarith [mul_nonneg h0 hb, mul_nonneg (sub_nonneg.2 h1) hb]

/-- The base of Freeman's and Holmgren's powers. -/
theorem base_err {t : ℚ} (ht0 : 0 ≤ t) (ht1 : t ≤ 1 / 2) {sub : ℚ → ℚ → ℚ} (hs : SubErr t sub) (n : Nat) (e ne : ℚ)
    (hl : ne < e) :
    (0 < roundBits 53 (sub e ne / drD n) ∧
      RelErr (t + 1 / 2 ^ 50) ((e - ne) / drR n) (roundBits 53 (sub e ne / drD n))) ∧
    (0 < roundBits 53 (roundBits 53 (sub e ne / drD n) * contourD n) ∧
      RelErr (t + 1 / 2 ^ 50) ((e - ne) / drR n * contourL n)
        (roundBits 53 (roundBits 53 (sub e ne / drD n) * contourD n))) := by
  obtain ⟨g0, g1, g2⟩ := grad_err ht0 ht1 hs n e ne hl
  obtain ⟨c0, c1, c2⟩ := contourD_err n
  have hr := drR_pos n
  have hen' : (0 : ℝ) < (e : ℝ) - ne := by
    have : ((0 : ℚ) : ℝ) < ((e - ne : ℚ) : ℝ) := by exact_mod_cast (sub_pos.2 hl)
    push_cast at this; exact this
  have ht0' : (0 : ℝ) ≤ t := by exact_mod_cast ht0
  have ht1' : (t : ℝ) ≤ 1 / 2 := by
    have : ((t : ℚ) : ℝ) ≤ ((1 / 2 : ℚ) : ℝ) := by exact_mod_cast ht1
    push_cast at this; exact this
  obtain ⟨n1, n2⟩ := grad_err_numbers ht0' ht1'
  have hG : (0 : ℝ) < (e - ne) / drR n := div_pos hen' hr
  have hL : (0 : ℝ) < contourL n := by unfold contourL; split <;> norm_num
  set G := ((e : ℝ) - ne) / drR n with hGd
  set g := roundBits 53 (sub e ne / drD n) with hg
  have hp : 0 < g * contourD n := mul_pos g0 c0
  obtain ⟨r1, r2⟩ := roundBits_real 53 _ hp.le
  push_cast at r1 r2
  have g0' : (0 : ℝ) < g := by exact_mod_cast g0
  have c0' : (0 : ℝ) < contourD n := by exact_mod_cast c0
  have q1 : (1 - t : ℝ) * (1 - 1 / 2 ^ 53) ^ 4 ≤ (1 - t) * (1 - 1 / 2 ^ 53) ^ 2 :=
    mul_le_mul_of_nonneg_left (by norm_num) (by linarith)
  have q2 : (1 + t : ℝ) * (1 + 1 / 2 ^ 53) / (1 - 1 / 2 ^ 53) * 1 ≤
      (1 + t) * (1 + 1 / 2 ^ 53) / (1 - 1 / 2 ^ 53) * (1 + 1 / 2 ^ 53) ^ 2 :=
    mul_le_mul_of_nonneg_left (by norm_num) (div_nonneg (mul_nonneg (by linarith) (by norm_num)) (by norm_num))
  refine ⟨⟨g0, ?_, ?_⟩, ⟨roundBits_pos (by norm_num) hp, ?_, ?_⟩⟩
  · push_cast
    exact le_trans (mul_le_mul_of_nonneg_right (n1.trans q1) hG.le) g1
  · push_cast
    refine le_trans g2 (mul_le_mul_of_nonneg_right ?_ hG.le)
    linarith
  · push_cast
    refine le_trans ?_ r1
    calc (1 - ((t : ℝ) + 1 / 2 ^ 50)) * (G * contourL n) ≤ (1 - t) * (1 - 1 / 2 ^ 53) ^ 4 * (G * contourL n) :=
          mul_le_mul_of_nonneg_right n1 (by positivity)
      _ = (1 - 1 / 2 ^ 53) * (((1 - t) * (1 - 1 / 2 ^ 53) ^ 2 * G) * ((1 - 1 / 2 ^ 53) * contourL n)) := by ring
      _ ≤ _ := mul_le_mul_of_nonneg_left (mul_le_mul g1 c1 (mul_nonneg (by norm_num) hL.le) g0'.le) (by norm_num)
  · push_cast
    refine le_trans r2 ?_
    calc (1 + 1 / 2 ^ 53 : ℝ) * (g * contourD n)
        ≤ (1 + 1 / 2 ^ 53) * (((1 + t) * (1 + 1 / 2 ^ 53) / (1 - 1 / 2 ^ 53) * G) * ((1 + 1 / 2 ^ 53) * contourL n)) :=
          mul_le_mul_of_nonneg_left (mul_le_mul g2 c2 c0'.le
            (mul_nonneg (div_nonneg (mul_nonneg (by linarith) (by norm_num)) (by norm_num)) hG.le)) (by norm_num)
      _ = (1 + t) * (1 + 1 / 2 ^ 53) / (1 - 1 / 2 ^ 53) * (1 + 1 / 2 ^ 53) ^ 2 * (G * contourL n) := by ring
      _ ≤ _ := mul_le_mul_of_nonneg_right n2 (by positivity)

/-- A power of a number with a relative error. -/
theorem rpow_err {ε x M r : ℝ} (h0 : 0 ≤ ε) (hx : 0 ≤ x) (hxM : x ≤ M) (hM : 1 ≤ M) (hMe : M * ε ≤ 1 / 2)
    (r1 : 1 - ε ≤ r) (r2 : r ≤ 1 + ε) : 1 - M * ε ≤ r ^ x ∧ r ^ x ≤ 1 + 2 * (M * ε) := by
  have he : ε ≤ 1 / 2 := by nlinarith
  constructor
  · calc 1 - M * ε = 1 + M * (-ε) := by ring
      _ ≤ (1 + -ε) ^ M := one_add_mul_self_le_rpow_one_add (by linarith) hM
      _ ≤ (1 + -ε) ^ x := Real.rpow_le_rpow_of_exponent_ge (by linarith) (by linarith) hxM
      _ ≤ r ^ x := Real.rpow_le_rpow (by linarith) (by linarith) hx
  · have e1 : r ^ x ≤ (1 + ε) ^ x := Real.rpow_le_rpow (by linarith) r2 hx
    have e2 : (1 + ε) ^ x ≤ (1 + ε) ^ M := Real.rpow_le_rpow_of_exponent_le (by linarith) hxM
    have e3 : (1 + ε) ^ M ≤ Real.exp ε ^ M :=
      Real.rpow_le_rpow (by linarith) (by have := Real.add_one_le_exp ε; linarith) (by linarith)
    have e4 : Real.exp ε ^ M = Real.exp (M * ε) := by rw [← Real.exp_mul, mul_comm]
    have e5 : 1 - M * ε ≤ Real.exp (-(M * ε)) := by have := Real.add_one_le_exp (-(M * ε)); linarith
    have e6 : Real.exp (M * ε) ≤ 1 + 2 * (M * ε) := by
      rw [Real.exp_neg] at e5
      have hp := Real.exp_pos (M * ε)
      have : (1 - M * ε) * Real.exp (M * ε) ≤ 1 := by
        have := mul_le_mul_of_nonneg_right e5 hp.le
        rwa [inv_mul_cancel₀ hp.ne'] at this
      have hMe0 : 0 ≤ M * ε := mul_nonneg (by linarith) h0
      by_contra hc
      push Not at hc
      nlinarith
    linarith

/-- The relative error of the weights: `t` for the subtraction of elevations, `d` for `std::pow`. -/
def wgtErr (t d x : ℚ) : ℚ := (1 + 2 * (max x 1 * (t + 1 / 2 ^ 50))) * (1 + d) - 1

theorem power_err {t d x : ℚ} (ht0 : 0 ≤ t) (hd0 : 0 ≤ d) (hd1 : d ≤ 1) (hx : 0 ≤ x)
    (hM : max x 1 * (t + 1 / 2 ^ 50) ≤ 1 / 2) {pow : ℚ → ℚ → ℚ} (hp : PowErr d x pow) {G : ℝ} (hG : 0 < G) {g : ℚ}
    (hg : 0 < g) (hr : RelErr (t + 1 / 2 ^ 50) G g) : RelErr (wgtErr t d x) (G ^ (x : ℝ)) (pow g x) := by
  obtain ⟨p1, p2⟩ := hp g hg
  obtain ⟨g1, g2⟩ := hr
  push_cast at g1 g2
  have ht0' : (0 : ℝ) ≤ t := by exact_mod_cast ht0
  have hd0' : (0 : ℝ) ≤ d := by exact_mod_cast hd0
  have hd1' : (d : ℝ) ≤ 1 := by exact_mod_cast hd1
  have hx' : (0 : ℝ) ≤ x := by exact_mod_cast hx
  have hM' : max (x : ℝ) 1 * (t + 1 / 2 ^ 50) ≤ 1 / 2 := by
    have : ((max x 1 * (t + 1 / 2 ^ 50) : ℚ) : ℝ) ≤ ((1 / 2 : ℚ) : ℝ) := by exact_mod_cast hM
    push_cast at this; exact this
  set M := max (x : ℝ) 1 with hMd
  set ε : ℝ := t + 1 / 2 ^ 50 with hε
  have hε0 : 0 ≤ ε := by rw [hε]; positivity
  have hMe0 : 0 ≤ M * ε := mul_nonneg (le_trans zero_le_one (le_max_right _ _)) hε0
  have hgr : (0 : ℝ) < g := by exact_mod_cast hg
  obtain ⟨q1, q2⟩ := rpow_err (r := (g : ℝ) / G) hε0 hx' (le_max_left _ _) (le_max_right _ _) hM'
    (by rw [le_div_iff₀ hG]; exact g1) (by rw [div_le_iff₀ hG]; exact g2)
  rw [Real.div_rpow hgr.le hG.le] at q1 q2
  have hGx : 0 < G ^ (x : ℝ) := Real.rpow_pos_of_pos hG _
  rw [le_div_iff₀ hGx] at q1
  rw [div_le_iff₀ hGx] at q2
  have hw : ((wgtErr t d x : ℚ) : ℝ) = (1 + 2 * (M * ε)) * (1 + d) - 1 := by
    unfold wgtErr; push_cast; rw [hMd, hε]
  unfold RelErr
  rw [hw]
  constructor
  · refine le_trans ?_ p1
    refine le_trans ?_ (mul_le_mul_of_nonneg_left q1 (by linarith))
    rw [show (1 - (d : ℝ)) * ((1 - M * ε) * G ^ (x : ℝ)) = ((1 - d) * (1 - M * ε)) * G ^ (x : ℝ) by ring]
    apply mul_le_mul_of_nonneg_right _ hGx.le
    nlinarith [mul_nonneg hMe0 hd0']
  · refine le_trans p2 ?_
    refine le_trans (mul_le_mul_of_nonneg_left q2 (by linarith)) ?_
    apply le_of_eq
    ring

/-! ### The metrics -/

section
variable {t d x : ℚ} (ht0 : 0 ≤ t) (ht1 : t ≤ 1 / 2) (hd0 : 0 ≤ d) (hx : 0 ≤ x)
  {sub pow : ℚ → ℚ → ℚ} (hs : SubErr t sub) (w h : Nat) (dem : Cell → ℚ) (nd : ℚ)

include ht0 ht1 hd0 hx hs in
/-- C115 (Freeman): the `float` proportions of `FM_Freeman` have a relative error of at most `3 e + 2^-22`, where
`e = (1 + 2 max(x,1) (t + 2^-50)) (1 + d) - 1` is the error of a weight; flow goes to the same neighbours, and the same
cells are marked. -/
theorem C115_freeman (hp : PowErr d x pow) (hsmall : wgtErr t d x ≤ 1 / 8) :
    PropsErr (3 * wgtErr t d x + 1 / 2 ^ 22) (fmFreeman w h (fun c => (dem c : ℝ)) nd x)
      (fmFreemanR sub pow w h dem nd x) := by
  have hm0 : 0 ≤ max x 1 * (t + 1 / 2 ^ 50) := mul_nonneg (le_trans zero_le_one (le_max_right _ _)) (by positivity)
  have hM : max x 1 * (t + 1 / 2 ^ 50) ≤ 1 / 2 := by unfold wgtErr at hsmall; nlinarith [mul_nonneg hm0 hd0]
  have hd1 : d ≤ 1 := by unfold wgtErr at hsmall; nlinarith [mul_nonneg hm0 hd0]
  have h0 : 0 ≤ wgtErr t d x := by unfold wgtErr; nlinarith [mul_nonneg hm0 hd0]
  refine multiFlowR_err false w h dem nd (freemanWgt x) (freemanWgtR sub pow x) _ h0 hsmall ?_
  intro n e ne hl
  have hl' : (ne : ℝ) < e := by exact_mod_cast hl
  obtain ⟨⟨g0, g1⟩, -⟩ := base_err ht0 ht1 hs n e ne hl
  exact ⟨freemanWgt_pos x n e ne hl', power_err ht0 hd0 hd1 hx hM hp (div_pos (by linarith) (drR_pos n)) g0 g1⟩

include ht0 ht1 hd0 hx hs in
/-- C115 (Holmgren): the same for `FM_Holmgren`. -/
theorem C115_holmgren (hp : PowErr d x pow) (hsmall : wgtErr t d x ≤ 1 / 8) :
    PropsErr (3 * wgtErr t d x + 1 / 2 ^ 22) (fmHolmgren w h (fun c => (dem c : ℝ)) nd x)
      (fmHolmgrenR sub pow w h dem nd x) := by
  have hm0 : 0 ≤ max x 1 * (t + 1 / 2 ^ 50) := mul_nonneg (le_trans zero_le_one (le_max_right _ _)) (by positivity)
  have hM : max x 1 * (t + 1 / 2 ^ 50) ≤ 1 / 2 := by unfold wgtErr at hsmall; nlinarith [mul_nonneg hm0 hd0]
  have hd1 : d ≤ 1 := by unfold wgtErr at hsmall; nlinarith [mul_nonneg hm0 hd0]
  have h0 : 0 ≤ wgtErr t d x := by unfold wgtErr; nlinarith [mul_nonneg hm0 hd0]
  refine multiFlowR_err true w h dem nd (holmgrenWgt x) (holmgrenWgtR sub pow x) _ h0 hsmall ?_
  intro n e ne hl
  have hl' : (ne : ℝ) < e := by exact_mod_cast hl
  obtain ⟨-, ⟨g0, g1⟩⟩ := base_err ht0 ht1 hs n e ne hl
  refine ⟨holmgrenWgt_pos x n e ne hl', power_err ht0 hd0 hd1 hx hM hp (mul_pos (div_pos (by linarith) (drR_pos n)) ?_) g0 g1⟩
  unfold contourL; split <;> norm_num

end

/-- C115 (Quinn): if `std::pow(g, 1)` is `g`, the proportions of `FM_Quinn` have a relative error of at most `2^-21`,
whether the elevations are doubles, floats or integers. -/
theorem C115_quinn {t : ℚ} (ht0 : 0 ≤ t) (ht1 : t ≤ 1 / 2 ^ 24) {sub pow : ℚ → ℚ → ℚ} (hs : SubErr t sub)
    (hp : ∀ g, pow g 1 = g) (w h : Nat) (dem : Cell → ℚ) (nd : ℚ) :
    PropsErr (1 / 2 ^ 21) (fmQuinn w h (fun c => (dem c : ℝ)) nd) (fmQuinnR sub pow w h dem nd) := by
  have h := multiFlowR_err true w h dem nd (holmgrenWgt 1) (holmgrenWgtR sub pow 1) (t + 1 / 2 ^ 50) (by positivity)
    (by have : (1 / 2 ^ 24 + 1 / 2 ^ 50 : ℚ) ≤ 1 / 8 := by norm_num
        linarith) ?_
  · have hle : 3 * (t + 1 / 2 ^ 50) + 1 / 2 ^ 22 ≤ 1 / 2 ^ 21 := by
      have : (3 * (1 / 2 ^ 24 + 1 / 2 ^ 50) + 1 / 2 ^ 22 : ℚ) ≤ 1 / 2 ^ 21 := by norm_num
      linarith
    refine ⟨h.noData, h.none, fun c n hn hpos => ?_⟩
    obtain ⟨k0, k1, k2⟩ := h.some c n hn hpos
    have hle' : ((3 * (t + 1 / 2 ^ 50) + 1 / 2 ^ 22 : ℚ) : ℝ) ≤ ((1 / 2 ^ 21 : ℚ) : ℝ) := by exact_mod_cast hle
    refine ⟨k0, le_trans (mul_le_mul_of_nonneg_right ?_ hpos.le) k1, le_trans k2 (mul_le_mul_of_nonneg_right ?_ hpos.le)⟩
    · push_cast at hle' ⊢; linarith
    · push_cast at hle' ⊢; linarith
  · intro n e ne hl
    have hl' : (ne : ℝ) < e := by exact_mod_cast hl
    obtain ⟨-, ⟨-, g1⟩⟩ := base_err ht0 (by have : (1 / 2 ^ 24 : ℚ) ≤ 1 / 2 := by norm_num
                                            linarith) hs n e ne hl
    refine ⟨holmgrenWgt_pos 1 n e ne hl', ?_⟩
    unfold holmgrenWgt holmgrenWgtR
    rw [Real.rpow_one, hp]
    exact g1

/-- C115: the proportions of a cell that sends flow on add up to one, up to the relative error of the proportions. -/
theorem C115_sum {v : ℚ} {props : Cell → Nat → ℝ} {fprops : Cell → Nat → ℚ} (hP : PropsErr v props fprops)
    (c : Cell) (h1 : sentTotal props c = 1) : |((sentTotal fprops c : ℚ) : ℝ) - 1| ≤ v := by
  have key : ∀ l : List Nat, (∀ n ∈ l, n ∈ List.range' 1 8) →
      (1 - v : ℝ) * (l.map (fun n => if 0 < props c n then props c n else 0)).sum ≤
        (((l.map (fun n => if 0 < fprops c n then fprops c n else 0)).sum : ℚ) : ℝ) ∧
      (((l.map (fun n => if 0 < fprops c n then fprops c n else 0)).sum : ℚ) : ℝ) ≤
        (1 + v) * (l.map (fun n => if 0 < props c n then props c n else 0)).sum := by
    intro l
    induction l with
    | nil => intro _; simp
    | cons a l ih =>
      intro hl
      obtain ⟨i1, i2⟩ := ih (fun n hn => hl n (List.mem_cons_of_mem _ hn))
      simp only [List.map_cons, List.sum_cons]
      by_cases hpos : 0 < props c a
      · obtain ⟨k0, k1, k2⟩ := hP.some c a (hl a (List.mem_cons_self ..)) hpos
        rw [if_pos hpos, if_pos k0]
        push_cast at k1 k2 i1 i2 ⊢
        constructor <;> nlinarith
      · have := hP.none c a (hl a (List.mem_cons_self ..)) (not_lt.1 hpos)
        rw [if_neg hpos, if_neg (not_lt.2 this)]
        push_cast at i1 i2 ⊢
        constructor <;> nlinarith
  obtain ⟨k1, k2⟩ := key (List.range' 1 8) (fun _ hn => hn)
  unfold sentTotal at h1 ⊢
  rw [h1] at k1 k2
  rw [abs_le]
  constructor <;> linarith

/-- C115, refuted: the proportions do not add up to one exactly: three neighbours that should get a third each get
together more than everything, and with Freeman a single lower neighbour, diagonally 3 below, gets less than everything. -/
theorem C115_exact_refuted :
    sentTotal (fmQuinnR subDouble (fun g _ => g) 3 3
      (fun c => if c = (1, 1) then 1 else if c = (0, 1) ∨ c = (1, 0) ∨ c = (2, 1) then 0 else 5) (-9999)) (1, 1)
      = 33554433 / 33554432 ∧
    fmFreemanR subDouble (fun g _ => g) 3 3 (fun c => if c = (1, 1) then 3 else if c = (0, 0) then 0 else 5) (-9999) 1 (1, 1) 2
      = 16777215 / 16777216 := by
  constructor <;> decide +kernel

/-! ### A single lower neighbour -/

theorem float_mul_inv (f : ℚ) (hf : 0 < f) : roundBits 24 (roundBits 53 (f * roundBits 53 (1 / f))) = 1 := by
  obtain ⟨a1, a2⟩ := roundBits_between 53 (1 / f) (by positivity)
  have b1 : (1 - 1 / 2 ^ 53 : ℚ) ≤ f * roundBits 53 (1 / f) := by
    have := mul_le_mul_of_nonneg_left a1 hf.le
    rwa [show f * ((1 - 1 / 2 ^ 53) * (1 / f)) = 1 - 1 / 2 ^ 53 by field_simp] at this
  have b2 : f * roundBits 53 (1 / f) ≤ (1 + 1 / 2 ^ 53 : ℚ) := by
    have := mul_le_mul_of_nonneg_left a2 hf.le
    rwa [show f * ((1 + 1 / 2 ^ 53) * (1 / f)) = 1 + 1 / 2 ^ 53 by field_simp] at this
  have m1 := Py.roundBits_mono 24 (by norm_num) (Py.roundBits_mono 53 (by norm_num) b1)
  have m2 := Py.roundBits_mono 24 (by norm_num) (Py.roundBits_mono 53 (by norm_num) b2)
  have e1 : roundBits 24 (roundBits 53 (1 - 1 / 2 ^ 53)) = 1 := by decide +kernel
  have e2 : roundBits 24 (roundBits 53 (1 + 1 / 2 ^ 53)) = 1 := by decide +kernel
  rw [e1] at m1
  rw [e2] at m2
  exact le_antisymm m2 m1

theorem float_in_double (v : ℚ) : roundBits 53 (roundBits 24 v) = roundBits 24 v := by
  obtain ⟨m, e, hm, hv⟩ := Py.roundBits_isFloat 24 (by norm_num) v
  exact Py.roundBits_float 53 (by norm_num) _ ⟨m, e, hm.trans (by norm_num), hv⟩

theorem mfWeightsR_single (w h : Nat) (dem : Cell → ℚ) (nd : ℚ) (wgt : Nat → ℚ → ℚ → ℚ) (c : Cell) (n : Nat)
    (hn : ∀ k, LowerNbr w h dem nd c k ↔ k = n ∨ (k ∉ dirs .D8 ∧ LowerNbr w h dem nd c k))
    (l : List Nat) (hl : l.Nodup) (hsub : ∀ k ∈ l, k ∈ dirs .D8) (s : (Nat → ℚ) × ℚ) :
    (mfWeightsR true w h dem nd wgt c l s).2 =
      if n ∈ l then roundBits 53 (s.2 + roundBits 24 (wgt n (dem c) (dem (nbr .D8 c n)))) else s.2 := by
  induction l generalizing s with
  | nil => simp [mfWeightsR]
  | cons a l ih =>
    rw [List.nodup_cons] at hl
    rw [mfWeightsR_step, ih hl.2 (fun k hk => hsub k (List.mem_cons_of_mem _ hk))]
    by_cases ha : a = n
    · have hlow : lowerNbr w h dem nd c a = true := lowerNbr_iff.2 ((hn a).2 (Or.inl ha))
      rw [if_pos hlow]
      subst ha
      simp [hl.1]
    · have hlow : ¬ lowerNbr w h dem nd c a = true := by
        intro hh
        rcases (hn a).1 (lowerNbr_iff.1 hh) with h1 | h1
        · exact ha h1
        · exact h1.1 (hsub a (List.mem_cons_self ..))
      rw [if_neg hlow]
      simp [Ne.symm ha]

theorem multiFlowR_single (w h : Nat) (dem : Cell → ℚ) (nd : ℚ) (wgt : Nat → ℚ → ℚ → ℚ) (c : Cell)
    (hc : InGrid w h c) (he : ¬ OnEdge w h c) (hd : dem c ≠ nd) (n : Nat) (hn8 : n ∈ List.range' 1 8)
    (hn : ∀ k ∈ List.range' 1 8, LowerNbr w h dem nd c k ↔ k = n)
    (hw : 0 < wgt n (dem c) (dem (nbr .D8 c n))) (k : Nat) (hk : k ∈ List.range' 1 8) :
    multiFlowR true w h dem nd wgt c k = if k = n then 1 else 0 := by
  have hr0 : ∀ n ∈ List.range' 1 8, n ≠ 0 := by decide
  have hn' : ∀ k, LowerNbr w h dem nd c k ↔ k = n ∨ (k ∉ dirs .D8 ∧ LowerNbr w h dem nd c k) := by
    intro k
    by_cases hk : k ∈ dirs .D8
    · rw [hn k hk]; simp [hk]
    · constructor
      · exact fun hh => Or.inr ⟨hk, hh⟩
      · rintro (rfl | hh)
        · exact absurd hn8 hk
        · exact hh.2
  have hnd : (dirs .D8).Nodup := by decide
  have hedge : ¬ isEdgeCell w h c = true := fun hh => he ((isEdgeCell_iff hc).1 hh)
  set f := roundBits 24 (wgt n (dem c) (dem (nbr .D8 c n))) with hf
  have hfpos : 0 < f := roundBits_pos (by norm_num) hw
  have h2 := mfWeightsR_single w h dem nd wgt c n hn' (dirs .D8) hnd (fun _ hk => hk) (fun _ => -1, 0)
  rw [if_pos (show n ∈ dirs .D8 from hn8), zero_add, ← hf, hf, float_in_double, ← hf] at h2
  unfold multiFlowR
  rw [if_neg hd, if_neg hedge, if_pos (by rw [h2]; exact hfpos), h2, mfNormaliseR_spec _ _ hnd, if_pos (show k ∈ dirs .D8 from hk)]
  rw [Function.update_of_ne (hr0 k hk), mfWeightsR_stored _ _ _ _ _ _ _ _ hnd]
  by_cases hkn : k = n
  · rw [if_pos hkn]
    subst hkn
    have hlow : lowerNbr w h dem nd c k = true := lowerNbr_iff.2 ((hn k hk).2 rfl)
    have hb : k ∈ dirs .D8 ∧ lowerNbr w h dem nd c k = true := ⟨hk, hlow⟩
    rw [if_pos hb, ← hf, if_pos hfpos]
    exact float_mul_inv f hfpos
  · have hlow : ¬ (k ∈ dirs .D8 ∧ lowerNbr w h dem nd c k = true) :=
      fun hh => hkn ((hn k hk).1 (lowerNbr_iff.1 hh.2))
    rw [if_neg hlow, if_neg hkn]
    norm_num

/-- C115 (one lower neighbour): `FM_Holmgren` and `FM_Quinn` send all the flow of an interior cell that has a single
lower neighbour to that neighbour: its proportion is exactly one, whatever the gradient and the exponent. -/
theorem C115_single {sub pow : ℚ → ℚ → ℚ} {t x : ℚ} (ht0 : 0 ≤ t) (ht1 : t ≤ 1 / 2) (hs : SubErr t sub)
    (hp : ∀ g, 0 < g → 0 < pow g x) (w h : Nat) (dem : Cell → ℚ) (nd : ℚ) (c : Cell)
    (hc : InGrid w h c) (he : ¬ OnEdge w h c) (hd : dem c ≠ nd) (n : Nat) (hn8 : n ∈ List.range' 1 8)
    (hn : ∀ k ∈ List.range' 1 8, LowerNbr w h dem nd c k ↔ k = n) (k : Nat) (hk : k ∈ List.range' 1 8) :
    fmHolmgrenR sub pow w h dem nd x c k = if k = n then 1 else 0 := by
  refine multiFlowR_single w h dem nd _ c hc he hd n hn8 hn ?_ k hk
  obtain ⟨-, g0, -⟩ := base_err ht0 ht1 hs n (dem c) (dem (nbr .D8 c n)) ((hn n hn8).2 rfl).2.2
  exact hp _ g0

/-! ### From elevations to accumulations -/

theorem growth_numbers (L : Nat) (hLL : L ≤ 2 ^ 19) :
    ((1 + 1 / 2 ^ 21) * (1 + 1 / 2 ^ 53) ^ 9 : ℚ) ^ L - 1 ≤ L / 2 ^ 20 := by
  set e : ℚ := (1 + 1 / 2 ^ 21) * (1 + 1 / 2 ^ 53) ^ 9 - 1 with he
  have he0 : 0 ≤ e := by norm_num [he]
  have he1 : e ≤ 5 / 4 * (1 / 2 ^ 21) := by norm_num [he]
  have hE : (1 + 1 / 2 ^ 21 : ℚ) * (1 + 1 / 2 ^ 53) ^ 9 = 1 + e := by rw [he]; ring
  rw [hE]
  clear_value e
  clear hE he
  have hLq : (L : ℚ) ≤ 2 ^ 19 := by exact_mod_cast hLL
  have hL0 : (0 : ℚ) ≤ L := by positivity
  have hLe : (L : ℚ) * e ≤ 5 / 16 := by
    calc (L : ℚ) * e ≤ 2 ^ 19 * (5 / 4 * (1 / 2 ^ 21)) := mul_le_mul hLq he1 he0 (by norm_num)
      _ = 5 / 16 := by norm_num
  have hg := growth_le e he0 L (by linarith)
  refine hg.trans ?_
  rw [div_le_iff₀ (by linarith)]
  have hLe0 : 0 ≤ (L : ℚ) * e := mul_nonneg hL0 he0
  have a1 : (L : ℚ) * e ≤ L * (5 / 4 * (1 / 2 ^ 21)) := mul_le_mul_of_nonneg_left he1 hL0
  have a2 : (L : ℚ) / 2 ^ 20 * (11 / 16) ≤ L / 2 ^ 20 * (1 - L * e) :=
    mul_le_mul_of_nonneg_left (by linarith) (by positivity)
  refine le_trans ?_ a2
  refine a1.trans ?_
  rw [show (L : ℚ) / 2 ^ 20 * (11 / 16) = L * (11 / 16 / 2 ^ 20) by ring]
  exact mul_le_mul_of_nonneg_left (by norm_num) hL0

section
variable {t : ℚ} (ht0 : 0 ≤ t) (ht1 : t ≤ 1 / 2 ^ 24) {sub pow : ℚ → ℚ → ℚ} (hs : SubErr t sub)
  (hp : ∀ g, pow g 1 = g) (w h : Nat) (dem : Cell → ℚ) (nd : ℚ)

include ht0 ht1 hs hp in
/-- C115 (from the elevations to the accumulation): `FA_Quinn` as the machine runs it, gradients, proportions and sums
rounded, differs from the accumulation over the real numbers by a relative error of at most `L / 2^20`, where `L` is the
number of cells on the longest downhill flow path that ends in the cell. -/
theorem C115_accumulation (fused : Bool) (q : AnyQ Cell) (init : Cell → ℚ) (hi : ∀ c, 0 ≤ init c) (c : Cell)
    (hc : InGrid w h c) (hd : dem c ≠ nd) (L : Nat) (hLL : L ≤ 2 ^ 19)
    (hL : ∀ n, PathCells w h (fmQuinn w h (fun c => (dem c : ℝ)) nd) n c → n ≤ L) :
    |((flowAccumulationR (if fused then macFused else macDouble) q w h (fmQuinnR sub pow w h dem nd) init c : ℚ) : ℝ)
        - flowAccumulation q w h (fmQuinn w h (fun c => (dem c : ℝ)) nd) (fun c => (init c : ℝ)) c|
      ≤ L / 2 ^ 20 * flowAccumulation q w h (fmQuinn w h (fun c => (dem c : ℝ)) nd) (fun c => (init c : ℝ)) c := by
  have hm := C57_quinn w h (fun c => (dem c : ℝ)) nd
  have hac : ∀ c, ¬ TransGen (FlowEdge w h (fmQuinn w h (fun c => (dem c : ℝ)) nd)) c c := fun c => C57_acyclic hm c
  have hfd : FlowData w h (fmQuinn w h (fun c => (dem c : ℝ)) nd) c :=
    ⟨hc, fun e => hd (by exact_mod_cast (hm.noData c hc).1 e)⟩
  have h1 := C114_error_path (K := ℝ) fused q w h (1 / 2 ^ 21) (by norm_num) (by norm_num) _ _
    (C115_quinn ht0 ht1 hs hp w h dem nd) hm.edge hac init hi c hfd L hL
  have h0 := fa_nonneg q w h (fun c => (init c : ℝ)) hm.edge hac (fun c _ => by exact_mod_cast hi c) c hfd
  refine h1.trans (mul_le_mul_of_nonneg_right ?_ h0)
  have hg := growth_numbers L hLL
  have : (((((1 + 1 / 2 ^ 21) * (1 + 1 / 2 ^ 53) ^ 9) ^ L - 1 : ℚ)) : ℝ) ≤ ((L / 2 ^ 20 : ℚ) : ℝ) := by exact_mod_cast hg
  push_cast at this ⊢
  exact this

include ht0 ht1 hs hp in
/-- C115 (water balance): the machine's accumulations of the data cells that send no flow on add up to the inputs of the
data cells, up to a relative error of `L / 2^20`. -/
theorem C115_balance (fused : Bool) (q : AnyQ Cell) (init : Cell → ℚ) (hi : ∀ c, 0 ≤ init c) (L : Nat)
    (hLL : L ≤ 2 ^ 19) (hL : ∀ n c, PathCells w h (fmQuinn w h (fun c => (dem c : ℝ)) nd) n c → n ≤ L) :
    |((allCells w h).map (fun c => if dem c ≠ nd ∧ ∀ n ∈ List.range' 1 8, fmQuinnR sub pow w h dem nd c n ≤ 0 then
          flowAccumulationR (if fused then macFused else macDouble) q w h (fmQuinnR sub pow w h dem nd) init c
          else 0)).sum
        - ((allCells w h).map (fun c => if dem c ≠ nd then init c else 0)).sum|
      ≤ L / 2 ^ 20 * ((allCells w h).map (fun c => if dem c ≠ nd then init c else 0)).sum := by
  have hm := C57_quinn w h (fun c => (dem c : ℝ)) nd
  have hac : ∀ c, ¬ TransGen (FlowEdge w h (fmQuinn w h (fun c => (dem c : ℝ)) nd)) c c := fun c => C57_acyclic hm c
  have hP := C115_quinn ht0 ht1 hs hp w h dem nd
  set props := fmQuinn w h (fun c => (dem c : ℝ)) nd with hprops
  set fprops := fmQuinnR sub pow w h dem nd with hfprops
  have hdat : ∀ c, FlowData w h props c → dem c ≠ nd := fun c hc e =>
    hc.2 ((hm.noData c hc.1).2 (by exact_mod_cast e))
  have h1 := C114_mass_balance (K := ℝ) fused q w h (1 / 2 ^ 21) (by norm_num) (by norm_num) props fprops hP hm.edge hac
    (fun c hc => hm.unit c hc.1 (by exact_mod_cast hdat c hc))
    (fun c hc n hn hpos e => by
      have hlow := hm.down c hc.1 (by exact_mod_cast hdat c hc) n hn hpos
      exact hlow.2.1 ((hm.noData _ hlow.1).1 e)) init hi L hL
  have hnd : ∀ c ∈ allCells w h, (props c 0 ≠ -2 ↔ dem c ≠ nd) := fun c hc => by
    have := not_congr (hm.noData c (mem_allCells.1 hc)); exact_mod_cast this
  have e1 : sumData w h props (fun c => (init c : ℝ)) =
      ((((allCells w h).map (fun c => if dem c ≠ nd then init c else 0)).sum : ℚ) : ℝ) := by
    unfold sumData
    rw [Rat.cast_list_sum, List.map_map]
    congr 1
    refine List.map_congr_left fun c hc => ?_
    by_cases hd : dem c = nd <;> simp [hnd c hc, hd]
  have e2 : sumData w h props (fun c => if ∀ n ∈ List.range' 1 8, props c n ≤ 0
          then (flowAccumulationR (if fused then macFused else macDouble) q w h fprops init c : ℝ) else 0) =
      ((((allCells w h).map (fun c => if dem c ≠ nd ∧ ∀ n ∈ List.range' 1 8, fprops c n ≤ 0 then
          flowAccumulationR (if fused then macFused else macDouble) q w h fprops init c else 0)).sum : ℚ) : ℝ) := by
    unfold sumData
    rw [Rat.cast_list_sum, List.map_map]
    congr 1
    refine List.map_congr_left fun c hc => ?_
    have hall : (∀ n ∈ List.range' 1 8, props c n ≤ 0) ↔ ∀ n ∈ List.range' 1 8, fprops c n ≤ 0 :=
      forall₂_congr fun n hn => (hP.pos c hn).symm
    by_cases hd : dem c = nd
    · simp only [Function.comp]
      rw [if_neg (by rw [hnd c hc]; simpa using hd), if_neg (by simp [hd])]
      simp
    · simp only [Function.comp]
      rw [if_pos ((hnd c hc).2 hd)]
      by_cases hh : ∀ n ∈ List.range' 1 8, fprops c n ≤ 0
      · have hb : dem c ≠ nd ∧ ∀ n ∈ List.range' 1 8, fprops c n ≤ 0 := ⟨hd, hh⟩
        rw [if_pos (hall.2 hh), if_pos hb]
      · have hb : ¬ (dem c ≠ nd ∧ ∀ n ∈ List.range' 1 8, fprops c n ≤ 0) := fun x => hh x.2
        rw [if_neg (fun x => hh (hall.1 x)), if_neg hb]
        simp
  rw [e1, e2] at h1
  have hS : 0 ≤ ((allCells w h).map (fun c => if dem c ≠ nd then init c else 0)).sum := by
    apply List.sum_nonneg
    intro x hx
    obtain ⟨c, -, rfl⟩ := List.mem_map.1 hx
    split
    · exact hi c
    · exact le_refl 0
  have h2 : |((allCells w h).map (fun c => if dem c ≠ nd ∧ ∀ n ∈ List.range' 1 8, fprops c n ≤ 0 then
          flowAccumulationR (if fused then macFused else macDouble) q w h fprops init c else 0)).sum
        - ((allCells w h).map (fun c => if dem c ≠ nd then init c else 0)).sum| ≤
      (((1 + 1 / 2 ^ 21) * (1 + 1 / 2 ^ 53) ^ 9) ^ L - 1) *
        ((allCells w h).map (fun c => if dem c ≠ nd then init c else 0)).sum := by
    exact_mod_cast h1
  exact h2.trans (mul_le_mul_of_nonneg_right (growth_numbers L hLL) hS)

end

/-- The hypotheses of C115_accumulation are met by rasters of floats on a machine whose `pow(g, 1)` is `g`; the error is
real: on a cone the three outlets of the middle cell get more water than there is. -/
example : SubErr (1 / 2 ^ 24) subFloat ∧ SubErr (1 / 2 ^ 53) subDouble ∧ SubErr 0 subInt ∧
    fmQuinnR subFloat (fun g _ => g) 3 3
      (fun c => if c = (1, 1) then 1 else if c = (0, 1) ∨ c = (1, 0) ∨ c = (2, 1) then 0 else 5) (-9999) (1, 1) 1
      = 11184811 / 33554432 ∧
    flowAccumulationR macDouble (fifo Cell) 3 3 (fmQuinnR subFloat (fun g _ => g) 3 3
      (fun c => if c = (1, 1) then 1 else if c = (0, 1) ∨ c = (1, 0) ∨ c = (2, 1) then 0 else 5) (-9999)) (fun _ => 1) (0, 1)
      = 1 + 11184811 / 33554432 :=
  ⟨subErr_float, subErr_double, subErr_int, by decide +kernel, by decide +kernel⟩

/-- `C115_single` has cells to speak about: the middle of a 3x3 raster with one lower neighbour. -/
example : ∀ k ∈ List.range' 1 8, fmHolmgrenR subFloat (fun g _ => g * g) 3 3
    (fun c => if c = (1, 1) then 7 / 10 else if c = (2, 2) then 1 / 10 else 5) (-9999) 2 (1, 1) k
      = if k = 6 then 1 else 0 := by decide +kernel

/-- C115_freeman for a machine with an exact square and the exponent 2 on doubles. -/
example : PowErr 0 2 (fun g _ => g ^ 2) ∧ wgtErr (1 / 2 ^ 53) 0 2 ≤ 1 / 8 := by
  refine ⟨fun g _ => ?_, ?_⟩
  · have : ((2 : ℚ) : ℝ) = ((2 : ℕ) : ℝ) := by norm_num
    rw [this, Real.rpow_natCast]
    push_cast
    constructor <;> simp
  · unfold wgtErr
    rw [max_eq_left (by norm_num)]
    norm_num

end RichDEM
