/-
Property theorems C117: volumes of depressions in floating-point arithmetic.
-/
import Verif.DepHier.VolumeR
import Verif.Props.Volume
import Verif.Props.Rounded

namespace RichDEM

open Py (roundBits)

/-! ### Rounding of sums -/

/-- A rounding changes a number by at most the factor `1 + 2^-53`, on either side. -/
theorem roundBits_abs (q : ℚ) : |roundBits 53 q - q| ≤ 1 / 2 ^ 53 * |q| := roundBits_rel 53 q

/-- A sum of `k` numbers of size at most `M`, computed with at least `k - 1` roundings. -/
structure NearSum (M : ℚ) (k : Nat) (S v : ℚ) : Prop where
  float : Py.IsFloat 53 v
  size : |S| ≤ k * M
  near : |v - S| ≤ ((1 + 1 / 2 ^ 53) ^ (k - 1) - 1) * (k * M)

theorem float_zero : Py.IsFloat 53 0 := ⟨0, 0, by simp, by simp⟩

theorem NearSum.add {M : ℚ} (hM : 0 ≤ M) {k1 k2 : Nat} {S1 S2 v1 v2 : ℚ} (h1 : NearSum M k1 S1 v1)
    (h2 : NearSum M k2 S2 v2) : NearSum M (k1 + k2) (S1 + S2) (addD v1 v2) := by
  refine ⟨Py.roundBits_isFloat 53 (by norm_num) _, ?_, ?_⟩
  · refine (abs_add_le _ _).trans ?_
    push_cast
    linarith [h1.size, h2.size]
  have hz : ∀ {S v : ℚ}, NearSum M 0 S v → S = 0 ∧ v = 0 := by
    intro S v hh
    have a1 := hh.size
    have a2 := hh.near
    simp only [Nat.cast_zero, zero_mul, mul_zero] at a1 a2
    have a1 := abs_nonpos_iff.1 a1
    have a2 := abs_nonpos_iff.1 a2
    exact ⟨a1, by linarith⟩
  unfold addD
  rcases Nat.eq_zero_or_pos k1 with rfl | p1
  · obtain ⟨rfl, rfl⟩ := hz h1
    rw [zero_add, Py.roundBits_float 53 (by norm_num) _ h2.float, Nat.zero_add, zero_add]
    exact h2.near
  rcases Nat.eq_zero_or_pos k2 with rfl | p2
  · obtain ⟨rfl, rfl⟩ := hz h2
    rw [add_zero, Py.roundBits_float 53 (by norm_num) _ h1.float, Nat.add_zero, add_zero]
    exact h1.near
  set u : ℚ := 1 / 2 ^ 53 with hu
  have hu0 : 0 ≤ u := by rw [hu]; positivity
  have hr := roundBits_abs (v1 + v2)
  rw [← hu] at hr
  have m1 : (1 + u) ^ (k1 - 1) ≤ (1 + u) ^ (k1 + k2 - 2) := pow_le_pow_right₀ (by linarith) (by omega)
  have m2 : (1 + u) ^ (k2 - 1) ≤ (1 + u) ^ (k1 + k2 - 2) := pow_le_pow_right₀ (by linarith) (by omega)
  have hpow : (1 + u) ^ (k1 + k2 - 1) = (1 + u) ^ (k1 + k2 - 2) * (1 + u) := by
    rw [← pow_succ]; congr 1; omega
  rw [hpow]
  set G := (1 + u) ^ (k1 + k2 - 2) with hG
  have hG1 : 1 ≤ G := one_le_pow₀ (by linarith)
  have n1 := h1.near
  have n2 := h2.near
  rw [← hu] at n1 n2
  have q1 : (0 : ℚ) ≤ k1 * M := by positivity
  have q2 : (0 : ℚ) ≤ k2 * M := by positivity
  have n1' : |v1 - S1| ≤ (G - 1) * (k1 * M) := n1.trans (mul_le_mul_of_nonneg_right (by linarith) q1)
  have n2' : |v2 - S2| ≤ (G - 1) * (k2 * M) := n2.trans (mul_le_mul_of_nonneg_right (by linarith) q2)
  have s1 := h1.size
  have s2 := h2.size
  have hv : |v1 + v2| ≤ G * ((k1 + k2) * M) := by
    have e : v1 + v2 = (v1 - S1) + (v2 - S2) + (S1 + S2) := by ring
    rw [e]
    refine (abs_add_le _ _).trans ?_
    have := abs_add_le (v1 - S1) (v2 - S2)
    have := abs_add_le S1 S2
    nlinarith
  have e : roundBits 53 (v1 + v2) - (S1 + S2) = (roundBits 53 (v1 + v2) - (v1 + v2)) + ((v1 - S1) + (v2 - S2)) := by ring
  rw [e]
  refine (abs_add_le _ _).trans ?_
  have h3 := abs_add_le (v1 - S1) (v2 - S2)
  have h4 : u * |v1 + v2| ≤ u * (G * ((k1 + k2) * M)) := mul_le_mul_of_nonneg_left hv hu0
  push_cast
  nlinarith

theorem NearSum.one {M x : ℚ} (hx : |x| ≤ M) (hf : Py.IsFloat 53 x) : NearSum M 1 x x :=
  ⟨hf, by simpa using hx, by simp⟩

theorem nearSum_rel {dem : Cell → ℚ} {cells : List Cell} {M : ℚ} (hM : 0 ≤ M)
    (hd : ∀ c ∈ cells, |dem c| ≤ M ∧ Py.IsFloat 53 (dem c)) : SumRel dem cells (NearSum M) where
  zero := ⟨float_zero, by simp, by simp⟩
  cell := fun _ _ _ c hc hr => hr.add hM (NearSum.one (hd c hc).1 (hd c hc).2)
  add := fun _ _ _ _ _ _ h1 h2 => h1.add hM h2

/-- A sum of `k` multiples of `q` of size at most `M`: exact as long as `k * M` is below `2^53 * q`. -/
structure ExactSum (e : Int) (M : ℚ) (k : Nat) (S v : ℚ) : Prop where
  size : |S| ≤ k * M
  grid : ∃ j : Int, S = j * (2 : ℚ) ^ e
  same : k * M < 2 ^ 53 * (2 : ℚ) ^ e → v = S

theorem grid_float {e : Int} {S : ℚ} (hg : ∃ j : Int, S = j * (2 : ℚ) ^ e) (hs : |S| < 2 ^ 53 * (2 : ℚ) ^ e) :
    roundBits 53 S = S := by
  obtain ⟨j, rfl⟩ := hg
  apply Py.roundBits_float 53 (by norm_num)
  refine ⟨j, e, ?_, rfl⟩
  have he : (0 : ℚ) < (2 : ℚ) ^ e := by positivity
  rw [abs_mul, abs_of_pos he] at hs
  have := lt_of_mul_lt_mul_right hs he.le
  have h2 : ((|j| : Int) : ℚ) < ((2 ^ 53 : Int) : ℚ) := by push_cast; exact this
  exact_mod_cast h2

theorem ExactSum.add {e : Int} {M : ℚ} (hM : 0 ≤ M) {k1 k2 : Nat} {S1 S2 v1 v2 : ℚ} (h1 : ExactSum e M k1 S1 v1)
    (h2 : ExactSum e M k2 S2 v2) : ExactSum e M (k1 + k2) (S1 + S2) (addD v1 v2) := by
  have hs : |S1 + S2| ≤ ((k1 + k2 : Nat) : ℚ) * M := by
    refine (abs_add_le _ _).trans ?_
    push_cast
    linarith [h1.size, h2.size]
  have hg : ∃ j : Int, S1 + S2 = j * (2 : ℚ) ^ e := by
    obtain ⟨a, ha⟩ := h1.grid
    obtain ⟨b, hb⟩ := h2.grid
    exact ⟨a + b, by rw [ha, hb]; push_cast; ring⟩
  refine ⟨hs, hg, fun hlt => ?_⟩
  have e1 : (k1 : ℚ) * M ≤ ((k1 + k2 : Nat) : ℚ) * M := mul_le_mul_of_nonneg_right (by push_cast; linarith [Nat.cast_nonneg (α := ℚ) k2]) hM
  have e2 : (k2 : ℚ) * M ≤ ((k1 + k2 : Nat) : ℚ) * M := mul_le_mul_of_nonneg_right (by push_cast; linarith [Nat.cast_nonneg (α := ℚ) k1]) hM
  unfold addD
  rw [h1.same (lt_of_le_of_lt e1 hlt), h2.same (lt_of_le_of_lt e2 hlt)]
  exact grid_float hg (lt_of_le_of_lt hs hlt)

theorem exactSum_rel {dem : Cell → ℚ} {cells : List Cell} {e : Int} {M : ℚ} (hM : 0 ≤ M)
    (hd : ∀ c ∈ cells, |dem c| ≤ M ∧ ∃ j : Int, dem c = j * (2 : ℚ) ^ e) : SumRel dem cells (ExactSum e M) where
  zero := ⟨by simp, ⟨0, by simp⟩, fun _ => rfl⟩
  cell := fun _ _ _ c hc hr => hr.add hM ⟨by simpa using (hd c hc).1, (hd c hc).2, fun _ => rfl⟩
  add := fun _ _ _ _ _ _ h1 h2 => h1.add hM h2

/-- The error of a volume. -/
theorem volOfR_err {M z S v : ℚ} {k : Nat} (hM : 0 ≤ M) (hz : |z| ≤ M) (hS : NearSum M k S v) :
    ∃ x, volOfR k (some z) v = some x ∧
      |x - ((k : ℚ) * z - S)| ≤ ((1 + 1 / 2 ^ 53) ^ (k + 2) - 1) * (k * M) := by
  rcases Nat.eq_zero_or_pos k with rfl | hk1
  · have a1 := hS.size
    have a2 := hS.near
    simp only [Nat.cast_zero, zero_mul, mul_zero] at a1 a2
    have a1 := abs_nonpos_iff.1 a1
    have a2 := abs_nonpos_iff.1 a2
    have a3 : v = 0 := by linarith
    refine ⟨0, ?_, by rw [a1]; simp⟩
    simp [volOfR, a3, roundBits]
  refine ⟨_, rfl, ?_⟩
  set u : ℚ := 1 / 2 ^ 53 with hu
  have hu0 : 0 ≤ u := by rw [hu]; positivity
  set p := roundBits 53 ((k : ℚ) * z) with hp
  have a1 : |p - k * z| ≤ u * |(k : ℚ) * z| := roundBits_abs _
  have a2 : |roundBits 53 (p - v) - (p - v)| ≤ u * |p - v| := roundBits_abs _
  have hkz : |(k : ℚ) * z| ≤ k * M := by
    rw [abs_mul, abs_of_nonneg (Nat.cast_nonneg k)]
    exact mul_le_mul_of_nonneg_left hz (Nat.cast_nonneg k)
  have hn := hS.near
  have hs := hS.size
  rw [← hu] at hn
  set Q := (k : ℚ) * M with hQ
  have hQ0 : 0 ≤ Q := by rw [hQ]; positivity
  set G := (1 + u) ^ (k - 1) with hG
  have hG1 : 1 ≤ G := one_le_pow₀ (by linarith)
  have hpow : (1 + u) ^ (k + 2) = G * (1 + u) ^ 3 := by
    rw [hG, ← pow_add]; congr 1; omega
  rw [hpow]
  have b1 : |p - k * z| ≤ u * Q := a1.trans (mul_le_mul_of_nonneg_left hkz hu0)
  -- the size of the difference
  have hpv : |p - v| ≤ (u + G + 1) * Q := by
    have e : p - v = (p - k * z) + (k * z) + (-(v - S)) + (-S) := by ring
    rw [e]
    have c1 := abs_add_le ((p - k * z) + (k * z) + (-(v - S))) (-S)
    have c2 := abs_add_le ((p - k * z) + (k * z)) (-(v - S))
    have c3 := abs_add_le (p - k * z) (k * z)
    rw [abs_neg] at c1 c2
    nlinarith
  have e : roundBits 53 (p - v) - (k * z - S) =
      (roundBits 53 (p - v) - (p - v)) + (p - k * z) + (-(v - S)) := by ring
  rw [e]
  have c1 := abs_add_le ((roundBits 53 (p - v) - (p - v)) + (p - k * z)) (-(v - S))
  have c2 := abs_add_le (roundBits 53 (p - v) - (p - v)) (p - k * z)
  rw [abs_neg] at c1
  have d1 : u * |p - v| ≤ u * ((u + G + 1) * Q) := mul_le_mul_of_nonneg_left hpv hu0
  have tot : |roundBits 53 (p - v) - (p - v) + (p - k * z) + -(v - S)| ≤
      (u * (u + G + 1) + u + (G - 1)) * Q := by nlinarith
  refine tot.trans (mul_le_mul_of_nonneg_right ?_ hQ0)
  -- G (1+u)^3 - 1 is at least as large
  have hu3 : (1 + u) ^ 3 = 1 + 3 * u + 3 * u ^ 2 + u ^ 3 := by ring
  rw [hu3]
  have g1 : 0 ≤ (G - 1) * u := mul_nonneg (by linarith) hu0
  have g2 : 0 ≤ (G - 1) * u ^ 2 := mul_nonneg (by linarith) (by positivity)
  have g3 : 0 ≤ G * u ^ 3 := by positivity
  nlinarith [sq_nonneg u]

theorem growth_volume (k : Nat) (hk : k + 2 ≤ 2 ^ 51) : (1 + 1 / 2 ^ 53 : ℚ) ^ (k + 2) - 1 ≤ ((k : ℚ) + 2) / 2 ^ 52 := by
  have hkq : ((k + 2 : Nat) : ℚ) ≤ 2 ^ 51 := by exact_mod_cast hk
  have h0 : (0 : ℚ) ≤ ((k + 2 : Nat) : ℚ) := Nat.cast_nonneg _
  have hle : ((k + 2 : Nat) : ℚ) * (1 / 2 ^ 53) ≤ 1 / 4 := by
    have := mul_le_mul_of_nonneg_right hkq (show (0 : ℚ) ≤ 1 / 2 ^ 53 by positivity)
    refine this.trans (by norm_num)
  refine (growth_le (1 / 2 ^ 53) (by positivity) (k + 2) (by linarith)).trans ?_
  rw [div_le_iff₀ (by linarith)]
  have e : ((k : ℚ) + 2) = ((k + 2 : Nat) : ℚ) := by push_cast; ring
  rw [e]
  have : ((k + 2 : Nat) : ℚ) / 2 ^ 52 * (3 / 4) ≤
      ((k + 2 : Nat) : ℚ) / 2 ^ 52 * (1 - ((k + 2 : Nat) : ℚ) * (1 / 2 ^ 53)) :=
    mul_le_mul_of_nonneg_left (by linarith) (by positivity)
  refine le_trans ?_ this
  rw [show ((k + 2 : Nat) : ℚ) / 2 ^ 52 * (3 / 4) = ((k + 2 : Nat) : ℚ) * (3 / 4 / 2 ^ 52) by ring]
  exact mul_le_mul_of_nonneg_left (by norm_num) h0

/-- The assertion under error bounds. -/
theorem fpLe_of_err {M X Y Z x y z : ℚ} {ka kb kd N : Nat} (hM0 : 0 ≤ M) (hk : (ka : ℚ) + kb ≤ kd) (hkN : (kd : ℚ) ≤ N)
    (hN : (N : ℚ) + 2 ≤ 2 ^ 51) (hsmall : 2 * ((N : ℚ) + 3) * (N * M) ≤ 9 / 10 ^ 7 * 2 ^ 52)
    (hXY : X + Y ≤ Z) (hX : 0 ≤ X) (hY : 0 ≤ Y) (hZ : Z ≤ 2 * (kd * M))
    (hx : |x - X| ≤ ((ka : ℚ) + 2) / 2 ^ 52 * (ka * M)) (hy : |y - Y| ≤ ((kb : ℚ) + 2) / 2 ^ 52 * (kb * M))
    (hz : |z - Z| ≤ ((kd : ℚ) + 2) / 2 ^ 52 * (kd * M)) : fpLeD (addD x y) z = true := by
  have a0 : (0 : ℚ) ≤ ka := Nat.cast_nonneg _
  have b0 : (0 : ℚ) ≤ kb := Nat.cast_nonneg _
  have d0 : (0 : ℚ) ≤ kd := Nat.cast_nonneg _
  have hE : ((ka : ℚ) + 2) / 2 ^ 52 * (ka * M) + ((kb : ℚ) + 2) / 2 ^ 52 * (kb * M) ≤
      ((kd : ℚ) + 2) / 2 ^ 52 * (kd * M) := by
    have h1 : ((ka : ℚ) + 2) * ka + ((kb : ℚ) + 2) * kb ≤ (kd + 2) * kd := by nlinarith
    have h2 := mul_le_mul_of_nonneg_right h1 hM0
    have h3 := div_le_div_of_nonneg_right h2 (show (0 : ℚ) ≤ 2 ^ 52 by positivity)
    calc _ = (((ka : ℚ) + 2) * ka + ((kb : ℚ) + 2) * kb) * M / 2 ^ 52 := by ring
      _ ≤ _ := h3
      _ = _ := by ring
  set E := ((kd : ℚ) + 2) / 2 ^ 52 * (kd * M) with hEd
  have hQ : (0 : ℚ) ≤ kd * M := by positivity
  have hE1 : E ≤ kd * M := by
    have : ((kd : ℚ) + 2) / 2 ^ 52 ≤ 1 := by rw [div_le_one (by positivity)]; linarith
    calc E ≤ 1 * (kd * M) := mul_le_mul_of_nonneg_right this hQ
      _ = _ := one_mul _
  have hT : 2 * E + 4 / 2 ^ 53 * (kd * M) ≤ 9 / 10 ^ 7 := by
    have h1 : 2 * E + 4 / 2 ^ 53 * (kd * M) = 2 * ((kd : ℚ) + 3) * (kd * M) / 2 ^ 52 := by rw [hEd]; ring
    rw [h1, div_le_iff₀ (by positivity)]
    refine le_trans ?_ hsmall
    have h2 : (kd : ℚ) * M ≤ N * M := mul_le_mul_of_nonneg_right hkN hM0
    exact mul_le_mul (by linarith) h2 hQ (by positivity)
  clear_value E
  obtain ⟨x1, x2⟩ := abs_le.1 hx
  obtain ⟨y1, y2⟩ := abs_le.1 hy
  obtain ⟨z1, z2⟩ := abs_le.1 hz
  have hp : |x + y| ≤ 4 * (kd * M) := abs_le.2 ⟨by linarith, by linarith⟩
  have hr := abs_le.1 ((roundBits_abs (x + y)).trans (mul_le_mul_of_nonneg_left hp (by positivity)))
  have hs : addD x y - z ≤ 9 / 10 ^ 7 := by
    unfold addD
    have e : (4 : ℚ) / 2 ^ 53 * (kd * M) = 1 / 2 ^ 53 * (4 * (kd * M)) := by ring
    rw [e] at hT
    linarith [hr.2]
  unfold fpLeD
  by_cases hlt : addD x y < z
  · simp [hlt]
  · push Not at hlt
    have h0 : 0 ≤ addD x y - z := by linarith
    have r0 : 0 ≤ roundBits 53 (addD x y - z) := by
      have := Py.roundBits_mono 53 (by norm_num) h0
      rwa [Py.roundBits_float 53 (by norm_num) 0 float_zero] at this
    have r1 := Py.roundBits_mono 53 (by norm_num) hs
    have r2 : roundBits 53 (9 / 10 ^ 7) < roundBits 53 (1 / 10 ^ 6) := by decide +kernel
    have : |roundBits 53 (addD x y - z)| < roundBits 53 (1 / 10 ^ 6) := by
      rw [abs_of_nonneg r0]; exact lt_of_le_of_lt r1 r2
    simp only [this, decide_true, Bool.or_true]

/-! ### The properties -/

section
variable (pq : PQ (ℚ × Cell) zLt) (w h : Nat) (t : Topo) (dem : Cell → ℚ)
  (lab : Cell → Option Nat) (s : DHS ℚ) (hs : getDHFlood pq w h t dem lab = some s)
  (os : List (Outlet ℚ)) (O : IsOutletVec s os) (h32 : 2 * s.ndep < 2 ^ 32) (H : Hier ℚ)
  (hH : depHierarchy s os = some H) (parts : List (List Cell)) (hp : parts.flatten.Perm (allCells w h))

include hs O h32 hH in
theorem outlet_in_dem (d : Nat) (hd : d < H.n) (h0 : d ≠ 0) {z : ℚ} (hz : (H.dep d).outElev = some z) :
    ∃ c, InGrid w h c ∧ dem c = z := by
  obtain ⟨z', h1, -, u, v, e, -, g1, g2, -, -, -, -, he, hez⟩ := C62_spill_elevation pq w h t dem lab s hs os O h32 H hH d hd h0
  rw [hz] at h1; cases h1
  rcases he with rfl | rfl
  · exact ⟨e, g1, hez⟩
  · exact ⟨e, g2, hez⟩

include hs O h32 hH hp in
/-- C117 (error): in double precision, whatever cells the threads get and in whatever order they deliver their sums, the
cell counts are right and the volume of a depression of `k` cells differs from the exact volume by at most
`(k + 2) 2^-52 k M`, where `M` bounds the elevations (doubles, floats or integers below `2^53`). -/
theorem C117_error_partial (M : ℚ) (hM : ∀ c, InGrid w h c → |dem c| ≤ M) (hf : ∀ c, InGrid w h c → Py.IsFloat 53 (dem c)) :
    ∃ m v, calcMarginalR H.n H.dep dem s.label parts = some m ∧ calcTotalR H.n H.dep m = some v ∧
      ∀ d, d < H.n → d ≠ 0 → ∃ (z : ℚ) (S : Finset Cell) (x : ℚ), (H.dep d).outElev = some z ∧
        (∀ c, c ∈ S ↔ InGrid w h c ∧ InDep s.label H.dep d c ∧ dem c ≤ z) ∧
        v.count d = S.card ∧ v.vol d = some x ∧
        (S.card + 2 ≤ 2 ^ 51 →
          |x - S.sum (fun c => z - dem c)| ≤ ((S.card : ℚ) + 2) / 2 ^ 52 * (S.card * M)) := by
  obtain ⟨m, v, m1, v1, -, -, hv⟩ := C43_volumes pq w h t dem lab s hs os O h32 H hH parts hp
  have hR : SumRel dem (allCells w h) (NearSum (max M 0)) := nearSum_rel (le_max_right _ _) fun c hc =>
    ⟨(hM c (mem_allCells.1 hc)).trans (le_max_left _ _), hf c (mem_allCells.1 hc)⟩
  obtain ⟨m', m2, m3, m4⟩ := calcMarginalR_sim hR parts (fun c hc => hp.mem_iff.1 hc) m1
  obtain ⟨v', v2, v3, v4, v5⟩ := calcTotalR_sim hR m3 m4 v1
  refine ⟨m', v', m2, v2, fun d hd h0 => ?_⟩
  obtain ⟨z, S, hz, hS, hcnt, htot, -, -⟩ := hv d hd h0
  obtain ⟨e, hg, hez⟩ := outlet_in_dem pq w h t dem lab s hs os O h32 H hH d hd h0 hz
  have hzM : |z| ≤ M := by rw [← hez]; exact hM e hg
  have hM0 : 0 ≤ M := (abs_nonneg _).trans hzM
  have hmax : max M 0 = M := max_eq_left hM0
  have hv4 := v4 d
  rw [hmax, hcnt, htot] at hv4
  obtain ⟨x, hx, hxe⟩ := volOfR_err hM0 hzM hv4
  refine ⟨z, S, x, hz, hS, by rw [v3, hcnt], by rw [v5 d hd, hcnt, hz, hx], fun hk => ?_⟩
  rw [Finset.sum_sub_distrib, Finset.sum_const, nsmul_eq_mul]
  exact hxe.trans (mul_le_mul_of_nonneg_right (growth_volume _ hk) (by positivity))

include hs O h32 hH hp in
/-- C117 (exactness): if the elevations are whole multiples of a power of two (integers, or a fixed number of binary
digits) and twice the number of cells of the depression times the largest elevation is below `2^53` units, the volume is
exact; in particular it does not depend on the threads. -/
theorem C117_exact_partial (e : Int) (M : ℚ) (hM : ∀ c, InGrid w h c → |dem c| ≤ M)
    (hf : ∀ c, InGrid w h c → ∃ j : Int, dem c = j * (2 : ℚ) ^ e) :
    ∃ m v, calcMarginalR H.n H.dep dem s.label parts = some m ∧ calcTotalR H.n H.dep m = some v ∧
      ∀ d, d < H.n → d ≠ 0 → ∃ (z : ℚ) (S : Finset Cell) (x : ℚ), (H.dep d).outElev = some z ∧
        (∀ c, c ∈ S ↔ InGrid w h c ∧ InDep s.label H.dep d c ∧ dem c ≤ z) ∧
        v.count d = S.card ∧ v.vol d = some x ∧
        (2 * (S.card * M) < 2 ^ 53 * (2 : ℚ) ^ e → x = S.sum (fun c => z - dem c)) := by
  obtain ⟨m, v, m1, v1, -, -, hv⟩ := C43_volumes pq w h t dem lab s hs os O h32 H hH parts hp
  have hR : SumRel dem (allCells w h) (ExactSum e (max M 0)) := exactSum_rel (le_max_right _ _) fun c hc =>
    ⟨(hM c (mem_allCells.1 hc)).trans (le_max_left _ _), hf c (mem_allCells.1 hc)⟩
  obtain ⟨m', m2, m3, m4⟩ := calcMarginalR_sim hR parts (fun c hc => hp.mem_iff.1 hc) m1
  obtain ⟨v', v2, v3, v4, v5⟩ := calcTotalR_sim hR m3 m4 v1
  refine ⟨m', v', m2, v2, fun d hd h0 => ?_⟩
  obtain ⟨z, S, hz, hS, hcnt, htot, -, -⟩ := hv d hd h0
  obtain ⟨o, hg, hoz⟩ := outlet_in_dem pq w h t dem lab s hs os O h32 H hH d hd h0 hz
  have hzM : |z| ≤ M := by rw [← hoz]; exact hM o hg
  have hM0 : 0 ≤ M := (abs_nonneg _).trans hzM
  have hmax : max M 0 = M := max_eq_left hM0
  have hv4 := v4 d
  rw [hmax, hcnt, htot] at hv4
  refine ⟨z, S, _, hz, hS, by rw [v3, hcnt], by rw [v5 d hd, hcnt, hz]; rfl, fun hk => ?_⟩
  have hQ : (0 : ℚ) ≤ S.card * M := by positivity
  rw [hv4.same (by linarith)]
  have hkz : |(S.card : ℚ) * z| ≤ S.card * M := by
    rw [abs_mul, abs_of_nonneg (Nat.cast_nonneg _)]
    exact mul_le_mul_of_nonneg_left hzM (Nat.cast_nonneg _)
  obtain ⟨a, ha⟩ := hf o hg
  rw [hoz] at ha
  obtain ⟨b, hb⟩ := hv4.grid
  have g1 : roundBits 53 ((S.card : ℚ) * z) = S.card * z :=
    grid_float (e := e) ⟨S.card * a, by rw [ha]; push_cast; ring⟩ (lt_of_le_of_lt hkz (by linarith))
  have g2 : roundBits 53 ((S.card : ℚ) * z - S.sum dem) = S.card * z - S.sum dem := by
    refine grid_float (e := e) ⟨S.card * a - b, by rw [ha, hb]; push_cast; ring⟩ ?_
    have h1 := abs_sub ((S.card : ℚ) * z) (S.sum dem)
    have h2 := hv4.size
    linarith
  rw [g1, g2, Finset.sum_sub_distrib, Finset.sum_const, nsmul_eq_mul]

include hs O h32 hH hp in
/-- What the assertion compares, beside the exact volumes. -/
theorem checks (M : ℚ) (hM : ∀ c, InGrid w h c → |dem c| ≤ M) {v : Vols ℚ}
    (hok : ∀ (a b d ka kb kd : Nat) (X Y Z : ℚ), d < H.n → d ≠ 0 → a < H.n → a ≠ 0 → b < H.n → b ≠ 0 → v.count a = ka → v.count b = kb → v.count d = kd →
      ka + kb ≤ kd → kd ≤ w * h → X + Y ≤ Z → 0 ≤ X → 0 ≤ Y → Z ≤ 2 * (kd * M) →
      (∃ (z : ℚ) (S : Finset Cell), (H.dep a).outElev = some z ∧ (∀ c, c ∈ S ↔ InGrid w h c ∧ InDep s.label H.dep a c ∧ dem c ≤ z) ∧
        X = S.sum (fun c => z - dem c)) →
      (∃ (z : ℚ) (S : Finset Cell), (H.dep b).outElev = some z ∧ (∀ c, c ∈ S ↔ InGrid w h c ∧ InDep s.label H.dep b c ∧ dem c ≤ z) ∧
        Y = S.sum (fun c => z - dem c)) →
      (∃ (z : ℚ) (S : Finset Cell), (H.dep d).outElev = some z ∧ (∀ c, c ∈ S ↔ InGrid w h c ∧ InDep s.label H.dep d c ∧ dem c ≤ z) ∧
        Z = S.sum (fun c => z - dem c)) →
      ∃ x y z, v.vol a = some x ∧ v.vol b = some y ∧ v.vol d = some z ∧ fpLeD (addD x y) z = true)
    (hcnt : ∀ m0 v0, calcMarginal H.n H.dep dem s.label parts = some m0 → calcTotal H.n H.dep m0 = some v0 → v.count = v0.count) :
    ∀ d, d < H.n → tvCheck H.dep v.vol d = true := by
  intro d hd
  obtain ⟨m0, v0, e1, e2, -, -, hv⟩ := C43_volumes pq w h t dem lab s hs os O h32 H hH parts hp
  obtain ⟨hnn, hch⟩ := C43_children_le pq w h t dem lab s hs os O h32 H hH parts hp m0 e1 v0 e2
  have hc0 := hcnt m0 v0 e1 e2
  obtain ⟨l1, l2⟩ := C61_binary pq w h t dem lab s hs os O h32 H hH d hd
  unfold tvCheck
  rcases Nat.lt_or_ge d s.ndep with hlt | hge
  · rw [(l1 hlt).1]
  obtain ⟨a, b, ha, hb, -, kal, kbl, ka0, kb0, -⟩ := l2 hge
  have hd0 : d ≠ 0 := by omega
  rw [ha, hb]
  dsimp only
  obtain ⟨hk, X, Y, Z, hX, hY, hZ, hle⟩ := hch d a b hd ha hb
  obtain ⟨za, Sa, q1, q2, q3, -, q5, -⟩ := hv a (by omega) ka0
  obtain ⟨zb, Sb, r1, r2, r3, -, r5, -⟩ := hv b (by omega) kb0
  obtain ⟨zd, Sd, s1, s2, s3, -, s5, -⟩ := hv d hd hd0
  rw [hX] at q5; rw [hY] at r5; rw [hZ] at s5
  obtain ⟨X', u1, u2⟩ := hnn a (by omega) ka0
  obtain ⟨Y', u3, u4⟩ := hnn b (by omega) kb0
  rw [hX] at u1; cases u1
  rw [hY] at u3; cases u3
  have hsub : Sd ⊆ (allCells w h).toFinset := fun c hc => by
    rw [List.mem_toFinset, mem_allCells]; exact ((s2 c).1 hc).1
  have hcard : Sd.card ≤ w * h := by
    refine (Finset.card_le_card hsub).trans ((List.toFinset_card_le _).trans ?_)
    rw [length_allCells]
  obtain ⟨o, hg, hoz⟩ := outlet_in_dem pq w h t dem lab s hs os O h32 H hH d hd hd0 s1
  have hZM : Z ≤ 2 * ((Sd.card : ℚ) * M) := by
    cases s5
    have := Finset.sum_le_card_nsmul Sd (fun c => zd - dem c) (2 * M) fun c hc => by
      have h1 := abs_le.1 (hM c ((s2 c).1 hc).1)
      have h2 := abs_le.1 (hM o hg)
      rw [hoz] at h2
      show zd - dem c ≤ 2 * M
      linarith [h1.1, h2.2]
    rw [nsmul_eq_mul] at this
    linarith
  obtain ⟨x, y, z, v1, v2, v3, v4⟩ := hok a b d _ _ _ X Y Z hd hd0 (by omega) ka0 (by omega) kb0 rfl rfl rfl
    (by rw [hc0]; exact hk) (by rw [hc0, s3]; exact hcard) hle u2 u4 (by rw [hc0, s3]; exact hZM)
    ⟨za, Sa, q1, q2, by cases q5; rfl⟩ ⟨zb, Sb, r1, r2, by cases r5; rfl⟩ ⟨zd, Sd, s1, s2, by cases s5; rfl⟩
  rw [v1, v2, v3]
  exact v4

include hs O h32 hH hp in
/-- C117 (assertion): the assertion that two children hold at most their parent's volume does not fail if the raster is
small enough, or exact: `N` cells of elevations bounded by `M` with `2 N (N + 3) M ≤ 9e-7 * 2^52`. -/
theorem C117_assertion_partial (M : ℚ) (hM : ∀ c, InGrid w h c → |dem c| ≤ M)
    (hf : ∀ c, InGrid w h c → Py.IsFloat 53 (dem c)) (hN : (w * h : ℕ) + 2 ≤ 2 ^ 51)
    (hsmall : 2 * (((w * h : ℕ) : ℚ) + 3) * ((w * h : ℕ) * M) ≤ 9 / 10 ^ 7 * 2 ^ 52) :
    ∃ m v, calcMarginalR H.n H.dep dem s.label parts = some m ∧ calcTotalC H.n H.dep m = some v := by
  obtain ⟨m, v, h1, h2, h3⟩ := C117_error_partial pq w h t dem lab s hs os O h32 H hH parts hp M hM hf
  obtain ⟨m0, v0, e1, e2, -, -, hv⟩ := C43_volumes pq w h t dem lab s hs os O h32 H hH parts hp
  have hR : SumRel dem (allCells w h) (NearSum (max M 0)) := nearSum_rel (le_max_right _ _) fun c hc =>
    ⟨(hM c (mem_allCells.1 hc)).trans (le_max_left _ _), hf c (mem_allCells.1 hc)⟩
  have hcnt : ∀ m0 v0, calcMarginal H.n H.dep dem s.label parts = some m0 → calcTotal H.n H.dep m0 = some v0 → v.count = v0.count := by
    intro m0 v0 e1 e2
    obtain ⟨m', a2, a3, a4⟩ := calcMarginalR_sim hR parts (fun c hc => hp.mem_iff.1 hc) e1
    rw [h1] at a2; cases a2
    obtain ⟨v', b2, b3, -⟩ := calcTotalR_sim hR a3 a4 e2
    rw [h2] at b2; cases b2
    exact b3
  refine ⟨m, v, h1, calcTotalC_eq h2 (checks pq w h t dem lab s hs os O h32 H hH parts hp M hM ?_ hcnt)⟩
  intro a b d ka kb kd X Y Z hd hd0 han ha0 hbn hb0 hka hkb hkd hk hkN hXY hX0 hY0 hZM hA hB hD
  have one : ∀ e k W, e < H.n → e ≠ 0 → v.count e = k → k ≤ kd →
      (∃ (z : ℚ) (S : Finset Cell), (H.dep e).outElev = some z ∧ (∀ c, c ∈ S ↔ InGrid w h c ∧ InDep s.label H.dep e c ∧ dem c ≤ z) ∧
        W = S.sum (fun c => z - dem c)) →
      ∃ x, v.vol e = some x ∧ |x - W| ≤ ((k : ℚ) + 2) / 2 ^ 52 * (k * M) := by
    rintro e k W he h0 hk' hkk ⟨z, S, hz, hS, rfl⟩
    obtain ⟨z', S', x, g1, g2, g3, g4, g5⟩ := h3 e he h0
    rw [hz] at g1; cases g1
    have : S' = S := by ext c; rw [g2, hS]
    subst this
    rw [hk'] at g3
    subst g3
    exact ⟨x, g4, g5 (by have : S'.card ≤ w * h := hkk.trans hkN; omega)⟩
  obtain ⟨x, x1, x2⟩ := one a ka X han ha0 hka (by omega) hA
  obtain ⟨y, y1, y2⟩ := one b kb Y hbn hb0 hkb (by omega) hB
  obtain ⟨z, z1, z2⟩ := one d kd Z hd hd0 hkd le_rfl hD
  refine ⟨x, y, z, x1, y1, z1, ?_⟩
  have hM0 : 0 ≤ M := by
    obtain ⟨z', S', hz', -⟩ := hD
    obtain ⟨o, hg, -⟩ := outlet_in_dem pq w h t dem lab s hs os O h32 H hH d hd hd0 hz'
    exact (abs_nonneg _).trans (hM o hg)
  exact fpLe_of_err hM0 (by exact_mod_cast hk) (by exact_mod_cast hkN) (by
      have : ((w * h + 2 : ℕ) : ℚ) ≤ ((2 ^ 51 : ℕ) : ℚ) := by exact_mod_cast hN
      push_cast at this ⊢; exact this) hsmall hXY hX0 hY0 hZM x2 y2 z2

include hs O h32 hH hp in
/-- C117 (assertion, exact elevations): nor does it fail for integers and other multiples of a power of two, as long as
twice the number of cells times the largest elevation is below `2^53` units. -/
theorem C117_assertion_exact_partial (e : Int) (M : ℚ) (hM : ∀ c, InGrid w h c → |dem c| ≤ M)
    (hf : ∀ c, InGrid w h c → ∃ j : Int, dem c = j * (2 : ℚ) ^ e)
    (hsmall : 2 * ((w * h : ℕ) * M) < 2 ^ 53 * (2 : ℚ) ^ e) :
    ∃ m v, calcMarginalR H.n H.dep dem s.label parts = some m ∧ calcTotalC H.n H.dep m = some v := by
  obtain ⟨m, v, h1, h2, h3⟩ := C117_exact_partial pq w h t dem lab s hs os O h32 H hH parts hp e M hM hf
  have hR : SumRel dem (allCells w h) (ExactSum e (max M 0)) := exactSum_rel (le_max_right _ _) fun c hc =>
    ⟨(hM c (mem_allCells.1 hc)).trans (le_max_left _ _), hf c (mem_allCells.1 hc)⟩
  obtain ⟨m0, v0, e1, e2, -, -, hv⟩ := C43_volumes pq w h t dem lab s hs os O h32 H hH parts hp
  obtain ⟨m', a2, a3, a4⟩ := calcMarginalR_sim hR parts (fun c hc => hp.mem_iff.1 hc) e1
  rw [h1] at a2; cases a2
  obtain ⟨v', b2, b3, -, b5⟩ := calcTotalR_sim hR a3 a4 e2
  rw [h2] at b2; cases b2
  refine ⟨m, v, h1, calcTotalC_eq h2 (checks pq w h t dem lab s hs os O h32 H hH parts hp M hM ?_ ?_)⟩
  · intro a b d ka kb kd X Y Z hd hd0 han ha0 hbn hb0 hka hkb hkd hk hkN hXY hX0 hY0 hZM hA hB hD
    have hM0 : 0 ≤ M := by
      obtain ⟨z', S', hz', -⟩ := hD
      obtain ⟨o, hg, -⟩ := outlet_in_dem pq w h t dem lab s hs os O h32 H hH d hd hd0 hz'
      exact (abs_nonneg _).trans (hM o hg)
    have one : ∀ e' k W, e' < H.n → e' ≠ 0 → v.count e' = k → k ≤ kd →
        (∃ (z : ℚ) (S : Finset Cell), (H.dep e').outElev = some z ∧ (∀ c, c ∈ S ↔ InGrid w h c ∧ InDep s.label H.dep e' c ∧ dem c ≤ z) ∧
          W = S.sum (fun c => z - dem c)) → v.vol e' = some W := by
      rintro e' k W he h0 hk' hkk ⟨z, S, hz, hS, rfl⟩
      obtain ⟨z', S', x, g1, g2, g3, g4, g5⟩ := h3 e' he h0
      rw [hz] at g1; cases g1
      have : S' = S := by ext c; rw [g2, hS]
      subst this
      rw [hk'] at g3
      subst g3
      rw [g4, g5]
      refine lt_of_le_of_lt ?_ hsmall
      have h1 : (S'.card : ℚ) ≤ (w * h : ℕ) := by exact_mod_cast hkk.trans hkN
      have := mul_le_mul_of_nonneg_right h1 hM0
      linarith
    refine ⟨X, Y, Z, one a ka X han ha0 hka (by omega) hA, one b kb Y hbn hb0 hkb (by omega) hB,
      one d kd Z hd hd0 hkd le_rfl hD, ?_⟩
    have hZf : Py.IsFloat 53 Z := by
      have h4 := one d kd Z hd hd0 hkd le_rfl hD
      rw [b5 d hd] at h4
      unfold volOfR at h4
      cases hz : (H.dep d).outElev with
      | none => rw [hz] at h4; cases h4
      | some z =>
        rw [hz] at h4
        cases h4
        exact Py.roundBits_isFloat 53 (by norm_num) _
    have hle : addD X Y ≤ Z := by
      have := Py.roundBits_mono 53 (by norm_num) hXY
      rwa [Py.roundBits_float 53 (by norm_num) Z hZf] at this
    unfold fpLeD
    rcases lt_or_eq_of_le hle with hlt | heq
    · simp [hlt]
    · rw [heq, sub_self]
      have : |roundBits 53 0| < roundBits 53 (1 / 10 ^ 6) := by decide +kernel
      simp only [this, decide_true, Bool.or_true]
  · intro m1 v1 f1 f2
    rw [e1] at f1; cases f1
    rw [e2] at f2; cases f2
    exact b3

end

/-! ### A concrete run -/

/-- A closed basin of nine cells: eight at the double nearest to 0.9, the middle one unit in the last place lower. -/
def tinyDem : Cell → ℚ := fun c =>
  if c = (3, 3) then roundBits 53 (9 / 10) - 1 / 2 ^ 53
  else if 1 ≤ c.1 ∧ c.1 ≤ 5 ∧ 1 ≤ c.2 ∧ c.2 ≤ 5 then roundBits 53 (9 / 10) else 0

def tinyLab : Cell → Option Nat := fun c => if tinyDem c = 0 then some 0 else none

/-- Count and volume of the depression, exact and as computed. -/
def tinyVol (parts : List (List Cell)) : Option ((Nat × Option ℚ) × (Nat × Option ℚ)) :=
  (getDHFlood zPQ 7 7 .D8 tinyDem tinyLab).bind fun s => (depHierarchy s (outletVec s)).bind fun H =>
    (calcMarginal H.n H.dep tinyDem s.label parts).bind fun m =>
    (calcTotal H.n H.dep m).bind fun v =>
    (calcMarginalR H.n H.dep tinyDem s.label parts).bind fun m' =>
    (calcTotalR H.n H.dep m').map fun v' => ((v.count 1, v.vol 1), (v'.count 1, v'.vol 1))

/-- C117, refuted: volumes are not always right in sign, nor independent of the threads: a basin with a positive volume is
given a negative one by one thread, and another one by two threads. -/
theorem C117_refuted :
    tinyVol [allCells 7 7] = some ((9, some (1 / 2 ^ 53)), (9, some (-16 / 2 ^ 53))) ∧
    tinyVol [(allCells 7 7).take 24, (allCells 7 7).drop 24] ≠ tinyVol [allCells 7 7] := by
  constructor <;> decide +kernel

/-- The hypotheses of `C117_error_partial` on the elevations hold for this basin, with `M = 1`; the others by
`C117_refuted`, since the run succeeds. -/
example : (∀ c, InGrid 7 7 c → |tinyDem c| ≤ 1) ∧ ∀ c, InGrid 7 7 c → Py.IsFloat 53 (tinyDem c) := by
  have hu : roundBits 53 (9 / 10) = 8106479329266893 / 2 ^ 53 := by decide +kernel
  refine ⟨fun c _ => ?_, fun c _ => ?_⟩
  · unfold tinyDem
    rw [hu]
    split_ifs <;> norm_num [abs_le]
  · unfold tinyDem
    split_ifs
    · rw [hu]
      exact ⟨8106479329266892, -53, by norm_num, by norm_num [zpow_neg]⟩
    · exact Py.roundBits_isFloat 53 (by norm_num) _
    · exact float_zero

/-- The example of `Props/Volume` in doubles, with whole numbers, so exact: `C117_exact_partial` with `e = 0`. -/
def wholeVol (parts : List (List Cell)) : Option (List (Nat × ℚ × Option ℚ)) :=
  let dem : Cell → ℚ := fun c => (dhDem c : ℚ)
  (getDHFlood zPQ 9 5 .D8 dem (fun c => if dhDem c = 0 then some 0 else none)).bind fun s =>
    (depHierarchy s (outletVec s)).bind fun H =>
    (calcMarginalR H.n H.dep dem s.label parts).bind fun m =>
    (calcTotalR H.n H.dep m).map fun v => (List.range H.n).map fun d => (v.count d, v.tot d, v.vol d)

example : wholeVol [(allCells 9 5).take 20, (allCells 9 5).drop 20] = some [(0, 0, none), (2, 7, some 3), (1, 3, some 2), (1, 4, some 2), (3, 10, some 11)] := by
  decide +kernel

/-- Two pits and a sill just below `2^41`, beside a spill one unit in the last place above the sill, walled in. -/
def twoDem : Cell → ℚ := fun c =>
  if c = (2, 2) then 2 ^ 41 - 972 / 2 ^ 12 else if c = (3, 2) then 2 ^ 41 - 179 / 2 ^ 12
  else if c = (4, 2) then 2 ^ 41 - 690 / 2 ^ 12 else if c = (3, 1) then 2 ^ 41 - 178 / 2 ^ 12
  else if 1 ≤ c.1 ∧ c.1 ≤ 5 ∧ 1 ≤ c.2 ∧ c.2 ≤ 3 then 2 ^ 42 else 0

/-- Whether the exact, the computed and the checked computation of the volumes return. -/
def twoRuns (dem : Cell → ℚ) (parts : List (List Cell)) : Option (Bool × Bool × Bool) :=
  (getDHFlood zPQ 7 5 .D8 dem (fun c => if dem c = 0 then some 0 else none)).bind fun s =>
    (depHierarchy s (outletVec s)).bind fun H =>
    (calcMarginal H.n H.dep dem s.label parts).bind fun m =>
    (calcMarginalR H.n H.dep dem s.label parts).map fun m' =>
      ((calcTotal H.n H.dep m).isSome, (calcTotalR H.n H.dep m').isSome, (calcTotalC H.n H.dep m').isSome)

/-- C117 (assertion), refuted: rounding can make the assertion of line 896 fail, although it holds of the exact volumes. -/
theorem C117_assertion_refuted : twoRuns twoDem [allCells 7 5] = some (true, true, false) := by decide +kernel

/-- The same shape at ordinary elevations passes. -/
example : twoRuns (fun c => if twoDem c = 0 then 0 else twoDem c - 2 ^ 41 + 1000) [allCells 7 5] = some (true, true, true) := by
  decide +kernel

end RichDEM
