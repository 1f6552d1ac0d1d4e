import Verif.Props.FlatsDinf

/-!
Property theorems C101: D-infinity flow follows the steepest descent of the triangulated surface.

`SurfaceSlope` is the specification: the surface around a cell is made of the triangles between the
cell, an orthogonal neighbour and the diagonal neighbour beside it, on each of which the elevation
is linear.
-/

namespace RichDEM

open Real

/-- The unit vector in direction `θ` (counterclockwise from east; rows grow southwards) lies between
`a - c` and `b - c`, and `s` is the drop along it of the plane through `c`, `a` and `b`. -/
def TriangleSlope (z : Cell → ℝ) (c a b : Cell) (θ s : ℝ) : Prop :=
  ∃ u v : ℝ, 0 ≤ u ∧ 0 ≤ v ∧
    u * ((a.1 : ℝ) - c.1) + v * ((b.1 : ℝ) - c.1) = cos θ ∧
    u * ((a.2 : ℝ) - c.2) + v * ((b.2 : ℝ) - c.2) = - sin θ ∧
    s = u * (z c - z a) + v * (z c - z b)

/-- The drop per unit length, from the centre of cell `c` in direction `θ`, of the surface that is linear on each triangle `c`, `a`, `b` where `a` is
an orthogonal neighbour of `c` and `b` a diagonal neighbour of `c` beside `a`.  Only the triangles
whose two outer corners satisfy `ok` are considered. -/
def SurfaceSlope (ok : Cell → Prop) (z : Cell → ℝ) (c : Cell) (θ s : ℝ) : Prop :=
  ∃ a b : Cell, Adj .D4 c a ∧ Adj .D8 c b ∧ Adj .D4 a b ∧ ok a ∧ ok b ∧ TriangleSlope z c a b θ s

/-! ### One triangle -/

theorem atan2_neg {y x : ℝ} (h1 : atan2 y x < 0) : y < 0 := by
  have : (Complex.mk x y).arg < 0 := h1
  exact Complex.arg_neg_iff.1 this

theorem atan2_nonneg {y x : ℝ} (h1 : ¬ atan2 y x < 0) : 0 ≤ y := by
  by_contra h2
  exact h1 ((Complex.arg_neg_iff (z := ⟨x, y⟩)).2 (not_le.1 h2))

theorem atan2_steep {y x : ℝ} (h1 : π / 4 < atan2 y x) (hy : 0 ≤ y) : x ≤ y := by
  have hpi := pi_big
  by_contra h2
  have hx : 0 < x := lt_of_le_of_lt hy (not_le.1 h2)
  have h3 := (Complex.abs_arg_lt_pi_div_two_iff (z := ⟨x, y⟩)).2 (.inl hx)
  have h4 : atan2 y x < π / 2 := (abs_lt.1 h3).2
  have h5 : tan (π / 4) < tan (atan2 y x) :=
    tan_lt_tan_of_lt_of_lt_pi_div_two (by linarith) h4 h1
  rw [tan_pi_div_four] at h5
  have h6 : tan (atan2 y x) = y / x := Complex.tan_arg ⟨x, y⟩
  rw [h6, lt_div_iff₀ hx] at h5
  linarith

/-- The slope of a facet is at least the slope in any direction within it, if that goes down. -/
theorem dinfRS_max (e0 e1 e2 u v : ℝ) (hu : 0 ≤ u) (hv : 0 ≤ v) (h1 : (u + v) ^ 2 + v ^ 2 = 1) :
    u * (e0 - e1) + v * (e0 - e2) ≤ max 0 (dinfRS e0 e1 e2).2 := by
  set s1 := e0 - e1 with hs1
  set s2 := e1 - e2 with hs2
  have e : u * s1 + v * (e0 - e2) = (u + v) * s1 + v * s2 := by rw [hs1, hs2]; ring
  rw [e]
  have hp1 : u + v ≤ 1 := by nlinarith
  unfold dinfRS
  simp only
  rw [← hs1, ← hs2]
  by_cases h2 : atan2 s2 s1 < 0
  · rw [if_pos h2]
    simp only
    have h3 := atan2_neg h2
    have h4 : v * s2 ≤ 0 := by nlinarith
    rcases le_total 0 s1 with h5 | h5
    · refine le_trans ?_ (le_max_right _ _); nlinarith
    · refine le_trans ?_ (le_max_left _ _); nlinarith
  · rw [if_neg h2]
    have h3 := atan2_nonneg h2
    by_cases h4 : π / 4 < atan2 s2 s1
    · rw [if_pos h4]
      simp only
      have h5 := atan2_steep h4 h3
      have e2' : e0 - e2 = s1 + s2 := by rw [hs1, hs2]; ring
      rw [e2']
      have hr2 : (0 : ℝ) < Real.sqrt 2 := by positivity
      have hsq : Real.sqrt 2 * Real.sqrt 2 = 2 := Real.mul_self_sqrt (by norm_num)
      have h6 : u + v + v ≤ Real.sqrt 2 := by
        apply Real.le_sqrt_of_sq_le
        nlinarith [sq_nonneg u]
      have h7 : (u + v) * s1 + v * s2 ≤ (u + v + v) / 2 * (s1 + s2) := by nlinarith
      rcases le_total 0 (s1 + s2) with h8 | h8
      · refine le_trans ?_ (le_max_right _ _)
        refine le_trans h7 ?_
        rw [le_div_iff₀ hr2]
        nlinarith [mul_nonneg (sub_nonneg.2 h6) h8, mul_nonneg (mul_nonneg (sub_nonneg.2 h6) h8) hr2.le]
      · refine le_trans ?_ (le_max_left _ _)
        refine le_trans h7 ?_
        have : 0 ≤ (u + v + v) / 2 := by linarith
        nlinarith
    · rw [if_neg h4]
      refine le_trans ?_ (le_max_right _ _)
      apply Real.le_sqrt_of_sq_le
      nlinarith [sq_nonneg ((u + v) * s2 - v * s1)]

/-- The slope of a facet is that in the direction the facet reports. -/
theorem dinfRS_attained (e0 e1 e2 : ℝ) :
    0 ≤ (dinfRS e0 e1 e2).1 ∧ (dinfRS e0 e1 e2).1 ≤ π / 4 ∧
    (dinfRS e0 e1 e2).2 = (cos (dinfRS e0 e1 e2).1 - sin (dinfRS e0 e1 e2).1) * (e0 - e1) +
      sin (dinfRS e0 e1 e2).1 * (e0 - e2) := by
  have hpi := pi_big
  unfold dinfRS
  simp only
  by_cases h2 : atan2 (e1 - e2) (e0 - e1) < 0
  · rw [if_pos h2]; simp; linarith
  · rw [if_neg h2]
    by_cases h4 : π / 4 < atan2 (e1 - e2) (e0 - e1)
    · rw [if_pos h4]
      refine ⟨by simp only; linarith, le_refl _, ?_⟩
      simp only [cos_pi_div_four, sin_pi_div_four]
      have hsq : Real.sqrt 2 * Real.sqrt 2 = 2 := Real.mul_self_sqrt (by norm_num)
      have hr2 : (0 : ℝ) < Real.sqrt 2 := by positivity
      rw [div_eq_iff hr2.ne', sub_self, zero_mul, zero_add,
        show Real.sqrt 2 / 2 * (e0 - e2) * Real.sqrt 2 = (Real.sqrt 2 * Real.sqrt 2) / 2 * (e0 - e2) by ring,
        hsq]
      ring
    · rw [if_neg h4]
      refine ⟨not_lt.1 h2, not_lt.1 h4, ?_⟩
      simp only
      set z : ℂ := ⟨e0 - e1, e1 - e2⟩ with hz
      have hc : ‖z‖ * cos (atan2 (e1 - e2) (e0 - e1)) = e0 - e1 := Complex.norm_mul_cos_arg z
      have hs : ‖z‖ * sin (atan2 (e1 - e2) (e0 - e1)) = e1 - e2 := Complex.norm_mul_sin_arg z
      have hn : Real.sqrt ((e0 - e1) * (e0 - e1) + (e1 - e2) * (e1 - e2)) = ‖z‖ := by
        rw [Complex.norm_def, Complex.normSq_apply]
      rw [hn]
      have e' : e0 - e2 = (e0 - e1) + (e1 - e2) := by ring
      rw [e']
      generalize atan2 (e1 - e2) (e0 - e1) = r at hc hs
      rw [← hc, ← hs,
        show (cos r - sin r) * (‖z‖ * cos r) + sin r * (‖z‖ * cos r + ‖z‖ * sin r) =
          ‖z‖ * (sin r ^ 2 + cos r ^ 2) by ring, sin_sq_add_cos_sq, mul_one]

/-! ### The eight triangles -/

theorem facet_triangle (c a b : Cell) (h1 : Adj .D4 c a) (h2 : Adj .D8 c b) (h3 : Adj .D4 a b) :
    ∃ n < 8, a = dinfE1 c n ∧ b = dinfE2 c n := by
  obtain ⟨i, hi, rfl⟩ := adj_iff_nbr.1 h1
  obtain ⟨j, hj, rfl⟩ := adj_iff_nbr.1 h2
  obtain ⟨k, hk, e⟩ := adj_iff_nbr.1 h3
  obtain ⟨x, y⟩ := c
  have key : ∀ i ∈ dirs .D4, ∀ j ∈ dirs .D8, ∀ k ∈ dirs .D4,
      dx .D8 j = dx .D4 i + dx .D4 k → dy .D8 j = dy .D4 i + dy .D4 k →
      ∃ n < 8, dinfE1 (0, 0) n = (dx .D4 i, dy .D4 i) ∧ dinfE2 (0, 0) n = (dx .D8 j, dy .D8 j) := by
    decide +kernel
  unfold nbr at e
  simp only [Prod.mk.injEq] at e
  obtain ⟨n, hn, e1, e2⟩ := key i hi j hj k hk (by linarith [e.1]) (by linarith [e.2])
  refine ⟨n, hn, ?_, ?_⟩
  · unfold dinfE1 at e1 ⊢; unfold nbr
    simp only [Prod.mk.injEq, zero_add] at e1 ⊢
    rw [← e1.1, ← e1.2]; exact ⟨rfl, rfl⟩
  · unfold dinfE2 at e2 ⊢; unfold nbr
    simp only [Prod.mk.injEq, zero_add] at e2 ⊢
    rw [← e2.1, ← e2.2]; exact ⟨rfl, rfl⟩

theorem triangle_facet (c : Cell) : ∀ n < 8, Adj .D4 c (dinfE1 c n) ∧ Adj .D8 c (dinfE2 c n) ∧
    Adj .D4 (dinfE1 c n) (dinfE2 c n) := by
  intro n hn
  refine ⟨?_, dinfE2_adj c n hn, ?_⟩
  · obtain ⟨x, y⟩ := c
    have key : ∀ n < 8, ∃ i ∈ dirs .D4, dinfE1 (0, 0) n = (dx .D4 i, dy .D4 i) := by decide +kernel
    obtain ⟨i, hi, e⟩ := key n hn
    refine adj_iff_nbr.2 ⟨i, hi, ?_⟩
    unfold dinfE1 at e ⊢; unfold nbr
    simp only [Prod.mk.injEq, zero_add] at e ⊢
    rw [e.1, e.2]; exact ⟨rfl, rfl⟩
  · obtain ⟨x, y⟩ := c
    have key : ∀ n < 8, ∃ i ∈ dirs .D4,
        dinfE2 (0, 0) n = ((dinfE1 (0, 0) n).1 + dx .D4 i, (dinfE1 (0, 0) n).2 + dy .D4 i) := by
      decide +kernel
    obtain ⟨i, hi, e⟩ := key n hn
    refine adj_iff_nbr.2 ⟨i, hi, ?_⟩
    unfold dinfE1 dinfE2 at *; unfold nbr
    simp only [Prod.mk.injEq, zero_add] at e ⊢
    rw [e.1, e.2]; exact ⟨by ring, by ring⟩

/-- Offsets of the corners of facet `n`, as integers. -/
theorem facet_offsets (c : Cell) (n : Nat) :
    ((dinfE1 c n).1 : ℝ) - c.1 = (([1, 0, 0, -1, -1, 0, 0, 1] : List Int).getD n 0 : Int) ∧
    ((dinfE1 c n).2 : ℝ) - c.2 = (([0, -1, -1, 0, 0, 1, 1, 0] : List Int).getD n 0 : Int) ∧
    ((dinfE2 c n).1 : ℝ) - c.1 = (([1, 1, -1, -1, -1, -1, 1, 1] : List Int).getD n 0 : Int) ∧
    ((dinfE2 c n).2 : ℝ) - c.2 = (([-1, -1, -1, -1, 1, 1, 1, 1] : List Int).getD n 0 : Int) := by
  unfold dinfE1 dinfE2
  refine ⟨?_, ?_, ?_, ?_⟩ <;> push_cast <;> ring

theorem unit_of_facet (c : Cell) (n : Nat) (hn : n < 8) (u v θ : ℝ)
    (h1 : u * (((dinfE1 c n).1 : ℝ) - c.1) + v * (((dinfE2 c n).1 : ℝ) - c.1) = cos θ)
    (h2 : u * (((dinfE1 c n).2 : ℝ) - c.2) + v * (((dinfE2 c n).2 : ℝ) - c.2) = - sin θ) :
    (u + v) ^ 2 + v ^ 2 = 1 := by
  have h3 := sin_sq_add_cos_sq θ
  obtain ⟨o1, o2, o3, o4⟩ := facet_offsets c n
  rw [o1, o3] at h1
  rw [o2, o4] at h2
  have e1 := h1.symm
  have e2 : sin θ = - (u * ((([0, -1, -1, 0, 0, 1, 1, 0] : List Int).getD n 0 : Int) : ℝ) +
    v * ((([-1, -1, -1, -1, 1, 1, 1, 1] : List Int).getD n 0 : Int) : ℝ)) := by linarith
  rw [e1, e2] at h3
  rw [← h3]
  interval_cases n <;> simp <;> ring

theorem facet_direction (c : Cell) (n : Nat) (hn : n < 8) (r : ℝ) :
    (cos r - sin r) * (((dinfE1 c n).1 : ℝ) - c.1) + sin r * (((dinfE2 c n).1 : ℝ) - c.1) =
      cos ((dinfAf n : ℝ) * r + (dinfAc n : ℝ) * π / 2) ∧
    (cos r - sin r) * (((dinfE1 c n).2 : ℝ) - c.2) + sin r * (((dinfE2 c n).2 : ℝ) - c.2) =
      - sin ((dinfAf n : ℝ) * r + (dinfAc n : ℝ) * π / 2) := by
  obtain ⟨o1, o2, o3, o4⟩ := facet_offsets c n
  rw [o1, o2, o3, o4, cos_add, sin_add]
  have c2 : cos (2 * π / 2) = -1 := by rw [show 2 * π / 2 = π by ring, cos_pi]
  have s2 : sin (2 * π / 2) = 0 := by rw [show 2 * π / 2 = π by ring, sin_pi]
  have c3 : cos (3 * π / 2) = 0 := by
    rw [show 3 * π / 2 = π / 2 + π by ring, cos_add_pi, cos_pi_div_two, neg_zero]
  have s3 : sin (3 * π / 2) = -1 := by
    rw [show 3 * π / 2 = π / 2 + π by ring, sin_add_pi, sin_pi_div_two]
  have c4 : cos (4 * π / 2) = 1 := by rw [show 4 * π / 2 = 2 * π by ring, cos_two_pi]
  have s4 : sin (4 * π / 2) = 0 := by rw [show 4 * π / 2 = 2 * π by ring, sin_two_pi]
  interval_cases n <;> simp [dinfAf, dinfAc, c3, s3, c4, s4] <;> ring

/-! ### The steepest facet -/

theorem facetFold_spec (dem : Cell → ℝ) (c : Cell) (l : List Nat) :
    let b := l.foldl (dinfFacetStep dem c) { n := none, s := 0, r := 0 }
    (∀ n ∈ l, (dinfRS (dem c) (dem (dinfE1 c n)) (dem (dinfE2 c n))).2 ≤ b.s) ∧
    ((b.n = none ∧ b.s = 0) ∨ ∃ n ∈ l, b.n = some n ∧ 0 < b.s ∧
      (b.r, b.s) = dinfRS (dem c) (dem (dinfE1 c n)) (dem (dinfE2 c n))) := by
  have key : ∀ (l P : List Nat) (b : DFacet),
      ((∀ n ∈ P, (dinfRS (dem c) (dem (dinfE1 c n)) (dem (dinfE2 c n))).2 ≤ b.s) ∧
      ((b.n = none ∧ b.s = 0) ∨ ∃ n ∈ P, b.n = some n ∧ 0 < b.s ∧
        (b.r, b.s) = dinfRS (dem c) (dem (dinfE1 c n)) (dem (dinfE2 c n)))) →
      let b' := l.foldl (dinfFacetStep dem c) b
      (∀ n ∈ P ++ l, (dinfRS (dem c) (dem (dinfE1 c n)) (dem (dinfE2 c n))).2 ≤ b'.s) ∧
      ((b'.n = none ∧ b'.s = 0) ∨ ∃ n ∈ P ++ l, b'.n = some n ∧ 0 < b'.s ∧
        (b'.r, b'.s) = dinfRS (dem c) (dem (dinfE1 c n)) (dem (dinfE2 c n))) := by
    intro l
    induction l with
    | nil => intro P b hb; simpa using hb
    | cons a l ih =>
      intro P b hb
      rw [show P ++ a :: l = (P ++ [a]) ++ l by simp, List.foldl_cons]
      apply ih
      unfold dinfFacetStep
      simp only
      have hb0 : 0 ≤ b.s := by
        rcases hb.2 with h1 | ⟨_, _, _, h1, _⟩
        · exact h1.2.ge
        · exact h1.le
      split
      · rename_i hlt
        refine ⟨?_, .inr ⟨a, by simp, rfl, lt_of_le_of_lt hb0 hlt, rfl⟩⟩
        intro n hn
        rcases List.mem_append.1 hn with hn | hn
        · exact (hb.1 n hn).trans hlt.le
        · rw [List.mem_singleton.1 hn]
      · rename_i hlt
        refine ⟨?_, ?_⟩
        · intro n hn
          rcases List.mem_append.1 hn with hn | hn
          · exact hb.1 n hn
          · rw [List.mem_singleton.1 hn]; exact not_lt.1 hlt
        · rcases hb.2 with h1 | ⟨n, hn, h1⟩
          · exact .inl h1
          · exact .inr ⟨n, by simp [hn], h1⟩
  have := key l [] { n := none, s := 0, r := 0 } ⟨by simp, .inl ⟨rfl, rfl⟩⟩
  simpa using this

/-- The facet found by scanning `l`, where `l` are the facets whose corners satisfy `ok`. -/
theorem facetFold_steepest (dem : Cell → ℝ) (c : Cell) (ok : Cell → Prop) (l : List Nat)
    (hl : ∀ n, n ∈ l ↔ n < 8 ∧ ok (dinfE1 c n) ∧ ok (dinfE2 c n)) :
    let b := l.foldl (dinfFacetStep dem c) { n := none, s := 0, r := 0 }
    (b.n = none ∧ ∀ θ s, SurfaceSlope ok dem c θ s → s ≤ 0) ∨
    ∃ n, b.n = some n ∧ 0 < b.s ∧
      SurfaceSlope ok dem c ((dinfAf n : ℝ) * b.r + (dinfAc n : ℝ) * π / 2) b.s ∧
      ∀ θ s, SurfaceSlope ok dem c θ s → s ≤ b.s := by
  have hpi := pi_big
  intro b
  obtain ⟨h1, h2⟩ := facetFold_spec dem c l
  have hb0 : 0 ≤ b.s := by
    rcases h2 with h3 | ⟨_, _, _, h3, _⟩
    · exact h3.2.ge
    · exact h3.le
  have hmax : ∀ θ s, SurfaceSlope ok dem c θ s → s ≤ b.s := by
    rintro θ s ⟨a, d, ha, hd, had, oa, od, u, v, hu, hv, e1, e2, rfl⟩
    obtain ⟨n, hn, rfl, rfl⟩ := facet_triangle c a d ha hd had
    have h3 := dinfRS_max (dem c) (dem (dinfE1 c n)) (dem (dinfE2 c n)) u v hu hv
      (unit_of_facet c n hn u v θ e1 e2)
    exact h3.trans (max_le hb0 (h1 n ((hl n).2 ⟨hn, oa, od⟩)))
  rcases h2 with h3 | ⟨n, hn, h3, h4, h5⟩
  · exact .inl ⟨h3.1, fun θ s hs => (hmax θ s hs).trans h3.2.le⟩
  · refine .inr ⟨n, h3, h4, ?_, hmax⟩
    obtain ⟨hn8, oa, od⟩ := (hl n).1 hn
    obtain ⟨t1, t2, t3⟩ := triangle_facet c n hn8
    obtain ⟨a1, a2, a3⟩ := dinfRS_attained (dem c) (dem (dinfE1 c n)) (dem (dinfE2 c n))
    have hr : b.r = (dinfRS (dem c) (dem (dinfE1 c n)) (dem (dinfE2 c n))).1 :=
      congrArg Prod.fst h5
    have hs : b.s = (dinfRS (dem c) (dem (dinfE1 c n)) (dem (dinfE2 c n))).2 :=
      congrArg Prod.snd h5
    rw [← hr, ← hs] at a3
    rw [← hr] at a1 a2
    obtain ⟨d1, d2⟩ := facet_direction c n hn8 b.r
    have hsin : 0 ≤ sin b.r := sin_nonneg_of_nonneg_of_le_pi a1 (by linarith)
    have hcs : sin b.r ≤ cos b.r := by
      have h6 : sin b.r ≤ sin (π / 4) := sin_le_sin_of_le_of_le_pi_div_two (by linarith) (by linarith) a2
      have h7 : cos (π / 4) ≤ cos b.r := cos_le_cos_of_nonneg_of_le_pi a1 (by linarith) a2
      rw [sin_pi_div_four] at h6
      rw [cos_pi_div_four] at h7
      exact h6.trans h7
    exact ⟨_, _, t1, t2, t3, oa, od, cos b.r - sin b.r, sin b.r, by linarith, hsin, d1, d2, a3⟩

/-! ### C101 -/

/-- The specification covers every direction: on a raster with all triangles allowed, every
direction has a slope. -/
theorem C101_every_direction (z : Cell → ℝ) (c : Cell) (θ : ℝ) :
    ∃ s, SurfaceSlope (fun _ => True) z c θ s := by
  have mk : ∀ (n : Nat), n < 8 → ∀ u v : ℝ, 0 ≤ u → 0 ≤ v →
      u * ((([1, 0, 0, -1, -1, 0, 0, 1] : List Int).getD n 0 : Int) : ℝ) +
        v * ((([1, 1, -1, -1, -1, -1, 1, 1] : List Int).getD n 0 : Int) : ℝ) = cos θ →
      u * ((([0, -1, -1, 0, 0, 1, 1, 0] : List Int).getD n 0 : Int) : ℝ) +
        v * ((([-1, -1, -1, -1, 1, 1, 1, 1] : List Int).getD n 0 : Int) : ℝ) = - sin θ →
      ∃ s, SurfaceSlope (fun _ => True) z c θ s := by
    intro n hn u v hu hv e1 e2
    obtain ⟨t1, t2, t3⟩ := triangle_facet c n hn
    obtain ⟨o1, o2, o3, o4⟩ := facet_offsets c n
    rw [← o1, ← o3] at e1
    rw [← o2, ← o4] at e2
    exact ⟨_, _, _, t1, t2, t3, trivial, trivial, u, v, hu, hv, e1, e2, rfl⟩
  rcases le_total 0 (cos θ) with hc | hc <;> rcases le_total 0 (sin θ) with hs | hs
  · rcases le_total (sin θ) (cos θ) with h1 | h1
    · exact mk 0 (by norm_num) (cos θ - sin θ) (sin θ) (by linarith) hs (by simp) (by simp)
    · exact mk 1 (by norm_num) (sin θ - cos θ) (cos θ) (by linarith) hc (by simp) (by simp; ring)
  · rcases le_total (-sin θ) (cos θ) with h1 | h1
    · exact mk 7 (by norm_num) (cos θ + sin θ) (-sin θ) (by linarith) (by linarith) (by simp) (by simp)
    · exact mk 6 (by norm_num) (-sin θ - cos θ) (cos θ) (by linarith) hc (by simp) (by simp)
  · rcases le_total (sin θ) (-cos θ) with h1 | h1
    · exact mk 3 (by norm_num) (-cos θ - sin θ) (sin θ) (by linarith) hs (by simp) (by simp)
    · exact mk 2 (by norm_num) (sin θ + cos θ) (-cos θ) (by linarith) (by linarith) (by simp) (by simp)
  · rcases le_total (-sin θ) (-cos θ) with h1 | h1
    · exact mk 4 (by norm_num) (-cos θ + sin θ) (-sin θ) (by linarith) (by linarith) (by simp) (by simp)
    · exact mk 5 (by norm_num) (-sin θ + cos θ) (-cos θ) (by linarith) (by linarith) (by simp) (by simp)

/-- C101: the angle `dinf_flow_directions` stores for an interior data cell (here in units of π/4) is
a direction in which the triangulated surface falls most steeply; it is 0 if the surface falls in no
direction.  Neighbours without data count with the NoData value as their elevation. -/
theorem C101_steepest (w h : Nat) (dem : Cell → ℝ) (nd : ℝ) (c : Cell) (hc : InGrid w h c)
    (hd : dem c ≠ nd) (he : ¬ OnEdge w h c) :
    (dinfFlowDirections w h dem nd c = 0 ∧ ∀ θ s, SurfaceSlope (fun _ => True) dem c θ s → s ≤ 0) ∨
    ∃ s, 0 < s ∧ SurfaceSlope (fun _ => True) dem c (dinfFlowDirections w h dem nd c * (π / 4)) s ∧
      ∀ θ' s', SurfaceSlope (fun _ => True) dem c θ' s' → s' ≤ s := by
  have hpi := pi_big
  have he' : ¬ isEdgeCell w h c = true := by rw [isEdgeCell_iff hc]; exact he
  have hv : dinfFlowDirections w h dem nd c * (π / 4) = dinfFlowDir w h dem c := by
    unfold dinfFlowDirections
    rw [if_neg hd, div_mul_cancel₀]
    linarith
  rcases facetFold_steepest dem c (fun _ => True) (List.range 8) (by simp) with ⟨h1, h2⟩ | ⟨n, h1, h2, h3, h4⟩
  · left
    refine ⟨?_, h2⟩
    unfold dinfFlowDirections
    rw [if_neg hd]
    unfold dinfFlowDir
    rw [if_neg he']
    have e : (dinfBest dem c).n = none := h1
    rw [e]; simp
  · right
    refine ⟨_, h2, ?_, h4⟩
    rw [hv]
    unfold dinfFlowDir
    rw [if_neg he']
    have e : (dinfBest dem c).n = some n := h1
    rw [e]
    exact h3

/-- C101: on an inclined plane that falls by `g` per unit length in direction `φ`, every interior data
cell gets the direction `φ`. -/
theorem C101_plane (w h : Nat) (dem : Cell → ℝ) (nd : ℝ) (c : Cell) (hc : InGrid w h c)
    (hd : dem c ≠ nd) (he : ¬ OnEdge w h c) (z0 g φ : ℝ) (hg : 0 < g)
    (hp : ∀ b, dem b = z0 - g * (cos φ * b.1 - sin φ * b.2)) :
    cos (dinfFlowDirections w h dem nd c * (π / 4)) = cos φ ∧
    sin (dinfFlowDirections w h dem nd c * (π / 4)) = sin φ := by
  have hslope : ∀ θ s, SurfaceSlope (fun _ => True) dem c θ s → s = g * (cos φ * cos θ + sin φ * sin θ) := by
    rintro θ s ⟨a, b, -, -, -, -, -, u, v, -, -, e1, e2, rfl⟩
    rw [hp c, hp a, hp b, ← e1, show sin θ = - (u * ((a.2 : ℝ) - c.2) + v * ((b.2 : ℝ) - c.2)) by linarith]
    ring
  obtain ⟨s0, hs0⟩ := C101_every_direction dem c φ
  have e0 : s0 = g := by
    rw [hslope φ s0 hs0, show cos φ * cos φ + sin φ * sin φ = sin φ ^ 2 + cos φ ^ 2 by ring,
      sin_sq_add_cos_sq, mul_one]
  rcases C101_steepest w h dem nd c hc hd he with ⟨_, h2⟩ | ⟨s, _, h2, h3⟩
  · have := h2 φ s0 hs0; linarith
  · have h4 := h3 φ s0 hs0
    rw [hslope _ s h2, e0] at h4
    set θ := dinfFlowDirections w h dem nd c * (π / 4)
    have h5 : 1 ≤ cos φ * cos θ + sin φ * sin θ := by
      by_contra h6
      have := mul_lt_mul_of_pos_left (not_le.1 h6) hg
      linarith
    have h6 := sin_sq_add_cos_sq θ
    have h7 := sin_sq_add_cos_sq φ
    have h8 : (cos θ - cos φ) ^ 2 + (sin θ - sin φ) ^ 2 ≤ 0 := by nlinarith
    constructor
    · have : (cos θ - cos φ) ^ 2 = 0 := le_antisymm (by nlinarith [sq_nonneg (sin θ - sin φ)]) (sq_nonneg _)
      have := pow_eq_zero_iff (two_ne_zero) |>.1 this
      linarith
    · have : (sin θ - sin φ) ^ 2 = 0 := le_antisymm (by nlinarith [sq_nonneg (cos θ - cos φ)]) (sq_nonneg _)
      have := pow_eq_zero_iff (two_ne_zero) |>.1 this
      linarith

/-- Direction `θ` leads from the centre of `c` to the centre of `b`. -/
def PointsAt (θ : ℝ) (c b : Cell) : Prop :=
  ∃ ρ : ℝ, 0 < ρ ∧ (b.1 : ℝ) - c.1 = ρ * cos θ ∧ (b.2 : ℝ) - c.2 = - (ρ * sin θ)

theorem d8ToDinf_points (c : Cell) (n : Nat) (hn : n ∈ dirs .D8) :
    PointsAt ((d8ToDinf n : ℝ) * (π / 4)) c (nbr .D8 c n) := by
  have hr2 : (0 : ℝ) < Real.sqrt 2 := by positivity
  have hsq : Real.sqrt 2 * Real.sqrt 2 = 2 := Real.mul_self_sqrt (by norm_num)
  have a1 : (π : ℝ) / 4 = π / 4 := rfl
  have a2 : 2 * (π / 4) = π / 2 := by ring
  have a3 : 3 * (π / 4) = π - π / 4 := by ring
  have a4 : 4 * (π / 4) = π := by ring
  have a5 : 5 * (π / 4) = π / 4 + π := by ring
  have a6 : 6 * (π / 4) = π / 2 + π := by ring
  have a7 : 7 * (π / 4) = 2 * π - π / 4 := by ring
  have hn' : 1 ≤ n ∧ n ≤ 8 := mem_dirs.1 hn
  obtain ⟨x, y⟩ := c
  unfold PointsAt nbr
  obtain ⟨h1, h2⟩ := hn'
  have e : Real.sqrt 2 * (Real.sqrt 2 / 2) = 1 := by
    rw [← mul_div_assoc, hsq]; norm_num
  interval_cases n <;> simp only [d8ToDinf, dx, dy, d8x, d8y]
  · exact ⟨1, one_pos, by simp [a4], by simp [a4]⟩
  · exact ⟨Real.sqrt 2, hr2, by simp [a3, cos_pi_sub, e], by simp [a3, sin_pi_sub, e]⟩
  · exact ⟨1, one_pos, by simp [a2], by simp [a2]⟩
  · exact ⟨Real.sqrt 2, hr2, by simp [e], by simp [e]⟩
  · exact ⟨1, one_pos, by simp, by simp⟩
  · exact ⟨Real.sqrt 2, hr2, by simp [a7, cos_two_pi_sub, e], by simp [a7, sin_two_pi_sub, e]⟩
  · exact ⟨1, one_pos, by simp [a6, cos_add_pi], by simp [a6, sin_add_pi]⟩
  · exact ⟨Real.sqrt 2, hr2, by simp [a5, cos_add_pi, e], by simp [a5, sin_add_pi, e]⟩

/-- C101: on the border `dinf_flow_directions` points straight out of the raster: away from the side the cell is
on, along neither axis it is not on the side of, and diagonally in the corners. -/
theorem C101_border (w h : Nat) (hw : 2 ≤ w) (hh : 2 ≤ h) (dem : Cell → ℝ) (nd : ℝ) (c : Cell) (hc : InGrid w h c)
    (hd : dem c ≠ nd) (he : OnEdge w h c) :
    (c.1 = 0 → cos (dinfFlowDirections w h dem nd c * (π / 4)) < 0) ∧
    (c.1 = (w : Int) - 1 → 0 < cos (dinfFlowDirections w h dem nd c * (π / 4))) ∧
    (c.1 ≠ 0 → c.1 ≠ (w : Int) - 1 → cos (dinfFlowDirections w h dem nd c * (π / 4)) = 0) ∧
    (c.2 = 0 → 0 < sin (dinfFlowDirections w h dem nd c * (π / 4))) ∧
    (c.2 = (h : Int) - 1 → sin (dinfFlowDirections w h dem nd c * (π / 4)) < 0) ∧
    (c.2 ≠ 0 → c.2 ≠ (h : Int) - 1 → sin (dinfFlowDirections w h dem nd c * (π / 4)) = 0) := by
  have hpi := pi_big
  have hv : dinfFlowDirections w h dem nd c * (π / 4) = dinfFlowDir w h dem c := by
    unfold dinfFlowDirections
    rw [if_neg hd, div_mul_cancel₀]
    linarith
  rw [hv]
  unfold dinfFlowDir
  rw [if_pos ((isEdgeCell_iff hc).2 he)]
  have hr2 : 0 < Real.sqrt 2 / 2 := by positivity
  have a3 : 3 * π / 4 = π - π / 4 := by ring
  have a5 : 5 * π / 4 = π / 4 + π := by ring
  have a7 : 7 * π / 4 = 2 * π - π / 4 := by ring
  have a2 : 2 * π / 4 = π / 2 := by ring
  have a6 : 6 * π / 4 = π / 2 + π := by ring
  have a4 : 4 * π / 4 = π := by ring
  have a1 : 1 * π / 4 = π / 4 := by ring
  have a0 : 0 * π / 4 = 0 := by ring
  rw [a3, a5, a7, a2, a6, a4, a1, a0]
  obtain ⟨x, y⟩ := c
  simp only [OnEdge] at he
  simp only
  split_ifs <;>
    simp only [cos_pi_sub, sin_pi_sub, cos_add_pi, sin_add_pi, cos_two_pi_sub, sin_two_pi_sub, cos_pi_div_four,
      sin_pi_div_four, cos_pi_div_two, sin_pi_div_two, cos_pi, sin_pi, cos_zero, sin_zero] <;>
    refine ⟨fun _ => ?_, fun _ => ?_, fun _ _ => ?_, fun _ => ?_, fun _ => ?_, fun _ _ => ?_⟩ <;>
    first | (exfalso; omega) | linarith | simp

/-- C101: `dinf_masked_FlowDir`, given a mask and labels, points where the mask falls most steeply
among the triangles whose corners carry the cell's label; if no such triangle falls it points at
the first D8 neighbour with the same label and a lower mask; if there is none it is 0. -/
theorem C101_masked (mask labels : Cell → Int) (c : Cell) :
    (∃ s, 0 < s ∧ SurfaceSlope (fun b => labels b = labels c) (fun b => (mask b : ℝ)) c
        (dinfMaskedFlowDir mask labels c * (π / 4)) s ∧
      ∀ θ' s', SurfaceSlope (fun b => labels b = labels c) (fun b => (mask b : ℝ)) c θ' s' → s' ≤ s) ∨
    ((∀ θ s, SurfaceSlope (fun b => labels b = labels c) (fun b => (mask b : ℝ)) c θ s → s ≤ 0) ∧
      ((∃ n ∈ dirs .D8, labels (nbr .D8 c n) = labels c ∧ mask (nbr .D8 c n) < mask c ∧
          (∀ m < n, m ∈ dirs .D8 → labels (nbr .D8 c m) = labels c → mask c ≤ mask (nbr .D8 c m)) ∧
          PointsAt (dinfMaskedFlowDir mask labels c * (π / 4)) c (nbr .D8 c n)) ∨
       ((∀ b, Adj .D8 c b → labels b = labels c → mask c ≤ mask b) ∧
        dinfMaskedFlowDir mask labels c = 0))) := by
  have hpi := pi_big
  have hp4 : π / 4 ≠ 0 := by linarith
  rcases facetFold_steepest (fun b => (mask b : ℝ)) c (fun b => labels b = labels c)
    (maskedFacets labels c) (by
      intro n
      simp only [maskedFacets, List.mem_filter, List.mem_range, Bool.and_eq_true, decide_eq_true_eq])
    with ⟨h1, h2⟩ | ⟨n, h1, h2, h3, h4⟩
  · right
    refine ⟨h2, ?_⟩
    have e : (maskedBest mask labels c).n = none := h1
    unfold dinfMaskedFlowDir
    rw [e]
    cases hf : maskedFallback mask labels c with
    | none =>
      right
      refine ⟨?_, rfl⟩
      intro b hb hl
      obtain ⟨n, hn, rfl⟩ := adj_iff_nbr.1 hb
      have := List.find?_eq_none.1 hf n hn
      simpa [hl] using this
    | some n =>
      left
      have hp := List.find?_some hf
      have hm := List.mem_of_find?_eq_some hf
      simp only [Bool.and_eq_true, decide_eq_true_eq] at hp
      refine ⟨n, hm, hp.1, hp.2, ?_, d8ToDinf_points c n hm⟩
      intro m hmn hm' hl
      have hf' := List.find?_eq_some_iff_append.1 hf
      obtain ⟨-, as, bs, eab, hz⟩ := hf'
      have hmem : m ∈ as := by
        have hm2 : m ∈ as ++ n :: bs := eab ▸ hm'
        rcases List.mem_append.1 hm2 with h5 | h5
        · exact h5
        · exfalso
          have hsorted : (dirs .D8).Pairwise (· < ·) := by decide
          rw [eab, List.pairwise_append] at hsorted
          have h6 := List.pairwise_cons.1 hsorted.2.1
          rcases List.mem_cons.1 h5 with h7 | h7
          · omega
          · have := h6.1 m h7; omega
      have := hz m hmem
      simpa [hl] using this
  · left
    refine ⟨_, h2, ?_, h4⟩
    have e : (maskedBest mask labels c).n = some n := h1
    unfold dinfMaskedFlowDir
    rw [e]
    simp only
    rw [div_mul_cancel₀ _ hp4]
    exact h3

/-! ### FM_Tarboton -/

theorem facetRS_attained (e0 e1 e2 : ℝ) :
    0 ≤ (facetRS e0 e1 e2).1 ∧ (facetRS e0 e1 e2).1 ≤ π / 4 ∧
    (facetRS e0 e1 e2).2 = (cos (facetRS e0 e1 e2).1 - sin (facetRS e0 e1 e2).1) * (e0 - e1) +
      sin (facetRS e0 e1 e2).1 * (e0 - e2) := by
  have hpi := pi_big
  unfold facetRS
  simp only
  by_cases h2 : atan2 (e1 - e2) (e0 - e1) < 1e-7
  · rw [if_pos h2]; simp; linarith
  · rw [if_neg h2]
    by_cases h4 : π / 4 - 1e-7 < atan2 (e1 - e2) (e0 - e1)
    · rw [if_pos h4]
      refine ⟨by simp only; linarith, le_refl _, ?_⟩
      simp only [cos_pi_div_four, sin_pi_div_four]
      have hsq : Real.sqrt 2 * Real.sqrt 2 = 2 := Real.mul_self_sqrt (by norm_num)
      have hr2 : (0 : ℝ) < Real.sqrt 2 := by positivity
      rw [div_eq_iff hr2.ne', sub_self, zero_mul, zero_add,
        show Real.sqrt 2 / 2 * (e0 - e2) * Real.sqrt 2 = (Real.sqrt 2 * Real.sqrt 2) / 2 * (e0 - e2) by ring,
        hsq]
      ring
    · have h2' := not_lt.1 h2
      have h4' := not_lt.1 h4
      have e : (if π / 4 - 1e-7 < atan2 (e1 - e2) (e0 - e1) then (π / 4, (e0 - e2) / Real.sqrt 2)
        else (atan2 (e1 - e2) (e0 - e1),
          Real.sqrt ((e0 - e1) * (e0 - e1) + (e1 - e2) * (e1 - e2)))) = dinfRS e0 e1 e2 := by
        rw [if_neg h4]
        unfold dinfRS
        simp only
        rw [if_neg (by norm_num at h2' ⊢; linarith), if_neg (by norm_num at h4' ⊢; linarith)]
      rw [e]
      exact dinfRS_attained e0 e1 e2

theorem facetRS_max (e0 e1 e2 u v : ℝ) (hu : 0 ≤ u) (hv : 0 ≤ v) (h1 : (u + v) ^ 2 + v ^ 2 = 1) :
    (u * (e0 - e1) + v * (e0 - e2)) * cos 1e-7 ≤ max 0 (facetRS e0 e1 e2).2 := by
  have hpi := pi_big
  have hD := dinfRS_max e0 e1 e2 u v hu hv h1
  have hc1 : cos 1e-7 ≤ 1 := cos_le_one _
  have hc0 : (0 : ℝ) < cos 1e-7 := cos_pos_of_mem_Ioo ⟨by norm_num; linarith, by norm_num; linarith⟩
  -- it is enough to compare the two slopes of the facet
  have red : max 0 (dinfRS e0 e1 e2).2 * cos 1e-7 ≤ max 0 (facetRS e0 e1 e2).2 →
      (u * (e0 - e1) + v * (e0 - e2)) * cos 1e-7 ≤ max 0 (facetRS e0 e1 e2).2 := fun hh =>
    (mul_le_mul_of_nonneg_right hD hc0.le).trans hh
  apply red
  have same : (dinfRS e0 e1 e2).2 = (facetRS e0 e1 e2).2 →
      max 0 (dinfRS e0 e1 e2).2 * cos 1e-7 ≤ max 0 (facetRS e0 e1 e2).2 := by
    intro hh
    rw [hh]
    have : 0 ≤ max 0 (facetRS e0 e1 e2).2 := le_max_left _ _
    nlinarith
  set z : ℂ := ⟨e0 - e1, e1 - e2⟩ with hz
  have hcz : ‖z‖ * cos (atan2 (e1 - e2) (e0 - e1)) = e0 - e1 := Complex.norm_mul_cos_arg z
  have hsz : ‖z‖ * sin (atan2 (e1 - e2) (e0 - e1)) = e1 - e2 := Complex.norm_mul_sin_arg z
  have hn : Real.sqrt ((e0 - e1) * (e0 - e1) + (e1 - e2) * (e1 - e2)) = ‖z‖ := by
    rw [Complex.norm_def, Complex.normSq_apply]
  have hz0 : 0 ≤ ‖z‖ := norm_nonneg z
  by_cases h2 : atan2 (e1 - e2) (e0 - e1) < 1e-7
  · by_cases h3 : atan2 (e1 - e2) (e0 - e1) < 0
    · apply same
      unfold dinfRS facetRS
      simp only
      rw [if_pos h2, if_pos h3]
    · have h3' := not_lt.1 h3
      have eD : (dinfRS e0 e1 e2).2 = ‖z‖ := by
        unfold dinfRS
        simp only
        rw [if_neg h3, if_neg (by norm_num at h2 ⊢; linarith)]
        exact hn
      have eF : (facetRS e0 e1 e2).2 = e0 - e1 := by
        unfold facetRS
        simp only
        rw [if_pos h2]
      rw [eD, eF, max_eq_right hz0, ← hcz]
      refine le_trans ?_ (le_max_right _ _)
      exact mul_le_mul_of_nonneg_left
        (cos_le_cos_of_nonneg_of_le_pi h3' (by norm_num; linarith) h2.le) hz0
  · by_cases h4 : π / 4 - 1e-7 < atan2 (e1 - e2) (e0 - e1)
    · have eF : (facetRS e0 e1 e2).2 = (e0 - e2) / Real.sqrt 2 := by
        unfold facetRS
        simp only
        rw [if_neg h2, if_pos h4]
      have h2' := not_lt.1 h2
      have h3 : ¬ atan2 (e1 - e2) (e0 - e1) < 0 := by norm_num at h2' ⊢; linarith
      by_cases h5 : π / 4 < atan2 (e1 - e2) (e0 - e1)
      · apply same
        rw [eF]
        unfold dinfRS
        simp only
        rw [if_neg h3, if_pos h5]
      · have h5' := not_lt.1 h5
        have eD : (dinfRS e0 e1 e2).2 = ‖z‖ := by
          unfold dinfRS
          simp only
          rw [if_neg h3, if_neg h5]
          exact hn
        have e2' : e0 - e2 = ‖z‖ * cos (atan2 (e1 - e2) (e0 - e1)) +
            ‖z‖ * sin (atan2 (e1 - e2) (e0 - e1)) := by rw [hcz, hsz]; ring
        have hsq : Real.sqrt 2 * Real.sqrt 2 = 2 := Real.mul_self_sqrt (by norm_num)
        have hr2 : (0 : ℝ) < Real.sqrt 2 := by positivity
        have e3 : (e0 - e2) / Real.sqrt 2 = ‖z‖ * cos (π / 4 - atan2 (e1 - e2) (e0 - e1)) := by
          rw [e2', cos_sub, cos_pi_div_four, sin_pi_div_four, div_eq_iff hr2.ne']
          generalize atan2 (e1 - e2) (e0 - e1) = r
          rw [show ‖z‖ * (Real.sqrt 2 / 2 * cos r + Real.sqrt 2 / 2 * sin r) * Real.sqrt 2 =
            (Real.sqrt 2 * Real.sqrt 2) / 2 * (‖z‖ * cos r + ‖z‖ * sin r) by ring, hsq]
          ring
        rw [eD, eF, max_eq_right hz0, e3]
        refine le_trans ?_ (le_max_right _ _)
        exact mul_le_mul_of_nonneg_left
          (cos_le_cos_of_nonneg_of_le_pi (by linarith) (by norm_num; linarith) (by linarith)) hz0
    · apply same
      unfold dinfRS facetRS
      simp only
      have h2' := not_lt.1 h2
      have h4' := not_lt.1 h4
      rw [if_neg h2, if_neg h4, if_neg (by norm_num at h2' ⊢; linarith),
        if_neg (by norm_num at h4' ⊢; linarith)]

theorem corner_facet (c : Cell) : ∀ n ∈ dirs .D8, ∃ m < 8, corner1 c n = dinfE1 c m ∧ corner2 c n = dinfE2 c m := by
  intro n hn
  have key : ∀ n ∈ dirs .D8, ∃ m < 8,
      tarbE1 n = dinfE1 (0, 0) m ∧ tarbE2 n = dinfE2 (0, 0) m := by decide +kernel
  obtain ⟨m, hm, e1, e2⟩ := key n hn
  refine ⟨m, hm, ?_, ?_⟩
  · unfold corner1; rw [e1]; unfold dinfE1; simp
  · unfold corner2; rw [e2]; unfold dinfE2; simp

theorem facet_corner (c : Cell) : ∀ m < 8, ∃ n ∈ dirs .D8, corner1 c n = dinfE1 c m ∧ corner2 c n = dinfE2 c m := by
  intro m hm
  have key : ∀ m < 8, ∃ n ∈ dirs .D8,
      tarbE1 n = dinfE1 (0, 0) m ∧ tarbE2 n = dinfE2 (0, 0) m := by decide +kernel
  obtain ⟨n, hn, e1, e2⟩ := key m hm
  refine ⟨n, hn, ?_, ?_⟩
  · unfold corner1; rw [e1]; unfold dinfE1; simp
  · unfold corner2; rw [e2]; unfold dinfE2; simp

/-- C101: `FM_Tarboton` sends the flow of an interior data cell to the corners of one triangle of data
cells, and that triangle holds a direction whose slope is the steepest of all triangles of data
cells, up to the factor `cos 1e-7` that the tolerance on the angle costs; the cell has no flow
exactly if none of those triangles falls. -/
theorem C101_tarboton (w h : Nat) (dem : Cell → ℝ) (nd : ℝ) (c : Cell) (hc : InGrid w h c)
    (hd : dem c ≠ nd) (he : ¬ OnEdge w h c) :
    ((∀ k ∈ List.range' 0 9, fmTarboton w h dem nd c k = -1) ∧
      ∀ θ s, SurfaceSlope (fun b => InGrid w h b ∧ dem b ≠ nd) dem c θ s → s ≤ 0) ∨
    ∃ a b : Cell, Adj .D4 c a ∧ Adj .D8 c b ∧ Adj .D4 a b ∧ (InGrid w h a ∧ dem a ≠ nd) ∧
      (InGrid w h b ∧ dem b ≠ nd) ∧ fmTarboton w h dem nd c 0 = 0 ∧
      (∀ k ∈ List.range' 1 8, 0 < fmTarboton w h dem nd c k → nbr .D8 c k = a ∨ nbr .D8 c k = b) ∧
      ∃ θ s, 0 < s ∧ TriangleSlope dem c a b θ s ∧
        ∀ θ' s', SurfaceSlope (fun b => InGrid w h b ∧ dem b ≠ nd) dem c θ' s' → s' * cos 1e-7 ≤ s := by
  have hpi := pi_big
  have hc0 : (0 : ℝ) < cos 1e-7 := cos_pos_of_mem_Ioo ⟨by norm_num; linarith, by norm_num; linarith⟩
  have he' : isEdgeCell w h c = false := by
    rw [← Bool.not_eq_true, isEdgeCell_iff hc]; exact he
  have hfm : fmTarboton w h dem nd c =
      if (tarbBest w h dem nd c).n = 0 then fun _ => -1 else tarbSlots (tarbBest w h dem nd c) := by
    unfold fmTarboton; rw [if_neg hd, he']; simp
  -- every slope is within the tolerance of the slope of some facet
  have bound : ∀ θ s, SurfaceSlope (fun b => InGrid w h b ∧ dem b ≠ nd) dem c θ s →
      ∃ n ∈ dirs .D8, FacetData w h dem nd c n ∧
        s * cos 1e-7 ≤ max 0 (facetRS (dem c) (dem (corner1 c n)) (dem (corner2 c n))).2 := by
    rintro θ s ⟨a, d, ha, hd', had, oa, od, u, v, hu, hv, e1, e2, rfl⟩
    obtain ⟨m, hm, rfl, rfl⟩ := facet_triangle c a d ha hd' had
    obtain ⟨n, hn, c1, c2⟩ := facet_corner c m hm
    refine ⟨n, hn, ?_, ?_⟩
    · unfold FacetData; rw [c1, c2]; exact ⟨oa, od⟩
    · rw [c1, c2]
      exact facetRS_max _ _ _ u v hu hv (unit_of_facet c m hm u v θ e1 e2)
  rcases tarbBest_spec w h dem nd c with ⟨h0, hz⟩ | ⟨hn, hfd, hs, hrs, hmax⟩
  · left
    refine ⟨fun k _ => by rw [hfm, if_pos h0], ?_⟩
    intro θ s hss
    obtain ⟨n, hn, hf, hle⟩ := bound θ s hss
    rw [max_eq_left (hz n hn hf)] at hle
    by_contra hpos
    have := mul_pos (not_le.1 hpos) hc0
    linarith
  · right
    set b := tarbBest w h dem nd c with hb
    have hn' : 1 ≤ b.n ∧ b.n ≤ 8 := mem_dirs.1 hn
    rw [hfm, if_neg (by omega)]
    obtain ⟨z0, zk, zc⟩ := tarbSlots_spec b hn
    obtain ⟨m, hm, c1, c2⟩ := corner_facet c b.n hn
    obtain ⟨t1, t2, t3⟩ := triangle_facet c m hm
    rw [← c1, ← c2] at t3
    rw [← c1] at t1
    rw [← c2] at t2
    refine ⟨corner1 c b.n, corner2 c b.n, t1, t2, t3, hfd.1, hfd.2, z0, ?_, ?_⟩
    · intro k hk hpos
      by_contra hne
      push Not at hne
      obtain ⟨o1, o2⟩ := corner_nbr c b.n hn
      have hk' : k ∈ dirs .D8 := hk
      have : k ≠ b.n ∧ k ≠ nextDir b.n := by
        constructor
        · rintro rfl
          rcases Nat.mod_two_eq_zero_or_one b.n with hp | hp
          · exact hne.2 (o2 hp).1.symm
          · exact hne.1 (o1 hp).1.symm
        · rintro rfl
          rcases Nat.mod_two_eq_zero_or_one b.n with hp | hp
          · exact hne.1 (o2 hp).2.symm
          · exact hne.2 (o1 hp).2.symm
      rw [zk k hk' this.1 this.2] at hpos
      linarith
    · obtain ⟨a1, a2, a3⟩ := facetRS_attained (dem c) (dem (corner1 c b.n)) (dem (corner2 c b.n))
      have hr : b.r = (facetRS (dem c) (dem (corner1 c b.n)) (dem (corner2 c b.n))).1 :=
        congrArg Prod.fst hrs
      have hs' : b.s = (facetRS (dem c) (dem (corner1 c b.n)) (dem (corner2 c b.n))).2 :=
        congrArg Prod.snd hrs
      rw [← hr, ← hs'] at a3
      rw [← hr] at a1 a2
      obtain ⟨d1, d2⟩ := facet_direction c m hm b.r
      rw [← c1, ← c2] at d1 d2
      have hsin : 0 ≤ sin b.r := sin_nonneg_of_nonneg_of_le_pi a1 (by linarith)
      have hcs : sin b.r ≤ cos b.r := by
        have h6 : sin b.r ≤ sin (π / 4) := sin_le_sin_of_le_of_le_pi_div_two (by linarith) (by linarith) a2
        have h7 : cos (π / 4) ≤ cos b.r := cos_le_cos_of_nonneg_of_le_pi a1 (by linarith) a2
        rw [sin_pi_div_four] at h6
        rw [cos_pi_div_four] at h7
        exact h6.trans h7
      refine ⟨_, b.s, hs, ⟨cos b.r - sin b.r, sin b.r, by linarith, hsin, d1, d2, a3⟩, ?_⟩
      intro θ' s' hss
      obtain ⟨n, hn2, hf, hle⟩ := bound θ' s' hss
      exact hle.trans (max_le hs.le (hmax n hn2 hf))

/-- A plane that falls one unit per cell eastwards and two per cell southwards: the interior cell of a
3x3 raster meets the hypotheses, its slope south-east is positive, and the angle lies between
south-east and south. -/
noncomputable def exPlane (b : Cell) : ℝ := 10 - b.1 - 2 * b.2

example : InGrid 3 3 (1, 1) ∧ exPlane (1, 1) ≠ -9999 ∧ ¬ OnEdge 3 3 (1, 1) ∧
    TriangleSlope exPlane (1, 1) (1, 2) (2, 2) (-(π / 2)) 2 := by
  refine ⟨by decide +kernel, by norm_num [exPlane], by decide +kernel, 1, 0, by norm_num, le_refl _, ?_, ?_, ?_⟩
  · simp
  · norm_num
  · norm_num [exPlane]

example : ∃ s, 0 < s ∧ SurfaceSlope (fun _ => True) exPlane (1, 1)
    (dinfFlowDirections 3 3 exPlane (-9999) (1, 1) * (π / 4)) s := by
  rcases C101_steepest 3 3 exPlane (-9999) (1, 1) (by decide +kernel) (by norm_num [exPlane])
    (by decide +kernel) with ⟨_, h2⟩ | ⟨s, hs, h2, _⟩
  · exfalso
    have := h2 (-(π / 2)) 2 ⟨(1, 2), (2, 2), by decide +kernel, by decide +kernel, by decide +kernel,
      trivial, trivial, 1, 0, by norm_num, le_refl _, by simp, by norm_num, by norm_num [exPlane]⟩
    linarith
  · exact ⟨s, hs, h2⟩

end RichDEM
