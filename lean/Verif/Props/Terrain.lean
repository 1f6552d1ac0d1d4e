/-
Property theorems C48 and C64: terrain attributes.
-/
import Verif.Terrain.Attributes
import Verif.Examples
import Mathlib.Algebra.Field.Rat

namespace RichDEM

/-! ## Specification -/

/-- The elevation attributed to cell `q` when the attributes of cell `p` are computed: its own, or
that of `p` if `q` is off the raster or NoData. -/
def Padded {K : Type} (w h : Nat) (dem : Cell → K) (nd : K) (p q : Cell) (v : K) : Prop :=
  (InGrid w h q ∧ dem q ≠ nd ∧ v = dem q) ∨ (¬ (InGrid w h q ∧ dem q ≠ nd) ∧ v = dem p)

/-- Around `p` the (padded) terrain is the surface `z`, a function of the eastward and northward
distance from `p`; `lx` and `ly` are the cell's side lengths. -/
def LocallyIs {K : Type} [Field K] (w h : Nat) (dem : Cell → K) (nd lx ly : K) (p : Cell)
    (z : K → K → K) : Prop :=
  ∀ i j : Int, i.natAbs ≤ 1 → j.natAbs ≤ 1 →
    Padded w h dem nd p (p.1 + i, p.2 + j) (z (i * lx) (-j * ly))

section field
variable {K : Type} [Field K] [DecidableEq K] [CharZero K]

omit [CharZero K] [Field K] in
theorem taPick_iff (w h : Nat) (dem : Cell → K) (nd : K) (p q : Cell) (v : K) :
    Padded w h dem nd p q v ↔ taPick w h dem nd (dem p) q = v := by
  unfold Padded taPick
  by_cases h1 : InGrid w h q
  · by_cases h2 : dem q = nd
    · simp [inGrid_iff.2 h1, h1, h2, eq_comm]
    · simp [inGrid_iff.2 h1, h1, h2, eq_comm]
  · have : inGrid w h q = false := inGrid_false.2 h1
    simp [this, h1, eq_comm]

omit [CharZero K] in
/-- The nine values of the window, when the terrain is locally the surface `z`. -/
theorem setup_of_local {w h : Nat} {dem : Cell → K} {nd lx ly : K} {p : Cell} {z : K → K → K}
    (zs : K) (hl : LocallyIs w h dem nd lx ly p z) :
    terrainSetup w h dem nd zs p =
      ⟨z (-lx) ly * zs, z 0 ly * zs, z lx ly * zs, z (-lx) 0 * zs, z 0 0 * zs, z lx 0 * zs,
        z (-lx) (-ly) * zs, z 0 (-ly) * zs, z lx (-ly) * zs⟩ := by
  have key : ∀ i j : Int, i.natAbs ≤ 1 → j.natAbs ≤ 1 →
      taPick w h dem nd (dem p) (p.1 + i, p.2 + j) = z (i * lx) (-j * ly) :=
    fun i j hi hj => (taPick_iff w h dem nd p _ _).1 (hl i j hi hj)
  have h0 : dem p = z 0 0 := by
    have h := key 0 0 (by decide) (by decide)
    simp only [Int.cast_zero, neg_zero, zero_mul, add_zero] at h
    rw [← h]; unfold taPick; split <;> rfl
  have e : ∀ i j : Int, ∀ v u, ((i : K) * lx = v) → (-(j : K) * ly = u) → i.natAbs ≤ 1 →
      j.natAbs ≤ 1 → taPick w h dem nd (dem p) (p.1 + i, p.2 + j) = z v u := by
    intro i j v u hv hu hi hj; rw [← hv, ← hu]; exact key i j hi hj
  have ea := e (-1) (-1) (-lx) ly (by push_cast; ring) (by push_cast; ring) (by decide) (by decide)
  have eb := e 0 (-1) 0 ly (by push_cast; ring) (by push_cast; ring) (by decide) (by decide)
  have ec := e 1 (-1) lx ly (by push_cast; ring) (by push_cast; ring) (by decide) (by decide)
  have ed := e (-1) 0 (-lx) 0 (by push_cast; ring) (by push_cast; ring) (by decide) (by decide)
  have ef := e 1 0 lx 0 (by push_cast; ring) (by push_cast; ring) (by decide) (by decide)
  have eg := e (-1) 1 (-lx) (-ly) (by push_cast; ring) (by push_cast; ring) (by decide) (by decide)
  have eh := e 0 1 0 (-ly) (by push_cast; ring) (by push_cast; ring) (by decide) (by decide)
  have ei := e 1 1 lx (-ly) (by push_cast; ring) (by push_cast; ring) (by decide) (by decide)
  simp only [add_zero, ← sub_eq_add_neg] at ea eb ec ed ef eg eh ei
  unfold terrainSetup
  simp only [ea, eb, ec, ed, ef, eg, eh, ei]
  simp only [h0]

omit [CharZero K] in
/-- C48: off-grid and NoData neighbours count as the centre, all others as themselves, and
everything is multiplied by the scale factor. -/
theorem C48_window (w h : Nat) (dem : Cell → K) (nd zs : K) (x y : Int) :
    ∃ v : Int → Int → K,
      (∀ i j : Int, (i ≠ 0 ∨ j ≠ 0) → Padded w h dem nd (x, y) (x + i, y + j) (v i j)) ∧
      terrainSetup w h dem nd zs (x, y) =
        ⟨v (-1) (-1) * zs, v 0 (-1) * zs, v 1 (-1) * zs,
         v (-1) 0 * zs, dem (x, y) * zs, v 1 0 * zs,
         v (-1) 1 * zs, v 0 1 * zs, v 1 1 * zs⟩ := by
  refine ⟨fun i j => taPick w h dem nd (dem (x, y)) (x + i, y + j), ?_, ?_⟩
  · intro i j _; exact (taPick_iff ..).2 rfl
  · simp [terrainSetup, sub_eq_add_neg]

/-- C48: two DEMs with the same NoData pattern that differ by a constant have the same gradients
and curvatures. -/
theorem C48_shift (w h : Nat) (dem dem' : Cell → K) (nd nd' k zs lx ly : K) (p : Cell)
    (hnd : ∀ q, InGrid w h q → (dem' q = nd' ↔ dem q = nd))
    (hk : ∀ q, InGrid w h q → dem q ≠ nd → dem' q = dem q + k)
    (hp : InGrid w h p) (hpd : dem p ≠ nd) :
    taDzdx w h dem' nd' zs lx p = taDzdx w h dem nd zs lx p ∧
    taDzdy w h dem' nd' zs ly p = taDzdy w h dem nd zs ly p ∧
    taCurvature w h dem' nd' zs lx p = taCurvature w h dem nd zs lx p ∧
    taPlanform w h dem' nd' zs lx p = taPlanform w h dem nd zs lx p ∧
    taProfile w h dem' nd' zs lx p = taProfile w h dem nd zs lx p := by
  have pick : ∀ q, taPick w h dem' nd' (dem' p) q = taPick w h dem nd (dem p) q + k := by
    intro q
    unfold taPick
    by_cases h1 : InGrid w h q
    · by_cases h2 : dem q = nd
      · simp [inGrid_iff.2 h1, (hnd q h1).2 h2, h2, hk p hp hpd]
      · have : dem' q ≠ nd' := fun e => h2 ((hnd q h1).1 e)
        rw [if_pos (by simp [inGrid_iff.2 h1, this]), if_pos (by simp [inGrid_iff.2 h1, h2])]
        exact hk q h1 h2
    · have : inGrid w h q = false := inGrid_false.2 h1
      simp [this, hk p hp hpd]
  have hc : curvatureSetup w h dem' nd' zs lx p = curvatureSetup w h dem nd zs lx p := by
    unfold curvatureSetup terrainSetup
    simp only [Prod.mk.eta]
    simp only [pick]
    simp only [hk p hp hpd]
    have e1 : ∀ a b c : K, ((a + k) * zs + (b + k) * zs) / 2 - (c + k) * zs =
        (a * zs + b * zs) / 2 - c * zs := by
      intro a b c; field_simp; ring
    congr 1
    · congr 2; exact e1 _ _ _
    · congr 2; exact e1 _ _ _
    · congr 3; ring
    · congr 2; ring
    · congr 2; ring
  refine ⟨?_, ?_, ?_, ?_, ?_⟩
  · unfold taDzdx terrainSetup
    simp only [Prod.mk.eta]
    simp only [pick]
    congr 2; ring
  · unfold taDzdy terrainSetup
    simp only [Prod.mk.eta]
    simp only [pick]
    congr 2; ring
  · unfold taCurvature; rw [hc]
  · unfold taPlanform; rw [hc]
  · unfold taProfile; rw [hc]

/-- C48: where the terrain is locally the quadratic `D x² + E y² + F x y + G x + H y + I` (x to the
east, y to the north, square cells), the fitted surface has exactly these coefficients: curvature
is minus its Laplacian, profile curvature its second derivative along the gradient, planform
curvature minus the second derivative across the gradient (all times 100, and zero at a
level point for the last two). -/
theorem C48_quadratic (w h : Nat) (dem : Cell → K) (nd zs lx : K) (p : Cell)
    (hlx : lx ≠ 0) (D E F G H I : K)
    (hl : LocallyIs w h dem nd lx lx p
      (fun x y => D * x ^ 2 + E * y ^ 2 + F * x * y + G * x + H * y + I)) :
    curvatureSetup w h dem nd zs lx p = ⟨lx, D * zs, E * zs, F * zs, G * zs, H * zs⟩ ∧
    taCurvature w h dem nd zs lx p = -(2 * D + 2 * E) * zs * 100 ∧
    (zs ≠ 0 → (G ≠ 0 ∨ H ≠ 0) → G * G + H * H ≠ 0 →
      taProfile w h dem nd zs lx p =
        (2 * D * G ^ 2 + 2 * F * G * H + 2 * E * H ^ 2) / (G ^ 2 + H ^ 2) * zs * 100 ∧
      taPlanform w h dem nd zs lx p =
        -((2 * D * H ^ 2 - 2 * F * G * H + 2 * E * G ^ 2) / (G ^ 2 + H ^ 2)) * zs * 100) ∧
    (G = 0 → H = 0 → taProfile w h dem nd zs lx p = 0 ∧ taPlanform w h dem nd zs lx p = 0) := by
  have hs : curvatureSetup w h dem nd zs lx p = ⟨lx, D * zs, E * zs, F * zs, G * zs, H * zs⟩ := by
    unfold curvatureSetup
    rw [setup_of_local zs hl]
    have h4 : (4 : K) ≠ 0 := by norm_num
    simp only [TSCV.mk.injEq, true_and]
    refine ⟨?_, ?_, ?_, ?_, ?_⟩ <;> field_simp <;> ring
  refine ⟨hs, ?_, ?_, ?_⟩
  · unfold taCurvature; rw [hs]; ring
  · intro hz hGH hne
    have hc : ¬ (G * zs = 0 ∧ H * zs = 0) := by
      rintro ⟨h1, h2⟩
      rcases hGH with h | h
      · exact h ((mul_eq_zero.1 h1).resolve_right hz)
      · exact h ((mul_eq_zero.1 h2).resolve_right hz)
    have hne' : G ^ 2 + H ^ 2 ≠ 0 := by rw [pow_two, pow_two]; exact hne
    have hd : G * zs * (G * zs) + H * zs * (H * zs) ≠ 0 := by
      have : G * zs * (G * zs) + H * zs * (H * zs) = (G * G + H * H) * (zs * zs) := by ring
      rw [this]; exact mul_ne_zero hne (mul_ne_zero hz hz)
    constructor
    · unfold taProfile; rw [hs]; simp only [if_neg hc]
      rw [div_mul_eq_mul_div, div_mul_eq_mul_div, div_mul_eq_mul_div, div_eq_div_iff hd hne']; ring
    · unfold taPlanform; rw [hs]; simp only [if_neg hc]
      rw [← neg_div, div_mul_eq_mul_div, div_mul_eq_mul_div, div_mul_eq_mul_div,
        div_eq_div_iff hd hne']; ring
  · rintro rfl rfl
    unfold taProfile taPlanform; rw [hs]; simp

/-- C48: curvature is planform minus profile curvature wherever the fitted surface is not level. -/
theorem C48_curvature_split (w h : Nat) (dem : Cell → K) (nd zs lx : K) (p : Cell)
    (hne : (curvatureSetup w h dem nd zs lx p).G ^ 2 + (curvatureSetup w h dem nd zs lx p).H ^ 2 ≠ 0) :
    taCurvature w h dem nd zs lx p = taPlanform w h dem nd zs lx p - taProfile w h dem nd zs lx p := by
  unfold taCurvature taPlanform taProfile
  generalize curvatureSetup w h dem nd zs lx p = v at hne ⊢
  have hc : ¬ (v.G = 0 ∧ v.H = 0) := by rintro ⟨h1, h2⟩; apply hne; rw [h1, h2]; ring
  have hd : v.G * v.G + v.H * v.H ≠ 0 := by rw [← pow_two, ← pow_two]; exact hne
  simp only [if_neg hc]
  field_simp
  ring

/-- C48: where the terrain is locally a plane, the gradients are those of the plane and all
curvatures vanish. -/
theorem C48_plane (w h : Nat) (dem : Cell → K) (nd zs lx ly : K) (p : Cell)
    (hlx : lx ≠ 0) (hly : ly ≠ 0) (G H I : K)
    (hl : LocallyIs w h dem nd lx ly p (fun x y => G * x + H * y + I)) :
    taDzdx w h dem nd zs lx p = G * zs ∧ taDzdy w h dem nd zs ly p = -H * zs ∧
    taCurvature w h dem nd zs lx p = 0 ∧ taPlanform w h dem nd zs lx p = 0 ∧
    taProfile w h dem nd zs lx p = 0 := by
  have hs := setup_of_local zs hl
  have h8 : (8 : K) ≠ 0 := by norm_num
  have hD : (curvatureSetup w h dem nd zs lx p).D = 0 := by
    unfold curvatureSetup; rw [hs]; simp only; field_simp; ring
  have hE : (curvatureSetup w h dem nd zs lx p).E = 0 := by
    unfold curvatureSetup; rw [hs]; simp only; field_simp; ring
  have hF : (curvatureSetup w h dem nd zs lx p).F = 0 := by
    unfold curvatureSetup; rw [hs]; simp only; field_simp; ring
  refine ⟨?_, ?_, ?_, ?_, ?_⟩
  · unfold taDzdx; rw [hs]; simp only; field_simp; ring
  · unfold taDzdy; rw [hs]; simp only; field_simp; ring
  · unfold taCurvature; simp only [hD, hE]; ring
  · unfold taPlanform; simp only [hD, hE, hF]; simp
  · unfold taProfile; simp only [hD, hE, hF]; simp

end field

/-! ## Slope and aspect over the reals -/

/-- C48: the slope is never negative, and its angle is below the vertical. -/
theorem C48_slope_range (w h : Nat) (dem : Cell → ℝ) (nd zs lx ly : ℝ) (p : Cell) :
    0 ≤ taSlope w h dem nd zs lx ly p ∧ 0 ≤ taSlopePercent w h dem nd zs lx ly p ∧
    0 ≤ taSlopeRadian w h dem nd zs lx ly p ∧ taSlopeRadian w h dem nd zs lx ly p < Real.pi / 2 ∧
    0 ≤ taSlopeDegree w h dem nd zs lx ly p ∧ taSlopeDegree w h dem nd zs lx ly p < 90 := by
  have h0 : 0 ≤ taSlope w h dem nd zs lx ly p := Real.sqrt_nonneg _
  have h1 : 0 ≤ Real.arctan (taSlope w h dem nd zs lx ly p) := Real.arctan_nonneg.2 h0
  have h2 := Real.arctan_lt_pi_div_two (taSlope w h dem nd zs lx ly p)
  have hpi := Real.pi_pos
  refine ⟨h0, mul_nonneg h0 (by norm_num), h1, h2, ?_, ?_⟩
  · unfold taSlopeDegree; positivity
  · unfold taSlopeDegree; rw [div_lt_iff₀ hpi]; nlinarith

/-- C48: the four slope attributes are one quantity in four units: rise over run, percent, the angle whose tangent is the
slope, and that angle in degrees. -/
theorem C48_slope_units (w h : Nat) (dem : Cell → ℝ) (nd zs lx ly : ℝ) (p : Cell) :
    taSlopePercent w h dem nd zs lx ly p = 100 * taSlope w h dem nd zs lx ly p ∧
    Real.tan (taSlopeRadian w h dem nd zs lx ly p) = taSlope w h dem nd zs lx ly p ∧
    Real.tan (taSlopeDegree w h dem nd zs lx ly p / 360 * (2 * Real.pi)) = taSlope w h dem nd zs lx ly p := by
  have hpi := Real.pi_ne_zero
  refine ⟨?_, ?_, ?_⟩
  · unfold taSlopePercent; ring
  · unfold taSlopeRadian; exact Real.tan_arctan _
  · unfold taSlopeDegree
    rw [show Real.arctan (taSlope w h dem nd zs lx ly p) * 180 / Real.pi / 360 * (2 * Real.pi) =
      Real.arctan (taSlope w h dem nd zs lx ly p) by field_simp; ring]
    exact Real.tan_arctan _

/-- C48: the slope of a plane is the length of its gradient. -/
theorem C48_slope_plane (w h : Nat) (dem : Cell → ℝ) (nd zs lx ly : ℝ) (p : Cell)
    (hlx : lx ≠ 0) (hly : ly ≠ 0) (G H I : ℝ)
    (hl : LocallyIs w h dem nd lx ly p (fun x y => G * x + H * y + I)) :
    taSlope w h dem nd zs lx ly p = |zs| * Real.sqrt (G ^ 2 + H ^ 2) := by
  obtain ⟨h1, h2, _⟩ := C48_plane w h dem nd zs lx ly p hlx hly G H I hl
  unfold taSlope
  simp only [h1, h2]
  rw [← Real.sqrt_sq_eq_abs, ← Real.sqrt_mul (sq_nonneg _)]
  congr 1; ring

/-- C48: on locally constant ground slope and curvatures are zero. -/
theorem C48_flat (w h : Nat) (dem : Cell → ℝ) (nd zs lx ly : ℝ) (p : Cell)
    (hlx : lx ≠ 0) (hly : ly ≠ 0)
    (hflat : ∀ q, q = p ∨ Adj .D8 p q → InGrid w h q → dem q ≠ nd → dem q = dem p) :
    taSlope w h dem nd zs lx ly p = 0 ∧ taCurvature w h dem nd zs lx p = 0 ∧
    taPlanform w h dem nd zs lx p = 0 ∧ taProfile w h dem nd zs lx p = 0 := by
  have hl : LocallyIs w h dem nd lx ly p (fun x y => 0 * x + 0 * y + dem p) := by
    intro i j hi hj
    simp only [zero_mul, zero_add]
    by_cases hq : InGrid w h (p.1 + i, p.2 + j) ∧ dem (p.1 + i, p.2 + j) ≠ nd
    · refine Or.inl ⟨hq.1, hq.2, (hflat _ ?_ hq.1 hq.2).symm⟩
      by_cases h0 : i = 0 ∧ j = 0
      · left; obtain ⟨rfl, rfl⟩ := h0; simp
      · right
        refine ⟨?_, ?_, ?_⟩
        · intro e
          have e1 := congrArg Prod.fst e
          have e2 := congrArg Prod.snd e
          simp only at e1 e2
          exact h0 ⟨by omega, by omega⟩
        · simp only; omega
        · simp only; omega
    · exact Or.inr ⟨hq, rfl⟩
  obtain ⟨_, _, h3, h4, h5⟩ := C48_plane w h dem nd zs lx ly p hlx hly 0 0 (dem p) hl
  refine ⟨?_, h3, h4, h5⟩
  rw [C48_slope_plane w h dem nd zs lx ly p hlx hly 0 0 (dem p) hl]
  simp

/-- C48: adding a constant to the DEM changes no slope. -/
theorem C48_slope_shift (w h : Nat) (dem dem' : Cell → ℝ) (nd nd' k zs lx ly : ℝ) (p : Cell)
    (hnd : ∀ q, InGrid w h q → (dem' q = nd' ↔ dem q = nd))
    (hk : ∀ q, InGrid w h q → dem q ≠ nd → dem' q = dem q + k)
    (hp : InGrid w h p) (hpd : dem p ≠ nd) :
    taSlope w h dem' nd' zs lx ly p = taSlope w h dem nd zs lx ly p ∧
    taAspect w h dem' nd' zs lx ly p = taAspect w h dem nd zs lx ly p := by
  obtain ⟨h1, h2, _⟩ := C48_shift w h dem dem' nd nd' k zs lx ly p hnd hk hp hpd
  unfold taSlope taAspect
  rw [h1, h2]; exact ⟨rfl, rfl⟩

theorem aspectOf_eq (ang : ℝ) : ∃ n : ℕ, aspectOf ang = 90 - 180 / Real.pi * ang + 360 * n := by
  unfold aspectOf
  simp only
  split
  · exact ⟨0, by push_cast; ring⟩
  · split
    · exact ⟨1, by push_cast; ring⟩
    · exact ⟨0, by push_cast; ring⟩

/-- C48: an aspect is a bearing in [0, 360), whatever `atan2` returns (signed zeros included). -/
theorem C48_aspect_range (ang : ℝ) (h1 : -Real.pi ≤ ang) (h2 : ang ≤ Real.pi) :
    0 ≤ aspectOf ang ∧ aspectOf ang < 360 := by
  have hpi := Real.pi_pos
  have e : 180 / Real.pi * Real.pi = 180 := by field_simp
  have hk : 0 < 180 / Real.pi := by positivity
  have l1 : -180 ≤ 180 / Real.pi * ang := by nlinarith
  have l2 : 180 / Real.pi * ang ≤ 180 := by nlinarith
  unfold aspectOf
  simp only
  split
  · constructor <;> linarith
  · split
    · constructor <;> linarith
    · constructor <;> linarith

/-- C48: the aspect is the compass bearing of steepest descent: the descent vector (east, north)
is the slope times (sin, cos) of the bearing. -/
theorem C48_aspect_direction (w h : Nat) (dem : Cell → ℝ) (nd zs lx ly : ℝ) (p : Cell)
    (hlx : lx ≠ 0) (hly : ly ≠ 0) (G H I : ℝ)
    (hl : LocallyIs w h dem nd lx ly p (fun x y => G * x + H * y + I)) :
    let bearing := taAspect w h dem nd zs lx ly p * (Real.pi / 180)
    taSlope w h dem nd zs lx ly p * Real.sin bearing = -(G * zs) ∧
    taSlope w h dem nd zs lx ly p * Real.cos bearing = -(H * zs) := by
  obtain ⟨h1, h2, _⟩ := C48_plane w h dem nd zs lx ly p hlx hly G H I hl
  intro bearing
  set v : ℂ := ⟨-(G * zs), -H * zs⟩ with hv
  have hasp : taAspect w h dem nd zs lx ly p = aspectOf v.arg := by
    unfold taAspect; rw [h1, h2]
  have hslope : taSlope w h dem nd zs lx ly p = ‖v‖ := by
    unfold taSlope
    simp only [h1, h2]
    rw [Complex.norm_def, Complex.normSq_mk]
    congr 1; ring
  obtain ⟨n, hn⟩ := aspectOf_eq v.arg
  have hb : bearing = Real.pi / 2 - v.arg + n * (2 * Real.pi) := by
    show taAspect w h dem nd zs lx ly p * (Real.pi / 180) = _
    rw [hasp, hn]
    have := Real.pi_ne_zero
    field_simp; ring
  rw [hb, hslope, Real.sin_add_nat_mul_two_pi, Real.cos_add_nat_mul_two_pi,
    Real.sin_pi_div_two_sub, Real.cos_pi_div_two_sub, Complex.norm_mul_cos_arg,
    Complex.norm_mul_sin_arg]
  simp [hv]

/-- C48: contrary to its description, the aspect never marks flat ground by -1. -/
theorem C48_aspect_never_minus_one (w h : Nat) (dem : Cell → ℝ) (nd zs lx ly : ℝ) (p : Cell) :
    taAspect w h dem nd zs lx ly p ≠ -1 := by
  have := (C48_aspect_range _ (Complex.neg_pi_lt_arg
    ⟨-taDzdx w h dem nd zs lx p, taDzdy w h dem nd zs ly p⟩).le (Complex.arg_le_pi _)).1
  intro h
  unfold taAspect at h
  rw [h] at this
  norm_num at this

/-- C48: whatever the order in which threads treat the cells, each data cell gets the value of the
attribute function and each NoData cell the output's NoData value. -/
theorem C48_raster (w h : Nat) (dem : Cell → ℝ) (nd ond : ℝ) (func : Cell → ℝ) (order : List Cell)
    (ho : order.Perm (allCells w h)) (out : Cell → ℝ) (p : Cell) (hp : InGrid w h p) :
    (dem p = nd → taProcess dem nd ond func order out p = ond) ∧
    (dem p ≠ nd → taProcess dem nd ond func order out p = func p) := by
  have hm : p ∈ order := ho.mem_iff.2 (mem_allCells.2 hp)
  rw [taProcess_eq, if_pos hm]
  exact ⟨fun h => if_pos h, fun h => if_neg h⟩

/-- The default NoData value of an output raster (Array2D.hpp:114) is -1, which is also a possible
curvature: a data cell of this DEM is indistinguishable from NoData. -/
theorem C48_curvature_nodata_clash :
    taCurvature 3 3 (ofRows 0 [[0, 0, 0], [0, 0, 1/100], [0, 0, 0]]) (-9999) 1 1 ((1, 1) : Cell)
      = (-1 : ℚ) := by decide +kernel

/-! ## C64: SPI and CTI -/

/-- C64: on data cells SPI and CTI are the logarithms of the product and of the quotient of
specific catchment area and slope; their sum determines the area, their difference the slope. -/
theorem C64_values (acc slope accNd slopeNd area : ℝ) (ha : acc ≠ accNd) (hs : slope ≠ slopeNd)
    (hacc : 0 < acc) (hslope : 0 ≤ slope) (harea : 0 < area) :
    Real.exp (taSPI acc slope accNd slopeNd area) = acc / area * (slope + 0.001) ∧
    Real.exp (taCTI acc slope accNd slopeNd area) = acc / area / (slope + 0.001) ∧
    taSPI acc slope accNd slopeNd area + taCTI acc slope accNd slopeNd area =
      2 * Real.log (acc / area) := by
  have h1 : 0 < acc / area := by positivity
  have h2 : 0 < slope + 0.001 := by positivity
  unfold taSPI taCTI
  rw [if_neg (by tauto), if_neg (by tauto), Real.exp_log (by positivity), Real.exp_log (by positivity),
    Real.log_mul h1.ne' h2.ne', Real.log_div h1.ne' h2.ne']
  exact ⟨rfl, rfl, by ring⟩

/-- C64, refuted: "Log(x) can't take this value of real inputs" (terrain_attributes.hpp:45, 98):
for every cell area there are data cells whose SPI, and others whose CTI, is the NoData value. -/
theorem C64_not_nodata_free (area : ℝ) (ha : 0 < area) :
    (∃ acc slope : ℝ, 0 < acc ∧ 0 ≤ slope ∧ acc ≠ -1 ∧ slope ≠ -1 ∧
      taSPI acc slope (-1) (-1) area = -1) ∧
    (∃ acc slope : ℝ, 0 < acc ∧ 0 ≤ slope ∧ acc ≠ -1 ∧ slope ≠ -1 ∧
      taCTI acc slope (-1) (-1) area = -1) := by
  constructor
  · refine ⟨area * Real.exp (-1), 0.999, by positivity, by norm_num, ?_, by norm_num, ?_⟩
    · have : 0 < area * Real.exp (-1) := by positivity
      linarith
    · have : 0 < area * Real.exp (-1) := by positivity
      unfold taSPI
      rw [if_neg (by rintro (h | h) <;> [linarith; norm_num at h])]
      rw [mul_div_cancel_left₀ _ ha.ne']
      norm_num
  · refine ⟨area * Real.exp (-1), 0.999, by positivity, by norm_num, ?_, by norm_num, ?_⟩
    · have : 0 < area * Real.exp (-1) := by positivity
      linarith
    · have : 0 < area * Real.exp (-1) := by positivity
      unfold taCTI
      rw [if_neg (by rintro (h | h) <;> [linarith; norm_num at h])]
      rw [mul_div_cancel_left₀ _ ha.ne']
      norm_num

/-! ## Concrete cases -/

/-- A 3x3 saddle-like quadratic `x² - 2y² + xy + 3x + y + 5` sampled with unit cells (y north). -/
def taEx : Cell → ℚ := ofRows 0 [[1, 4, 9], [3, 5, 9], [1, 2, 5]]

example : LocallyIs 3 3 taEx (-9999) 1 1 (1, 1)
    (fun x y => 1 * x ^ 2 + (-2) * y ^ 2 + 1 * x * y + 3 * x + 1 * y + 5) := by
  intro i j hi hj
  have h1 : i = -1 ∨ i = 0 ∨ i = 1 := by omega
  have h2 : j = -1 ∨ j = 0 ∨ j = 1 := by omega
  rcases h1 with rfl | rfl | rfl <;> rcases h2 with rfl | rfl | rfl <;>
    exact Or.inl (by decide +kernel)

example : taCurvature 3 3 taEx (-9999) 1 1 (1, 1) = 200 ∧
    taProfile 3 3 taEx (-9999) 1 1 (1, 1) = 200 ∧
    taPlanform 3 3 taEx (-9999) 1 1 (1, 1) = 400 := by decide +kernel

/-- In a corner the five missing neighbours count as the corner itself. -/
example : taDzdx 3 3 taEx (-9999) 1 1 (0, 0) = 5/4 ∧ taDzdy 3 3 taEx (-9999) 1 1 (0, 0) = 1 := by
  decide +kernel

end RichDEM
