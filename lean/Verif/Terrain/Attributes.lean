import Verif.Grid
import Verif.Loop
import Mathlib.Analysis.SpecialFunctions.Complex.Arg
import Mathlib.Analysis.SpecialFunctions.Trigonometric.Arctan
import Mathlib.Analysis.SpecialFunctions.Log.Basic
import Mathlib.Tactic.FieldSimp
import Mathlib.Tactic.LinearCombination

/-!
Model of the terrain attributes (include/richdem/methods/terrain_attributes.hpp).  Arithmetic is
exact: any field for the 3x3 window and the curvatures, the reals where square roots,
logarithms or angles occur.  Rounding to `double` and `float` is not modelled.
-/

namespace RichDEM

/-- terrain_attributes.hpp:149-152: `TA_Setup_Vars`. -/
structure TSV (K : Type) where
  (a b c d e f g h i : K)

/-- terrain_attributes.hpp:154-157: `TA_Setup_Curves_Vars`. -/
structure TSCV (K : Type) where
  (L D E F G H : K)

section window
variable {K : Type} [Field K] [DecidableEq K]

/-- terrain_attributes.hpp:188-195: one line of the window set-up: the neighbour at `q`, or the
focal cell's value `z` when `q` is off the raster or NoData. -/
def taPick (w h : Nat) (dem : Cell → K) (nd z : K) (q : Cell) : K :=
  if inGrid w h q && !decide (dem q = nd) then dem q else z

/-- terrain_attributes.hpp:184-208: `TerrainSetup`. -/
def terrainSetup (w h : Nat) (dem : Cell → K) (nd zscale : K) (p : Cell) : TSV K :=
  let x := p.1
  let y := p.2
  let z := dem (x, y)
  { a := taPick w h dem nd z (x - 1, y - 1) * zscale
    d := taPick w h dem nd z (x - 1, y) * zscale
    g := taPick w h dem nd z (x - 1, y + 1) * zscale
    b := taPick w h dem nd z (x, y - 1) * zscale
    h := taPick w h dem nd z (x, y + 1) * zscale
    c := taPick w h dem nd z (x + 1, y - 1) * zscale
    f := taPick w h dem nd z (x + 1, y) * zscale
    i := taPick w h dem nd z (x + 1, y + 1) * zscale
    e := z * zscale }

/-- terrain_attributes.hpp:210-230: `TerrainCurvatureSetup`; `lx` is `getCellLengthX()`. -/
def curvatureSetup (w h : Nat) (dem : Cell → K) (nd zscale lx : K) (p : Cell) : TSCV K :=
  let t := terrainSetup w h dem nd zscale p
  { L := lx
    D := ((t.d + t.f) / 2 - t.e) / lx / lx
    E := ((t.b + t.h) / 2 - t.e) / lx / lx
    F := (-t.a + t.c + t.g - t.i) / 4 / lx / lx
    G := (-t.d + t.f) / 2 / lx
    H := (t.b - t.h) / 2 / lx }

/-- terrain_attributes.hpp:268-273: `Terrain_Curvature`. -/
def taCurvature (w h : Nat) (dem : Cell → K) (nd zscale lx : K) (p : Cell) : K :=
  let v := curvatureSetup w h dem nd zscale lx p
  (-2 * (v.D + v.E)) * 100

/-- terrain_attributes.hpp:275-283: `Terrain_Planform_Curvature`. -/
def taPlanform (w h : Nat) (dem : Cell → K) (nd zscale lx : K) (p : Cell) : K :=
  let v := curvatureSetup w h dem nd zscale lx p
  if v.G = 0 ∧ v.H = 0 then 0
  else -2 * (v.D * v.H * v.H + v.E * v.G * v.G - v.F * v.G * v.H) / (v.G * v.G + v.H * v.H) * 100

/-- terrain_attributes.hpp:285-293: `Terrain_Profile_Curvature`. -/
def taProfile (w h : Nat) (dem : Cell → K) (nd zscale lx : K) (p : Cell) : K :=
  let v := curvatureSetup w h dem nd zscale lx p
  if v.G = 0 ∧ v.H = 0 then 0
  else 2 * (v.D * v.G * v.G + v.E * v.H * v.H + v.F * v.G * v.H) / (v.G * v.G + v.H * v.H) * 100

/-- terrain_attributes.hpp:241, 260: `dzdx`, the west-to-east gradient of Horn 1981. -/
def taDzdx (w h : Nat) (dem : Cell → K) (nd zscale lx : K) (p : Cell) : K :=
  let t := terrainSetup w h dem nd zscale p
  ((t.c + 2 * t.f + t.i) - (t.a + 2 * t.d + t.g)) / 8 / lx

/-- terrain_attributes.hpp:242, 261: `dzdy`, the north-to-south gradient of Horn 1981. -/
def taDzdy (w h : Nat) (dem : Cell → K) (nd zscale ly : K) (p : Cell) : K :=
  let t := terrainSetup w h dem nd zscale p
  ((t.g + 2 * t.h + t.i) - (t.a + 2 * t.b + t.c)) / 8 / ly

/-- terrain_attributes.hpp:338-356: `TerrainProcessor`, run over the cells in some order (the rows
are shared among threads); `ond` is the NoData value of the output raster. -/
def taProcess {R : Type} (dem : Cell → K) (nd : K) (ond : R) (func : Cell → R) (order : List Cell)
    (out : Cell → R) : Cell → R :=
  order.foldl (fun out p => Function.update out p (if dem p = nd then ond else func p)) out

omit [Field K] in
/-- Each output cell depends on its own call only. -/
theorem taProcess_eq {R : Type} (dem : Cell → K) (nd : K) (ond : R) (func : Cell → R)
    (order : List Cell) (out : Cell → R) (p : Cell) :
    taProcess dem nd ond func order out p =
      if p ∈ order then (if dem p = nd then ond else func p) else out p := by
  unfold taProcess
  induction order generalizing out with
  | nil => simp
  | cons q l ih =>
    rw [List.foldl_cons, ih]
    by_cases hl : p ∈ l
    · simp [hl]
    · by_cases hq : p = q
      · subst hq; simp
      · simp [hl, hq]

end window

/-- terrain_attributes.hpp:254-266: `Terrain_Slope_RiseRun`. -/
noncomputable def taSlope (w h : Nat) (dem : Cell → ℝ) (nd zscale lx ly : ℝ) (p : Cell) : ℝ :=
  let dzdx := taDzdx w h dem nd zscale lx p
  let dzdy := taDzdy w h dem nd zscale ly p
  Real.sqrt (dzdx * dzdx + dzdy * dzdy)

/-- terrain_attributes.hpp:295-298: `Terrain_Slope_Percent`. -/
noncomputable def taSlopePercent (w h : Nat) (dem : Cell → ℝ) (nd zscale lx ly : ℝ) (p : Cell) : ℝ :=
  taSlope w h dem nd zscale lx ly p * 100

/-- terrain_attributes.hpp:300-303: `Terrain_Slope_Radian`. -/
noncomputable def taSlopeRadian (w h : Nat) (dem : Cell → ℝ) (nd zscale lx ly : ℝ) (p : Cell) : ℝ :=
  Real.arctan (taSlope w h dem nd zscale lx ly p)

/-- terrain_attributes.hpp:305-308: `Terrain_Slope_Degree`. -/
noncomputable def taSlopeDegree (w h : Nat) (dem : Cell → ℝ) (nd zscale lx ly : ℝ) (p : Cell) : ℝ :=
  Real.arctan (taSlope w h dem nd zscale lx ly p) * 180 / Real.pi

/-- terrain_attributes.hpp:244-249: from the `atan2` value (radians) to a compass bearing. -/
noncomputable def aspectOf (ang : ℝ) : ℝ :=
  open Classical in
  let a := 180 / Real.pi * ang
  if a < 0 then 90 - a else if 90 < a then 360 - a + 90 else 90 - a

/-- terrain_attributes.hpp:235-250: `Terrain_Aspect`.  `atan2(y,x)` is the argument of `x + iy`;
for `atan2(0,-0.0)` (flat ground) the code gets π, the model 0. -/
noncomputable def taAspect (w h : Nat) (dem : Cell → ℝ) (nd zscale lx ly : ℝ) (p : Cell) : ℝ :=
  aspectOf (Complex.arg ⟨-taDzdx w h dem nd zscale lx p, taDzdy w h dem nd zscale ly p⟩)

/-- terrain_attributes.hpp:49-55, the value of one cell of `TA_SPI`; `none` is the exception for
unequal dimensions (not raised here), -1 the NoData value of line 45. -/
noncomputable def taSPI (accum slope accNd slopeNd area : ℝ) : ℝ :=
  open Classical in
  if accum = accNd ∨ slope = slopeNd then -1 else Real.log (accum / area * (slope + 0.001))

/-- terrain_attributes.hpp:102-108, the value of one cell of `TA_CTI`. -/
noncomputable def taCTI (accum slope accNd slopeNd area : ℝ) : ℝ :=
  open Classical in
  if accum = accNd ∨ slope = slopeNd then -1 else Real.log (accum / area / (slope + 0.001))

end RichDEM
