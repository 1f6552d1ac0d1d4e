import Verif.Grid
import Verif.Loop
import Mathlib.Analysis.SpecialFunctions.Pow.Real
import Mathlib.Analysis.SpecialFunctions.Sqrt

/-!
Model of `dem_surface_area` (include/richdem/misc/misc_methods.hpp:40-169), over the real numbers
(the code uses `double`; rounding is not modelled).
-/

namespace RichDEM

/-- misc_methods.hpp:49. -/
noncomputable def eucDist (a b : ℝ) : ℝ := Real.sqrt (a ^ 2 + b ^ 2)

/-- misc_methods.hpp:105-118: the elevation used for a neighbour: its own, or that of the focal
cell where the neighbour is off the raster or NoData. -/
noncomputable def nbrElev (w h : Nat) (dem : Cell → ℝ) (nd zscale : ℝ) (c : Cell) (n : Nat) : ℝ :=
  open Classical in
  if InGrid w h (nbr .D8 c n) ∧ dem (nbr .D8 c n) ≠ nd then zscale * dem (nbr .D8 c n)
  else zscale * dem c

/-- constants.hpp:47: an entry of `n8_diag`. -/
def n8diag (n : Nat) : Bool := n8_diag.getD n false

/-- misc_methods.hpp:120-141: the area of the part of one triangle that lies in the focal cell,
from the elevations of the focal cell, its diagonal and its straight neighbour; `a` is the distance
to the straight neighbour and `b` the distance between the neighbours. -/
noncomputable def triArea (xdist ydist a b my dn ndn : ℝ) : ℝ :=
  let sdn := eucDist (eucDist xdist ydist) (dn - my) / 2
  let sndn := eucDist a (ndn - my) / 2
  let sbn := eucDist b (ndn - dn) / 2
  let s := (sdn + sndn + sbn) / 2
  Real.sqrt (s * (s - sdn) * (s - sndn) * (s - sbn))

/-- misc_methods.hpp:86-144: the triangle of direction `n`. -/
noncomputable def dirArea (w h : Nat) (dem : Cell → ℝ) (nd zscale xdist ydist : ℝ) (c : Cell)
    (n : Nat) : ℝ :=
  let nn := if n + 1 = 9 then 1 else n + 1
  let (dn, ndn) := if n8diag n then (n, nn) else (nn, n)
  let a := if dy .D8 ndn = 0 then xdist else ydist
  let b := if dy .D8 ndn = 0 then ydist else xdist
  triArea xdist ydist a b (zscale * dem c) (nbrElev w h dem nd zscale c dn)
    (nbrElev w h dem nd zscale c ndn)

/-- misc_methods.hpp:81-145: `cell_area`. -/
noncomputable def cellSurface (w h : Nat) (dem : Cell → ℝ) (nd zscale xdist ydist : ℝ) (c : Cell) :
    ℝ :=
  (dirs .D8).foldl (fun s n => s + dirArea w h dem nd zscale xdist ydist c n) 0

/-- misc_methods.hpp:147-152: the check of one cell's area; `none` is the exception. -/
noncomputable def checkArea (cellArea planar : ℝ) : Option ℝ :=
  open Classical in
  if cellArea < planar then (if planar ≤ cellArea + 1e-4 then some planar else none)
  else some cellArea

/-- misc_methods.hpp:40-169 (`dem_surface_area`); `xdist` and `ydist` are the cell lengths
(misc_methods.hpp:73-74), the cell area is their product (Array2D.hpp:1378-1399).  `none` is the
exception of line 151.  The parallel reduction is a sum. -/
noncomputable def surfaceArea (w h : Nat) (dem : Cell → ℝ) (nd zscale xdist ydist : ℝ) : Option ℝ :=
  open Classical in
  ((allCells w h).foldlM (fun a c =>
    if dem c = nd then some a
    else (checkArea (cellSurface w h dem nd zscale xdist ydist c) (xdist * ydist)).map
      (fun v => a + v)) (0 : ℝ)).map (fun area =>
    let planar := ((allCells w h).countP (fun c => decide (dem c ≠ nd)) : ℝ) * (xdist * ydist)
    if area < planar then planar else area)

/-- Heron's formula with half-length sides is an eighth of the length of the cross product. -/
theorem triArea_eq (xd yd a b my dn ndn : ℝ)
    (hab : (a = xd ∧ b = yd) ∨ (a = yd ∧ b = xd)) :
    triArea xd yd a b my dn ndn =
      Real.sqrt ((b * (ndn - my)) ^ 2 + (a * (ndn - dn)) ^ 2 + (a * b) ^ 2) / 8 := by
  have hd : eucDist xd yd ^ 2 = a ^ 2 + b ^ 2 := by
    unfold eucDist
    rw [Real.sq_sqrt (by positivity)]
    rcases hab with ⟨rfl, rfl⟩ | ⟨rfl, rfl⟩ <;> ring
  set P := eucDist (eucDist xd yd) (dn - my) with hP
  set Q := eucDist a (ndn - my) with hQ
  set R := eucDist b (ndn - dn) with hR
  have hP2 : P ^ 2 = a ^ 2 + b ^ 2 + (dn - my) ^ 2 := by
    rw [hP]; unfold eucDist at hd ⊢
    rw [Real.sq_sqrt (by positivity), hd]
  have hQ2 : Q ^ 2 = a ^ 2 + (ndn - my) ^ 2 := by
    rw [hQ]; unfold eucDist; rw [Real.sq_sqrt (by positivity)]
  have hR2 : R ^ 2 = b ^ 2 + (ndn - dn) ^ 2 := by
    rw [hR]; unfold eucDist; rw [Real.sq_sqrt (by positivity)]
  have hprod : ((P / 2 + Q / 2 + R / 2) / 2) * ((P / 2 + Q / 2 + R / 2) / 2 - P / 2) *
      ((P / 2 + Q / 2 + R / 2) / 2 - Q / 2) * ((P / 2 + Q / 2 + R / 2) / 2 - R / 2) =
      (2 * (P ^ 2 * Q ^ 2 + Q ^ 2 * R ^ 2 + R ^ 2 * P ^ 2) -
        ((P ^ 2) ^ 2 + (Q ^ 2) ^ 2 + (R ^ 2) ^ 2)) / 256 := by ring
  show Real.sqrt (((P / 2 + Q / 2 + R / 2) / 2) * ((P / 2 + Q / 2 + R / 2) / 2 - P / 2) *
      ((P / 2 + Q / 2 + R / 2) / 2 - Q / 2) * ((P / 2 + Q / 2 + R / 2) / 2 - R / 2)) = _
  rw [hprod, hP2, hQ2, hR2]
  have : (2 * ((a ^ 2 + b ^ 2 + (dn - my) ^ 2) * (a ^ 2 + (ndn - my) ^ 2) +
      (a ^ 2 + (ndn - my) ^ 2) * (b ^ 2 + (ndn - dn) ^ 2) +
      (b ^ 2 + (ndn - dn) ^ 2) * (a ^ 2 + b ^ 2 + (dn - my) ^ 2)) -
      ((a ^ 2 + b ^ 2 + (dn - my) ^ 2) ^ 2 + (a ^ 2 + (ndn - my) ^ 2) ^ 2 +
        (b ^ 2 + (ndn - dn) ^ 2) ^ 2)) / 256 =
      ((b * (ndn - my)) ^ 2 + (a * (ndn - dn)) ^ 2 + (a * b) ^ 2) * (1 / 8) ^ 2 := by ring
  rw [this, Real.sqrt_mul (by positivity), Real.sqrt_sq (by norm_num)]
  ring

theorem dirArea_dims (n : Nat) : let nn := if n + 1 = 9 then 1 else n + 1
    ∀ xd yd : ℝ, ((if dy .D8 (if n8diag n then (n, nn) else (nn, n)).2 = 0 then xd else yd) = xd ∧
      (if dy .D8 (if n8diag n then (n, nn) else (nn, n)).2 = 0 then yd else xd) = yd) ∨
      ((if dy .D8 (if n8diag n then (n, nn) else (nn, n)).2 = 0 then xd else yd) = yd ∧
      (if dy .D8 (if n8diag n then (n, nn) else (nn, n)).2 = 0 then yd else xd) = xd) := by
  intro nn xd yd
  by_cases h : dy .D8 (if n8diag n then (n, nn) else (nn, n)).2 = 0
  · left; simp [h]
  · right; simp [h]

theorem dirArea_ge {w h : Nat} {dem : Cell → ℝ} {nd zscale xd yd : ℝ} (hx : 0 ≤ xd) (hy : 0 ≤ yd)
    (c : Cell) (n : Nat) : xd * yd / 8 ≤ dirArea w h dem nd zscale xd yd c n := by
  unfold dirArea
  have hdim := dirArea_dims n xd yd
  dsimp only at hdim ⊢
  rw [triArea_eq _ _ _ _ _ _ _ hdim]
  have hab : (if dy .D8 (if n8diag n then (n, if n + 1 = 9 then 1 else n + 1) else (if n + 1 = 9 then 1 else n + 1, n)).2 = 0 then xd else yd) *
      (if dy .D8 (if n8diag n then (n, if n + 1 = 9 then 1 else n + 1) else (if n + 1 = 9 then 1 else n + 1, n)).2 = 0 then yd else xd) = xd * yd := by
    rcases hdim with ⟨e1, e2⟩ | ⟨e1, e2⟩ <;> rw [e1, e2]
    ring
  rw [hab]
  refine div_le_div_of_nonneg_right ?_ (by norm_num)
  apply Real.le_sqrt_of_sq_le
  nlinarith [sq_nonneg (xd * yd), sq_nonneg ((if dy .D8 (if n8diag n then (n, if n + 1 = 9 then 1 else n + 1) else (if n + 1 = 9 then 1 else n + 1, n)).2 = 0 then yd else xd) * (nbrElev w h dem nd zscale c (if n8diag n then (n, if n + 1 = 9 then 1 else n + 1) else (if n + 1 = 9 then 1 else n + 1, n)).2 - zscale * dem c)),
    sq_nonneg ((if dy .D8 (if n8diag n then (n, if n + 1 = 9 then 1 else n + 1) else (if n + 1 = 9 then 1 else n + 1, n)).2 = 0 then xd else yd) * (nbrElev w h dem nd zscale c (if n8diag n then (n, if n + 1 = 9 then 1 else n + 1) else (if n + 1 = 9 then 1 else n + 1, n)).2 - nbrElev w h dem nd zscale c (if n8diag n then (n, if n + 1 = 9 then 1 else n + 1) else (if n + 1 = 9 then 1 else n + 1, n)).1))]

end RichDEM
