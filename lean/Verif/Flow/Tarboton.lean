import Verif.Flow.Accum
import Verif.Flow.FlowDir
import Mathlib.Analysis.SpecialFunctions.Complex.Arg

/-!
D-infinity: `FM_Tarboton` (include/richdem/flowmet/Tarboton1997.hpp) over the reals.

`atan2(y,x)` is modelled by the argument of the complex number `x + y i`; `dang`, a `float`, by the
real π/4.
-/

namespace RichDEM

/-- `std::atan2`. -/
noncomputable def atan2 (y x : ℝ) : ℝ := Complex.arg ⟨x, y⟩

/-- Tarboton1997.hpp:49 (`dx_e1`) and 48 (`dy_e1`). -/
def tarbE1 (n : Nat) : Int × Int :=
  (([0, -1, 0, 0, 1, 1, 0, 0, -1] : List Int).getD n 0, ([0, 0, -1, -1, 0, 0, 1, 1, 0] : List Int).getD n 0)

/-- Tarboton1997.hpp:51 (`dx_e2`) and 50 (`dy_e2`). -/
def tarbE2 (n : Nat) : Int × Int :=
  (([0, -1, -1, 1, 1, 1, 1, -1, -1] : List Int).getD n 0,
    ([0, -1, -1, -1, -1, 1, 1, 1, 1] : List Int).getD n 0)

/-- Tarboton1997.hpp:53 (`af`). -/
def tarbAf (n : Nat) : Int := ([0, -1, 1, -1, 1, -1, 1, -1, 1] : List Int).getD n 0

/-- Tarboton1997.hpp:31 (`nwrap`). -/
def nwrap (n : Nat) : Nat := if n = 9 then 1 else n

/-- Tarboton1997.hpp:71-73: best facet so far (`nmax = -1` is `0` here), its slope and angle. -/
structure Facet where
  n : Nat
  s : ℝ
  r : ℝ

/-- Tarboton1997.hpp:89-107: angle and slope of the facet with elevations `e0`, `e1`, `e2`. -/
noncomputable def facetRS (e0 e1 e2 : ℝ) : ℝ × ℝ :=
  let s1 := e0 - e1
  let s2 := e1 - e2
  let r := atan2 s2 s1
  if r < 1e-7 then (0, s1)
  else if Real.pi / 4 - 1e-7 < r then (Real.pi / 4, (e0 - e2) / Real.sqrt 2)
  else (r, Real.sqrt (s1 * s1 + s2 * s2))

/-- Tarboton1997.hpp:76-78: the cardinal corner of facet `n`. -/
def corner1 (c : Cell) (n : Nat) : Cell := (c.1 + (tarbE1 n).1, c.2 + (tarbE1 n).2)

/-- Tarboton1997.hpp:80-82: the diagonal corner of facet `n`. -/
def corner2 (c : Cell) (n : Nat) : Cell := (c.1 + (tarbE2 n).1, c.2 + (tarbE2 n).2)

open Classical in
/-- Tarboton1997.hpp:75-114: one facet. -/
noncomputable def tarbStep (w h : Nat) (dem : Cell → ℝ) (nd : ℝ) (c : Cell) (b : Facet) (n : Nat) :
    Facet :=
  if inGrid w h (corner1 c n) = false then b
  else if dem (corner1 c n) = nd then b
  else if inGrid w h (corner2 c n) = false then b
  else if dem (corner2 c n) = nd then b
  else
    let rs := facetRS (dem c) (dem (corner1 c n)) (dem (corner2 c n))
    if b.s < rs.2 then { n := n, s := rs.2, r := rs.1 } else b

/-- Tarboton1997.hpp:71-114: the steepest facet. -/
noncomputable def tarbBest (w h : Nat) (dem : Cell → ℝ) (nd : ℝ) (c : Cell) : Facet :=
  (dirs .D8).foldl (tarbStep w h dem nd c) { n := 0, s := 0, r := 0 }

open Classical in
/-- Tarboton1997.hpp:121-126: the angle measured from direction `n`. -/
noncomputable def tarbTurn (b : Facet) : ℝ :=
  if tarbAf b.n = 1 ∧ b.r = 0 then Real.pi / 4
  else if tarbAf b.n = 1 ∧ b.r = Real.pi / 4 then 0
  else if tarbAf b.n = 1 then Real.pi / 4 - b.r
  else b.r

open Classical in
/-- Tarboton1997.hpp:119-141: the slots written for the steepest facet. -/
noncomputable def tarbSlots (b : Facet) : Nat → ℝ :=
  let p0 : Nat → ℝ := Function.update (fun _ => -1) 0 0
  let t := tarbTurn b
  if t = 0 then Function.update p0 b.n 1
  else if t = Real.pi / 4 then Function.update p0 (nwrap (b.n + 1)) 1
  else Function.update (Function.update p0 b.n (t / (Real.pi / 4))) (nwrap (b.n + 1))
    (1 - t / (Real.pi / 4))

open Classical in
/-- Tarboton1997.hpp:14-149 (`FM_Tarboton`, `FM_Dinfinity`): the nine numbers of cell `c`. -/
noncomputable def fmTarboton (w h : Nat) (dem : Cell → ℝ) (nd : ℝ) (c : Cell) : Nat → ℝ :=
  if dem c = nd then Function.update (fun _ => -1) 0 (-2)
  else if isEdgeCell w h c then fun _ => -1
  else
    let b := tarbBest w h dem nd c
    if b.n = 0 then fun _ => -1 else tarbSlots b

end RichDEM
