import Verif.Flow.Tarboton
import Verif.Flow.Dinf

/-!
`dinf_FlowDir` and `dinf_flow_directions` (include/richdem/flowmet/dinf_flowdirs.hpp) over the reals.
-/

namespace RichDEM

open Real

/-- dinf_flowdirs.hpp:25-28: the cardinal corner of facet `n`. -/
def dinfE1 (c : Cell) (n : Nat) : Cell :=
  (c.1 + ([1, 0, 0, -1, -1, 0, 0, 1] : List Int).getD n 0,
   c.2 + ([0, -1, -1, 0, 0, 1, 1, 0] : List Int).getD n 0)

/-- dinf_flowdirs.hpp:25-28: the diagonal corner of facet `n`. -/
def dinfE2 (c : Cell) (n : Nat) : Cell :=
  (c.1 + ([1, 1, -1, -1, -1, -1, 1, 1] : List Int).getD n 0,
   c.2 + ([-1, -1, -1, -1, 1, 1, 1, 1] : List Int).getD n 0)

/-- dinf_flowdirs.hpp:29 (`ac`). -/
def dinfAc (n : Nat) : Int := ([0, 1, 1, 2, 2, 3, 3, 4] : List Int).getD n 0

/-- dinf_flowdirs.hpp:30 (`af`). -/
def dinfAf (n : Nat) : Int := ([1, -1, 1, -1, 1, -1, 1, -1] : List Int).getD n 0

/-- dinf_flowdirs.hpp:87-101: angle and slope of a facet (`atan2(d2,d1)` is π/4). -/
noncomputable def dinfRS (e0 e1 e2 : ℝ) : ℝ × ℝ :=
  let s1 := e0 - e1
  let s2 := e1 - e2
  let r := atan2 s2 s1
  if r < 0 then (0, s1)
  else if π / 4 < r then (π / 4, (e0 - e2) / Real.sqrt 2)
  else (r, Real.sqrt (s1 * s1 + s2 * s2))

/-- dinf_flowdirs.hpp:67-69: the best facet so far (`none` is `nmax = -1`), its slope and angle. -/
structure DFacet where
  n : Option Nat
  s : ℝ
  r : ℝ

/-- dinf_flowdirs.hpp:73-108: one facet. -/
noncomputable def dinfFacetStep (dem : Cell → ℝ) (c : Cell) (b : DFacet) (n : Nat) : DFacet :=
  let rs := dinfRS (dem c) (dem (dinfE1 c n)) (dem (dinfE2 c n))
  if b.s < rs.2 then { n := some n, s := rs.2, r := rs.1 } else b

/-- dinf_flowdirs.hpp:67-108: the steepest facet. -/
noncomputable def dinfBest (dem : Cell → ℝ) (c : Cell) : DFacet :=
  (List.range 8).foldl (dinfFacetStep dem c) { n := none, s := 0, r := 0 }

/-- dinf_flowdirs.hpp:45-115 (`dinf_FlowDir`), in radians. -/
noncomputable def dinfFlowDir (w h : Nat) (dem : Cell → ℝ) (c : Cell) : ℝ :=
  if isEdgeCell w h c then
    if c.1 = 0 ∧ c.2 = 0 then 3 * π / 4
    else if c.1 = 0 ∧ c.2 = (h : Int) - 1 then 5 * π / 4
    else if c.1 = (w : Int) - 1 ∧ c.2 = 0 then 1 * π / 4
    else if c.1 = (w : Int) - 1 ∧ c.2 = (h : Int) - 1 then 7 * π / 4
    else if c.1 = 0 then 4 * π / 4
    else if c.1 = (w : Int) - 1 then 0 * π / 4
    else if c.2 = 0 then 2 * π / 4
    else 6 * π / 4
  else
    match (dinfBest dem c).n with
    | none => 0
    | some n => (dinfAf n : ℝ) * (dinfBest dem c).r + (dinfAc n : ℝ) * π / 2

open Classical in
/-- dinf_flowdirs.hpp:128-152 (`dinf_flow_directions`).  The raster holds radians; here it holds
multiples of π/4 (NoData -1, NO_FLOW 0), the unit used by `Verif/Flow/Dinf.lean`. -/
noncomputable def dinfFlowDirections (w h : Nat) (dem : Cell → ℝ) (nd : ℝ) (c : Cell) : ℝ :=
  if dem c = nd then -1 else dinfFlowDir w h dem c / (π / 4)

end RichDEM
