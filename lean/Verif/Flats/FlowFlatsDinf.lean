import Verif.Flow.DinfDirs
import Verif.Flats.FlowFlats

/-!
Model of include/richdem/flats/flat_resolution_dinf.hpp: flat resolution on D-infinity angles.
Angles are exact reals in units of π/4, as in `Verif/Flow/DinfDirs.lean` (NoData -1, NO_FLOW 0); the
rounding of the raster's `float` cells is not modelled.
-/

namespace RichDEM

open Real

/-- flat_resolution.hpp:381-418, 447-517 on a raster of angles: `find_flat_edges` and the two
gradients only compare a direction with `NO_FLOW` and with the raster's NoData value (-1,
dinf_flowdirs.hpp:135).  Those two values are recoded as they are for D8 directions; any other
angle becomes 1. -/
noncomputable def dinfCode (a : ℝ) : Nat :=
  open Classical in if a = -1 then FLOWDIR_NO_DATA else if a = 0 then 0 else 1

/-- flat_resolution_dinf.hpp:31-34: the facets both of whose corners carry the label of `c`. -/
def maskedFacets (labels : Cell → Int) (c : Cell) : List Nat :=
  (List.range 8).filter (fun n =>
    decide (labels (dinfE1 c n) = labels c) && decide (labels (dinfE2 c n) = labels c))

/-- flat_resolution_dinf.hpp:24-58: the steepest such facet of the mask (`e0`, `e1`, `e2` are the
mask's values converted to `double`). -/
noncomputable def maskedBest (mask labels : Cell → Int) (c : Cell) : DFacet :=
  (maskedFacets labels c).foldl (dinfFacetStep (fun b => (mask b : ℝ)) c) { n := none, s := 0, r := 0 }

/-- flat_resolution_dinf.hpp:15 (`d8_to_dinf`), in units of π/4. -/
def d8ToDinf (n : Nat) : Int := ([-1, 4, 3, 2, 1, 0, 7, 6, 5] : List Int).getD n 0

/-- flat_resolution_dinf.hpp:64-69: the first D8 neighbour with the same label and a lower mask. -/
def maskedFallback (mask labels : Cell → Int) (c : Cell) : Option Nat :=
  (dirs .D8).find? (fun n =>
    decide (labels (nbr .D8 c n) = labels c) && decide (mask (nbr .D8 c n) < mask c))

/-- flat_resolution_dinf.hpp:17-73 (`dinf_masked_FlowDir`), in units of π/4. -/
noncomputable def dinfMaskedFlowDir (mask labels : Cell → Int) (c : Cell) : ℝ :=
  match (maskedBest mask labels c).n with
  | some n => ((dinfAf n : ℝ) * (maskedBest mask labels c).r + (dinfAc n : ℝ) * π / 2) / (π / 4)
  | none =>
    match maskedFallback mask labels c with
    | some n => (d8ToDinf n : ℝ)
    | none => 0

open Classical in
/-- flat_resolution_dinf.hpp:75-98 (`dinf_flow_flats`).  Each parallel iteration writes its own cell
of `flowdirs` and reads no other. -/
noncomputable def dinfFlowFlats (w h : Nat) (mask labels : Cell → Int) (fd : Cell → ℝ) (c : Cell) : ℝ :=
  if 1 ≤ c.1 ∧ c.1 < (w : Int) - 1 ∧ 1 ≤ c.2 ∧ c.2 < (h : Int) - 1 then
    if mask c = -1 then fd c
    else if fd c = 0 then dinfMaskedFlowDir mask labels c
    else fd c
  else fd c

/-- flat_resolution_dinf.hpp:100-112 (`resolve_flats_barnes_dinf`): the resulting angles. -/
noncomputable def resolveFlatsBarnesDinf (w h : Nat) (dem : Cell → ℝ) (nd : ℝ) : Cell → ℝ :=
  let fd := dinfFlowDirections w h dem nd
  let m := resolveFlatsBarnes w h dem (fun c => dinfCode (fd c))
  dinfFlowFlats w h m.1 m.2 fd

end RichDEM
