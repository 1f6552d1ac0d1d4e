import Verif.Grid
import Verif.Loop

/-!
Model of `Perimeter` (include/richdem/misc/misc_methods.hpp:188-240).  The parallel reduction over
the rows is a sum, modelled as a sum over all cells; the counters are `unsigned int` in the code
and unbounded here, so the model covers rasters with fewer than 2^30 cells.
-/

namespace RichDEM

section
variable {E : Type*} [DecidableEq E]

/-- misc_methods.hpp:211-217: the contribution of one data cell to `cell_edges`: the loop stops at
the first off-grid neighbour. -/
def cellEdge (w h : Nat) (c : Cell) : Nat :=
  match (dirs .D8).find? (fun n => !inGrid w h (nbr .D8 c n)) with
  | some _ => 1
  | none => 0

/-- misc_methods.hpp:219-226: the contribution of one data cell to
`(horizontal_edges, vertical_edges)`. -/
def squareEdges (w h : Nat) (dem : Cell → E) (nd : E) (c : Cell) : Nat × Nat :=
  (dirs .D8).foldl (fun a n =>
    if !inGrid w h (nbr .D8 c n) || dem (nbr .D8 c n) == nd then
      if dx .D8 n = 0 then (a.1 + 1, a.2)
      else if dy .D8 n = 0 then (a.1, a.2 + 1)
      else a
    else a) (0, 0)

/-- misc_methods.hpp:188-240 with `CELL_COUNT`. -/
def perimeterCells (w h : Nat) (dem : Cell → E) (nd : E) : Nat :=
  (allCells w h).foldl (fun a c => if dem c = nd then a else a + cellEdge w h c) 0

/-- misc_methods.hpp:188-240 with `SQUARE_EDGE`: the two counters. -/
def perimeterEdges (w h : Nat) (dem : Cell → E) (nd : E) : Nat × Nat :=
  (allCells w h).foldl (fun a c => if dem c = nd then a else
    (a.1 + (squareEdges w h dem nd c).1, a.2 + (squareEdges w h dem nd c).2)) (0, 0)

/-- misc_methods.hpp:236-237: `horizontal_edges*cellLengthX + vertical_edges*cellLengthY`, in exact
arithmetic. -/
def perimeterSquare (w h : Nat) (dem : Cell → E) (nd : E) (lx ly : Rat) : Rat :=
  (perimeterEdges w h dem nd).1 * lx + (perimeterEdges w h dem nd).2 * ly

end

end RichDEM
