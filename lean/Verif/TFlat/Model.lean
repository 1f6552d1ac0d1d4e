/-
Model of programs/tiled_flat_resolution/main.cpp ("greedy resolution"): flow directions for a tiled raster, across flats too.

Simplifications: the tiled rasters are functions of the cell (C17 and the other claims about `A2Array2D`); cells of null tiles are NoData cells that
are not visited; elevations are a linear order and comparisons exact.
-/
import Verif.Grid
import Verif.Loop
import Verif.Par.Main

namespace RichDEM

variable {E : Type*} [LinearOrder E]

/-- The directions written so far, the queue of `ProcessFlat`, and whether one of the warnings about loops was printed. -/
structure TFS where
  fd : Cell → Nat
  q : List Cell
  warn : Bool

/-- main.cpp:34-56: neighbour `n` of cell `c` in a flat of elevation `flat`. -/
def tfTouch (w h : Nat) (dem : Cell → E) (nd flat : E) (c : Cell) (s : TFS) (n : Nat) : TFS :=
  let b := nbr .D8 c n
  if inGrid w h b = false then s
  else if isEdgeCell w h b = true then s
  else if s.fd b ≠ 0 then s
  else if dem b ≠ flat then s
  else if dem b < flat ∨ dem b = nd then { s with fd := Function.update s.fd c n }
  else
    { fd := Function.update s.fd b (dinverse .D8 n)
      q := s.q ++ [b]
      warn := s.warn || (s.fd c == dinverse .D8 (dinverse .D8 n)) }

/-- main.cpp:29-57: one iteration of the loop. -/
def tfStep (w h : Nat) (dem : Cell → E) (nd flat : E) (s : TFS) : Option TFS :=
  match s.q with
  | [] => none
  | c :: rest => some ((dirs .D8).foldl (tfTouch w h dem nd flat c) { s with q := rest })

/-- main.cpp:18-58 `ProcessFlat`. -/
def processFlat (w h : Nat) (dem : Cell → E) (nd : E) (c0 : Cell) (s : TFS) : TFS :=
  loop (tfStep w h dem nd (dem c0)) (w * h + 1) { s with q := [c0] }

/-- main.cpp:60-81 `d8EdgeFlow`, with the width in the test of the second corner; 0: it throws. -/
def tfEdgeFlow (w h : Nat) (c : Cell) : Nat :=
  if c.1 = 0 ∧ c.2 = 0 then 2
  else if c.1 = 0 ∧ c.2 = (w : Int) - 1 then 8
  else if c.1 = (w : Int) - 1 ∧ c.2 = 0 then 4
  else if c.1 = (w : Int) - 1 ∧ c.2 = (h : Int) - 1 then 6
  else if c.1 = 0 then 1
  else if c.1 = (w : Int) - 1 then 5
  else if c.2 = 0 then 3
  else if c.2 = (h : Int) - 1 then 7
  else 0

/-- Values of `nlowest_elev`: `numeric_limits::max()`, `numeric_limits::lowest()`, or an elevation. -/
inductive TFBound (E : Type*) where
  | max
  | lowest
  | elev (e : E)

/-- `nelev < nlowest_elev`, for an `nelev` that is less than another elevation. -/
def tfBelow (e : E) : TFBound E → Bool
  | .max => true
  | .lowest => false
  | .elev b => decide (e < b)

/-- main.cpp:139-143: `drains`, `has_flat`, `nlowest`, `nlowest_elev`. -/
structure TFScan (E : Type*) where
  drains : Bool
  flat : Bool
  n : Nat
  e : TFBound E

/-- main.cpp:144-164: neighbour `n`. -/
def tfScan (w h : Nat) (dem : Cell → E) (nd : E) (c : Cell) (v : TFScan E) (n : Nat) : TFScan E :=
  let b := nbr .D8 c n
  if inGrid w h b = false ∨ dem b = nd then { v with drains := true, e := .lowest, n := n }
  else if dem b = dem c then { v with flat := true }
  else if dem b < dem c ∧ tfBelow (dem b) v.e = true then { v with drains := true, e := .elev (dem b), n := n }
  else v

/-- main.cpp:139-164. -/
def tfLook (w h : Nat) (dem : Cell → E) (nd : E) (c : Cell) : TFScan E :=
  (dirs .D8).foldl (tfScan w h dem nd c) { drains := false, flat := false, n := 0, e := .max }

/-- main.cpp:166-173: write the direction of the lowest neighbour. -/
def tfLowest (w h : Nat) (c : Cell) (n : Nat) (s : TFS) : TFS :=
  if n = 0 then s
  else
    { s with
      fd := Function.update s.fd c n
      warn := s.warn || (inGrid w h (nbr .D8 c n) && Function.update s.fd c n (nbr .D8 c n) == dinverse .D8 n) }

/-- main.cpp:175-176: edge cells flow out of the raster. -/
def tfEdge (w h : Nat) (c : Cell) (s : TFS) : TFS :=
  if isEdgeCell w h c = true then { s with fd := Function.update s.fd c (tfEdgeFlow w h c) } else s

/-- main.cpp:124-180: a cell of the raster. -/
def tfCell (w h : Nat) (dem : Cell → E) (nd : E) (s : TFS) (c : Cell) : TFS :=
  if s.fd c ≠ 0 then s
  else if dem c = nd then { s with fd := Function.update s.fd c 255 }
  else
    let v := tfLook w h dem nd c
    let s1 := tfLowest w h c v.n s
    let s2 := tfEdge w h c s1
    if v.drains = true ∧ v.flat = true then processFlat w h dem nd c s2 else s2

/-- main.cpp:98-183: all cells in the order given, from `fds.setAll(NO_FLOW)`. -/
def tfRun (w h : Nat) (dem : Cell → E) (nd : E) (order : List Cell) : TFS :=
  order.foldl (tfCell w h dem nd) { fd := fun _ => 0, q := [], warn := false }

/-- main.cpp:105-123: tile by tile, leaving out null tiles. -/
def tfOrder (T : Tiling) (null : Nat × Nat → Bool) : List Cell :=
  ((tileList T.gh T.gw).filter (fun t => !null t)).flatMap (fun t => (allCells (T.tw t.2) (T.th t.1)).map (T.glob t))

/-- main.cpp:85-200 `Master`: the directions; null tiles are never written and read as NoData. -/
def tiledFlats (T : Tiling) (null : Nat × Nat → Bool) (dem : Cell → E) (nd : E) (c : Cell) : Nat :=
  if c ∈ tfOrder T null then (tfRun T.W T.H dem nd (tfOrder T null)).fd c else 255

end RichDEM
