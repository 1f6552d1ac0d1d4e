import Verif.Flats.FlowFlats
import Verif.Flood

/-!
Models of three command-line tools that read or write D8 direction rasters:
`rd_taudem_d8_to_richdem_d8`, `rd_loop_check` and `rd_flood_for_flowdirs` (/repo/apps).

Reading and writing the files (GDAL) is not modelled: the tools are functions from the loaded
raster to the raster that is saved, or to the lines printed.
-/

namespace RichDEM

/-! ### rd_taudem_d8_to_richdem_d8.cpp -/

/-- rd_taudem_d8_to_richdem_d8.cpp:11 (`taudem_to_richdem`). -/
def taudemToRichdem : List Int := [0, 5, 4, 3, 2, 1, 8, 7, 6]

/-- rd_taudem_d8_to_richdem_d8.cpp:15-19: one cell; `none` is the exception.  Cell values are
integers (the tool also runs on floating-point rasters, where the value is truncated). -/
def convertCell (nd : Int) (fd : Cell → Int) (c : Cell) : Option (Cell → Int) :=
  if fd c = nd then some fd
  else if 0 ≤ fd c ∧ fd c ≤ 8 then
    some (Function.update fd c (taudemToRichdem.getD (fd c).toNat 0))
  else none

/-- rd_taudem_d8_to_richdem_d8.cpp:10-20 (`PerformAlgorithm`), in place, row by row. -/
def convertTaudem (w h : Nat) (nd : Int) (fd : Cell → Int) : Option (Cell → Int) :=
  (allCells w h).foldlM (convertCell nd) fd

/-! ### rd_loop_check.cpp -/

/-- A line printed by `rd_loop_check`: a cell with its direction (line 28), or the blank lines
closing a report (line 44). -/
inductive LoopLine where
  | at (x y : Int) (n : Nat)
  | blank
deriving DecidableEq

/-- `a - b` in `size_t` (64 bits). -/
def sizeSub (a b : Nat) : Nat := (a + 2 ^ 64 - b) % 2 ^ 64

/-- rd_loop_check.cpp:23-41: the `while` loop from the state with `pathLen` iterations done; `fuel`
is the number of iterations left (`max_path_length - path_len`).  The Boolean tells whether the
loop ran to its end (`true`) or returned; `none`: `d8x[n]` was read outside the table. -/
def followLoop (w h : Nat) (fd : Cell → Nat) (nd : Nat) :
    Nat → Nat → Cell → Option (List LoopLine × Bool)
  | 0, _, _ => some ([], true)
  | fuel + 1, pathLen, c =>
    let line := if sizeSub w 10 < pathLen + 1 then [LoopLine.at c.1 c.2 (fd c)] else []
    if fd c = nd ∨ fd c = 0 then some (line, false)
    else if 8 < fd c then none
    else if inGrid w h (nbr .D8 c (fd c)) then
      (followLoop w h fd nd fuel (pathLen + 1) (nbr .D8 c (fd c))).map
        fun r => (line ++ r.1, r.2)
    else some (line, false)

/-- rd_loop_check.cpp:9-45 (`FollowPath`): `max_path_length` is the width (line 20 overwrites line
19); after the loop `path_len` is `max_path_length + 1`. -/
def loopFollow (w h : Nat) (fd : Cell → Nat) (nd : Nat) (c : Cell) : Option (List LoopLine) :=
  (followLoop w h fd nd w 0 c).map fun r =>
    if r.2 then r.1 ++ (if sizeSub w 10 < w + 1 then [.blank] else []) else r.1

/-! ### rd_flood_for_flowdirs.cpp -/

/-- Array2D.hpp:715-719 (`flipVert`) on rasters as functions (the list model and its proof are in
`Verif/Raster.lean`, C34). -/
def flipRows {A : Type*} (h : Nat) (f : Cell → A) : Cell → A := fun c => f (c.1, (h : Int) - 1 - c.2)

/-- rd_flood_for_flowdirs.cpp:12-57 (`PerformAlgorithm`).  `gt1` and `gt5` are the signs of
`geotransform[1]` and `geotransform[5]`; `flip` is always "noflip" (line 16).  `none`: `flipHorz`
writes outside the raster (C34).  The flow directions get the geotransform of the elevations
(`flowdirs.resize(elevations)`), so the second pair of flips repeats the first. -/
def floodForFlowdirs {E : Type*} [LinearOrder E] (pq : PQ (E × Cell) zLt) (w h : Nat)
    (gt1 gt5 : Int) (dem : Cell → E) (nd : E) : Option (Cell → Nat) :=
  if gt1 < 0 then none
  else if 0 < gt5 then
    some (flipRows h (barnesFlatResolutionD8 w h
      (priorityFloodBarnes pq w h .D8 (flipRows h dem)).elev nd))
  else some (barnesFlatResolutionD8 w h (priorityFloodBarnes pq w h .D8 dem).elev nd)

end RichDEM
