/-
Parts of programs/parallel_priority_flood/main.cpp around the algorithm: keeping flooded tiles
between the rounds, marking the sides of missing tiles, and suggesting a block size.
-/
import Verif.Par.Tile

namespace RichDEM

/-! ### Keeping tiles -/

/-- What a consumer keeps of a flooded tile: `dem` and `labels` (main.cpp:189-190). -/
structure Kept (D L : Type*) where
  dem : D
  labels : L
deriving DecidableEq

/-- The content of a cache file: the raster that was dumped to it. -/
inductive Dumped (D L : Type*)
  | dem (d : D)
  | labels (l : L)

/-- The files of the machine. -/
abbrev Disk (D L : Type*) := String → Option (Dumped D L)

/-- main.cpp:244-251 `SaveToCache`. -/
def saveTile {D L : Type*} (ret : String) (k : Kept D L) (fs : Disk D L) : Disk D L :=
  let fs := Function.update fs (ret ++ "dem.dat") (some (.dem k.dem))
  Function.update fs (ret ++ "dem.dat") (some (.labels k.labels))

/-- What a read of a cache file into a raster of elevations gives: the raster that was dumped, or,
when the file holds labels, those read as elevations.  `none`: the file is missing, which throws
(Array2D.hpp:249-250). -/
def readDem {D L : Type*} (asDem : L → D) (fs : Disk D L) (name : String) : Option D :=
  match fs name with
  | none => none
  | some (.dem d) => some d
  | some (.labels l) => some (asDem l)

/-- The same for a raster of labels. -/
def readLabels {D L : Type*} (asLabels : D → L) (fs : Disk D L) (name : String) : Option L :=
  match fs name with
  | none => none
  | some (.dem d) => some (asLabels d)
  | some (.labels l) => some l

/-- main.cpp:253-258 `LoadFromCache`; `none` when it throws. -/
def loadTile {D L : Type*} (asDem : L → D) (asLabels : D → L) (ret : String) (fs : Disk D L) : Option (Kept D L) :=
  match readDem asDem fs (ret ++ "dem.dat"), readLabels asLabels fs (ret ++ "labels.dat") with
  | some d, some l => some ⟨d, l⟩
  | _, _ => none

/-- main.cpp:172 `StorageType`: tiles kept in memory by grid position. -/
abbrev Storage (D L : Type*) := Nat × Nat → Option (Kept D L)

/-- main.cpp:260-266 `SaveToRetain`. -/
def saveRetain {D L : Type*} (t : Nat × Nat) (k : Kept D L) (m : Storage D L) : Storage D L := Function.update m t (some k)

/-- main.cpp:268-274 `LoadFromRetain` (`storage.at`): the tile and what is left behind by the moves. -/
def loadRetain {D L : Type*} (t : Nat × Nat) (moved : Kept D L) (m : Storage D L) : Option (Kept D L × Storage D L) :=
  match m t with
  | none => none
  | some k => some (k, Function.update m t (some moved))

/-! ### Missing tiles -/

/-- main.cpp:963-976 and 1060-1070: the edge flags of tile `t` in <many> mode. -/
def nullEdges (gh gw : Nat) (null : Nat × Nat → Bool) (t : Nat × Nat) : TileEdges :=
  { top := (decide ((t.1 : Int) - 1 > 0) && decide (t.2 > 0) && null (t.1 - 1, t.2)) || decide (t.1 = 0)
    bottom := (decide (t.1 + 1 < gh) && decide (t.2 > 0) && null (t.1 + 1, t.2)) || decide (t.1 + 1 = gh)
    left := (decide (t.1 > 0) && decide ((t.2 : Int) - 1 > 0) && null (t.1, t.2 - 1)) || decide (t.2 = 0)
    right := (decide (t.1 > 0) && decide (t.2 + 1 < gw) && null (t.1, t.2 + 1)) || decide (t.2 + 1 = gw) }

/-! ### Block sizes -/

/-- main.cpp:178-183: the loop body. -/
def suggestStep (selected size min : Int) (best x : Int) : Int :=
  if size % x > min ∧ |x - selected| < |x - best| then x else best

/-- main.cpp:176-184 `SuggestTileSize` (`size` and `x` positive, so `%` is the remainder). -/
def suggestTileSize (selected : Int) (size : Nat) (min : Int) : Int :=
  ((List.range (size - 1)).map (fun i : Nat => (i : Int) + 1)).foldl (suggestStep selected size min) 999999999

end RichDEM
