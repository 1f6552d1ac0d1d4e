import Verif.IO.Tiled
import Verif.IO.Gdal

/-!
Model of saving a tiled raster: `A2Array2D::saveUnifiedGDAL` and `A2Array2D::saveGDAL`
(include/richdem/tiled/A2Array2D.hpp:485-568) for writable rasters, on the cache model of
`IO/Tiled.lean`.
-/

namespace RichDEM
namespace Tiled
variable {T : Type}

/-- The file `saveUnifiedGDAL` creates. -/
structure UniFile (T : Type) where
  width : Nat
  height : Nat
  band : Nat → Nat → T
  noData : T

/-- The tiles in the order of the loops of A2Array2D.hpp:534-535 and 553-554. -/
def tileOrder (W H : Nat) : List (Nat × Nat) :=
  (List.range H).flatMap fun ty => (List.range W).map fun tx => (tx, ty)

/-- A2Array2D.hpp:562: RasterIO(GF_Write, tx*stdTileWidth(), ty*stdTileHeight(), tileWidth,
tileHeight, …); all tiles have the standard size. -/
def writeTile (tw th tx ty : Nat) (m band : Nat → Nat → T) (x y : Nat) : T :=
  if tx * tw ≤ x ∧ x < tx * tw + tw ∧ ty * th ≤ y ∧ y < ty * th + th then
    m (x - tx * tw) (y - ty * th)
  else band x y

/-- A2Array2D.hpp:553-565. -/
def saveTiles (dflt : T) : List (Nat × Nat) → (Nat → Nat → T) → Tiled T →
    Option ((Nat → Nat → T) × Tiled T)
  | [], b, s => some (b, s)
  | (tx, ty) :: l, b, s =>
    match s.isNullTile tx ty with
    | none => none
    | some true => saveTiles dflt l b s
    | some false =>
      match s.loadTile dflt (ty * s.W + tx) with
      | none => none
      | some s' =>
        saveTiles dflt l (writeTile s.tw s.th tx ty ((s'.tiles (ty * s.W + tx)).mem) b) s'

/-- A2Array2D.hpp:525-568 (`saveUnifiedGDAL`): `none` is an exception. The geotransform is that of
the first tile; a null tile has none (it was never opened), and an empty one is refused
(541-542). -/
def saveUnified [DecidableEq T] (dflt : T) (s : Tiled T) : Option (UniFile T × Tiled T) :=
  if (tileOrder s.W s.H).any (fun t => s.noData (t.2 * s.W + t.1) ≠ s.noData 0) then none
  else
    match s.isNullTile 0 0 with
    | some false =>
      match saveTiles dflt (tileOrder s.W s.H) (fun _ _ => s.noData 0) s with
      | none => none
      | some (b, s') => some (⟨s.W * s.tw, s.H * s.th, b, s.noData 0⟩, s')
    | _ => none

/-- A2Array2D.hpp:570-575 (`setNoData`): null tiles are left out. -/
def setNoData (s : Tiled T) (v : T) : Tiled T :=
  { s with noData := fun t => if s.quick[t]? = some true then s.noData t else v }

/-- `std::string` made from a `const char*` (libstdc++ throws for a null pointer). -/
def cString (p : Option Gdal.Str) : Gdal.Res Gdal.Str :=
  match p with
  | some s => .ok s
  | none => .throws

/-- A2Array2D.hpp:493-521 (`saveGDAL`), the tiles in order: the entries written to the layout file
up to the end. The second argument of the call `tile.saveGDAL(temp, 0, 0)` is the parameter
`const std::string &metadata_str`, for which the literal 0 is a null pointer; `save` stands for
the rest of the tile's saveGDAL. -/
def saveEach (name : Nat → Gdal.Str) (save : Nat → Gdal.Str → Gdal.Res Unit) (s : Tiled T) :
    List (Nat × Nat) → List Gdal.Str → Gdal.Res (List Gdal.Str)
  | [], out => .ok out
  | (tx, ty) :: l, out =>
    match s.isNullTile tx ty with
    | none => .ub
    | some true => saveEach name save s l (out ++ [[]])
    | some false =>
      match cString none with
      | .throws => .throws
      | .ub => .ub
      | .ok op =>
        match save (ty * s.W + tx) op with
        | .throws => .throws
        | .ub => .ub
        | .ok () => saveEach name save s l (out ++ [name (ty * s.W + tx)])

end Tiled
end RichDEM
