import Mathlib.Data.Rat.Defs
import Mathlib.Algebra.Order.Ring.Rat
import Mathlib.Tactic.Ring
import Mathlib.Tactic.Linarith
import Verif.Spec

/-!
Model of reading and writing rasters through GDAL:
`Array2D::loadGDAL`, `loadData`, `saveGDAL` and `ProcessMetadata`
(include/richdem/common/Array2D.hpp:43-66, 131-187, 450-479, 1112-1190) and the free functions
`LoadGDAL`, `SaveGDAL` (include/richdem/common/loaders.hpp:10-203).

GDAL itself is not modelled: a file is what GDAL's accessors return for it, `RasterIO` copies a
window between a band and a buffer and reports an error when the window leaves the band.
Simplifications: the cell type is kept by the file (no conversion through `double`), geotransforms
are rational, opening and creating files succeeds, and the GDAL driver accepts the cell type.
-/

namespace RichDEM
namespace Gdal

/-- What a call can end in. -/
inductive Res (α : Type) where
  | ok (a : α)
  | throws
  | ub
deriving DecidableEq

abbrev Str := List Char

/-- The six coefficients of GDAL's affine transform; comment of Array2D.hpp:1145-1151. -/
structure GT where
  g0 : ℚ
  g1 : ℚ
  g2 : ℚ
  g3 : ℚ
  g4 : ℚ
  g5 : ℚ
deriving DecidableEq

/-- A single-band raster file as GDAL presents it. -/
structure File (E : Type) where
  width : Int
  height : Int
  band : Int → Int → E
  gt : Option GT
  projection : Str
  noData : E
  /-- `GetMetadata()`: `none` is a null pointer, otherwise the entries before the null one. -/
  mdata : Option (List Str)

/-- Array2D.hpp:90-129: the members concerned. `geotransform` is a vector of any length. -/
structure Arr (E : Type) where
  width : Int
  height : Int
  cells : Int → Int → E
  geotransform : List ℚ
  projection : Str
  noData : E
  xoff : Int
  yoff : Int
  metadata : List (Str × Str)

/-- std::numeric_limits<xy_t>::max(). -/
def maxXY : Int := 2147483647

/-- Array2D.hpp:150 and loaders.hpp:29. -/
def defaultGT : List ℚ := [1000, 1, 0, 1000, 0, -1]

def GT.toList (g : GT) : List ℚ := [g.g0, g.g1, g.g2, g.g3, g.g4, g.g5]

/-- Array2D.hpp:146-151: GetGeoTransform, or the stand-in. -/
def File.geotransform {E : Type} (f : File E) : List ℚ :=
  match f.gt with
  | some g => g.toList
  | none => defaultGT

/-- Array2D.hpp:168-171 and 173-174 (`xOffset`, `part_width`, `total_width`); the same text for
the height, and in loaders.hpp:44-52. -/
def partSize (off part total : Int) : Int :=
  let p := if off + part ≥ total then total - off else part
  if p = 0 then total else p

/-- GDALRasterBand::RasterIO(GF_Read, …): an error for a window that leaves the band. -/
def rasterRead {E : Type} (f : File E) (x0 y0 w h : Int) : Option (Int → Int → E) :=
  if x0 < 0 ∨ y0 < 0 ∨ f.width < x0 + w ∨ f.height < y0 + h then none
  else some (fun x y => f.band (x0 + x) (y0 + y))

/-! ### Metadata -/

/-- `metstr.find("=")` and the two `substr`s of Array2D.hpp:50-56. -/
def splitEq : Str → Option (Str × Str)
  | [] => none
  | c :: cs => if c = '=' then some ([], cs) else (splitEq cs).map (fun p => (c :: p.1, p.2))

/-- std::map assignment `ret[key] = val`, and GDAL's SetMetadataItem. -/
def mapSet (k v : Str) : List (Str × Str) → List (Str × Str)
  | [] => [(k, v)]
  | (k', v') :: m => if k' = k then (k, v) :: m else (k', v') :: mapSet k v m

/-- std::map::find. -/
def mapGet (k : Str) : List (Str × Str) → Option Str
  | [] => none
  | (k', v') :: m => if k' = k then some v' else mapGet k m

/-- Array2D.hpp:48-63: the loop of ProcessMetadata. `metadata[i]` is the null pointer just behind
the last entry; the loop runs while the entry **is** null, and its body makes a `std::string` of
it (undefined for a null pointer). Reading further behind is undefined too. -/
def metaLoop (ms : List Str) : Nat → List (Str × Str) → Res (List (Str × Str))
  | i, ret =>
    if i > ms.length then .ub
    else
      match ms[i]? with
      | some _ => .ok ret
      | none => .ub

/-- Array2D.hpp:43-66. -/
def processMetadata (m : Option (List Str)) : Res (List (Str × Str)) :=
  match m with
  | none => .ok []
  | some ms => metaLoop ms 0 []

/-! ### Loading -/

/-- Array2D.hpp:450-479 (`loadData` of a raster that is not cached) after the members were set:
`resize` asserts non-negative dimensions (Array2D.hpp:853-855), and RasterIO must succeed. -/
def loadData {E : Type} (f : File E) (a : Arr E) : Res (Arr E) :=
  if a.width < 0 ∨ a.height < 0 ∨ maxXY - 2 < a.width then .ub
  else
    match rasterRead f a.xoff a.yoff a.width a.height with
    | none => .throws
    | some d => .ok { a with cells := d }

/-- Array2D.hpp:157-185 after the metadata: the window, then the data. Signed overflow in
`xOffset+part_width` or in a difference is undefined. -/
def loadWindow {E : Type} (f : File E) (xOff yOff pw ph : Int) (exact : Bool)
    (m : List (Str × Str)) : Res (Arr E) :=
  if exact = true ∧ (f.width - xOff ≠ pw ∨ f.height - yOff ≠ ph) then .throws
  else if maxXY < xOff + pw ∨ maxXY < yOff + ph then .ub
  else
    loadData f
      { width := partSize xOff pw f.width
        height := partSize yOff ph f.height
        cells := fun _ _ => f.noData
        geotransform := f.geotransform
        projection := f.projection
        noData := f.noData
        xoff := xOff
        yoff := yOff
        metadata := m }

/-- Array2D.hpp:131-187: `loadGDAL(filename, xOffset, yOffset, part_width, part_height, exact)`
with `load_data`. -/
def loadGDAL {E : Type} (f : File E) (xOff yOff pw ph : Int) (exact : Bool) : Res (Arr E) :=
  match processMetadata f.mdata with
  | .throws => .throws
  | .ub => .ub
  | .ok m => loadWindow f xOff yOff pw ph exact m

/-- loaders.hpp:38-78 after the metadata. The offsets and sizes are unsigned here; a window that
starts behind the edge makes `total_width-xOffset` wrap, which ends in `resize` with a negative
size. `zero` is `T()`; `view_xoff` keeps its default. -/
def loadPadded {E : Type} (f : File E) (zero : E) (padx pady xOff yOff pw ph : Nat)
    (m : List (Str × Str)) : Res (Arr E) :=
  let vw := partSize xOff pw f.width
  let vh := partSize yOff ph f.height
  if vw < 0 ∨ vh < 0 ∨ maxXY - 2 < vw + 2 * padx then .ub
  else
    match rasterRead f xOff yOff vw vh with
    | none => .throws
    | some d =>
      .ok
        { width := vw + 2 * padx
          height := vh + 2 * pady
          cells := fun x y =>
            if (padx : Int) ≤ x ∧ x < padx + vw ∧ (pady : Int) ≤ y ∧ y < pady + vh then
              d (x - padx) (y - pady)
            else zero
          geotransform := f.geotransform
          projection := f.projection
          noData := f.noData
          xoff := 0
          yoff := 0
          metadata := m }

/-- loaders.hpp:10-92: `LoadGDAL`. -/
def LoadGDAL {E : Type} (f : File E) (zero : E) (padx pady xOff yOff pw ph : Nat) : Res (Arr E) :=
  match processMetadata f.mdata with
  | .throws => .throws
  | .ub => .ub
  | .ok m => loadPadded f zero padx pady xOff yOff pw ph m

/-! ### Saving -/

/-- Array2D.hpp:1153-1168 and loaders.hpp:150-167: the geotransform the file gets. `.ok none`: none
is set. -/
def outGT (g : List ℚ) (xoffset yoffset : Int) : Res (Option GT) :=
  match g with
  | [] => .ok none
  | [g0, g1, g2, g3, g4, g5] => .ok (some ⟨g0 + xoffset * g1, g1, g2, g3 + yoffset * g5, g4, g5⟩)
  | _ => .throws

/-- "PROCESSING_HISTORY". -/
def keyHistory : Str :=
  ['P', 'R', 'O', 'C', 'E', 'S', 'S', 'I', 'N', 'G', '_', 'H', 'I', 'S',
   'T', 'O', 'R', 'Y']
/-- "TIFFTAG_DATETIME". -/
def keyDateTime : Str :=
  ['T', 'I', 'F', 'F', 'T', 'A', 'G', '_', 'D', 'A', 'T', 'E', 'T', 'I',
   'M', 'E']
/-- "TIFFTAG_SOFTWARE". -/
def keySoftware : Str :=
  ['T', 'I', 'F', 'F', 'T', 'A', 'G', '_', 'S', 'O', 'F', 'T', 'W', 'A',
   'R', 'E']
/-- "Unspecified Operation". -/
def unspecified : Str :=
  ['U', 'n', 's', 'p', 'e', 'c', 'i', 'f', 'i', 'e', 'd', ' ', 'O', 'p',
   'e', 'r', 'a', 't', 'i', 'o', 'n']
/-- " | ". -/
def bar : Str :=
  [' ', '|', ' ']

/-- What is appended to the history for one save: time, program, operation. -/
def entry (time prog : Str) : Str := time ++ bar ++ prog ++ bar

/-- Array2D.hpp:1133-1137: the member `metadata` after the two `+=`. `metadata` cannot be empty at
the test of line 1134, `operator[]` has just made an entry. -/
def historyAfterSave (time prog op : Str) (m : List (Str × Str)) : List (Str × Str) :=
  let old := (mapGet keyHistory m).getD []
  let m1 := mapSet keyHistory (old ++ ('\n' :: entry time prog)) m
  if m1 ≠ [] then mapSet keyHistory (((mapGet keyHistory m1).getD []) ++ op) m1
  else mapSet keyHistory (((mapGet keyHistory m1).getD []) ++ unspecified) m1

/-- SetMetadataItem for every pair. -/
def setItems (kvs : List (Str × Str)) (m : List (Str × Str)) : List (Str × Str) :=
  kvs.foldl (fun m kv => mapSet kv.1 kv.2 m) m

/-- The entries GDAL returns for a file with these items. -/
def render (m : List (Str × Str)) : Option (List Str) :=
  if m = [] then none else some (m.map fun p => p.1 ++ '=' :: p.2)

/-- Array2D.hpp:1112-1190: `saveGDAL(filename, metadata_str, xoffset, yoffset)`: the file, and the
raster (its `metadata` member is changed). -/
def saveGDAL {E : Type} (a : Arr E) (time prog op : Str) (xoffset yoffset : Int) :
    Res (File E × Arr E) :=
  let m := historyAfterSave time prog op a.metadata
  match outGT a.geotransform xoffset yoffset with
  | .throws => .throws
  | .ub => .ub
  | .ok g =>
    .ok
      ({ width := a.width
         height := a.height
         band := a.cells
         gt := g
         projection := a.projection
         noData := a.noData
         mdata := render (setItems m (mapSet keySoftware prog (mapSet keyDateTime time []))) },
       { a with metadata := m })

/-- loaders.hpp:121-137: the history string written. -/
def historyString (time prog op : Str) (m : List (Str × Str)) : Str :=
  let old := (mapGet keyHistory m).getD []
  let sep := if old ≠ [] then ['\n'] else []
  old ++ sep ++ entry time prog ++ (if op ≠ [] then op else unspecified)

/-- loaders.hpp:96-203: `SaveGDAL(arr, filename, metadata_str, xoffset, yoffset, padx, pady)`. The
file is created with the size of the array; the block that is left after stripping the padding
is written to its top left corner, the other cells of a new file are `fresh`. Padding that
leaves nothing is not modelled. -/
def SaveGDAL {E : Type} (a : Arr E) (fresh : E) (time prog op : Str) (xoffset yoffset : Int)
    (padx pady : Nat) : Res (File E) :=
  match outGT a.geotransform xoffset yoffset with
  | .throws => .throws
  | .ub => .ub
  | .ok g =>
    .ok
      { width := a.width
        height := a.height
        band := fun x y =>
          if x < a.width - 2 * padx ∧ y < a.height - 2 * pady then a.cells (x + padx) (y + pady)
          else fresh
        gt := g
        projection := a.projection
        noData := a.noData
        mdata := render (setItems (a.metadata.filter fun kv => kv.1 ≠ keyHistory)
          (mapSet keyHistory (historyString time prog op a.metadata)
            (mapSet keySoftware prog (mapSet keyDateTime time [])))) }

end Gdal
end RichDEM
