import Verif.Apps.DepTools
import Verif.Apps.FlowTools

/-!
Model of the tools that write D8 directions: `rd_d8_flowdirs` and `rd_flood_for_flowdirs` (apps/),
from the arguments and the file read to the file written.
-/

namespace RichDEM
namespace Tools

open Gdal

variable {E : Type} [LinearOrder E]

/-- What a program that writes one raster leaves: the name of the file, if one is written, the exit
status and the file. -/
structure DirOut where
  name : Option Str
  exit : Exit Nat

/-- d8_flowdirs.hpp:107-109 and flat_resolution.hpp:604 (`templateCopy`, Array2D.hpp:1103-1108):
`flowdirs`, a raster of bytes with the geotransform, projection and metadata of the elevations and the
NoData value 255; `codes` are its cells. -/
def dirArr (a : Arr E) (codes : Cell → Nat) : Arr Nat :=
  { width := a.width
    height := a.height
    cells := fun x y => codes (x, y)
    geotransform := a.geotransform
    projection := a.projection
    noData := FLOWDIR_NO_DATA
    xoff := a.xoff
    yoff := a.yoff
    metadata := a.metadata }

/-- apps/rd_d8_flowdirs.cpp:22, the suffix of the name. -/
def dirSuffix : Str := "-flowdirs.tif".toList

/-- apps/rd_d8_flowdirs.cpp:16-20 on a loaded raster. -/
def d8DirsOf (pq : PQ (E × Cell) zLt) (a : Arr E) : Cell → Nat :=
  barnesFlatResolutionD8 a.width.toNat a.height.toNat
    (priorityFloodBarnes pq a.width.toNat a.height.toNat .D8 (demOf a)).elev a.noData

/-- apps/rd_d8_flowdirs.cpp:12-40. -/
def d8DirsTool (pq : PQ (E × Cell) zLt) (files : Str → Option (File E)) (rest : List Str) (time prog op : Str) : Res DirOut :=
  match rest with
  | [inp, pre] =>
    withFile files inp fun a =>
      andThen (saveWhole (dirArr a (d8DirsOf pq a)) time prog op) fun e => .ok ⟨some (pre ++ dirSuffix), e⟩
  | _ => .ok ⟨none, -1, none⟩

/-- apps/rd_flood_for_flowdirs.cpp:12-73. `flipHorz` writes past the raster (C34), which is undefined
behaviour. The sign of a coefficient is the sign of its numerator. -/
def floodDirsTool (pq : PQ (E × Cell) zLt) (files : Str → Option (File E)) (rest : List Str) (time prog op : Str) :
    Res DirOut :=
  match rest with
  | [inp, out] =>
    withFile files inp fun a =>
      match floodForFlowdirs pq a.width.toNat a.height.toNat (a.geotransform.getD 1 0).num (a.geotransform.getD 5 0).num
          (demOf a) a.noData with
      | none => .ub
      | some codes => andThen (saveWhole (dirArr a codes) time prog op) fun e => .ok ⟨some out, e⟩
  | _ => .ok ⟨none, -1, none⟩

end Tools
end RichDEM
