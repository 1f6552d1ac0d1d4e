import Verif.Apps.DepTools
import Verif.DepHier.Main

/-!
Model of `rd_depression_hierarchy` (apps/rd_depression_hierarchy.cpp): from the arguments and the DEM to
the table of depressions and the raster of labels.
-/

namespace RichDEM
namespace Tools

open Gdal

variable {E : Type} [LinearOrder E]

/-- One line of the table: the parent, the depression and whether the link leads to the ocean. -/
structure Row where
  parent : Nat
  child : Nat
  ocean : Bool
deriving DecidableEq

/-- apps/rd_depression_hierarchy.cpp:60-62, a line. -/
def rowText (r : Row) : Str :=
  Layout.decimal r.parent ++ ',' :: Layout.decimal r.child ++ ',' :: (if r.ocean then ['1'] else ['0']) ++ ['\n']

/-- apps/rd_depression_hierarchy.cpp:57-64, the file. -/
def graphText (rows : List Row) : Str := "parent,child,oceanlink\n".toList ++ rows.flatMap rowText

/-- apps/rd_depression_hierarchy.cpp:39-43: the ocean is where there is no data or the elevation is the
ocean level; `none` is `NO_DEP`. -/
def oceanLabels (a : Arr E) (lvl : E) (c : Cell) : Option Nat :=
  if demOf a c = a.noData ∨ demOf a c = lvl then some 0 else none

/-- apps/rd_depression_hierarchy.cpp:62: `NO_VALUE` is 2^32-1. -/
def oceanLink (H : Hier E) (i : Nat) : Bool :=
  match (H.dep i).parent with
  | none => false
  | some p => p == 0 || !((H.dep p).lchild == some i || (H.dep p).rchild == some i)

/-- apps/rd_depression_hierarchy.cpp:59-63. -/
def graphRows (H : Hier E) : List Row :=
  (List.range' 1 (H.n - 1)).map fun i => ⟨(H.dep i).parent.getD (2 ^ 32 - 1), i, oceanLink H i⟩

/-- apps/rd_depression_hierarchy.cpp:36,66-67: a raster of `uint32_t` made from a width and a height
has no geotransform (Array2D.hpp:94), the NoData value (uint32_t)-1 (Array2D.hpp:114), and the
projection it is given. -/
def labelArr (a : Arr E) (s : DHS E) : Arr Nat :=
  { width := a.width
    height := a.height
    cells := fun x y => (s.label (x, y)).getD (2 ^ 32 - 1)
    geotransform := []
    projection := a.projection
    noData := 2 ^ 32 - 1
    xoff := 0
    yoff := 0
    metadata := [] }

/-- What the program leaves: the table, if it is written, the exit status and the raster of labels. -/
structure HierOut where
  graph : Option Str
  exit : Exit Nat

/-- apps/rd_depression_hierarchy.cpp:34-67 on a loaded raster. `order` is the vector of outlets that
the iteration over the table of outlets and the sorting leave (depression_hierarchy.hpp:560-580). An
exception of the construction ends the program before anything is written. -/
def hierArr (pq : PQ (E × Cell) zLt) (order : DHS E → List (Outlet E)) (lvl : E) (time prog : Str) (a : Arr E) : Res HierOut :=
  match getDHFlood pq a.width.toNat a.height.toNat .D8 (demOf a) (oceanLabels a lvl) with
  | none => .throws
  | some s =>
    match depHierarchy s (order s) with
    | none => .throws
    | some H =>
      andThen (saveWhole (labelArr a s) time prog []) fun e => .ok ⟨some (graphText (graphRows H)), e⟩

/-- apps/rd_depression_hierarchy.cpp:13-75. `stof` is `std::stod`, rounded to `float`. -/
def hierTool (pq : PQ (E × Cell) zLt) (order : DHS E → List (Outlet E)) (stof : Str → Res E)
    (files : Str → Option (File E)) (rest : List Str) (time prog : Str) : Res HierOut :=
  match rest with
  | [inp, _, level] =>
    andThen (stof level) fun lvl => withFile files inp fun a => hierArr pq order lvl time prog a
  | _ => .ok ⟨none, ⟨-1, none⟩⟩

end Tools
end RichDEM
