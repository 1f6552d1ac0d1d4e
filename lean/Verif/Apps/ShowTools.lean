import Verif.Apps.DepTools
import Verif.Apps.LayoutTools

/-!
Model of the tools that draw on the terminal: `rd_raster_display` and `rd_layout_display.py` (apps/), and
of the printing member functions of `Array2D`.
-/

namespace RichDEM
namespace Tools

open Gdal
open Layout (decimal)

variable {E : Type}

/-! ### rd_raster_display -/

/-- `operator<<` for an `int`. -/
def intText (v : Int) : Str := if v < 0 then '-' :: decimal v.natAbs else decimal v.natAbs

/-- `std::setw(n)`: the next item is filled from the left with blanks to `n` characters. -/
def padLeft (n : Nat) (s : Str) : Str := List.replicate (n - s.length) ' ' ++ s

/-- apps/rd_raster_display.cpp:9-21: whether to flip horizontally and vertically. -/
def flipFlags (s : Str) : Option (Bool × Bool) :=
  if s = "fliph".toList then some (true, false)
  else if s = "flipv".toList then some (false, true)
  else if s = "fliphv".toList then some (true, true)
  else if s = "noflip".toList then some (false, false)
  else none

/-- apps/rd_raster_display.cpp:30-34: the raster after the flips. `flipHorz` writes past the raster
(C34); that undefined behaviour is `none`. -/
def displayed (a : Arr E) (fl : Bool × Bool) : Option (Raster E) :=
  let r := if xor (decide (a.geotransform.getD 1 0 < 0)) fl.1 then (toRaster a).flipHorz else some (toRaster a)
  if xor (decide (0 < a.geotransform.getD 5 0)) fl.2 then r.bind Raster.flipVert else r

/-- apps/rd_raster_display.cpp:39-40: one cell. `toInt` is `(int)`, `none` if that is undefined, as for
floating-point numbers beyond the range of `int`. -/
def cellText (toInt : E → Option Int) (r : Raster E) (y x : Nat) : Option Str :=
  (r.cell x y).bind fun v => (toInt v).map fun i => padLeft 6 (intText i) ++ [' ']

/-- apps/rd_raster_display.cpp:39-41: one line. -/
def displayRow (toInt : E → Option Int) (r : Raster E) (y : Nat) : Option Str :=
  ((List.range r.w).mapM (cellText toInt r y)).map fun l => l.flatten ++ ['\n']

/-- apps/rd_raster_display.cpp:6-45 and 50-63: the exit status and what is written to the standard
output. The status of `PerformAlgorithm` is dropped. The stamp of line 36 is left out (it is empty unless
`SHOW_STAMPS` is defined), as is the header of the program, and the streams for messages are not
modelled. The file is opened before the directive is looked at, but its cells are read after. -/
def displayTool (toInt : E → Option Int) (files : Str → Option (File E)) (rest : List Str) : Res (Int × Str) :=
  match rest with
  | [inp, flip] =>
    withFile files inp fun a =>
      match flipFlags flip with
      | none => .ok (0, [])
      | some fl =>
        match displayed a fl with
        | none => .ub
        | some r =>
          match (List.range r.h).mapM (displayRow toInt r) with
          | none => .ub
          | some l => .ok (0, l.flatten)
  | _ => .ok (-1, [])

/-! ### The printing functions of Array2D -/

/-- Array2D.hpp:1311-1325 (`printAllFlows`) for a raster of directions: `std::setw(fwidth)` before each
code. -/
def flowsText (r : Raster Nat) (fwidth : Nat) : Option Str :=
  ((List.range r.h).mapM fun y =>
    ((List.range r.w).mapM fun x => (r.cell x y).map fun d => padLeft fwidth (if d ≤ 8 then decimal d else ['?'])).map
      fun l => l.flatten ++ ['\n']).map List.flatten

/-- The largest `int`. -/
def intMax : Int := 2147483647

/-- Array2D.hpp:1255-1260 and 1343-1348 (`printBlock`, `printBlockIndices`): the first column and row shown
and the ends of the columns and rows shown; `none` if `x0-radius` and the like are not an `int`, which is
undefined behaviour. -/
def blockRange (w h radius x0 y0 : Int) : Option (Int × Int × Int × Int) :=
  if -intMax - 1 ≤ x0 - radius ∧ x0 - radius ≤ intMax ∧ -intMax - 1 ≤ y0 - radius ∧ y0 - radius ≤ intMax ∧
      -intMax - 1 ≤ x0 + radius ∧ x0 + radius ≤ intMax ∧ -intMax - 1 ≤ y0 + radius ∧ y0 + radius ≤ intMax then
    some (max 0 (x0 - radius), max 0 (y0 - radius), min w (x0 + radius), min h (y0 + radius))
  else none

/-- The values of `for(xy_t i=a;i<b;i++)`. -/
def below (a b : Int) : List Int := (List.range (b - a).toNat).map fun k : Nat => a + (k : Int)

/-- Array2D.hpp:1255-1274 (`printBlock`): the rows of cells shown, each with whether it is in colour. -/
def blockShown (r : Raster E) (radius x0 y0 : Int) (color : Bool) : Option (List (List (E × Bool))) :=
  (blockRange r.w r.h radius x0 y0).bind fun b =>
    (below b.2.1 b.2.2.2).mapM fun y => (below b.1 b.2.2.1).mapM fun x =>
      (r.cell x.toNat y.toNat).map fun v => (v, color && x == x0 && y == y0)

/-- Array2D.hpp:1360-1368 (`printAllIndices`), without the message. -/
def indicesText (w h : Nat) : Str :=
  (List.range h).flatMap fun y =>
    ((List.range w).flatMap fun x => padLeft 5 (decimal (y * w + x)) ++ [' ']) ++ ['\n']

end Tools

namespace LTools

open Layout

/-! ### rd_layout_display.py -/

/-- rd_layout_display.py:9-15: what is printed. -/
def layoutDisplay (text : Str) : Str :=
  (fgrid text).flatMap fun line => (line.map fun e => if 0 < (pyStrip e).length then '#' else ' ') ++ ['\n']

end LTools
end RichDEM
