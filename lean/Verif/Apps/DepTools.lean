import Verif.Apps.RasterTools
import Verif.Breach
import Verif.MaxDep
import Verif.PitMask
import Verif.Zhou
import Mathlib.Data.Rat.Floor

/-!
Model of the tools that look for and remove depressions: `rd_depressions_flood`,
`rd_depressions_has`, `rd_depressions_mask` and `rd_depressions_breach` (apps/), from the arguments and
the file read to what is printed and the file written.

`rest` is argv without the name of the program; `files` gives the raster of a file that exists.
-/

namespace RichDEM
namespace Tools

open Gdal

variable {E : Type}

/-- `std::stoul`: as `stoi`, but an exception only if there are no digits or the number does not fit
64 bits; a number with a minus sign is subtracted from 2^64. -/
def stoul (s : Str) : Res Nat :=
  let p := signOf (s.dropWhile isSpace)
  let ds := leadingDigits p.2
  if ds = [] then .throws
  else
    let n := Nat.ofDigitChars 10 ds 0
    if 2 ^ 64 ≤ n then .throws else .ok (if p.1 then (2 ^ 64 - n) % 2 ^ 64 else n)

/-- apps/rd_depressions_flood.cpp:38, rd_depressions_breach.cpp:71: the number as a `uint32_t`. -/
def stou32 (s : Str) : Res Nat := andThen (stoul s) fun n => .ok (n % 2 ^ 32)

/-- apps/router.hpp:9-47 for a file with cells of type `E`; GDAL cannot open a file that is not
there (src/gdal.cpp:7-14, an exception). -/
def withFile {α : Type} (files : Str → Option (File E)) (name : Str) (k : Arr E → Res α) : Res α :=
  match files name with
  | none => .throws
  | some f => andThen (loadWhole f) k

/-- The loaded raster with other cell values. -/
def withCells (a : Arr E) (g : Cell → E) : Arr E := { a with cells := fun x y => g (x, y) }

def demOf (a : Arr E) : Cell → E := fun c => a.cells c.1 c.2

/-! ### rd_depressions_flood -/

/-- apps/rd_depressions_flood.cpp:15-18. `z0` is the level the size-limited algorithm starts with
(Barnes2014.hpp:885: zero). -/
def floodRaster [LinearOrder E] (pq : PQ (E × Cell) zLt) (z0 : E) (n w h : Nat) (dem : Cell → E) : Cell → E :=
  if n = 0 then (priorityFloodZhou pq w h dem).elev
  else (priorityFloodMaxDep pq w h .D8 n z0 dem).elev

/-- apps/rd_depressions_flood.cpp:12-23 on a loaded raster. -/
def floodArr [LinearOrder E] (pq : PQ (E × Cell) zLt) (z0 : E) (n : Nat) (a : Arr E) : Arr E :=
  withCells a (floodRaster pq z0 n a.width.toNat a.height.toNat (demOf a))

/-- apps/rd_depressions_flood.cpp:27-41. -/
def floodTool [LinearOrder E] (pq : PQ (E × Cell) zLt) (z0 : E) (files : Str → Option (File E)) (rest : List Str)
    (time prog op : Str) : Res (Exit E) :=
  match rest with
  | [inp, _, size] =>
    andThen (stou32 size) fun n =>
      withFile files inp fun a => saveWhole (floodArr pq z0 n a) time prog op
  | _ => .ok ⟨-1, none⟩

/-! ### rd_depressions_has -/

/-- What `rd_depressions_has` does: exit status and the line printed (`true`: "Depressions found."). -/
def hasTool [LinearOrder E] (pq : PQ (E × Cell) zLt) (files : Str → Option (File E)) (rest : List Str) :
    Res (Int × Option Bool) :=
  match rest with
  | [inp] =>
    withFile files inp fun a =>
      .ok (0, some (hasDepressions pq a.width.toNat a.height.toNat .D8 (demOf a)))
  | _ => .ok (-1, none)

/-! ### rd_depressions_mask -/

/-- apps/rd_depressions_mask.cpp:11-17: a raster of bytes with the header of the input
(Array2D.hpp:364-374), filled by `pit_mask`, which sets its NoData value (Barnes2014.hpp:615). -/
def maskArr [LinearOrder E] (pq : PQ (E × Cell) zLt) (a : Arr E) : Arr Nat :=
  { width := a.width
    height := a.height
    cells := fun x y => (pitMask pq a.width.toNat a.height.toNat .D8 a.noData (demOf a)).mask (x, y)
    geotransform := a.geotransform
    projection := a.projection
    noData := 3
    xoff := a.xoff
    yoff := a.yoff
    metadata := a.metadata }

/-- apps/rd_depressions_mask.cpp:10-40. -/
def maskTool [LinearOrder E] (pq : PQ (E × Cell) zLt) (files : Str → Option (File E)) (rest : List Str)
    (time prog op : Str) : Res (Exit Nat) :=
  match rest with
  | [inp, _] => withFile files inp fun a => saveWhole (maskArr pq a) time prog op
  | _ => .ok ⟨-1, none⟩

/-! ### rd_depressions_breach -/

inductive Mode | complete | selective | constrained
deriving DecidableEq

/-- apps/rd_depressions_breach.cpp:44-52. -/
def parseMode (s : Str) : Res Mode :=
  if s = "COMPLETE".toList then .ok .complete
  else if s = "SELECTIVE".toList then .ok .selective
  else if s = "CONSTRAINED".toList then .ok .constrained
  else .throws

/-- apps/rd_depressions_breach.cpp:54-68. -/
def parseFlag (yes no s : Str) : Res Bool :=
  if s = yes then .ok true else if s = no then .ok false else .throws

/-- A cell type: its extremes, the neighbours of a number (std::nextafter, converted back to the
type) and the conversion from `double`. -/
structure NumType (E : Type) where
  top : E
  bot : E
  dn : E → E
  up : E → E
  cast : ℚ → Res E

/-- Lindsay2016.hpp:229-415: the three modes. -/
def lindsay [LinearOrder E] [Sub E] (pq : PQ (E × Cell) zLt) (N : NumType E) (w h : Nat) (nd : E) (mode : Mode)
    (eps fill : Bool) (maxlen : Nat) (maxdepth : E) (dem : Cell → E) : Cell → E :=
  let dn := if eps then N.dn else id
  let up := if eps then N.up else id
  match mode with
  | .complete => (completeBreaching pq .D8 w h nd N.top dn dem).dem
  | .selective => (lindsayLimited pq w h nd N.top N.bot dn up false fill maxlen maxdepth dem).dem
  | .constrained => (lindsayLimited pq w h nd N.top N.bot dn up true fill maxlen maxdepth dem).dem

/-- apps/rd_depressions_breach.cpp:11-27 on a loaded raster. -/
def breachArr [LinearOrder E] [Sub E] (pq : PQ (E × Cell) zLt) (N : NumType E) (mode : Mode) (eps fill : Bool)
    (maxlen : Nat) (maxdepth : ℚ) (a : Arr E) : Res (Arr E) :=
  andThen (N.cast maxdepth) fun d =>
    .ok (withCells a (lindsay pq N a.width.toNat a.height.toNat a.noData mode eps fill maxlen d (demOf a)))

/-- apps/rd_depressions_breach.cpp:31-75. `stod` is `std::stod`. -/
def breachTool [LinearOrder E] [Sub E] (pq : PQ (E × Cell) zLt) (N : NumType E) (stod : Str → Res ℚ)
    (files : Str → Option (File E)) (rest : List Str) (time prog op : Str) : Res (Exit E) :=
  match rest with
  | [inp, _, mode, eps, fill, len, depth] =>
    andThen (parseMode mode) fun mode =>
    andThen (parseFlag "EPS".toList "NOEPS".toList eps) fun eps =>
    andThen (parseFlag "FILL".toList "NOFILL".toList fill) fun fill =>
    andThen (stou32 len) fun len =>
    andThen (stod depth) fun depth =>
    withFile files inp fun a =>
      andThen (breachArr pq N mode eps fill len depth a) fun b => saveWhole b time prog op
  | _ => .ok ⟨-1, none⟩

/-! ### Integer rasters -/

/-- A `double` becomes an integer: towards zero, undefined outside the type. -/
def castInt (t : IType) (q : ℚ) : Res Int :=
  let z : Int := if 0 ≤ q then ⌊q⌋ else ⌈q⌉
  match t with
  | .u8 => if 0 ≤ z ∧ z < 2 ^ 8 then .ok z else .ub
  | .u16 => if 0 ≤ z ∧ z < 2 ^ 16 then .ok z else .ub
  | .i16 => if -2 ^ 15 ≤ z ∧ z < 2 ^ 15 then .ok z else .ub
  | .u32 => if 0 ≤ z ∧ z < 2 ^ 32 then .ok z else .ub
  | .i32 => if -2 ^ 31 ≤ z ∧ z < 2 ^ 31 then .ok z else .ub

/-- The largest and the smallest number of a type. -/
def topOf : IType → Int
  | .u8 => 2 ^ 8 - 1
  | .u16 => 2 ^ 16 - 1
  | .i16 => 2 ^ 15 - 1
  | .u32 => 2 ^ 32 - 1
  | .i32 => 2 ^ 31 - 1

def botOf : IType → Int
  | .u8 => 0
  | .u16 => 0
  | .i16 => -2 ^ 15
  | .u32 => 0
  | .i32 => -2 ^ 31

/-- `std::nextafter(x, lowest)` on an integer: the next `double` below `x` (there is none below the
lowest number, the target), converted back towards zero. -/
def nextDownInt (x : Int) : Int := if 0 < x then x - 1 else x

/-- `std::nextafter(x, max)` on an integer. -/
def nextUpInt (x : Int) : Int := if x < 0 then x + 1 else x

def intType (t : IType) : NumType Int := ⟨topOf t, botOf t, nextDownInt, nextUpInt, castInt t⟩

end Tools
end RichDEM
