import Verif.Py.Gdal

/-!
Model of the comparison program of the Python package (/repo/wrappers/pyrichdem/richdem/cli.py `RdCompare`).

What is trusted about NumPy: the element type of a difference (`promote`), arithmetic of
floating-point types with rounding, broadcasting; `str.format` of an integer with a precision raises
(for NumPy's integers too).  The sums for the means are exact here; the printed digits are not modelled, nor NaN.
-/

namespace RichDEM.Py

/-- NumPy's `result_type` for the types `LoadGDAL` gives. -/
def promote : Dtype → Dtype → Dtype
  | .f64, _ => .f64
  | _, .f64 => .f64
  | .f32, .i32 => .f64
  | .f32, .u32 => .f64
  | .i32, .f32 => .f64
  | .u32, .f32 => .f64
  | .f32, _ => .f32
  | _, .f32 => .f32
  | .u8, d => d
  | d, .u8 => d
  | .i16, .u16 => .i32
  | .u16, .i16 => .i32
  | .i16, .i16 => .i16
  | .u16, .u16 => .u16
  | .i32, .i32 => .i32
  | .u32, .u32 => .u32
  | .u16, .i32 => .i32
  | .i32, .u16 => .i32
  | .i16, .i32 => .i32
  | .i32, .i16 => .i32
  | .u16, .u32 => .u32
  | .u32, .u16 => .u32
  | .i16, .u32 => .i64
  | .u32, .i16 => .i64
  | .i32, .u32 => .i64
  | .u32, .i32 => .i64
  | _, _ => .other

/-- A result stored in an array of the floating-point type `d`. -/
def npStore (d : Dtype) (q : ℚ) : ℚ := if d = .f32 then roundBits 24 q else roundBits 53 q

/-- Broadcasting of one dimension. -/
def bdim (x y : Nat) : Option Nat :=
  if x = y then some x else if x = 1 then some y else if y = 1 then some x else none

/-- The cell of an array that a cell of the result is computed from. -/
def bcell (a : RdArr) (c : Cell) : Cell := (if a.v.w = 1 then 0 else c.1, if a.v.h = 1 then 0 else c.2)

/-- What the program prints: which of the metadata differ, and the statistics (largest, smallest and mean absolute
difference, and the mean square, whose root is printed) unless an exception comes before. -/
structure CmpOut where
  noData : Bool
  geo : Bool
  proj : Bool
  stats : Option (ℚ × ℚ × ℚ × ℚ)
deriving DecidableEq

/-- cli.py:224-229: the numbers for the differences `l`, whose element type is `d`; `none`: an exception (no cells, or
an integer for the format `10.6`). -/
def diffStats (d : Dtype) (l : List ℚ) : Option (ℚ × ℚ × ℚ × ℚ) :=
  if (intRange d).isSome then none
  else
    match (l.map fun x => npStore d |x|).max?, (l.map fun x => npStore d |x|).min? with
    | some mx, some mn => some (mx, mn, (l.map fun x => npStore d |x|).sum / l.length,
        (l.map fun x => npStore d (x * x)).sum / l.length)
    | _, _ => none

/-- cli.py:224 `ds1 - ds2` and what is computed from it. -/
def cmpStats (m : PyMem) (a b : RdArr) : Option (ℚ × ℚ × ℚ × ℚ) :=
  match bdim a.v.w b.v.w, bdim a.v.h b.v.h with
  | some w, some h =>
    diffStats (promote a.dt b.dt)
      ((allCells w h).map fun c => npStore (promote a.dt b.dt) (a.cells m (bcell a c) - b.cells m (bcell b c)))
  | _, _ => none

/-- cli.py:193-229 `RdCompare`; `none`: an exception before anything is printed. -/
def compareTool (m : PyMem) (f1 f2 : GFile) : Option CmpOut :=
  match loadGDAL m f1 none "" with
  | none => none
  | some (m1, a) =>
    match loadGDAL m1 f2 none "" with
    | none => none
    | some (m2, b) =>
      some ⟨decide (a.md.noData ≠ b.md.noData), decide (a.md.geo ≠ b.md.geo), decide (a.md.proj ≠ b.md.proj),
        cmpStats m2 a b⟩

end RichDEM.Py
