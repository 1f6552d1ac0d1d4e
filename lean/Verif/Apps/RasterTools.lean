import Verif.IO.Gdal
import Verif.IO.Layout
import Verif.Raster

/-!
Model of the small raster tools: `rd_compare`, `rd_expand_dimensions`, `rd_no_data`,
`rd_geotransform`, `rd_projection`, `rd_processing_history`, `rd_hist` and `rd_raster_inspect`
(apps/).  They read a raster through GDAL (`Verif.IO.Gdal`; apps/router.hpp:8-47 picks the cell type
of the file), do one thing with it, and print a result or write a raster.

A call ends in `.ok`, in an exception (`.throws`, which ends the program) or in undefined behaviour
(`.ub`: reading outside a raster, and what loading itself leaves undefined).
-/

namespace RichDEM
namespace Tools

open Gdal

variable {E F : Type}

/-- Sequencing of calls. -/
def andThen {α β : Type} (r : Res α) (k : α → Res β) : Res β :=
  match r with
  | .ok a => k a
  | .throws => .throws
  | .ub => .ub

/-- apps/router.hpp:12 (and the other cases) with the tool's `loadData()`: the whole raster of a
file. -/
def loadWhole (f : File E) : Res (Arr E) := loadGDAL f 0 0 0 0 false

/-- Array2D.hpp:943-956: `operator()(i)`, a flat index into the storage. -/
def flatGet (a : Arr E) (i : Nat) : Option E :=
  if (i : Int) < a.width * a.height then some (a.cells (i % a.width) (i / a.width)) else none

/-! ### rd_compare -/

/-- What `rd_compare` prints: which of the headers differ, and the number of differing values. -/
structure Report where
  geotransforms : Bool
  noDatas : Bool
  projections : Bool
  widths : Bool
  heights : Bool
  differ : Nat
deriving DecidableEq

/-- The body of the loop, apps/rd_compare.cpp:24-25. -/
def diffStep (neq : E → F → Bool) (x : Option E) (y : Option F) (n : Nat) : Option Nat :=
  match x, y with
  | some x, some y => some (if neq x y then n + 1 else n)
  | _, _ => none

/-- apps/rd_compare.cpp:22-25. -/
def countDiffs (neq : E → F → Bool) (a : Arr E) (b : Arr F) : Option Nat :=
  (List.range (a.width * a.height).toNat).foldl
    (fun acc i => acc.bind (diffStep neq (flatGet a i) (flatGet b i))) (some 0)

/-- apps/rd_compare.cpp:11-29 on two loaded rasters. -/
def compareArrs (neq : E → F → Bool) (a : Arr E) (b : Arr F) : Res Report :=
  match countDiffs neq a b with
  | none => .ub
  | some n => .ok
    { geotransforms := !decide (a.geotransform = b.geotransform)
      noDatas := neq a.noData b.noData
      projections := !decide (a.projection = b.projection)
      widths := !decide (a.width = b.width)
      heights := !decide (a.height = b.height)
      differ := n }

/-- apps/rd_compare.cpp:7-30 with the two rounds through apps/router.hpp. `neq` is `!=` on the two
cell types. -/
def compareTool (neq : E → F → Bool) (fa : File E) (fb : File F) : Res Report :=
  andThen (loadWhole fa) fun a => andThen (loadWhole fb) fun b => compareArrs neq a b

/-- The integer cell types of apps/router.hpp:11-30. -/
inductive IType where
  | u8 | u16 | i16 | u32 | i32
deriving DecidableEq

/-- The values of a type. -/
def IType.holds : IType → Int → Prop
  | .u8, v => 0 ≤ v ∧ v < 2 ^ 8
  | .u16, v => 0 ≤ v ∧ v < 2 ^ 16
  | .i16, v => -2 ^ 15 ≤ v ∧ v < 2 ^ 15
  | .u32, v => 0 ≤ v ∧ v < 2 ^ 32
  | .i32, v => -2 ^ 31 ≤ v ∧ v < 2 ^ 31

/-- The usual arithmetic conversions applied to a value of one type when the other operand has type
`t`: everything is promoted to `int`, and to `unsigned` if either operand is one. -/
def convFor (s t : IType) (v : Int) : Int :=
  if s = .u32 ∨ t = .u32 then v % 2 ^ 32 else v

/-- `x != y` in apps/rd_compare.cpp:24 for cells of types `s` and `t`. -/
def neqMixed (s t : IType) (x y : Int) : Bool := !decide (convFor s t x = convFor s t y)

/-! ### rd_expand_dimensions -/

/-- The storage of a loaded raster. -/
def toRaster (a : Arr E) : Raster E :=
  { w := a.width.toNat
    h := a.height.toNat
    data := (List.range (a.width.toNat * a.height.toNat)).map fun k =>
      a.cells ((k % a.width.toNat : Nat) : Int) ((k / a.width.toNat : Nat) : Int)
    noData := a.noData
    ndc := none
    owned := true
    nshiftW := a.width.toNat }

/-- The raster with new storage. -/
def withRaster (a : Arr E) (r : Raster E) : Arr E :=
  { a with
    width := r.w
    height := r.h
    cells := fun x y => (r.cell x.toNat y.toNat).getD r.noData }

/-- What a run leaves: the exit status and the file written, if any. -/
structure Exit (E : Type) where
  code : Int
  file : Option (File E)

/-- `raster.saveGDAL(outname, analysis)`: offsets 0. -/
def saveWhole (a : Arr E) (time prog op : Str) : Res (Exit E) :=
  andThen (saveGDAL a time prog op 0 0) fun p => .ok ⟨0, some p.1⟩

/-- apps/rd_expand_dimensions.cpp:8-26 and 43-45 (the status of `PerformAlgorithm` is dropped). -/
def expandTool (f : File E) (newW newH : Int) (time prog op : Str) : Res (Exit E) :=
  andThen (loadWhole f) fun a =>
    if newW < a.width then .ok ⟨0, none⟩
    else if newH < a.height then .ok ⟨0, none⟩
    else
      match (toRaster a).expand newW.toNat newH.toNat a.noData with
      | none => .throws
      | some r => saveWhole (withRaster a r) time prog op

/-! ### rd_no_data, rd_geotransform, rd_projection, rd_processing_history -/

def isSpace (c : Char) : Bool :=
  c == ' ' || c == '\t' || c == '\n' || c == '\r' || c == '\x0b' || c == '\x0c'

/-- The leading decimal digits. -/
def leadingDigits (s : Str) : Str := s.takeWhile Char.isDigit

/-- The sign of a number and the rest of the text. -/
def signOf : Str → Bool × Str
  | '-' :: s => (true, s)
  | '+' :: s => (false, s)
  | s => (false, s)

/-- `std::stoi`: leading white space, a sign, digits up to the first character that is none; an
exception if there are no digits or the value is no `int`. -/
def stoi (s : Str) : Res Int :=
  let p := signOf (s.dropWhile isSpace)
  let ds := leadingDigits p.2
  if ds = [] then .throws
  else
    let n : Int := (Nat.ofDigitChars 10 ds 0 : Nat)
    let v := if p.1 then -n else n
    if v < -2 ^ 31 ∨ 2 ^ 31 ≤ v then .throws else .ok v

/-- apps/rd_no_data.cpp:8-14. `cast` is the conversion `(T)` from `int`. `setNoData` (Array2D.hpp:
830-832) changes the member only. -/
def noDataTool (cast : Int → E) (f : File E) (nodata : Str) (time prog op : Str) : Res (Exit E) :=
  andThen (loadWhole f) fun a =>
    andThen (stoi nodata) fun v => saveWhole { a with noData := cast v } time prog op

/-- One of apps/rd_geotransform.cpp:21-26. -/
def setCoef (stod : Str → Res ℚ) (i : Nat) (text : Str) (g : List ℚ) : Res (List ℚ) :=
  if text = ['x'] then .ok g
  else andThen (stod text) fun v => .ok (g.set i v)

/-- apps/rd_geotransform.cpp:8-31. `stod` is `std::stod`. -/
def geotransformTool (stod : Str → Res ℚ) (f : File E) (t0 t1 t2 t3 t4 t5 : Str)
    (time prog op : Str) : Res (Exit E) :=
  andThen (loadWhole f) fun a =>
    andThen (setCoef stod 0 t0 a.geotransform) fun g =>
    andThen (setCoef stod 1 t1 g) fun g =>
    andThen (setCoef stod 2 t2 g) fun g =>
    andThen (setCoef stod 3 t3 g) fun g =>
    andThen (setCoef stod 4 t4 g) fun g =>
    andThen (setCoef stod 5 t5 g) fun g =>
      saveWhole { a with geotransform := g } time prog op

/-- apps/rd_projection.cpp:8-22. `templates` opens the template file, of which only the header is
read (its metadata too, Array2D.hpp:154). -/
def projectionTool (templates : Str → Res (File F)) (f : File E) (text : Str)
    (time prog op : Str) : Res (Exit E) :=
  andThen (loadWhole f) fun a =>
    if text.head? = some ':' then saveWhole { a with projection := text.drop 1 } time prog op
    else
      andThen (templates text) fun t =>
        andThen (processMetadata t.mdata) fun _ =>
          saveWhole { a with projection := t.projection } time prog op

/-- apps/rd_processing_history.cpp:16-21: what is printed for the history, `none` for "No
processing history!". -/
def historyTool (f : File E) : Res (Option Str) :=
  andThen (processMetadata f.mdata) fun m =>
    let s := (mapGet keyHistory m).getD []
    if s.length ≠ 0 then .ok (some s) else .ok none

/-! ### rd_hist -/

/-- `counts[v]++` on the `unordered_map`. -/
def bump [DecidableEq E] (v : E) : List (E × Nat) → List (E × Nat)
  | [] => [(v, 1)]
  | (u, n) :: m => if u = v then (u, n + 1) :: m else (u, n) :: bump v m

/-- The body of the loop of apps/rd_hist.cpp:15. -/
def histStep [DecidableEq E] (v : Option E) (m : List (E × Nat)) : Option (List (E × Nat)) :=
  v.map fun v => bump v m

/-- apps/rd_hist.cpp:8-23: the lines printed, in some order. `E` has decidable equality: rasters
with NaN cells are not covered; counters that overflow an `int` are not either. -/
def histTool [DecidableEq E] (f : File E) : Res (List (E × Nat)) :=
  andThen (loadWhole f) fun a =>
    match (List.range (a.width * a.height).toNat).foldl
        (fun acc i => acc.bind (histStep (flatGet a i))) (some []) with
    | none => .ub
    | some m => .ok m

/-! ### rd_raster_inspect -/

/-- apps/rd_raster_inspect.cpp:78-84. -/
structure Opts where
  flipV : Bool
  flipH : Bool
  file : Str
  minx : Int
  maxx : Int
  miny : Int
  maxy : Int
deriving DecidableEq

def noOpts : Opts := ⟨false, false, [], -1, -1, -1, -1⟩

/-- apps/rd_raster_inspect.cpp:88-106. -/
def optStep (o : Opts) (arg : Str) : Res Opts :=
  if arg = ['-', '-', 'f', 'l', 'i', 'p', 'H'] ∨ arg = ['-', 'H'] then .ok { o with flipH := true }
  else if arg = ['-', '-', 'f', 'l', 'i', 'p', 'V'] ∨ arg = ['-', 'V'] then
    .ok { o with flipV := true }
  else if arg.head? = some '-' then .throws
  else if o.file.length = 0 then .ok { o with file := arg }
  else if o.minx = -1 then andThen (stoi arg) fun v => .ok { o with minx := v }
  else if o.maxx = -1 then andThen (stoi arg) fun v => .ok { o with maxx := v }
  else if o.miny = -1 then andThen (stoi arg) fun v => .ok { o with miny := v }
  else if o.maxy = -1 then andThen (stoi arg) fun v => .ok { o with maxy := v }
  else .throws

/-- apps/rd_raster_inspect.cpp:108-119. -/
def checkOpts (o : Opts) : Res Opts :=
  if o.file.length = 0 ∨ o.minx = -1 ∨ o.maxx = -1 ∨ o.miny = -1 then .throws
  else if o.maxy ≠ -1 ∧ o.minx > o.maxx then .throws
  else if o.maxy ≠ -1 ∧ o.miny > o.maxy then .throws
  else if o.minx < 0 then .throws
  else if o.maxx < 0 then .throws
  else if o.miny < 0 then .throws
  else .ok o

/-- apps/rd_raster_inspect.cpp:86-127: `.throws` is the usage message (or, for a number too large,
an uncaught exception). -/
def parseOpts (args : List Str) : Res Opts :=
  andThen (args.foldl (fun r arg => andThen r fun o => optStep o arg) (.ok noOpts)) checkOpts

/-- The window to show and the cell to highlight, apps/rd_raster_inspect.cpp:13-14, 26-34. -/
structure Window where
  cx : Int
  cy : Int
  minx : Int
  maxx : Int
  miny : Int
  maxy : Int

/-- apps/rd_raster_inspect.cpp:26-34; `none` if the centre plus the radius overflows. -/
def window (o : Opts) (w h : Int) : Option Window :=
  if o.maxy = -1 then
    if maxXY < o.minx + o.miny ∨ maxXY < o.maxx + o.miny then none
    else some
      { cx := o.minx
        cy := o.maxx
        minx := max (o.minx - o.miny) 0
        maxx := min (o.minx + o.miny) (w - 1)
        miny := max (o.maxx - o.miny) 0
        maxy := min (o.maxx + o.miny) (h - 1) }
  else some { cx := -1, cy := -1, minx := o.minx, maxx := o.maxx, miny := o.miny, maxy := o.maxy }

/-- The values of a loop `for(int i=a;i<=b;i++)`. -/
def upto (a b : Int) : List Int := (List.range (b - a + 1).toNat).map fun k : Nat => a + (k : Int)

/-- What is printed: the column numbers, and for each row its number and its cells with whether
they are highlighted. -/
structure Shown (E : Type) where
  cols : List Int
  rows : List (Int × List (E × Bool))
deriving DecidableEq

/-- One cell of apps/rd_raster_inspect.cpp:50-59. -/
def showCell (r : Raster E) (win : Window) (y x : Int) : Option (E × Bool) :=
  (r.cell x.toNat y.toNat).map fun v => (v, decide (win.cx = x) && decide (win.cy = y))

/-- One row of apps/rd_raster_inspect.cpp:47-62. -/
def showRow (r : Raster E) (win : Window) (y : Int) : Option (Int × List (E × Bool)) :=
  ((upto win.minx win.maxx).mapM (showCell r win y)).map fun l => (y, l)

/-- apps/rd_raster_inspect.cpp:36-62. -/
def showWindow (r : Raster E) (win : Window) : Res (Shown E) :=
  if win.minx > win.maxx then .throws
  else if win.miny > win.maxy then .throws
  else
    match (upto win.miny win.maxy).mapM (showRow r win) with
    | none => .ub
    | some rows => .ok { cols := upto win.minx win.maxx, rows := rows }

/-- The coefficient `i` of the geotransform. -/
def coef (a : Arr E) (i : Nat) : ℚ := a.geotransform.getD i 0

/-- apps/rd_raster_inspect.cpp:16-24: the raster after the flips. -/
def oriented (a : Arr E) (o : Opts) : Option (Raster E) :=
  let fh := if coef a 1 < 0 then !o.flipH else o.flipH
  let fv := if 0 < coef a 5 then !o.flipV else o.flipV
  let r := if fv then (toRaster a).flipVert else some (toRaster a)
  if fh then r.bind Raster.flipHorz else r

/-- apps/rd_raster_inspect.cpp:7-65. -/
def inspectTool (f : File E) (o : Opts) : Res (Shown E) :=
  andThen (loadWhole f) fun a =>
    match oriented a o with
    | none => .ub
    | some r =>
      match window o r.w r.h with
      | none => .ub
      | some win => showWindow r win

end Tools
end RichDEM
