import Verif.IO.Layout

/-!
Model of the Python tools for layout files: apps/rd_layout_find_square.py, apps/rd_layout_check.py.
File contents are lists of characters without carriage returns; white space is ASCII.
-/

namespace RichDEM.LTools

open RichDEM.Layout

/-- What `str.strip()` removes. -/
def blankChar (c : Char) : Bool :=
  c == ' ' || c == '\t' || c == '\n' || c == '\r' || c == '\x0b' || c == '\x0c'

/-- `str.strip()`. -/
def pyStrip (s : Str) : Str := ((s.dropWhile blankChar).reverse.dropWhile blankChar).reverse

/-- `str.split(d)`. -/
def pySplit (d : Char) : Str → List Str
  | [] => [[]]
  | c :: cs =>
    if c = d then [] :: pySplit d cs
    else match pySplit d cs with
      | [] => [[c]]
      | p :: ps => (c :: p) :: ps

/-! ### rd_layout_find_square.py -/

/-- rd_layout_find_square.py:26,34-35 (`readlines`, `fgrid`): the entries of the file. -/
def fgrid (text : Str) : List (List Str) :=
  (getlines '\n' text).map fun line => pySplit ',' (pyStrip line)

/-- rd_layout_find_square.py:36: an entry names a tile if something is left of it after stripping. -/
def hasTile (g : List (List Str)) (y x : Nat) : Bool :=
  match g[y]? with
  | none => false
  | some row =>
    match row[x]? with
    | none => false
    | some e => !(pyStrip e).isEmpty

/-- rd_layout_find_square.py:37: `np.array` of rows of different lengths is no matrix (an exception
there or at `data.shape[1]`). -/
def isMatrix (g : List (List Str)) : Bool := !g.isEmpty && g.all fun r => r.length == (g.headD []).length

/-- rd_layout_find_square.py:7-9: the working copy of the matrix, the best size and its place. -/
structure SqState where
  mat : Nat → Nat → Nat
  best : Int
  loc : Option (Nat × Nat)

/-- rd_layout_find_square.py:12: the side of the square that starts at `(y, x)`. -/
def sideFrom (mat : Nat → Nat → Nat) (y x : Nat) : Nat :=
  min (min (mat (y + 1) x) (mat y (x + 1))) (mat (y + 1) (x + 1)) + 1

/-- `mat[y,x] = v`. -/
def setMat (mat : Nat → Nat → Nat) (p : Nat × Nat) (v : Nat) : Nat → Nat → Nat :=
  fun y x => if (y, x) = p then v else mat y x

/-- rd_layout_find_square.py:12-16: one cell. -/
def sqStep (s : SqState) (p : Nat × Nat) : SqState :=
  if 0 < s.mat p.1 p.2 then
    if s.best < (sideFrom s.mat p.1 p.2 : Int) then
      ⟨setMat s.mat p (sideFrom s.mat p.1 p.2), sideFrom s.mat p.1 p.2, some p⟩
    else ⟨setMat s.mat p (sideFrom s.mat p.1 p.2), s.best, s.loc⟩
  else s

/-- rd_layout_find_square.py:10-11: the order of the cells; the last row and column are left out. -/
def sqOrder (H W : Nat) : List (Nat × Nat) :=
  (List.range (H - 1)).reverse.flatMap fun y => (List.range (W - 1)).reverse.map fun x => (y, x)

/-- rd_layout_find_square.py:6-17 (`LargestSquareOfOnes`) on the matrix of the grid. -/
def largestSquare (g : List (List Str)) : SqState :=
  (sqOrder g.length (g.headD []).length).foldl sqStep
    ⟨fun y x => if hasTile g y x then 1 else 0, -1, none⟩

/-- rd_layout_find_square.py:45-47: the file for one size. -/
def squareFile (g : List (List Str)) (loc : Nat × Nat) (size : Nat) : Str :=
  (List.range size).flatMap fun i => joinC (((g.getD (loc.1 + i) []).drop loc.2).take size) ++ ['\n']

/-- rd_layout_find_square.py:26-47: the size printed with `onlydim`, and the files written otherwise
(for the sizes 1, 2, …).  `none`: an exception. -/
def findSquare (text : Str) : Option (Int × List Str) :=
  if isMatrix (fgrid text) then
    some ((largestSquare (fgrid text)).best,
      (List.range (largestSquare (fgrid text)).best.toNat).map fun k =>
        squareFile (fgrid text) ((largestSquare (fgrid text)).loc.getD (0, 0)) (k + 1))
  else none

/-! ### rd_layout_check.py -/

/-- rd_layout_check.py:16-38: what is printed (`missing`: the files said not to exist). -/
structure CheckOut where
  height : Nat
  width : Nat
  rowWarnings : List (Nat × Nat)
  total : Nat
  nulls : Nat
  tiles : Nat
  duplicates : Bool
  missing : List Str
deriving DecidableEq

/-- rd_layout_check.py:24-25, 30: the entries that are not blank, in order. -/
def namesOf (lines : List Str) : List Str :=
  ((lines.flatMap (pySplit ',')).map pyStrip).filter fun s => !s.isEmpty

/-- rd_layout_check.py:10-42 with `readlines`; `present` says which entries exist as files in the
directory of the layout file.  `none`: the exception of `layout[0]` for an empty file. -/
def layoutCheck (present : Str → Bool) (text : Str) : Option CheckOut :=
  let lines := getlines '\n' text
  match lines with
  | [] => none
  | l0 :: _ =>
    some {
      height := lines.length
      width := l0.count ',' + 1
      rowWarnings := (lines.zipIdx.filter fun p => p.1.count ',' != l0.count ',').map
        fun p => (p.2, p.1.count ',' + 1)
      total := (lines.flatMap (pySplit ',')).length
      nulls := (lines.flatMap (pySplit ',')).length - (namesOf lines).length
      tiles := (namesOf lines).length
      duplicates := (namesOf lines).length != (namesOf lines).dedup.length
      missing := (namesOf lines).filter fun x => !present x }

end RichDEM.LTools
