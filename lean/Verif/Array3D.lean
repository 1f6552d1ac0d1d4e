import Mathlib.Data.List.Basic
import Mathlib.Tactic.Ring

/-!
Model of `Array3D` (include/richdem/common/Array3D.hpp), the raster with nine numbers per cell that
holds flow proportions.

Storage is a flat list; reading or writing outside it, or reading the NoData value before it was
set (it has no initialiser), is undefined behaviour: `none`.  Index arithmetic is exact: the model
covers rasters whose `9*width*height` fits 64 bits; the places where the code multiplies in `int`
are modelled as such.
-/

namespace RichDEM

/-- Array3D.hpp:79-89 (the members used here).  `ndc` is `num_data_cells`, `none` for `NO_I`;
`noData = none`: not initialised. -/
structure Arr3 (T : Type) where
  w : Nat
  h : Nat
  data : List T
  noData : Option T
  ndc : Option Nat
deriving DecidableEq

namespace Arr3
variable {T : Type}

/-- Array3D.hpp:305-312 (`resize(width,height,val)`), with 294-297 (`setAll`); also the
constructor at 105-107.  The NoData value and the cached count are not touched. -/
def resize (a : Arr3 T) (w h : Nat) (v : T) : Arr3 T :=
  { a with
    w := w
    h := h
    data := List.replicate (9 * w * h) v }

/-- Array3D.hpp:97 (default constructor). -/
def empty : Arr3 T := ⟨0, 0, [], none, none⟩

/-- Array3D.hpp:119-123: wrapping a user's array `d`; the length `9*width*height` is computed in
`int`, so from `2^31` on it overflows (undefined). -/
def wrap (d : List T) (w h : Nat) : Option (Arr3 T) :=
  if 9 * w * h < 2 ^ 31 then some ⟨w, h, d, none, none⟩ else none

/-- Array3D.hpp:206-209 (`xyToI`); the assertion is `0<=n && n<=9`. -/
def xyToI3 (w : Nat) (x y n : Nat) : Option Nat :=
  if n ≤ 9 then some (y * 9 * w + 9 * x + n) else none

/-- Array3D.hpp:366-374, 384-392 (`operator()(x,y,n)`), reading. -/
def get (a : Arr3 T) (x y n : Nat) : Option T :=
  if x < a.w ∧ y < a.h ∧ n < 9 then (xyToI3 a.w x y n).bind (a.data[·]?) else none

/-- Array3D.hpp:366-374, writing through the reference. -/
def set (a : Arr3 T) (x y n : Nat) (v : T) : Option (Arr3 T) :=
  if x < a.w ∧ y < a.h ∧ n < 9 then
    (xyToI3 a.w x y n).bind fun i =>
      if i < a.data.length then some { a with data := a.data.set i v } else none
  else none

/-- Array3D.hpp:394-400 (`getIN`), reading. -/
def getIN (a : Arr3 T) (i n : Nat) : Option T :=
  if i < a.w * a.h ∧ n < 9 then a.data[9 * i + n]? else none

/-- Array3D.hpp:402-408 (`getIN`), writing through the reference. -/
def setIN (a : Arr3 T) (i n : Nat) (v : T) : Option (Arr3 T) :=
  if i < a.w * a.h ∧ n < 9 then
    if 9 * i + n < a.data.length then some { a with data := a.data.set (9 * i + n) v } else none
  else none

/-- Array3D.hpp:285-287 (`setNoData`). -/
def setNoData (a : Arr3 T) (v : T) : Arr3 T := { a with noData := some v }

/-- Array3D.hpp:411-413 (`clear`): the dimensions stay. -/
def clear (a : Arr3 T) : Arr3 T := { a with data := [] }

variable [DecidableEq T]

/-- Array3D.hpp:232-236 (`isNoData(x,y)`). -/
def isNoData (a : Arr3 T) (x y : Nat) : Option Bool :=
  (a.get x y 0).bind fun v => a.noData.map fun nd => decide (v = nd)

/-- Array3D.hpp:245-248 (`isNoData(i)`). -/
def isNoDataI (a : Arr3 T) (i : Nat) : Option Bool :=
  (a.getIN i 0).bind fun v => a.noData.map fun nd => decide (v = nd)

/-- Array3D.hpp:331-336 (`countDataCells`): looks at the first `size()` numbers. -/
def countDataCells (a : Arr3 T) : Option Nat :=
  a.noData.bind fun nd =>
    if a.w * a.h ≤ a.data.length then some ((a.data.take (a.w * a.h)).countP (· ≠ nd)) else none

/-- Array3D.hpp:343-347 (`numDataCells`): counts at the first call only. -/
def numDataCells (a : Arr3 T) : Option (Nat × Arr3 T) :=
  match a.ndc with
  | some n => some (n, a)
  | none => a.countDataCells.map fun n => (n, { a with ndc := some n })

/-- Array3D.hpp:216-223: comparing `data[i]` with `o.data[i]` for all `i` of `o.data`, left to
right, stopping at the first difference; `none` when `data` is too short. -/
def eqData : List T → List T → Option Bool
  | _, [] => some true
  | [], _ :: _ => none
  | x :: d, y :: o => if x = y then eqData d o else some false

/-- Array3D.hpp:215-224 (`operator==`). -/
def eq (a o : Arr3 T) : Option Bool :=
  if a.w ≠ o.w ∨ a.h ≠ o.h then some false else eqData a.data o.data

end Arr3

end RichDEM
