import Verif.Raster
import Verif.Py.Rounding
import Verif.Py.Model

/-!
Rasters built from lists and from other rasters, and the reductions `min`, `max` and `scale`
(include/richdem/common/Array2D.hpp:299-411, 515-535, 1406-1410).
-/

namespace RichDEM

/-- How a constructor ends: a raster, an exception, or undefined behaviour. -/
inductive Built (A : Type) where
  | ok (a : A)
  | throws
  | ub
deriving DecidableEq

namespace Raster
variable {T U : Type}

/-- Array2D.hpp:135 and 117-128: a raster as the default constructor leaves it; `minus1` is `T(-1)`. -/
def fresh (minus1 : T) : Raster T := ⟨0, 0, [], minus1, none, true, 0⟩

/-- Array2D.hpp:329-331: one row of the list is written cell by cell, with `operator()(x,y)` (985-990). -/
def putRow (w : Nat) (d : List T) (y : Nat) (row : List T) : List T :=
  (row.foldl (fun (s : List T × Nat) v => (s.1.set (y * w + s.2) v, s.2 + 1)) (d, 0)).1

/-- Array2D.hpp:312-337: the constructor from nested initializer lists.  `values.begin()->size()` of a list without rows
reads behind the list. -/
def fromList (minus1 zero : T) (rows : List (List T)) : Built (Raster T) :=
  match rows with
  | [] => .ub                                                                          -- :314
  | r0 :: _ =>
    if rows.any (fun x => x.length ≠ r0.length) then .throws                           -- :315-318
    else
      let d := List.replicate (r0.length * rows.length) zero                           -- :320
      .ok { fresh minus1 with
            w := r0.length, h := rows.length, nshiftW := r0.length,
            data := (rows.foldl (fun (s : List T × Nat) row => (putRow r0.length s.1 s.2 row, s.2 + 1)) (d, 0)).1 }

/-- What a raster carries beside its cells (Array2D.hpp:84-97, 126-128). -/
structure Georef where
  xoff : Int
  yoff : Int
  geotransform : List ℚ
  projection : String
  basename : String
  metadata : List (String × String)
deriving DecidableEq

/-- Array2D.hpp:369-411: the constructors from another raster and `make_from_template`; all of them copy the same members.
`resize` (852-864) sets the dimensions, and every cell to `val`. -/
def fromTemplate (minus1 : T) (o : Raster U × Georef) (val : T) : Raster T × Georef :=
  ({ fresh minus1 with w := o.1.w, h := o.1.h, nshiftW := o.1.w, data := List.replicate (o.1.w * o.1.h) val },
   { xoff := o.2.xoff, yoff := o.2.yoff, geotransform := o.2.geotransform, projection := o.2.projection,
     basename := o.2.basename, metadata := o.2.metadata })

/-- Array2D.hpp:515-523 (`min`): `eq` and `lt` are the comparisons of the cell type, `top` its `numeric_limits::max()`. -/
def minOf (eq lt : T → T → Bool) (top : T) (r : Raster T) : T :=
  r.data.foldl (fun m v => if eq v r.noData then m else if lt v m then v else m) top

/-- Array2D.hpp:526-534 (`max`): `bot` is `numeric_limits::lowest()`. -/
def maxOf (eq lt : T → T → Bool) (bot : T) (r : Raster T) : T :=
  r.data.foldl (fun m v => if eq v r.noData then m else if lt m v then v else m) bot

/-- Array2D.hpp:1406-1410 (`scale`): `mul v` is what `v *= x` stores; `none`: undefined behaviour. -/
def scale (eq : T → T → Bool) (mul : T → Option T) (r : Raster T) : Option (Raster T) :=
  (r.data.mapM fun v => if eq v r.noData then some v else mul v).map fun d => { r with data := d }

/-- `v *= x` for a `double` cell. -/
def mulDouble (x v : ℚ) : Option ℚ := some (Py.roundBits 53 (v * x))

/-- `v *= x` for a `float` cell: the product is a `double`, and is then stored as a `float`. -/
def mulFloat (x v : ℚ) : Option ℚ := some (Py.roundBits 24 (Py.roundBits 53 (v * x)))

/-- `v *= x` for a cell of an integer type of at most 32 bits with the range `lo..hi`: the product is a `double` and is cut
off towards zero; out of range the conversion is undefined. -/
def mulInt (lo hi : Int) (x : ℚ) (v : Int) : Option Int :=
  let z := Py.truncQ (Py.roundBits 53 (v * x))
  if lo ≤ z ∧ z ≤ hi then some z else none

end Raster
end RichDEM
