import Mathlib.Order.Defs.LinearOrder
import Mathlib.Order.Basic

/-!
Model of the cell orderings (include/richdem/common/grid_cell.hpp) and of the tolerant
floating-point comparisons (include/richdem/common/math.hpp).

An elevation is `none` (NaN) or a number of a linear order `α`.  IEEE comparisons with a NaN
operand are false, except `!=`, which is true.
-/

namespace RichDEM

variable {α : Type} [LinearOrder α]

/-- IEEE `a < b`. -/
def fLt : Option α → Option α → Bool
  | some a, some b => decide (a < b)
  | _, _ => false
/-- IEEE `a <= b`. -/
def fLe : Option α → Option α → Bool
  | some a, some b => decide (a ≤ b)
  | _, _ => false
/-- IEEE `a == b`. -/
def fEq : Option α → Option α → Bool
  | some a, some b => decide (a = b)
  | _, _ => false
/-- IEEE `a != b`. -/
def fNe (a b : Option α) : Bool := !(fEq a b)

/-- grid_cell.hpp:47 / 64 (`operator<`, double/float). -/
def cellLt (z a : Option α) : Bool := (z.isNone && !a.isNone) || fLt z a
/-- grid_cell.hpp:48 / 65 (`operator>`). -/
def cellGt (z a : Option α) : Bool := (!z.isNone && a.isNone) || fLt a z
/-- grid_cell.hpp:49 / 66 (`operator>=`). -/
def cellGe (z a : Option α) : Bool := (z.isNone && a.isNone) || (!z.isNone && a.isNone) || fLe a z
/-- grid_cell.hpp:50 / 67 (`operator<=`). -/
def cellLe (z a : Option α) : Bool := (z.isNone && a.isNone) || (z.isNone && !a.isNone) || fLe z a
/-- grid_cell.hpp:51 / 68 (`operator==`). -/
def cellEq (z a : Option α) : Bool := (z.isNone && a.isNone) || fEq z a
/-- grid_cell.hpp:52 / 69 (`operator!=`). -/
def cellNe (z a : Option α) : Bool := !(z.isNone && a.isNone) && fNe z a

/-- grid_cell.hpp:73-81 (`GridCellZk_low::operator>`), on (elevation, k). -/
def zkLowGt (c a : Option α × Int) : Bool :=
  fLt a.1 c.1 || (!c.1.isNone && a.1.isNone) || (fEq c.1 a.1 && decide (c.2 > a.2)) ||
    (c.1.isNone && a.1.isNone && decide (c.2 > a.2))
/-- grid_cell.hpp:84-91 (`GridCellZk_high::operator>`), on (elevation, k). -/
def zkHighGt (c a : Option α × Int) : Bool :=
  fLt a.1 c.1 || (!c.1.isNone && a.1.isNone) || (fEq c.1 a.1 && decide (c.2 < a.2)) ||
    (c.1.isNone && a.1.isNone && decide (c.2 < a.2))

/-- grid_cell.hpp:100-122: the `n`-th `emplace` (counting from 1) passes the `uint64_t` counter
to the `int k0` parameter: it is reduced to 32 bits, two's complement. -/
def kOf (count : Nat) : Int := (BitVec.ofNat 32 count).toInt

end RichDEM
