import Verif.Py.Model
import Verif.Props.FillVariants
import Verif.Epsilon
import Verif.Breach
import Verif.Flats.Barnes

/-! The DEM-altering functions of the Python package, with the C++ functions they call. -/

namespace RichDEM.Py

/-- `__init__.py`:408-417 with pywrapper.hpp:32-35: which C++ function runs.  `next d` is `std::nextafter` toward
infinity for the element type.  An empty raster is undefined behaviour (Zhou2016.hpp:144-155 and
Barnes2014.hpp index row `height()-1`). -/
def fillFun (pq : PQ (ℚ × Cell) zLt) (next : Dtype → ℚ → ℚ) (eps : Bool) (t : Topo) : CFun := fun d w h nd g =>
  if w = 0 ∨ h = 0 then none
  else if eps then some (priorityFloodEpsilon pq w h t nd (next d) g).elev
  else some (fillDepressionsTopo pq t w h g)

/-- `__init__.py`:381-422 `FillDepressions`; `topology = none` stands for a string that is neither "D8" nor "D4". -/
def fillDepressions (pq : PQ (ℚ × Cell) zLt) (next : Dtype → ℚ → ℚ) (eps inPlace : Bool) (topology : Option Topo)
    (m : PyMem) (dem : RdArr) : PyRes :=
  match topology with
  | none => .raised m dem
  | some t => transform (fillFun pq next eps t)
      (if eps then "FillDepressions(dem, epsilon=True)" else "FillDepressions(dem, epsilon=False)") inPlace m dem

/-- pywrapper.hpp:39-40 `CompleteBreaching_Lindsay2016<topo>`; `top d` is the largest value of the element type. -/
def breachFun (pq : PQ (ℚ × Cell) zLt) (top : Dtype → ℚ) (t : Topo) : CFun := fun d w h nd g =>
  some (completeBreaching pq t w h nd (top d) id g).dem

/-- `__init__.py`:425-458 `BreachDepressions`. -/
def breachDepressions (pq : PQ (ℚ × Cell) zLt) (top : Dtype → ℚ) (inPlace : Bool) (topology : Option Topo)
    (m : PyMem) (dem : RdArr) : PyRes :=
  match topology with
  | none => .raised m dem
  | some t => transform (breachFun pq top t) "BreachDepressions(dem)" inPlace m dem

end RichDEM.Py
