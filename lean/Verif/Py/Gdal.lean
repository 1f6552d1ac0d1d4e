import Verif.Py.Fill
import Verif.Py.Rounding

/-!
Model of `LoadGDAL` and `SaveGDAL` of the Python package and of its command-line programs
(/repo/wrappers/pyrichdem/richdem/cli.py).

What is trusted about GDAL: `ReadAsArray` gives a new C-ordered array of the band's element type;
`GetNoDataValue` gives a Python float; `WriteArray` into a `Float32` band rounds every value to the nearest
float (ties to even); `SetNoDataValue` keeps a double.  Values beyond the range of a float, and denormal
ones, are not modelled.  Of the metadata only the processing history is.
-/

namespace RichDEM.Py

/-- A raster file as GDAL shows it: the first band, its element type and NoData value, and the file's
geotransform, projection and processing history. -/
structure GFile where
  w : Nat
  h : Nat
  dt : Dtype
  band : Cell → ℚ
  noData : Option ℚ
  geo : List ℚ
  proj : String
  hist : List String

/-- `__init__.py`:301-309 `allowed_types`. -/
def gdalType : Dtype → Bool
  | .u8 | .i16 | .i32 | .u16 | .u32 | .f32 | .f64 => true
  | _ => false

/-- `__init__.py`:282-343 `LoadGDAL`; `none`: an exception. -/
def loadGDAL (m : PyMem) (f : GFile) (noData : Option ℚ) (line : String) : Option (PyMem × RdArr) :=
  match noData.orElse (fun _ => f.noData) with
  | none => none
  | some q =>
    if gdalType f.dt then
      some (m.alloc f.h f.w f.band,
        addAnalysis ⟨m.fresh f.h f.w, f.dt, ⟨some (.float q), some (.tuple f.geo), f.proj, f.hist⟩⟩ line)
    else none

/-- The coefficients of a geotransform, whichever way it is stored. -/
def PyGeo.coefs : PyGeo → List ℚ
  | .tuple l => l
  | .array l => l

/-- A Python number given to GDAL as a double. -/
def PyNum.toDouble : PyNum → ℚ
  | .int z => roundBits 53 z
  | .float q => q

/-- `__init__.py`:346-378 `SaveGDAL`; `none`: an exception (`SetGeoTransform` needs six numbers,
`SetNoDataValue` a number).  The band is always `GDT_Float32` (:368). -/
def saveGDAL (m : PyMem) (a : RdArr) : Option GFile :=
  match a.md.geo, a.md.noData with
  | some g, some nd =>
    if g.coefs.length = 6 then
      some ⟨a.v.w, a.v.h, .f32, fun c => roundBits 24 (a.cells m c), some nd.toDouble, g.coefs, a.md.proj, a.md.hist⟩
    else none
  | _, _ => none

/-- How a program ends. -/
inductive ToolOut
  | raised
  | ub
  | ok (f : GFile)

def saved (m : PyMem) (a : RdArr) : ToolOut :=
  match saveGDAL m a with
  | some f => .ok f
  | none => .raised

/-- cli.py:10-31 `DepressionFilling`; `m` is the memory before the program starts. -/
def fillTool (pq : PQ (ℚ × Cell) zLt) (next : Dtype → ℚ → ℚ) (gradient : Bool) (loadLine argv : String)
    (m : PyMem) (f : GFile) : ToolOut :=
  match loadGDAL m f none loadLine with
  | none => .raised
  | some (m1, dem) =>
    match fillDepressions pq next gradient true (some .D8) m1 (addAnalysis dem argv) with
    | .ub => .ub
    | .raised _ _ => .raised
    | .ok m2 d _ => saved m2 d

/-- cli.py:34-50 `BreachDepressions`: the array the function returns is not used. -/
def breachTool (pq : PQ (ℚ × Cell) zLt) (top : Dtype → ℚ) (loadLine argv : String) (m : PyMem) (f : GFile) : ToolOut :=
  match loadGDAL m f none loadLine with
  | none => .raised
  | some (m1, dem) =>
    match breachDepressions pq top false (some .D8) m1 (addAnalysis dem argv) with
    | .ub => .ub
    | .raised _ _ => .raised
    | .ok m2 d _ => saved m2 d

/-- `__init__.py`:535-552: the methods that take no exponent, and those that need one. -/
def faccMethods : List String :=
  ["Tarboton", "Dinf", "Quinn", "FairfieldLeymarieD8", "FairfieldLeymarieD4", "Rho8", "Rho4", "OCallaghanD8",
   "OCallaghanD4", "D8", "D4"]

def faccMethodsExponent : List String := ["Freeman", "Holmgren"]

/-- `__init__.py`:580-592: the C++ function for a method name; `impl` gives the functions. -/
def faccFor (impl : String → Option ℚ → CAcc) (method : String) (exponent : Option ℚ) : Option CAcc :=
  if method ∈ faccMethods then some (impl method none)
  else if method ∈ faccMethodsExponent then exponent.map fun e => impl method (some e)
  else none

/-- cli.py:53-94 `FlowAccumulation`. -/
def accumTool (impl : String → Option ℚ → CAcc) (method : String) (exponent : Option ℚ) (loadLine argv line : String)
    (m : PyMem) (f : GFile) : ToolOut :=
  match loadGDAL m f none loadLine with
  | none => .raised
  | some (m1, dem) =>
    match faccFor impl method exponent with
    | none => .raised
    | some fa =>
      match flowAccumulation fa line m1 (addAnalysis dem argv) none false with
      | .ok m2 _ (some r) => saved m2 r
      | .ok _ _ none => .raised
      | .raised _ _ => .raised
      | .ub => .ub

end RichDEM.Py
