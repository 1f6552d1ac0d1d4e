import Mathlib.Data.Int.Log
import Mathlib.Data.Rat.Floor
import Verif.Grid

/-!
Model of the Python package (/repo/wrappers/pyrichdem): NumPy arrays as strided views into memory
blocks, `rdarray`, `wrap()`, and the functions of `richdem/__init__.py` that hand an array to C++.

What is trusted about NumPy and pybind11: a view's element (row y, column x) lies at
`off + y·rs + x·cs` (strides counted in elements here); `ndarray.copy()` gives a new C-ordered array;
`np.asarray` of an array with no dtype or order asked for gives the same memory;
`array_t<T, c_style|forcecast>::ensure` gives the same memory for a C-contiguous array of type `T` and
otherwise a temporary copy; an object whose last reference goes away is freed; overloads are tried in
order, first without and then with conversion.  Values are finite numbers; NaN and infinities are not
modelled.
-/

namespace RichDEM.Py

/-! ### Numbers -/

/-- `__init__.py`:186-197: the element types `wrap()` knows (`other`: any other). -/
inductive Dtype
  | i8 | i16 | i32 | i64 | u8 | u16 | u32 | u64 | f32 | f64 | other
deriving DecidableEq

/-- A Python number. -/
inductive PyNum
  | int (z : Int)
  | float (q : ℚ)
deriving DecidableEq

/-- Round half to even. -/
def roundEven (x : ℚ) : Int :=
  if x - ⌊x⌋ < 1 / 2 then ⌊x⌋ else if 1 / 2 < x - ⌊x⌋ then ⌊x⌋ + 1 else if ⌊x⌋ % 2 = 0 then ⌊x⌋ else ⌊x⌋ + 1

/-- Rounding to a binary floating-point number of `p` digits (no overflow or underflow). -/
def roundBits (p : Nat) (q : ℚ) : ℚ :=
  if q = 0 then 0
  else roundEven (q / (2 : ℚ) ^ (Int.log 2 |q| + 1 - p)) * (2 : ℚ) ^ (Int.log 2 |q| + 1 - p)

/-- Lowest value and number of values of an integer type. -/
def intRange : Dtype → Option (Int × Int)
  | .i8 => some (-2 ^ 7, 2 ^ 8)
  | .i16 => some (-2 ^ 15, 2 ^ 16)
  | .i32 => some (-2 ^ 31, 2 ^ 32)
  | .i64 => some (-2 ^ 63, 2 ^ 64)
  | .u8 => some (0, 2 ^ 8)
  | .u16 => some (0, 2 ^ 16)
  | .u32 => some (0, 2 ^ 32)
  | .u64 => some (0, 2 ^ 64)
  | _ => none

/-- The argument of the chosen `setNoData` overload. -/
inductive CNum
  | f (q : ℚ)
  | i (z : Int)

/-- pywrapper.hpp:134-143: which overload of `setNoData` is called.  A Python float is taken by the first
one (`float`); a Python int by the first integer type that holds it (which gives the same value whichever
it is), or with conversion by `float`. -/
def overload : PyNum → CNum
  | .float q => .f (roundBits 24 q)
  | .int z => if -2 ^ 63 ≤ z ∧ z < 2 ^ 64 then .i z else .f (roundBits 24 z)

/-- Truncation toward zero. -/
def truncQ (q : ℚ) : Int := if 0 ≤ q then ⌊q⌋ else ⌈q⌉

/-- pywrapper.hpp:134-143: `(T)ndval`.  `none`: a float that does not fit the integer type (undefined). -/
def castT (d : Dtype) (n : CNum) : Option ℚ :=
  match intRange d, n with
  | some (lo, k), .i z => some (((z - lo) % k + lo : Int) : ℚ)
  | some (lo, k), .f q => if lo ≤ truncQ q ∧ truncQ q < lo + k then some (truncQ q : ℚ) else none
  | none, .i z => some (if d = .f32 then roundBits 24 z else roundBits 53 z)
  | none, .f q => some q

/-- `noData()` as a Python number (`__init__.py`:221). -/
def noDataOf (d : Dtype) (q : ℚ) : PyNum := if (intRange d).isSome then .int ⌊q⌋ else .float q

/-! ### Memory -/

/-- A block of memory holding `len` elements. -/
structure PyBlk where
  len : Nat
  val : Nat → ℚ

/-- The blocks alive (`none`: freed or never allocated); `next` is not in use. -/
structure PyMem where
  blk : Nat → Option PyBlk
  next : Nat

/-- Blocks from `next` on are free. -/
def PyMem.WF (m : PyMem) : Prop := ∀ b, m.next ≤ b → m.blk b = none

/-- A two-dimensional NumPy array. -/
structure NdView where
  buf : Nat
  off : Int
  h : Nat
  w : Nat
  rs : Int
  cs : Int

/-- Where the element in column `c.1` of row `c.2` is. -/
def NdView.addr (v : NdView) (c : Cell) : Int := v.off + c.2 * v.rs + c.1 * v.cs

/-- The elements of an array; outside its shape 0. -/
def NdView.cells (v : NdView) (m : PyMem) : Cell → ℚ := fun c =>
  if inGrid v.w v.h c then
    match m.blk v.buf with
    | some b => b.val (v.addr c).toNat
    | none => 0
  else 0

/-- NumPy's flag `C_CONTIGUOUS` (strides of dimensions of size 1 do not matter). -/
def NdView.contig (v : NdView) : Bool :=
  v.h == 0 || v.w == 0 || ((v.w == 1 || v.cs == 1) && (v.h == 1 || v.rs == v.w))

/-- A new block, filled row by row from a function of the cell. -/
def PyMem.alloc (m : PyMem) (h w : Nat) (g : Cell → ℚ) : PyMem :=
  ⟨Function.update m.blk m.next (some ⟨w * h, fun i => g (iToxy w i)⟩), m.next + 1⟩

/-- The C-ordered view of the block `alloc` makes. -/
def PyMem.fresh (m : PyMem) (h w : Nat) : NdView := ⟨m.next, 0, h, w, w, 1⟩

def PyMem.free (m : PyMem) (b : Nat) : PyMem := { m with blk := Function.update m.blk b none }

/-- `__init__.py`:24 makes the standard geotransform a NumPy array, `LoadGDAL` (333) a tuple. -/
inductive PyGeo
  | tuple (l : List ℚ)
  | array (l : List ℚ)
deriving DecidableEq

/-- The attributes of an `rdarray` (`__init__.py`:162-165).  `hist` holds the lines of
`metadata["PROCESSING_HISTORY"]`; time stamps are left out. -/
structure PyMeta where
  noData : Option PyNum
  geo : Option PyGeo
  proj : String
  hist : List String
deriving DecidableEq

/-- An `rdarray`. -/
structure RdArr where
  v : NdView
  dt : Dtype
  md : PyMeta

def RdArr.cells (a : RdArr) (m : PyMem) : Cell → ℚ := a.v.cells m

/-- `ndarray.copy()` followed by `__array_finalize__` (`__init__.py`:177-183). -/
def pyCopy (m : PyMem) (a : RdArr) : PyMem × RdArr :=
  (m.alloc a.v.h a.v.w (a.v.cells m), { a with v := m.fresh a.v.h a.v.w })

/-- `__init__.py`:34-48 `_AddAnalysis`. -/
def addAnalysis (a : RdArr) (line : String) : RdArr :=
  { a with md := { a.md with hist := a.md.hist ++ [line] } }

/-! ### `wrap` -/

/-- The `Array2D` made from an array: a bare pointer, sizes and NoData (Array2D.hpp:164, pywrapper.hpp:122). -/
structure CArr where
  buf : Nat
  off : Int
  w : Nat
  h : Nat
  nd : ℚ

inductive WrapOut
  | raised
  | ub
  | ok (m : PyMem) (a : CArr)

/-- pywrapper.hpp:113-122: `ensure`, and the destructor of `buf` at the end of the constructor, which frees
the temporary copy of an array that is not C-contiguous. -/
def ensurePtr (m : PyMem) (v : NdView) : PyMem × (Nat × Int) :=
  if v.contig then (m, (v.buf, v.off))
  else ((m.alloc v.h v.w (v.cells m)).free m.next, (m.next, 0))

/-- `__init__.py`:185-218 `rdarray.wrap` (the geotransform is copied and plays no part here). -/
def wrap (m : PyMem) (a : RdArr) : WrapOut :=
  if a.dt = .other then .raised
  else
    match castT a.dt (overload (a.md.noData.getD (.int (-9999)))) with
    | none => .ub
    | some nd =>
      .ok (ensurePtr m a.v).1 ⟨(ensurePtr m a.v).2.1, (ensurePtr m a.v).2.2, a.v.w, a.v.h, nd⟩

/-- What C++ reads through the pointer: cell (x,y) at `xyToI(x,y)`.  `none`: the memory is gone or too small. -/
def CArr.read (a : CArr) (m : PyMem) : Option (Cell → ℚ) :=
  match m.blk a.buf with
  | none => none
  | some b => if 0 ≤ a.off ∧ a.off + (a.w * a.h : Nat) ≤ b.len then
      some (fun c => if inGrid a.w a.h c then b.val (a.off + xyToI a.w c).toNat else 0)
    else none

/-- C++ stores a raster through the pointer. -/
def CArr.write (a : CArr) (m : PyMem) (g : Cell → ℚ) : PyMem :=
  { m with blk := Function.update m.blk a.buf ((m.blk a.buf).map fun b =>
      { b with val := fun i => if a.off ≤ i ∧ (i : Int) < a.off + (a.w * a.h : Nat) then g (iToxy a.w (i - a.off).toNat)
                               else b.val i }) }

/-! ### Functions that alter a DEM -/

/-- A C++ function that alters a raster: element type, width, height, NoData, cells; `none` is undefined
behaviour. -/
abbrev CFun := Dtype → Nat → Nat → ℚ → (Cell → ℚ) → Option (Cell → ℚ)

/-- How a call ends.  `dem` is the caller's array object after the call. -/
inductive PyRes
  | ub
  | raised (m : PyMem) (dem : RdArr)
  | ok (m : PyMem) (dem : RdArr) (ret : Option RdArr)

/-- `dem.copyFromWrapped(demw)` (`__init__.py`:220-221). -/
def copyFromWrapped (a : RdArr) (c : CArr) : RdArr :=
  { a with md := { a.md with noData := some (noDataOf a.dt c.nd) } }

/-- The body shared by `FillDepressions` (`__init__.py`:401-422), `BreachDepressions` (443-458) and
`ResolveFlats` (475-487). -/
def transform (f : CFun) (line : String) (inPlace : Bool) (m : PyMem) (dem : RdArr) : PyRes :=
  let md := if inPlace then (m, dem) else pyCopy m dem
  let d := addAnalysis md.2 line
  match wrap md.1 d with
  | .ub => .ub
  | .raised => .raised md.1 (if inPlace then d else dem)
  | .ok m2 a =>
    match (a.read m2).bind (f d.dt a.w a.h a.nd) with
    | none => .ub
    | some g =>
      if inPlace then .ok (a.write m2 g) (copyFromWrapped d a) none
      else .ok (a.write m2 g) dem (some (copyFromWrapped d a))

/-! ### Flow accumulation -/

/-- A C++ accumulation: element type, size, NoData and cells of the DEM, size and cells of the accumulation
(always `double`). -/
abbrev CAcc := Dtype → Nat → Nat → ℚ → (Cell → ℚ) → Nat → Nat → (Cell → ℚ) → Option (Cell → ℚ)

/-- `__init__.py`:155-175 `rdarray(array, meta_obj=…, no_data=…, copy=…)`: `copy` ends up in `kwargs` and is
not looked at, `np.asarray` does not copy.  Returns the new object on the same memory. -/
def rdNew (a : RdArr) (metaObj : Option RdArr) (noData : PyNum) : RdArr :=
  { a with md := { (metaObj.getD a).md with noData := some noData } }

/-- `__init__.py`:554-563: the accumulation array. -/
def accumArr (m : PyMem) (dem : RdArr) (weights : Option RdArr) (inPlace : Bool) : PyMem × RdArr :=
  match weights with
  | some wt => (m, rdNew wt (if inPlace then none else some dem) (.int (-1)))
  | none => (m.alloc dem.v.h dem.v.w (fun _ => 1),
      ⟨m.fresh dem.v.h dem.v.w, .f64, { dem.md with noData := some (.int (-1)) }⟩)

/-- `__init__.py`:554-596 `FlowAccumulation` once the method is chosen (the C++ function `f`, which throws
on arrays of different sizes, flow_accumulation_generic.hpp:42-43, and sets the accumulation's NoData to -1,
:40).  The memory of the two arrays is read before it is written, which is right when they do not overlap. -/
def flowAccumulation (f : CAcc) (line : String) (m : PyMem) (dem : RdArr) (weights : Option RdArr) (inPlace : Bool) :
    PyRes :=
  let ma := accumArr m dem weights inPlace
  if ma.2.dt ≠ .f64 then .raised ma.1 dem
  else
    let acc := addAnalysis ma.2 line
    match wrap ma.1 ma.2 with
    | .ub => .ub
    | .raised => .raised ma.1 dem
    | .ok m1 a =>
      match wrap m1 dem with
      | .ub => .ub
      | .raised => .raised m1 dem
      | .ok m2 d =>
        if a.w ≠ d.w ∨ a.h ≠ d.h then .raised m2 dem
        else
          match (d.read m2).bind fun gd => (a.read m2).bind fun ga => f dem.dt d.w d.h d.nd gd a.w a.h ga with
          | none => .ub
          | some g => .ok (a.write m2 g) dem (some (copyFromWrapped acc { a with nd := -1 }))

/-! ### Flow proportions -/

/-- `__init__.py`:266 `if self.geotransform:` — the truth value of a NumPy array of more than one element
is an exception (`none`). -/
def geoTruth : Option PyGeo → Option Bool
  | none => some false
  | some (.tuple l) => some (!l.isEmpty)
  | some (.array [x]) => some (decide (x ≠ 0))
  | some (.array []) => some false
  | some (.array _) => none

/-- `__init__.py`:704-707: the proportions array takes the DEM's geotransform and is wrapped; `false` means
that `FlowProportions` raises there. -/
def flowProportionsStarts (dem : RdArr) : Bool := (geoTruth dem.md.geo).isSome

/-- `__init__.py`:24. -/
def standardGeo : PyGeo := .array [0, 1, 0, 0, 0, -1]

/-- `__init__.py`:797-813 `generate_perlin_terrain`; `f` is the generator. -/
def generatePerlin (m : PyMem) (size : Nat) (f : Cell → ℚ) (line : String) : PyMem × RdArr :=
  (m.alloc size size f,
    addAnalysis ⟨m.fresh size size, .f64, ⟨some (.float (-9999)), some standardGeo, "", []⟩⟩ line)

end RichDEM.Py
