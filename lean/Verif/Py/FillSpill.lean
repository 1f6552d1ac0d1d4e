import Verif.Py.Model
import Verif.DepHier.Fill
import Verif.DepHier.Main
import Verif.DepHier.Volume

/-!
Depression hierarchies and Fill-Spill-Merge from Python (/repo/wrappers/pyrichdem/richdem/__init__.py:815-902,
src/pywrapper.cpp:139-177, examples/fill_spill_merge.py).
-/

namespace RichDEM.Py

/-- A label as stored in a `uint32` raster; `NO_DEP` is 2^32-1. -/
def encLab : Option Nat → ℚ
  | none => 4294967295
  | some n => n

/-- The labels C++ sees in a `uint32` raster. -/
def decLab (w h : Nat) (g : Cell → ℚ) : Cell → Option Nat := fun c =>
  if inGrid w h c then (if g c = 4294967295 then none else some (g c).num.toNat) else none

/-- The flow directions C++ sees in an `int8` raster holding 0..8. -/
def decFd (w h : Nat) (g : Cell → ℚ) : Cell → Nat := fun c => if inGrid w h c then (g c).num.toNat else 0

/-- `__init__.py`:846-864 `get_new_depression_hierarchy_labels` (NumPy's `[1:-1,1:-1]` is empty for fewer than three
rows or columns). -/
def getNewLabels (m : PyMem) (h w : Nat) (noData : PyNum) (geo : Option PyGeo) : PyMem × RdArr :=
  (m.alloc h w (fun c => if 1 ≤ c.1 ∧ c.1 < (w : Int) - 1 ∧ 1 ≤ c.2 ∧ c.2 < (h : Int) - 1 then 4294967295 else 0),
    ⟨m.fresh h w, .u32, ⟨some noData, some (geo.getD standardGeo), "", []⟩⟩)

/-- A Python list of `Depression` objects (pywrapper.cpp:147-165), with the fields that play a part here. -/
structure PyDeps where
  n : Nat
  dep : Nat → Dep ℚ
  vol : Nat → ℚ
  water : Nat → ℚ

inductive DHRes
  | ub
  | raised
  | ok (m : PyMem) (deps : PyDeps) (flowdirs : RdArr)

/-- pywrapper.cpp:167 `GetDepressionHierarchy<double, D8>` after its flood phase: hierarchy and volumes (the ocean's
volume is never read; it is 0 here).  `none`: a failed assertion. -/
def dhDeps (os : DHS ℚ → List (Outlet ℚ)) (parts : List (List Cell)) (dem : Cell → ℚ) (s : DHS ℚ) : Option PyDeps :=
  (depHierarchy s (os s)).bind fun H => (calcMarginal H.n H.dep dem s.label parts).bind fun mg =>
    (calcTotal H.n H.dep mg).map fun v =>
      ⟨H.n, H.dep, fun d => if d = 0 then 0 else (v.vol d).getD 0, fun _ => 0⟩

/-- `__init__.py`:815-844 `get_depression_hierarchy`.  The C++ signature takes a `double` DEM and `uint32` labels; other
types raise `TypeError`.  Arrays of different shapes are not checked for and counted as undefined behaviour. -/
def getDepressionHierarchy (pq : PQ (ℚ × Cell) zLt) (os : DHS ℚ → List (Outlet ℚ)) (parts : List (List Cell))
    (m : PyMem) (dem labels : RdArr) : DHRes :=
  match wrap m dem with
  | .ub => .ub
  | .raised => .raised
  | .ok m1 d =>
    match wrap m1 labels with
    | .ub => .ub
    | .raised => .raised
    | .ok m2 l =>
      if dem.dt ≠ .f64 ∨ labels.dt ≠ .u32 then .raised
      else if l.w ≠ d.w ∨ l.h ≠ d.h then .ub
      else
        let m3 := m2.alloc d.h d.w (fun _ => 0)
        match d.read m3, l.read m3 with
        | some gd, some gl =>
          match getDHFlood pq d.w d.h .D8 gd (decLab d.w d.h gl) with
          | none => .raised
          | some s =>
            match dhDeps os parts gd s with
            | none => .ub
            | some deps =>
              let f : CArr := ⟨m2.next, 0, d.w, d.h, 0⟩
              .ok (f.write (l.write m3 (fun c => encLab (s.label c))) (fun c => (s.fd c : ℚ))) deps
                ⟨m2.fresh d.h d.w, .i8, ⟨some (.int (-9999)), some standardGeo, "", []⟩⟩
        | _, _ => .ub

inductive FsmRes
  | ub
  | raised
  /-- a failed assertion, an exception, or recursion beyond the bound -/
  | aborted
  /-- `cpp` is the water C++ booked for each depression on its copy of the list -/
  | ok (m : PyMem) (deps : PyDeps) (cpp : Nat → ℚ)

/-- `__init__.py`:866-902 `fill_spill_merge`.  pybind11's conversion of a Python list to `std::vector` copies the
`Depression` objects, so the list keeps its values. -/
def fillSpillMergePy (q : AnyQ Cell) (pq : PQ (ℚ × Cell) zLt) (eps : ℚ) (m : PyMem)
    (dem labels flowdirs : RdArr) (deps : PyDeps) (wtd : RdArr) : FsmRes :=
  match wrap m dem with
  | .ub => .ub
  | .raised => .raised
  | .ok m1 d =>
    match wrap m1 labels with
    | .ub => .ub
    | .raised => .raised
    | .ok m2 l =>
      match wrap m2 flowdirs with
      | .ub => .ub
      | .raised => .raised
      | .ok m3 f =>
        match wrap m3 wtd with
        | .ub => .ub
        | .raised => .raised
        | .ok m4 t =>
          if dem.dt ≠ .f64 ∨ labels.dt ≠ .u32 ∨ flowdirs.dt ≠ .i8 ∨ wtd.dt ≠ .f64 then .raised
          else if (l.w ≠ d.w ∨ l.h ≠ d.h) ∨ (f.w ≠ d.w ∨ f.h ≠ d.h) ∨ (t.w ≠ d.w ∨ t.h ≠ d.h) then .ub
          else
            match d.read m4, l.read m4, f.read m4, t.read m4 with
            | some gd, some gl, some gf, some gt =>
              match fillSpillMerge q pq d.w d.h gd (decLab d.w d.h gl) (decFd d.w d.h gf) deps.n deps.dep deps.vol eps
                  (2 * deps.n) gt with
              | .ok r => .ok (t.write m4 r.wtd) deps r.water
              | .fail => .aborted
              | .deep => .aborted
            | _, _, _, _ => .ub

/-- examples/fill_spill_merge.py:24 `water_depth += …`, for a contiguous array. -/
def addRain (m : PyMem) (wtd : RdArr) (rain : Cell → ℚ) : PyMem :=
  (CArr.mk wtd.v.buf wtd.v.off wtd.v.w wtd.v.h 0).write m (fun c => wtd.cells m c + rain c)

/-- examples/fill_spill_merge.py:22-26: the loop of rain and redistribution, for any sequence of rain fields. -/
def rainLoop (q : AnyQ Cell) (pq : PQ (ℚ × Cell) zLt) (eps : ℚ) (dem labels flowdirs : RdArr) (deps : PyDeps)
    (wtd : RdArr) : List (Cell → ℚ) → PyMem → Option PyMem
  | [], m => some m
  | rain :: rest, m =>
    match fillSpillMergePy q pq eps (addRain m wtd rain) dem labels flowdirs deps wtd with
    | .ok m' _ _ => rainLoop q pq eps dem labels flowdirs deps wtd rest m'
    | _ => none

end RichDEM.Py
