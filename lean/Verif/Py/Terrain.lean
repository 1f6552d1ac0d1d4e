import Verif.Py.Thm
import Verif.Terrain.Attributes

/-!
Model of `TerrainAttribute` of the Python package (/repo/wrappers/pyrichdem/richdem/__init__.py:735-795).
The attributes are those of `Verif/Terrain/Attributes.lean`, computed exactly; storing a number in the `float32` result
is a parameter `fl`.
-/

namespace RichDEM.Py

/-- The attributes of terrain_attributes.hpp reachable from Python. -/
inductive Attr
  | riserun | percentage | degrees | radians | aspect | curvature | planform | profile
deriving DecidableEq

/-- `__init__.py`:762-773 `terrain_attribs`. -/
def attrTable : List (String × Attr) :=
  [("slope_riserun", .riserun), ("slope_percentage", .percentage), ("slope_degrees", .degrees),
   ("slope_radians", .radians), ("aspect", .aspect), ("curvature", .curvature),
   ("planform_curvature", .planform), ("profile_curvature", .profile)]

/-- terrain_attributes.hpp:369-560: the function each `TA_…` hands to `TerrainProcessor`. -/
noncomputable def attrFun : Attr → Nat → Nat → (Cell → ℝ) → ℝ → ℝ → ℝ → ℝ → Cell → ℝ
  | .riserun, w, h, z, nd, zs, lx, ly, c => taSlope w h z nd zs lx ly c
  | .percentage, w, h, z, nd, zs, lx, ly, c => taSlopePercent w h z nd zs lx ly c
  | .degrees, w, h, z, nd, zs, lx, ly, c => taSlopeDegree w h z nd zs lx ly c
  | .radians, w, h, z, nd, zs, lx, ly, c => taSlopeRadian w h z nd zs lx ly c
  | .aspect, w, h, z, nd, zs, lx, ly, c => taAspect w h z nd zs lx ly c
  | .curvature, w, h, z, nd, zs, lx, _, c => taCurvature w h z nd zs lx c
  | .planform, w, h, z, nd, zs, lx, _, c => taPlanform w h z nd zs lx c
  | .profile, w, h, z, nd, zs, lx, _, c => taProfile w h z nd zs lx c

/-- `__init__.py`:210-216: the geotransform of the wrapped raster. -/
def wrapGeo : Option PyGeo → List ℚ
  | none => [0, 1, 0, 0, 0, -1]
  | some (.tuple l) => l
  | some (.array l) => l

/-- Array2D.hpp:1387-1399 `getCellLengthX`, `getCellLengthY`; `none`: the vector is too short. -/
def cellLengths (l : List ℚ) : Option (ℚ × ℚ) :=
  match l[1]?, l[5]? with
  | some a, some b => some (|a|, |b|)
  | _, _ => none

/-- `__init__.py`:735-795 `TerrainAttribute`, with terrain_attributes.hpp:338-356 (every cell is stored once,
`taProcess_eq`).  `zscale` becomes a C++ `float`. -/
noncomputable def terrainAttribute (fl : ℝ → ℚ) (attrib : String) (zscale : ℚ) (line : String) (m : PyMem) (dem : RdArr) : PyRes :=
  match attrTable.lookup attrib with
  | none => .raised m dem
  | some k =>
    let m0 := m.alloc dem.v.h dem.v.w (fun _ => 0)
    let res : RdArr := ⟨m.fresh dem.v.h dem.v.w, .f32, { dem.md with noData := some (.int (-9999)) }⟩
    match wrap m0 res with
    | .ub => .ub
    | .raised => .raised m0 dem
    | .ok m1 o =>
      match wrap m1 dem with
      | .ub => .ub
      | .raised => .raised m1 dem
      | .ok m2 d =>
        match d.read m2, cellLengths (wrapGeo dem.md.geo) with
        | some z, some (lx, ly) =>
          .ok (o.write m2 (taProcess z d.nd o.nd
              (fun c => fl (attrFun k d.w d.h (fun q => (z q : ℝ)) d.nd (roundBits 24 zscale) lx ly c))
              (allCells d.w d.h) (fun _ => 0)))
            dem (some (copyFromWrapped (addAnalysis res line) o))
        | _, _ => .ub

end RichDEM.Py
