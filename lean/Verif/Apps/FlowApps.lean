import Verif.Apps.DepTools
import Verif.Flow.Accum
import Verif.Flow.Tarboton
import Verif.Flow.MultiFlow
import Verif.Terrain.Attributes

/-!
Model of `rd_flow_accumulation` and `rd_terrain_property` (apps/), from the arguments and the file
read to the file written, over the real numbers (what rounding does to the flow metrics and to the
accumulation is the subject of Verif.Flow.Rounded and Verif.Flow.RoundedMetrics).
-/

namespace RichDEM
namespace Tools

open Gdal

/-! ### rd_flow_accumulation -/

/-- What the flow metrics need besides the DEM: the largest number of the cell type
(OCallaghan1984.hpp:48) and the random factors of Rho8 (Fairfield1991.hpp:59-63). -/
structure FlowEnv where
  mx : ℝ
  rho : Cell → Nat → ℝ

/-- apps/rd_flow_accumulation.cpp:15-36: the metric of a number; `none`: nothing is done to `accum`
(the numbers 7 to 9 print a message, all others nothing). -/
noncomputable def metricOf (V : FlowEnv) (alg : Int) (x : ℝ) (w h : Nat) (dem : Cell → ℝ) (nd : ℝ) :
    Option (Cell → Nat → ℝ) :=
  if alg = 1 then some fun c n => (((fmOCallaghan w h .D8 dem nd V.mx c).slot n : Int) : ℝ)
  else if alg = 2 then some fun c n => (((fmFairfield w h .D8 dem nd V.rho c).slot n : Int) : ℝ)
  else if alg = 3 then some (fmQuinn w h dem nd)
  else if alg = 4 then some (fmHolmgren w h dem nd x)
  else if alg = 5 then some (fmFreeman w h dem nd x)
  else if alg = 6 then some (fmTarboton w h dem nd)
  else none

/-- Array2D.hpp:1406-1410 `scale` of a cell: NoData is left alone. -/
noncomputable def scaleCell (nd x v : ℝ) : ℝ :=
  open Classical in if v = nd then v else v * x

/-- Array2D.hpp:1378-1381 `getCellArea`; a loaded raster has six coefficients. -/
noncomputable def cellAreaOf (gt : List ℚ) : ℝ := ((|gt.getD 1 0 * gt.getD 5 0| : ℚ) : ℝ)

/-- apps/rd_flow_accumulation.cpp:10-43 on a loaded raster. The NoData value of `accum` is the
default -1 (Array2D.hpp:114; flow_accumulation_generic.hpp:40 sets the same). -/
noncomputable def accumArr (V : FlowEnv) (q : AnyQ Cell) (alg : Int) (x : ℝ) (a : Arr ℝ) : Arr ℝ :=
  let w := a.width.toNat
  let h := a.height.toNat
  let acc : Cell → ℝ := match metricOf V alg x w h (demOf a) a.noData with
    | some p => flowAccumulation q w h p fun _ => 1
    | none => fun _ => 1
  { a with
    cells := fun x y => scaleCell (-1) (cellAreaOf a.geotransform) (acc (x, y))
    noData := -1 }

/-- apps/rd_flow_accumulation.cpp:74-90: which numbers need the parameter. -/
def needsParam (alg : Int) : Bool := alg == 4 || alg == 5 || alg == 7 || alg == 8 || alg == 9

/-- apps/rd_flow_accumulation.cpp:49-93. -/
noncomputable def accumTool (V : FlowEnv) (q : AnyQ Cell) (stof : Str → Res ℝ) (files : Str → Option (File ℝ))
    (rest : List Str) (time prog op : Str) : Res (Exit ℝ) :=
  match rest with
  | [inp, _, alg] =>
    andThen (stoi alg) fun alg =>
      if needsParam alg then .ok ⟨-1, none⟩
      else withFile files inp fun a => saveWhole (accumArr V q alg 0 a) time prog op
  | [inp, _, alg, param] =>
    andThen (stoi alg) fun alg =>
      if needsParam alg then
        andThen (stof param) fun x => withFile files inp fun a => saveWhole (accumArr V q alg x a) time prog op
      else withFile files inp fun a => saveWhole (accumArr V q alg 0 a) time prog op
  | _ => .ok ⟨-1, none⟩

/-! ### rd_terrain_property -/

/-- apps/rd_terrain_property.cpp:15-32 with terrain_attributes.hpp:336-545: the attribute of a
number. `lx`, `ly` are the cell lengths. -/
noncomputable def attrOf (alg : Int) (w h : Nat) (dem : Cell → ℝ) (nd zs lx ly : ℝ) : Option (Cell → ℝ) :=
  if alg = 1 then some (taSlope w h dem nd zs lx ly)
  else if alg = 2 then some (taSlopePercent w h dem nd zs lx ly)
  else if alg = 3 then some (taSlopeDegree w h dem nd zs lx ly)
  else if alg = 4 then some (taSlopeRadian w h dem nd zs lx ly)
  else if alg = 5 then some (taAspect w h dem nd zs lx ly)
  else if alg = 6 then some (taCurvature w h dem nd zs lx)
  else if alg = 7 then some (taPlanform w h dem nd zs lx)
  else if alg = 8 then some (taProfile w h dem nd zs lx)
  else none

/-- apps/rd_terrain_property.cpp:9-37 on a loaded raster. `result` starts with zeros and keeps the
default NoData value -1. -/
noncomputable def attrArr (alg : Int) (zs : ℝ) (a : Arr ℝ) : Arr ℝ :=
  let w := a.width.toNat
  let h := a.height.toNat
  let lx : ℝ := ((|a.geotransform.getD 1 0| : ℚ) : ℝ)
  let ly : ℝ := ((|a.geotransform.getD 5 0| : ℚ) : ℝ)
  let res : Cell → ℝ := match attrOf alg w h (demOf a) a.noData zs lx ly with
    | some g => taProcess (demOf a) a.noData (-1) g (allCells w h) fun _ => 0
    | none => fun _ => 0
  { a with cells := fun x y => res (x, y), noData := -1 }

/-- apps/rd_terrain_property.cpp:43-70. -/
noncomputable def attrTool (stof : Str → Res ℝ) (files : Str → Option (File ℝ)) (rest : List Str) (time prog op : Str) :
    Res (Exit ℝ) :=
  match rest with
  | [inp, _, alg, zs] =>
    andThen (stoi alg) fun alg =>
    andThen (stof zs) fun zs =>
      withFile files inp fun a => saveWhole (attrArr alg zs a) time prog op
  | _ => .ok ⟨-1, none⟩

end Tools
end RichDEM
