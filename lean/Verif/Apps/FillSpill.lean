import Verif.DepHier.Fill
import Verif.DepHier.Main
import Verif.DepHier.Volume
import Verif.Fill.Bucket

/-!
Model of the command-line tool `rd_fill_spill_merge` (/repo/apps/rd_fill_spill_merge.cpp), from the
loaded rasters to the two rasters it saves.  Reading and writing the files (GDAL) and parsing of the
options is not modelled; the water raster is given (a constant one for `--swl`).  A call with neither
`--swl` nor `--swf` starts from NaN (line 19) and is not modelled.
-/

namespace RichDEM

variable {E : Type} [Field E] [LinearOrder E] [IsStrictOrderedRing E]

/-- rd_fill_spill_merge.cpp:57-65: labels after `BucketFillFromEdges<D8>(topo, label, ocean_level, OCEAN)`
on a raster of `NO_DEP` (`none`); `OCEAN` is `some 0`. -/
def toolSea (bq : AnyQ Cell) (w h : Nat) (topo : Cell → E) (lvl : E) : Cell → Option Nat :=
  (bucketFillFromEdges bq w h .D8 topo lvl (fun _ => (none : Option Nat)) (some 0)).val

/-- rd_fill_spill_merge.cpp:68-74: NoData cells become ocean; the loop touches each cell once, so it is
written as one function (the `omp parallel for` has no cross-iteration access). -/
def toolLabels (bq : AnyQ Cell) (w h : Nat) (topo : Cell → E) (nd lvl : E) : Cell → Option Nat := fun c =>
  if topo c = nd ∨ toolSea bq w h topo lvl c = some 0 then some 0 else toolSea bq w h topo lvl c

/-- rd_fill_spill_merge.cpp:68-74: ocean cells have no water on them to begin with. -/
def toolWater (bq : AnyQ Cell) (w h : Nat) (topo : Cell → E) (nd lvl : E) (wtd : Cell → E) : Cell → E := fun c =>
  if topo c = nd ∨ toolSea bq w h topo lvl c = some 0 then 0 else wtd c

/-- The two rasters saved (lines 92 and 99) and the water booked on the ocean, which is not saved. -/
structure ToolFiles (E : Type) where
  wtd : Cell → E
  surface : Cell → E
  sea : E

/-- How a run ends: an uncaught exception of `GetDepressionHierarchy`, a failed assertion or exception in
a later stage (or recursion beyond the bound), or the saved rasters. -/
inductive ToolEnd (E : Type)
  | threw
  | abort
  | saved (f : ToolFiles E)

/-- rd_fill_spill_merge.cpp:94-96: the hydrologic surface. -/
def toolSurface (topo : Cell → E) (nd : E) (wtd : Cell → E) : Cell → E := fun c =>
  if topo c = nd then wtd c else wtd c + topo c

/-- depression_hierarchy.hpp:597-713 and 715-936 (hierarchy and volumes, inside `GetDepressionHierarchy`),
then fill_spill_merge.hpp `FillSpillMerge` and the rest of the tool, after the flood phase gave `s`.
`os` picks the order of the outlets (an unordered container sorted by elevation), `parts` the split of the
cells among threads.  The ocean's volume is never read; it is 0 here. -/
def toolRest (q : AnyQ Cell) (pq' : PQ (E × Cell) zLt) (os : DHS E → List (Outlet E)) (parts : List (List Cell))
    (eps : E) (w h : Nat) (topo : Cell → E) (nd : E) (water : Cell → E) (s : DHS E) : ToolEnd E :=
  match (depHierarchy s (os s)).bind fun H => (calcMarginal H.n H.dep topo s.label parts).bind fun m =>
      (calcTotal H.n H.dep m).map fun v => (H, v) with
  | none => .abort
  | some (H, v) =>
    match fillSpillMerge q pq' w h topo s.label s.fd H.n H.dep (fun d => if d = 0 then 0 else (v.vol d).getD 0) eps
        (2 * H.n) water with
    | .ok r => .saved ⟨r.wtd, toolSurface topo nd r.wtd, r.water 0⟩
    | .fail => .abort
    | .deep => .abort

/-- rd_fill_spill_merge.cpp:40-99: the whole tool. -/
def rdFillSpillMerge (bq q : AnyQ Cell) (pq pq' : PQ (E × Cell) zLt) (os : DHS E → List (Outlet E))
    (parts : List (List Cell)) (eps : E) (w h : Nat) (topo : Cell → E) (nd lvl : E) (wtd : Cell → E) : ToolEnd E :=
  match getDHFlood pq w h .D8 topo (toolLabels bq w h topo nd lvl) with
  | none => .threw
  | some s => toolRest q pq' os parts eps w h topo nd (toolWater bq w h topo nd lvl wtd) s

end RichDEM
