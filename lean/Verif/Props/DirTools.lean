/-
Property theorems C122: the tools rd_d8_flowdirs and rd_flood_for_flowdirs.
-/
import Verif.Apps.DirTools
import Verif.Props.DepTools
import Verif.Props.FlowTools

namespace RichDEM
namespace Tools

open Gdal Relation

/-! ### Specification -/

/-- A path over adjacent NoData cells from `c` to the edge of the raster. -/
def NoDataWay {E : Type} (f : File E) (c : Cell) : Prop :=
  ∃ p, EscapePath f.width.toNat f.height.toNat .D8 c p ∧ ∀ q ∈ p, fileDem f q = f.noData

section
variable {E : Type} [LinearOrder E]

/-! ### Lemmas -/

/-- Filling leaves what lies outside the raster. -/
theorem barnes_outside (pq : PQ (E × Cell) zLt) (w h : Nat) (t : Topo) (dem : Cell → E) (c : Cell) (hc : ¬ InGrid w h c) :
    (priorityFloodBarnes pq w h t dem).elev c = dem c := by
  have nb : ∀ (e : E × Cell) (s : FState E) (n : Nat), s.elev c = dem c → (barnesNbr pq w h t e s n).elev c = dem c := by
    intro e s n hs
    unfold barnesNbr
    dsimp only
    split_ifs with h1 h2 h3 h4
    · exact hs
    · exact hs
    · dsimp only
      rw [Function.update_of_ne]
      · exact hs
      · intro k
        subst k
        exact hc (inGrid_iff.1 (by simpa using h1))
    · exact hs
    · exact hs
  have fd : ∀ (e : E × Cell) (l : List Nat) (s : FState E), s.elev c = dem c →
      (l.foldl (barnesNbr pq w h t e) s).elev c = dem c := by
    intro e l
    induction l with
    | nil => exact fun s hs => hs
    | cons n l ih => exact fun s hs => ih _ (nb e s n hs)
  unfold priorityFloodBarnes
  refine loop_inv (fun s : FState E => s.elev c = dem c) ?_ _ _ ?_
  · intro s s' hs hstep
    unfold barnesStep at hstep
    cases hn : barnesNext pq s with
    | none => rw [hn] at hstep; cases hstep
    | some r =>
      obtain ⟨e, s1⟩ := r
      rw [hn] at hstep
      dsimp only at hstep
      cases hstep
      have h1 : s1.elev = s.elev := by
        unfold barnesNext at hn
        split at hn
        · cases hn; rfl
        · split at hn
          · cases hn; rfl
          · cases hn
      exact fd e _ _ (by dsimp only; rw [h1]; exact hs)
  · rfl

/-- The filled raster does not depend on the order of equal cells in the heap. -/
theorem barnes_ties (pq pq' : PQ (E × Cell) zLt) (w h : Nat) (hw : 0 < w) (hh : 0 < h) (dem : Cell → E) :
    (priorityFloodBarnes pq w h .D8 dem).elev = (priorityFloodBarnes pq' w h .D8 dem).elev := by
  funext c
  by_cases hc : InGrid w h c
  · exact C04_fill_unique w h .D8 dem _ _ (C05_barnes_is_fill pq w h .D8 dem hw hh) (C05_barnes_is_fill pq' w h .D8 dem hw hh) c hc
  · rw [barnes_outside pq w h .D8 dem c hc, barnes_outside pq' w h .D8 dem c hc]

theorem d8Dirs_run (pq : PQ (E × Cell) zLt) {files : Str → Option (File E)} {inp : Str} {f : File E}
    (hf : files inp = some f) (gf : GoodFile f) (pre time prog op : Str) :
    ∃ g : File Nat, d8DirsTool pq files [inp, pre] time prog op = .ok ⟨some (pre ++ "-flowdirs.tif".toList), ⟨0, some g⟩⟩ ∧
      SameGrid g f ∧ g.noData = 255 ∧
      fileDem g = barnesFlatResolutionD8 f.width.toNat f.height.toNat
        (priorityFloodBarnes pq f.width.toNat f.height.toNat .D8 (fileDem f)).elev f.noData := by
  obtain ⟨g, hg, g1, g2, g3, g4, g5, g6⟩ := saveWhole_ok (dirArr (ofFile f) (d8DirsOf pq (ofFile f))) (shownGT f)
    (geotransform_eq f) time prog op
  refine ⟨g, ?_, ⟨g1, g2, g5, g4⟩, g6, ?_⟩
  · unfold d8DirsTool
    dsimp only
    rw [withFile_good hf gf, hg]
    rfl
  · unfold fileDem
    rw [g3]
    rfl

/-! ### rd_d8_flowdirs -/

/-- **C122 (the directions drain the filled DEM).** `rd_d8_flowdirs IN PREFIX` writes
`PREFIX-flowdirs.tif`, which lies where the DEM lies and has the NoData value 255. A cell has 255 exactly
where the filled DEM has its NoData value; every other cell has a code from 1 to 8, following the codes
from it leads out of the data, and no step ascends in the filled DEM. -/
theorem C122_directions (pq : PQ (E × Cell) zLt) (files : Str → Option (File E)) (inp pre time prog op : Str) (f : File E)
    (hf : files inp = some f) (gf : GoodFile f) :
    ∃ (g : File Nat) (filled : Cell → E),
      d8DirsTool pq files [inp, pre] time prog op = .ok ⟨some (pre ++ "-flowdirs.tif".toList), ⟨0, some g⟩⟩ ∧
      SameGrid g f ∧ g.noData = 255 ∧ IsFilled f.width.toNat f.height.toNat .D8 (fileDem f) filled ∧
      ∀ c, InGrid f.width.toNat f.height.toNat c →
        (fileDem g c = 255 ↔ filled c = f.noData) ∧
        (filled c ≠ f.noData →
          (1 ≤ fileDem g c ∧ fileDem g c ≤ 8) ∧
          (∃ e, ExitsAt f.width.toNat f.height.toNat filled f.noData (fileDem g) e ∧
            ReflTransGen (D8FlowsTo f.width.toNat f.height.toNat (fileDem g) 255) c e) ∧
          ∀ b, D8FlowsTo f.width.toNat f.height.toNat (fileDem g) 255 c b → filled b ≤ filled c) := by
  obtain ⟨hw, hh⟩ := grid_pos gf
  obtain ⟨g, h1, h2, h3, h4⟩ := d8Dirs_run pq hf gf pre time prog op
  refine ⟨g, _, h1, h2, h3, C05_barnes_is_fill pq _ _ .D8 (fileDem f) hw hh, fun c hc => ?_⟩
  rw [h4]
  refine ⟨(C53_values _ _ _ _ c hc).1, fun hd => ?_⟩
  obtain ⟨k1, k2⟩ := C53_depression_free _ _ _ f.noData (C07_filled_drains pq _ _ .D8 (fileDem f) hw hh).2 c hc hd
  refine ⟨k1, k2, fun b hb => ?_⟩
  rcases flow_decreases _ _ _ _ _ _ hb with k | ⟨k, _⟩
  · exact k.le
  · exact k.le

/-- **C122 (data cells and NoData cells).** If no elevation is below the NoData value, every data cell has a
code from 1 to 8, and 255 stands exactly where NoData cells lead to the edge of the raster. -/
theorem C122_data_partial (pq : PQ (E × Cell) zLt) (files : Str → Option (File E)) (inp pre time prog op : Str) (f : File E)
    (hf : files inp = some f) (gf : GoodFile f)
    (hlow : ∀ c, InGrid f.width.toNat f.height.toNat c → f.noData ≤ fileDem f c) :
    ∃ g : File Nat, d8DirsTool pq files [inp, pre] time prog op =
        .ok ⟨some (pre ++ "-flowdirs.tif".toList), ⟨0, some g⟩⟩ ∧
      ∀ c, InGrid f.width.toNat f.height.toNat c →
        (fileDem f c ≠ f.noData → 1 ≤ fileDem g c ∧ fileDem g c ≤ 8) ∧ (fileDem g c = 255 ↔ NoDataWay f c) := by
  obtain ⟨g, F, h1, _, _, hF, hc⟩ := C122_directions pq files inp pre time prog op f hf gf
  refine ⟨g, h1, fun c hcg => ?_⟩
  obtain ⟨k1, k2⟩ := hc c hcg
  obtain ⟨p, hp, hle⟩ := (hF c hcg).attained
  have hge : fileDem f c ≤ F c := hle c (List.mem_of_mem_head? hp.head)
  refine ⟨fun hd => (k2 fun e => hd (le_antisymm (e ▸ hge) (hlow c hcg))).1, k1.trans ⟨fun e => ?_, fun hn => ?_⟩⟩
  · exact ⟨p, hp, fun q hq => le_antisymm (e ▸ hle q hq) (hlow q (hp.inGrid q hq))⟩
  · obtain ⟨p', hp', hn⟩ := hn
    obtain ⟨q, hq, hz⟩ := (hF c hcg).least p' hp'
    rw [hn q hq] at hz
    exact le_antisymm hz ((hlow c hcg).trans hge)

/-- **C122 (order of equal cells).** What is written does not depend on the order in which the heap
gives equal cells. -/
theorem C122_tie_order (pq pq' : PQ (E × Cell) zLt) (files : Str → Option (File E)) (inp pre time prog op : Str) (f : File E)
    (hf : files inp = some f) (gf : GoodFile f) :
    d8DirsTool pq files [inp, pre] time prog op = d8DirsTool pq' files [inp, pre] time prog op := by
  obtain ⟨hw, hh⟩ := grid_pos gf
  have : d8DirsOf pq (ofFile f) = d8DirsOf pq' (ofFile f) := by
    unfold d8DirsOf
    rw [barnes_ties pq pq' (ofFile f).width.toNat (ofFile f).height.toNat hw hh]
  unfold d8DirsTool
  dsimp only
  rw [withFile_good hf gf, withFile_good hf gf, this]

/-- **C122 (arguments).** Without exactly two arguments the programs end with status -1 and write nothing;
without the input they end with an exception. -/
theorem C122_usage (pq : PQ (E × Cell) zLt) (files : Str → Option (File E)) (time prog op : Str) :
    (∀ rest : List Str, rest.length ≠ 2 →
      d8DirsTool pq files rest time prog op = .ok ⟨none, -1, none⟩ ∧
      floodDirsTool pq files rest time prog op = .ok ⟨none, -1, none⟩) ∧
    (∀ inp out : Str, files inp = none →
      d8DirsTool pq files [inp, out] time prog op = .throws ∧
      floodDirsTool pq files [inp, out] time prog op = .throws) := by
  constructor
  · intro rest hl
    unfold d8DirsTool floodDirsTool
    match rest, hl with
    | [], _ => exact ⟨rfl, rfl⟩
    | [_], _ => exact ⟨rfl, rfl⟩
    | [_, _], hl => simp at hl
    | _ :: _ :: _ :: _, _ => exact ⟨rfl, rfl⟩
  · intro inp out h
    unfold d8DirsTool floodDirsTool withFile
    dsimp only
    rw [h]
    exact ⟨rfl, rfl⟩

/-! ### rd_flood_for_flowdirs -/

/-- **C122 (the two programs).** On a raster whose rows run east and whose first row is the northernmost,
`rd_flood_for_flowdirs` writes the file that `rd_d8_flowdirs` writes, under the name it is given. -/
theorem C122_north_up_partial (pq pq' : PQ (E × Cell) zLt) (files : Str → Option (File E)) (inp out pre time prog op : Str)
    (f : File E) (hf : files inp = some f) (gf : GoodFile f) (h1 : 0 ≤ (shownGT f).g1) (h5 : (shownGT f).g5 ≤ 0) :
    ∃ g, d8DirsTool pq files [inp, pre] time prog op = .ok ⟨some (pre ++ "-flowdirs.tif".toList), ⟨0, some g⟩⟩ ∧
      floodDirsTool pq' files [inp, out] time prog op = .ok ⟨some out, ⟨0, some g⟩⟩ := by
  obtain ⟨hw, hh⟩ := grid_pos gf
  obtain ⟨g, hg, -⟩ := saveWhole_ok (dirArr (ofFile f) (d8DirsOf pq (ofFile f))) (shownGT f) (geotransform_eq f) time prog op
  refine ⟨g, ?_, ?_⟩
  · unfold d8DirsTool
    dsimp only
    rw [withFile_good hf gf, hg]
    rfl
  · have he : floodForFlowdirs pq' (ofFile f).width.toNat (ofFile f).height.toNat ((ofFile f).geotransform.getD 1 0).num
        ((ofFile f).geotransform.getD 5 0).num (demOf (ofFile f)) (ofFile f).noData = some (d8DirsOf pq (ofFile f)) := by
      have e1 : ((ofFile f).geotransform.getD 1 0) = (shownGT f).g1 := by
        show (f.geotransform.getD 1 0) = _
        rw [geotransform_eq]
        rfl
      have e5 : ((ofFile f).geotransform.getD 5 0) = (shownGT f).g5 := by
        show (f.geotransform.getD 5 0) = _
        rw [geotransform_eq]
        rfl
      rw [e1, e5]
      unfold floodForFlowdirs d8DirsOf
      rw [if_neg (not_lt.2 (Rat.num_nonneg.2 h1)), if_neg (not_lt.2 (Rat.num_nonpos.2 h5)),
        barnes_ties pq' pq (ofFile f).width.toNat (ofFile f).height.toNat hw hh]
    unfold floodDirsTool
    dsimp only
    rw [withFile_good hf gf, he]
    dsimp only
    rw [hg]
    rfl

/-- **C122, refuted (rows that run west).** The program runs into undefined behaviour. -/
theorem C122_west_refuted (pq : PQ (E × Cell) zLt) (files : Str → Option (File E)) (inp out time prog op : Str)
    (f : File E) (hf : files inp = some f) (gf : GoodFile f) (h1 : (shownGT f).g1 < 0) :
    floodDirsTool pq files [inp, out] time prog op = .ub := by
  have e1 : ((ofFile f).geotransform.getD 1 0) = (shownGT f).g1 := by
    show (f.geotransform.getD 1 0) = _
    rw [geotransform_eq]
    rfl
  unfold floodDirsTool
  dsimp only
  rw [withFile_good hf gf]
  have : floodForFlowdirs pq (ofFile f).width.toNat (ofFile f).height.toNat ((ofFile f).geotransform.getD 1 0).num
      ((ofFile f).geotransform.getD 5 0).num (demOf (ofFile f)) (ofFile f).noData = none := by
    rw [e1]
    unfold floodForFlowdirs
    rw [if_pos (Rat.num_neg.2 h1)]
  rw [this]

end

/-! ### Concrete runs -/

def runDirs (f : File Int) : Option (Str × List (List Nat)) :=
  match d8DirsTool zPQ (oneFile f) ["in".toList, "a".toList] [] [] [] with
  | .ok ⟨some n, e⟩ => (writtenRows (.ok e)).map fun r => (n, r)
  | _ => none

def runFloodDirs (f : File Int) : Option (List (List Nat)) :=
  match floodDirsTool zPQ (oneFile f) ["in".toList, "a".toList] [] [] [] with
  | .ok ⟨_, e⟩ => writtenRows (.ok e)
  | _ => none

/-- A depression on a slope, beside NoData. -/
def exSlope : File Int := rowsFile (-1) [[5, 5, 5, 5, -1], [4, 4, 1, 4, -1], [3, 3, 3, 3, 3], [2, 2, 2, 2, 2]]

/-- The hypotheses of the theorems are met. -/
example : GoodFile exSlope ∧ oneFile exSlope "in".toList = some exSlope ∧
    (∀ c ∈ allCells 5 4, exSlope.noData ≤ fileDem exSlope c) ∧ 0 ≤ (shownGT exSlope).g1 ∧ (shownGT exSlope).g5 ≤ 0 ∧
    GoodFile { exSlope with gt := some ⟨0, -1, 0, 0, 0, -1⟩ } := by
  refine ⟨⟨by decide, by decide, by decide, by decide, by decide⟩, by rfl, ?_, ?_, ?_,
    ⟨by decide, by decide, by decide, by decide, by decide⟩⟩ <;> decide +kernel

example : runDirs exSlope = some ("a-flowdirs.tif".toList,
    [[2, 3, 3, 3, 255], [1, 5, 7, 5, 255], [1, 7, 7, 4, 5], [8, 7, 7, 7, 6]]) ∧
    runFloodDirs exSlope = some [[2, 3, 3, 3, 255], [1, 5, 7, 5, 255], [1, 7, 7, 4, 5], [8, 7, 7, 7, 6]] := by decide +kernel

example : (shownGT { exSlope with gt := some ⟨0, -1, 0, 0, 0, -1⟩ }).g1 < 0 := by decide +kernel

/-- **C122, refuted (a NoData cell has 255).** A single NoData cell, lower than the data around it, is
filled and gets a direction. -/
theorem C122_noData_cell_refuted :
    runDirs (rowsFile (-1) [[5, 5, 5], [5, -1, 5], [5, 4, 5]]) =
      some ("a-flowdirs.tif".toList, [[2, 3, 4], [1, 7, 5], [8, 7, 6]]) := by decide +kernel

/-- **C122, refuted (a data cell has a direction).** With a NoData value above the elevations, data that
NoData cells enclose are filled up to the NoData value and get 255. -/
theorem C122_data_cell_refuted :
    runDirs (rowsFile 9 [[9, 9, 9, 9], [9, 3, 4, 9], [9, 9, 9, 9]]) =
      some ("a-flowdirs.tif".toList, [[255, 255, 255, 255], [255, 255, 255, 255], [255, 255, 255, 255]]) := by
  decide +kernel

/-- A slope, its southernmost row first. -/
def exSouthUp : File Int :=
  { rowsFile (-9999) [[1, 1, 1], [2, 2, 2], [3, 3, 3]] with gt := some ⟨0, 1, 0, 0, 0, 1⟩ }

/-- **C122, refuted (rd_flood_for_flowdirs, southernmost row first).** On a slope the codes lead around
in a loop: the cell in the middle leads to the one below it, which leads back. -/
theorem C122_south_up_refuted :
    runFloodDirs exSouthUp = some [[8, 7, 6], [1, 7, 5], [2, 3, 4]] ∧
    TransGen (D8FlowsTo 3 3 (ofRows 0 [[8, 7, 6], [1, 7, 5], [2, 3, 4]]) 255) (1, 1) (1, 1) := by
  refine ⟨by decide +kernel, .tail (.single (b := (1, 2)) ?_) ?_⟩
  · decide +kernel
  · decide +kernel

end Tools
end RichDEM
