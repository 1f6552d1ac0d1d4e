/-
Property theorems C113: terrain attributes from Python.
-/
import Verif.Py.Terrain
import Verif.Props.Python
import Verif.Props.PyFlow
import Verif.Props.Terrain

namespace RichDEM.Py

/-! ### Specification -/

/-- Horn's gradient in x and y of a 3×3 window (`v i j`: `i` columns east, `j` rows south of the cell). -/
noncomputable def hornX (v : Int → Int → ℝ) (lx : ℝ) : ℝ :=
  ((v 1 (-1) + 2 * v 1 0 + v 1 1) - (v (-1) (-1) + 2 * v (-1) 0 + v (-1) 1)) / (8 * lx)

noncomputable def hornY (v : Int → Int → ℝ) (ly : ℝ) : ℝ :=
  ((v (-1) 1 + 2 * v 0 1 + v 1 1) - (v (-1) (-1) + 2 * v 0 (-1) + v 1 (-1))) / (8 * ly)

/-- Zevenbergen and Thorne's coefficients. -/
noncomputable def ztD (v : Int → Int → ℝ) (l : ℝ) : ℝ := ((v (-1) 0 + v 1 0) / 2 - v 0 0) / l ^ 2
noncomputable def ztE (v : Int → Int → ℝ) (l : ℝ) : ℝ := ((v 0 (-1) + v 0 1) / 2 - v 0 0) / l ^ 2
noncomputable def ztF (v : Int → Int → ℝ) (l : ℝ) : ℝ := (v 1 (-1) + v (-1) 1 - v (-1) (-1) - v 1 1) / (4 * l ^ 2)
noncomputable def ztG (v : Int → Int → ℝ) (l : ℝ) : ℝ := (v 1 0 - v (-1) 0) / (2 * l)
noncomputable def ztH (v : Int → Int → ℝ) (l : ℝ) : ℝ := (v 0 (-1) - v 0 1) / (2 * l)

/-- The attribute a name stands for, from the window and the cell lengths.  The curvatures take the cells for square. -/
noncomputable def attrSpec (name : String) (v : Int → Int → ℝ) (lx ly : ℝ) : Option ℝ :=
  open Classical in
  let s := Real.sqrt (hornX v lx ^ 2 + hornY v ly ^ 2)
  let D := ztD v lx
  let E := ztE v lx
  let F := ztF v lx
  let G := ztG v lx
  let H := ztH v lx
  if name = "slope_riserun" then some s
  else if name = "slope_percentage" then some (100 * s)
  else if name = "slope_degrees" then some (180 / Real.pi * Real.arctan s)
  else if name = "slope_radians" then some (Real.arctan s)
  else if name = "aspect" then some (aspectOf (Complex.arg ⟨-hornX v lx, hornY v ly⟩))
  else if name = "curvature" then some (-200 * (D + E))
  else if name = "planform_curvature" then
    some (if G = 0 ∧ H = 0 then 0 else -200 * (D * H ^ 2 + E * G ^ 2 - F * G * H) / (G ^ 2 + H ^ 2))
  else if name = "profile_curvature" then
    some (if G = 0 ∧ H = 0 then 0 else 200 * (D * G ^ 2 + E * H ^ 2 + F * G * H) / (G ^ 2 + H ^ 2))
  else none

/-- The window of cell `c`: elevations times `zs`; a neighbour off the raster or NoData counts as the cell itself. -/
def WindowOf (w h : Nat) (z : Cell → ℝ) (nd zs : ℝ) (c : Cell) (v : Int → Int → ℝ) : Prop :=
  v 0 0 = z c * zs ∧
  ∀ i j : Int, (i ≠ 0 ∨ j ≠ 0) → ∃ u, Padded w h z nd c (c.1 + i, c.2 + j) u ∧ v i j = u * zs

/-- The size of a cell: from the geotransform, or 1 × 1 when there is none. -/
def CellSize (g : Option PyGeo) (lx ly : ℚ) : Prop :=
  (g = none ∧ lx = 1 ∧ ly = 1) ∨
  ∃ g0 g1 g2 g3 g4 g5, (g = some (.tuple [g0, g1, g2, g3, g4, g5]) ∨ g = some (.array [g0, g1, g2, g3, g4, g5])) ∧
    lx = |g1| ∧ ly = |g5|

theorem cellLengths_size {g : Option PyGeo} {lx ly : ℚ} (hs : CellSize g lx ly) :
    cellLengths (wrapGeo g) = some (lx, ly) := by
  rcases hs with ⟨rfl, rfl, rfl⟩ | ⟨g0, g1, g2, g3, g4, g5, hg | hg, rfl, rfl⟩
  · simp [wrapGeo, cellLengths]
  · rw [hg]; rfl
  · rw [hg]; rfl

/-- The functions of the library follow the specification. -/
theorem attrFun_spec (w h : Nat) (z : Cell → ℝ) (nd zs lx ly : ℝ) (c : Cell) (name : String) (k : Attr)
    (hk : attrTable.lookup name = some k) :
    ∃ v, WindowOf w h z nd zs c v ∧ attrSpec name v lx ly = some (attrFun k w h z nd zs lx ly c) := by
  obtain ⟨x, y⟩ := c
  obtain ⟨u, hu, ht⟩ := C48_window w h z nd zs x y
  refine ⟨fun i j => if i = 0 ∧ j = 0 then z (x, y) * zs else u i j * zs, ⟨by simp, ?_⟩, ?_⟩
  · intro i j hij
    exact ⟨u i j, hu i j hij, if_neg (by omega)⟩
  have hmem : name ∈ attrTable.map Prod.fst := by
    by_contra hn
    have : attrTable.lookup name = none := by
      rw [List.lookup_eq_none_iff]
      intro p hp
      rw [bne_iff_ne]
      rintro rfl
      exact hn (List.mem_map.2 ⟨p, hp, rfl⟩)
    rw [this] at hk; cases hk
  have hX : hornX (fun i j => if i = 0 ∧ j = 0 then z (x, y) * zs else u i j * zs) lx = taDzdx w h z nd zs lx (x, y) := by
    simp only [hornX, taDzdx, ht]
    norm_num
    rw [div_div]
  have hY : hornY (fun i j => if i = 0 ∧ j = 0 then z (x, y) * zs else u i j * zs) ly = taDzdy w h z nd zs ly (x, y) := by
    simp only [hornY, taDzdy, ht]
    norm_num
    rw [div_div]
  have hC : curvatureSetup w h z nd zs lx (x, y) =
      ⟨lx, ztD (fun i j => if i = 0 ∧ j = 0 then z (x, y) * zs else u i j * zs) lx,
        ztE (fun i j => if i = 0 ∧ j = 0 then z (x, y) * zs else u i j * zs) lx,
        ztF (fun i j => if i = 0 ∧ j = 0 then z (x, y) * zs else u i j * zs) lx,
        ztG (fun i j => if i = 0 ∧ j = 0 then z (x, y) * zs else u i j * zs) lx,
        ztH (fun i j => if i = 0 ∧ j = 0 then z (x, y) * zs else u i j * zs) lx⟩ := by
    simp only [curvatureSetup, ht, ztD, ztE, ztF, ztG, ztH, TSCV.mk.injEq]
    norm_num
    refine ⟨?_, ?_, ?_, ?_, ?_⟩
    · rw [div_div, ← pow_two]
    · rw [div_div, ← pow_two]
    · rw [div_div, div_div, pow_two]; congr 1; ring
    · rw [div_div]; congr 1; ring
    · rw [div_div]
  simp only [attrTable, List.map_cons, List.map_nil, List.mem_cons, List.not_mem_nil, or_false] at hmem
  simp only [attrSpec, hX, hY]
  rcases hmem with rfl | rfl | rfl | rfl | rfl | rfl | rfl | rfl <;>
    simp [attrTable, List.lookup] at hk <;> subst hk <;> simp only [attrFun]
  · simp [taSlope, pow_two]
  · simp [taSlopePercent, taSlope, pow_two, mul_comm]
  · simp [taSlopeDegree, taSlope, pow_two]; ring
  · simp [taSlopeRadian, taSlope, pow_two]
  · simp [taAspect]
  · simp [taCurvature, hC]; ring
  · simp only [taPlanform, hC]
    simp
    split <;> ring
  · simp only [taProfile, hC]
    simp
    split <;> ring

/-! ### The call -/

/-- C113: the eight documented names are accepted and no other; a wrong name raises and changes nothing. -/
theorem C113_names (fl : ℝ → ℚ) (attrib : String) (zscale : ℚ) (line : String) (m : PyMem) (dem : RdArr)
    (ha : attrib ∉ ["slope_riserun", "slope_percentage", "slope_degrees", "slope_radians", "aspect", "curvature",
      "planform_curvature", "profile_curvature"]) :
    terrainAttribute fl attrib zscale line m dem = .raised m dem := by
  have : attrTable.lookup attrib = none := by
    rw [List.lookup_eq_none_iff]
    intro p hp
    rw [bne_iff_ne]
    rintro rfl
    exact ha (List.mem_map.2 ⟨p, hp, rfl⟩)
  unfold terrainAttribute
  rw [this]

/-- C113: `TerrainAttribute(dem, attrib, zscale)` leaves the DEM and every other array alone and returns a new `float32`
array: -9999 in NoData cells and in every other cell the attribute, computed from the 3×3 window of elevations times
`zscale` (as a single-precision number) and the cell size. -/
theorem C113_attribute_partial (fl : ℝ → ℚ) (attrib : String) (zscale : ℚ) (line : String) (m : PyMem) (hm : m.WF)
    (dem : RdArr) (nd lx ly : ℚ) (hd : Usable m dem nd) (hs : CellSize dem.md.geo lx ly)
    (ha : attrib ∈ ["slope_riserun", "slope_percentage", "slope_degrees", "slope_radians", "aspect", "curvature",
      "planform_curvature", "profile_curvature"]) :
    ∃ (m' : PyMem) (r : RdArr), terrainAttribute fl attrib zscale line m dem = .ok m' dem (some r) ∧
      (∀ b, m.blk b ≠ none → m'.blk b = m.blk b) ∧ m.blk r.v.buf = none ∧ r.dt = .f32 ∧
      r.v.w = dem.v.w ∧ r.v.h = dem.v.h ∧
      r.md = { dem.md with noData := some (.float (-9999)), hist := dem.md.hist ++ [line] } ∧
      ∀ c, InGrid dem.v.w dem.v.h c →
        (dem.cells m c = nd → r.cells m' c = -9999) ∧
        (dem.cells m c ≠ nd → ∃ v a,
          WindowOf dem.v.w dem.v.h (fun q => (dem.cells m q : ℝ)) nd (roundBits 24 zscale) c v ∧
          attrSpec attrib v lx ly = some a ∧ r.cells m' c = fl a) := by
  obtain ⟨k, hk⟩ : ∃ k, attrTable.lookup attrib = some k := by
    simp only [List.mem_cons, List.not_mem_nil, or_false] at ha
    rcases ha with rfl | rfl | rfl | rfl | rfl | rfl | rfl | rfl <;> exact ⟨_, rfl⟩
  set v := m.fresh dem.v.h dem.v.w with hv
  set m1 := m.alloc dem.v.h dem.v.w (fun _ => 0) with hm1
  have hkv : v.contig = true := contig_fresh m _ _
  have hVv : v.Valid m1 := valid_fresh m _ _ _
  have hb : m.blk m.next = none := hm _ le_rfl
  have hne : dem.v.buf ≠ m.next := by
    intro e
    obtain ⟨b, hb', _⟩ := hd.valid
    rw [e, hb] at hb'; cases hb'
  have hblk : m1.blk dem.v.buf = m.blk dem.v.buf := alloc_other _ _ _ _ hne
  have hV1 : dem.v.Valid m1 := by
    obtain ⟨b, hb', hr⟩ := hd.valid
    exact ⟨b, by rw [hblk, hb'], hr⟩
  have hcells : dem.v.cells m1 = dem.v.cells m := by
    funext c; simp only [NdView.cells, hblk]
  have hrd := read_contig hd.contig hd.wide hd.high hV1 nd
  have hnd1 : castT .f32 (overload (.int (-9999))) = some (-9999) := by decide +kernel
  have hwr : wrap m1 ⟨v, .f32, { dem.md with noData := some (.int (-9999)) }⟩ =
      .ok m1 ⟨v.buf, v.off, dem.v.w, dem.v.h, -9999⟩ := by
    unfold wrap
    rw [if_neg (by simp)]
    simp only [Option.getD_some, hnd1, ensure_contig hkv]
    rfl
  set g := taProcess (dem.v.cells m) nd (-9999)
    (fun c => fl (attrFun k dem.v.w dem.v.h (fun q => (dem.v.cells m q : ℝ)) nd (roundBits 24 zscale) lx ly c))
    (allCells dem.v.w dem.v.h) (fun _ => (0 : ℚ)) with hgd
  have hT : terrainAttribute fl attrib zscale line m dem =
      .ok ((CArr.mk v.buf v.off dem.v.w dem.v.h (-9999)).write m1 g) dem
        (some (copyFromWrapped (addAnalysis ⟨v, .f32, { dem.md with noData := some (.int (-9999)) }⟩ line)
          ⟨v.buf, v.off, dem.v.w, dem.v.h, -9999⟩)) := by
    simp only [terrainAttribute, hk, ← hv, ← hm1, hwr, wrap_usable hd m1, hrd, cellLengths_size hs, hcells, hgd]
  refine ⟨_, _, hT, ?_, hb, rfl, rfl, rfl, rfl, fun c hc => ?_⟩
  · intro b hb'
    have : b ≠ m.next := fun e => hb' (e ▸ hb)
    rw [write_other _ this, hm1, alloc_other _ _ _ _ this]
  · have hw := cells_write (v := v) hkv hd.wide hd.high hVv (-9999) g
    have hc' : inGrid v.w v.h c = true := inGrid_iff.2 hc
    have hgc : v.cells ((CArr.mk v.buf v.off dem.v.w dem.v.h (-9999)).write m1 g) c = g c := by
      rw [show v.cells ((CArr.mk v.buf v.off dem.v.w dem.v.h (-9999)).write m1 g) = restrict v.w v.h g from hw]
      simp only [restrict, hc', if_true]
    have hgv : g c = if dem.v.cells m c = nd then -9999 else
        fl (attrFun k dem.v.w dem.v.h (fun q => (dem.v.cells m q : ℝ)) nd (roundBits 24 zscale) lx ly c) := by
      rw [hgd, taProcess_eq, if_pos (mem_allCells.2 hc)]
    refine ⟨fun h0 => ?_, fun h0 => ?_⟩
    · show v.cells _ c = _
      rw [hgc, hgv, if_pos (show dem.v.cells m c = nd from h0)]
    · obtain ⟨u, hu, hsp⟩ := attrFun_spec dem.v.w dem.v.h (fun q => (dem.v.cells m q : ℝ)) nd (roundBits 24 zscale : ℚ) lx ly c
        attrib k hk
      refine ⟨u, _, hu, hsp, ?_⟩
      show v.cells _ c = _
      rw [hgc, hgv, if_neg (show ¬ dem.v.cells m c = nd from h0)]

/-- C113, refuted part: on a DEM that is not C-contiguous (a slice, a transposed array) `TerrainAttribute` is undefined
behaviour although it only reads the DEM. -/
theorem C113_view_refuted (fl : ℝ → ℚ) (attrib : String) (zscale : ℚ) (line : String) (m : PyMem)
    (dem : RdArr) (nd : ℚ) (hn : NoDataIs dem nd) (hk : dem.v.contig = false)
    (ha : attrib ∈ ["slope_riserun", "slope_percentage", "slope_degrees", "slope_radians", "aspect", "curvature",
      "planform_curvature", "profile_curvature"]) :
    terrainAttribute fl attrib zscale line m dem = .ub := by
  obtain ⟨k, hk'⟩ : ∃ k, attrTable.lookup attrib = some k := by
    simp only [List.mem_cons, List.not_mem_nil, or_false] at ha
    rcases ha with rfl | rfl | rfl | rfl | rfl | rfl | rfl | rfl <;> exact ⟨_, rfl⟩
  set v := m.fresh dem.v.h dem.v.w with hv
  set m1 := m.alloc dem.v.h dem.v.w (fun _ => 0) with hm1
  have hkv : v.contig = true := contig_fresh m _ _
  have hnd1 : castT .f32 (overload (.int (-9999))) = some (-9999) := by decide +kernel
  have hwr : wrap m1 ⟨v, .f32, { dem.md with noData := some (.int (-9999)) }⟩ =
      .ok m1 ⟨v.buf, v.off, dem.v.w, dem.v.h, -9999⟩ := by
    unfold wrap
    rw [if_neg (by simp)]
    simp only [Option.getD_some, hnd1, ensure_contig hkv]
    rfl
  have hwd : wrap m1 dem = .ok (ensurePtr m1 dem.v).1
      ⟨(ensurePtr m1 dem.v).2.1, (ensurePtr m1 dem.v).2.2, dem.v.w, dem.v.h, nd⟩ := by
    unfold wrap
    rw [if_neg hn.1, hn.2]
  simp only [terrainAttribute, hk', ← hv, ← hm1, hwr, hwd, read_dangling hk]

/-! ### Concrete arrays -/

/-- A 3×3 DEM of doubles, level but for the centre, which is 9999/400 high; its NoData value is 1/10. -/
def bumpEx : RdArr × PyMem :=
  (⟨⟨0, 0, 3, 3, 3, 1⟩, .f64, ⟨some (.float (1 / 10)), none, "", []⟩⟩,
   ⟨fun b => if b = 0 then some ⟨9, fun i => [1 / 10, 0, 0, 0, 9999 / 400, 0, 0, 0, 0].getD i 0⟩ else none, 1⟩)

/-- What C++ takes for the NoData value of `bumpEx`. -/
def tenth24 : ℚ := roundBits 24 (1 / 10)

/-- The hypotheses of `C113_attribute_partial` hold for `bumpEx`. -/
theorem bumpEx_usable : Usable bumpEx.2 bumpEx.1 tenth24 ∧ bumpEx.2.WF ∧ CellSize bumpEx.1.md.geo 1 1 := by
  refine ⟨⟨⟨by decide, by decide +kernel⟩, ⟨_, rfl, ?_⟩, by decide, by decide, by decide⟩, ?_, Or.inl ⟨rfl, rfl, rfl⟩⟩
  · rintro ⟨x, y⟩ ⟨h1, h2, h3, h4⟩
    simp only [NdView.addr, bumpEx] at h1 h2 h3 h4 ⊢
    omega
  · intro b hb
    simp only [bumpEx] at hb ⊢
    rw [if_neg (by omega)]

/-- A 3×3 DEM of single-precision numbers with a pit of -2499.75 and cells of 10 × 10. -/
def pitEx : RdArr × PyMem :=
  (⟨⟨0, 0, 3, 3, 3, 1⟩, .f32, ⟨some (.int (-1)), some (.tuple [0, 10, 0, 0, 0, -10]), "", []⟩⟩,
   ⟨fun b => if b = 0 then some ⟨9, fun i => if i = 4 then -9999 / 4 else 0⟩ else none, 1⟩)

theorem pitEx_usable : Usable pitEx.2 pitEx.1 (-1) ∧ pitEx.2.WF ∧ CellSize pitEx.1.md.geo 10 10 := by
  refine ⟨⟨⟨by decide, by decide +kernel⟩, ⟨_, rfl, ?_⟩, by decide, by decide, by decide⟩, ?_,
    Or.inr ⟨0, 10, 0, 0, 0, -10, Or.inl rfl, by norm_num, by norm_num⟩⟩
  · rintro ⟨x, y⟩ ⟨h1, h2, h3, h4⟩
    simp only [NdView.addr, pitEx] at h1 h2 h3 h4 ⊢
    omega
  · intro b hb
    simp only [pitEx] at hb ⊢
    rw [if_neg (by omega)]

/-- C113, refuted part: -9999, which marks NoData in the result, is also a possible curvature: the data cell (1,1) of
`pitEx` comes out as -9999. -/
theorem C113_curvature_clash_refuted (fl : ℝ → ℚ) (hfl : fl (-9999) = -9999) (line : String) :
    pitEx.1.cells pitEx.2 (1, 1) ≠ -1 ∧ pitEx.1.md.noData = some (.int (-1)) ∧
    ∃ m' r, terrainAttribute fl "curvature" 1 line pitEx.2 pitEx.1 = .ok m' pitEx.1 (some r) ∧
      r.md.noData = some (.float (-9999)) ∧ r.cells m' (1, 1) = -9999 := by
  have hz : pitEx.1.cells pitEx.2 (1, 1) = -9999 / 4 := by decide +kernel
  have hne : pitEx.1.cells pitEx.2 (1, 1) ≠ -1 := by rw [hz]; norm_num
  refine ⟨hne, rfl, ?_⟩
  obtain ⟨m', r, e, _, _, _, _, _, hmd, hc⟩ := C113_attribute_partial fl "curvature" 1 line pitEx.2 pitEx_usable.2.1
    pitEx.1 (-1) 10 10 pitEx_usable.1 pitEx_usable.2.2 (by decide)
  refine ⟨m', r, e, by rw [hmd], ?_⟩
  obtain ⟨v, a, ⟨hv0, hw⟩, ha, hr⟩ := (hc (1, 1) (by simp [InGrid, pitEx])).2 hne
  have hone : ((roundBits 24 1 : ℚ) : ℝ) = 1 := by
    rw [show roundBits 24 1 = 1 by decide +kernel]; norm_num
  have hnb : ∀ i j : Int, (i ≠ 0 ∨ j ≠ 0) → InGrid 3 3 ((1 : Int) + i, (1 : Int) + j) →
      pitEx.1.cells pitEx.2 (1 + i, 1 + j) = 0 → v i j = 0 := by
    intro i j hij hg h0
    obtain ⟨u, hu, hvu⟩ := hw i j hij
    rcases hu with ⟨_, _, rfl⟩ | ⟨hn, _⟩
    · rw [hvu]; simp only [h0]; simp
    · exfalso
      apply hn
      refine ⟨hg, ?_⟩
      simp only [h0]
      norm_num
  have e1 := hnb (-1) 0 (by omega) (by simp [InGrid]) (by decide +kernel)
  have e2 := hnb 1 0 (by omega) (by simp [InGrid]) (by decide +kernel)
  have e3 := hnb 0 (-1) (by omega) (by simp [InGrid]) (by decide +kernel)
  have e4 := hnb 0 1 (by omega) (by simp [InGrid]) (by decide +kernel)
  have e0 : v 0 0 = -9999 / 4 := by
    rw [hv0, hone]; simp only [hz]; norm_num
  have hval : a = -9999 := by
    simp [attrSpec] at ha
    rw [← ha, ztD, ztE, e0, e1, e2, e3, e4]
    norm_num
  rw [hr, hval, hfl]

/-- C113, refuted part: a NoData cell of a double DEM whose NoData value is not a single-precision number is treated as
data: the slope of cell (0,0) of `bumpEx`, which holds the array's `no_data`, comes out as a slope, not as -9999, if
storing a number that is not negative gives a number that is not negative. -/
theorem C113_double_no_data_refuted (fl : ℝ → ℚ) (hfl : ∀ x, 0 ≤ x → 0 ≤ fl x) (line : String) :
    bumpEx.1.md.noData = some (.float (bumpEx.1.cells bumpEx.2 (0, 0))) ∧
    ∃ m' r, terrainAttribute fl "slope_riserun" 1 line bumpEx.2 bumpEx.1 = .ok m' bumpEx.1 (some r) ∧
      0 ≤ r.cells m' (0, 0) := by
  have hz : bumpEx.1.cells bumpEx.2 (0, 0) = 1 / 10 := by decide +kernel
  refine ⟨by rw [hz]; rfl, ?_⟩
  obtain ⟨m', r, e, _, _, _, _, _, _, hc⟩ := C113_attribute_partial fl "slope_riserun" 1 line bumpEx.2 bumpEx_usable.2.1
    bumpEx.1 tenth24 1 1 bumpEx_usable.1 bumpEx_usable.2.2 (by decide)
  refine ⟨m', r, e, ?_⟩
  have hne : bumpEx.1.cells bumpEx.2 (0, 0) ≠ tenth24 := by rw [hz]; decide +kernel
  obtain ⟨v, a, _, ha, hr⟩ := (hc (0, 0) (by simp [InGrid, bumpEx])).2 hne
  rw [hr]
  apply hfl
  simp only [attrSpec, if_true] at ha
  rw [← Option.some.inj ha]
  exact Real.sqrt_nonneg _

end RichDEM.Py
