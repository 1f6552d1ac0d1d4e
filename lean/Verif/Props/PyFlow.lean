/-
Property theorems C112: flow proportions and accumulation in two steps from Python.
-/
import Verif.Py.Flow
import Verif.Props.Python
import Verif.Props.Accum
import Verif.Props.FlowDir

namespace RichDEM.Py

/-! ### Specification -/

/-- The names of the documentation (`__init__.py`:503-522, 659-675), the metric each stands for, and whether it needs
an exponent. -/
def Documented : String → Option (Metric × Bool)
  | "Tarboton" | "Dinf" => some (.tarboton, false)
  | "Quinn" => some (.quinn, false)
  | "Holmgren" => some (.holmgren, true)
  | "Freeman" => some (.freeman, true)
  | "FairfieldLeymarieD8" | "Rho8" => some (.fairfield .D8, false)
  | "FairfieldLeymarieD4" | "Rho4" => some (.fairfield .D4, false)
  | "OCallaghanD8" | "D8" => some (.ocallaghan .D8, false)
  | "OCallaghanD4" | "D4" => some (.ocallaghan .D4, false)
  | _ => none

/-- A DEM a call can read: its memory exists, it is C-contiguous and has cells, and C++ sees `nd` as NoData. -/
structure Usable (m : PyMem) (dem : RdArr) (nd : ℚ) : Prop where
  noData : NoDataIs dem nd
  valid : dem.v.Valid m
  contig : dem.v.contig = true
  wide : 0 < dem.v.w
  high : 0 < dem.v.h

/-- Proportions a call can read: nine layers, C-contiguous, memory that exists, a length that fits `int`, a
geotransform that is not a NumPy array of several numbers, and `nd` as NoData. -/
structure UsableProps (m : PyMem) (props : Rd3) (nd : ℚ) : Prop where
  noData : castT .f32 (overload (props.md.noData.getD (.int (-9999)))) = some nd
  valid : props.v.Valid m
  layers : props.v.d = 9
  contig : props.v.contig = true
  wide : 0 < props.v.w
  high : 0 < props.v.h
  fits : 9 * props.v.w * props.v.h < 2147483648
  geo : props.md.geo = none ∨ ∃ l, props.md.geo = some (.tuple l)

theorem geoTruth_ok {g : Option PyGeo} (hg : g = none ∨ ∃ l, g = some (.tuple l)) : ∃ b, geoTruth g = some b := by
  rcases hg with e | ⟨l, e⟩
  · exact ⟨false, by rw [e]; rfl⟩
  · exact ⟨!l.isEmpty, by rw [e]; rfl⟩

theorem wrap_usable {m : PyMem} {dem : RdArr} {nd : ℚ} (hd : Usable m dem nd) (m' : PyMem) :
    wrap m' dem = .ok m' ⟨dem.v.buf, dem.v.off, dem.v.w, dem.v.h, nd⟩ := by
  unfold wrap
  rw [if_neg hd.noData.1, hd.noData.2]
  simp only [ensure_contig hd.contig]

theorem wrap3_usable {m : PyMem} {props : Rd3} {nd : ℚ} (hp : UsableProps m props nd) (m' : PyMem) :
    wrap3 m' props = .ok m' ⟨props.v.buf, props.v.off, props.v.w, props.v.h, nd⟩ := by
  obtain ⟨b, hb⟩ := geoTruth_ok hp.geo
  unfold wrap3
  rw [if_neg (by have := hp.fits; omega), hp.noData]
  simp only [hb, ensure_contig3 hp.contig]

/-! ### Methods -/

/-- C112: `FlowProportions` and `FlowAccumulation` accept exactly the documented names, and a name stands for the same
metric in both; those marked (E) need an exponent. -/
theorem C112_methods (method : String) (exponent : Option ℚ) :
    chooseMetric fpropTable method exponent = chooseMetric faccTable method exponent ∧
    chooseMetric fpropTable method exponent =
      match Documented method with
      | none => none
      | some (k, false) => some (k, none)
      | some (k, true) => exponent.map fun x => (k, some x) := by
  refine ⟨rfl, ?_⟩
  by_cases hm : method ∈ fpropTable.map Prod.fst
  · simp only [fpropTable, List.map_cons, List.map_nil, List.mem_cons, List.not_mem_nil, or_false] at hm
    rcases hm with rfl | rfl | rfl | rfl | rfl | rfl | rfl | rfl | rfl | rfl | rfl | rfl | rfl <;> rfl
  · have e1 : fpropTable.lookup method = none := by
      rw [List.lookup_eq_none_iff]
      intro p hp
      rw [bne_iff_ne]
      rintro rfl
      exact hm (List.mem_map.2 ⟨p, hp, rfl⟩)
    have e2 : Documented method = none := by
      unfold Documented
      split <;> first | rfl | (exfalso; exact hm (by decide))
    unfold chooseMetric
    rw [e1, e2]

/-! ### `FlowProportions` -/

/-- C112: `FlowProportions` leaves the DEM and every other array alone and returns a new array whose element
`[y, x, n]` is what the metric gives for cell `(x, y)` and number `n`. -/
theorem C112_proportions_partial (impl : Metric → Option ℚ → CProp) (method : String) (exponent : Option ℚ) (line : String)
    (m : PyMem) (hm : m.WF) (dem : RdArr) (nd : ℚ) (hd : Usable m dem nd) (hsz : 9 * dem.v.w * dem.v.h < 2147483648)
    (hg : dem.md.geo = none ∨ ∃ l, dem.md.geo = some (.tuple l)) (k : Metric) (x : Option ℚ)
    (hk : chooseMetric fpropTable method exponent = some (k, x)) (p : Cell → Nat → ℚ)
    (hp : impl k x dem.dt dem.v.w dem.v.h nd (dem.cells m) = some p) :
    ∃ m' props, flowProportions impl method exponent line m dem = .ok m' props ∧
      (∀ b, m.blk b ≠ none → m'.blk b = m.blk b) ∧ m.blk props.v.buf = none ∧ m'.WF ∧
      UsableProps m' props (-2) ∧ props.v.w = dem.v.w ∧ props.v.h = dem.v.h ∧
      props.md = { dem.md with noData := some (.float (-2)), hist := dem.md.hist ++ [line] } ∧
      ∀ c, InGrid dem.v.w dem.v.h c → ∀ n < 9, props.vals m' c n = p c n := by
  set v := m.fresh3 dem.v.h dem.v.w with hv
  set m1 := m.alloc3 dem.v.h dem.v.w with hm1
  have hb : m.blk m.next = none := hm _ le_rfl
  have hne : dem.v.buf ≠ m.next := by
    intro e
    obtain ⟨b, hb', _⟩ := hd.valid
    rw [e, hb] at hb'; cases hb'
  have hblk : m1.blk dem.v.buf = m.blk dem.v.buf := alloc3_other _ _ _ hne
  have hV1 : dem.v.Valid m1 := by
    obtain ⟨b, hb', hr⟩ := hd.valid
    exact ⟨b, by rw [hblk, hb'], hr⟩
  have hcells : dem.v.cells m1 = dem.v.cells m := by
    funext c; simp only [NdView.cells, hblk]
  have hVv : v.Valid m1 := valid_fresh3 m _ _
  have hkv : v.contig = true := contig_fresh3 m _ _
  have hu : UsableProps m1 ⟨v, { dem.md with noData := some (.int (-2)) }⟩ (-2) :=
    ⟨show castT .f32 (overload (.int (-2))) = some (-2) by decide +kernel, hVv, rfl, hkv, hd.wide, hd.high, hsz, hg⟩
  have hrd := read_contig hd.contig hd.wide hd.high hV1 nd
  have hT : flowProportions impl method exponent line m dem =
      .ok ((CArr3.mk v.buf v.off dem.v.w dem.v.h (-2)).write m1 p)
        ⟨v, { dem.md with noData := some (.float (-2)), hist := dem.md.hist ++ [line] }⟩ := by
    unfold flowProportions
    simp only [← hv, ← hm1, wrap3_usable hu m1, hk, wrap_usable hd m1, hrd, Option.bind_some, hcells]
    rw [show impl k x dem.dt dem.v.w dem.v.h nd (dem.v.cells m) = some p from hp]
    rfl
  refine ⟨_, _, hT, ?_, hb, ?_, ?_, rfl, rfl, rfl, ?_⟩
  · intro b hb'
    have : b ≠ m.next := fun e => hb' (e ▸ hb)
    rw [write3_other _ this, hm1, alloc3_other _ _ _ this]
  · intro b hb'
    have h1 : m.next + 1 ≤ b := hb'
    have : b ≠ m.next := by omega
    rw [write3_other _ this, hm1, alloc3_other _ _ _ this]
    exact hm b (by omega)
  · exact ⟨by show castT .f32 (overload (.float (-2))) = some (-2); decide +kernel, valid_write3 hVv _ _, rfl, hkv, hd.wide, hd.high, hsz, hg⟩
  · intro c hc n hn
    exact vals_write3 (v := v) rfl hkv hd.wide hd.high hVv (-2) p hc hn

/-- C112, refuted part: with a DEM of 238 609 295 cells or more (`9*width*height` is `2^31` or more)
`FlowProportions` is undefined behaviour, whatever the DEM and the method; no exception is raised. -/
theorem C112_large_refuted (impl : Metric → Option ℚ → CProp) (method : String) (exponent : Option ℚ) (line : String)
    (m : PyMem) (dem : RdArr) (hsz : 238609295 ≤ dem.v.w * dem.v.h) :
    flowProportions impl method exponent line m dem = .ub := by
  unfold flowProportions
  have : wrap3 (m.alloc3 dem.v.h dem.v.w) ⟨m.fresh3 dem.v.h dem.v.w, { dem.md with noData := some (.int (-2)) }⟩ = .ub := by
    unfold wrap3
    rw [if_pos]
    show 2 ^ 31 ≤ 9 * dem.v.w * dem.v.h
    rw [mul_assoc]; omega
  simp only [this]

/-- C112, refuted part: `FlowProportions` raises for every DEM whose geotransform is a NumPy array, as that of generated
terrain. -/
theorem C112_array_geotransform_refuted (impl : Metric → Option ℚ → CProp) (method : String) (exponent : Option ℚ)
    (line : String) (m : PyMem) (dem : RdArr) (l : List ℚ) (hl : 2 ≤ l.length) (hg : dem.md.geo = some (.array l))
    (hsz : 9 * dem.v.w * dem.v.h < 2147483648) :
    ∃ m', flowProportions impl method exponent line m dem = .raised m' := by
  have : wrap3 (m.alloc3 dem.v.h dem.v.w) ⟨m.fresh3 dem.v.h dem.v.w, { dem.md with noData := some (.int (-2)) }⟩ = .raised := by
    unfold wrap3
    rw [if_neg (by show ¬ 2 ^ 31 ≤ 9 * dem.v.w * dem.v.h; omega)]
    have e : castT .f32 (overload ((some (.int (-2)) : Option PyNum).getD (.int (-9999)))) = some (-2) := by decide +kernel
    have e2 : geoTruth dem.md.geo = none := by
      rw [hg]
      match l, hl with
      | _ :: _ :: _, _ => rfl
    simp only [e, e2]
  refine ⟨m.alloc3 dem.v.h dem.v.w, ?_⟩
  unfold flowProportions
  simp only [this]

/-! ### `FlowAccumFromProps` -/

/-- C112: without weights `FlowAccumFromProps` returns a new array with the accumulation of one unit per cell, and
leaves the proportions and every other array alone. -/
theorem C112_from_props_partial (line : String) (m : PyMem) (hm : m.WF) (props : Rd3) (inPlace : Bool) (nd : ℚ)
    (hp : UsableProps m props nd) (g : Cell → ℚ)
    (hf : accFromProps props.v.w props.v.h nd (props.vals m)
      (fun c => if inGrid props.v.w props.v.h c then 1 else 0) = some g) :
    ∃ (m' : PyMem) (r : RdArr), flowAccumFromProps line m props none inPlace = .ok m' r ∧
      (∀ b, m.blk b ≠ none → m'.blk b = m.blk b) ∧ m.blk r.v.buf = none ∧ r.dt = .f64 ∧
      r.v.w = props.v.w ∧ r.v.h = props.v.h ∧
      r.md = { props.md with noData := some (.float (-1)), hist := props.md.hist ++ [line] } ∧
      ∀ c, InGrid props.v.w props.v.h c → r.cells m' c = g c := by
  set v := m.fresh props.v.h props.v.w with hv
  set m1 := m.alloc props.v.h props.v.w (fun _ => 1) with hm1
  have hkv : v.contig = true := contig_fresh m _ _
  have hVv : v.Valid m1 := valid_fresh m _ _ _
  have hb : m.blk m.next = none := hm _ le_rfl
  have hne : props.v.buf ≠ m.next := by
    intro e
    obtain ⟨b, hb', _⟩ := hp.valid
    rw [e, hb] at hb'; cases hb'
  have hblk : m1.blk props.v.buf = m.blk props.v.buf := alloc_other _ _ _ _ hne
  have hV1 : props.v.Valid m1 := by
    obtain ⟨b, hb', hr⟩ := hp.valid
    exact ⟨b, by rw [hblk, hb'], hr⟩
  have hvals : props.v.vals m1 = props.v.vals m := by
    funext c n; simp only [Nd3.vals, hblk]
  have hrd := read_contig3 hp.layers hp.contig hp.wide hp.high hV1 nd
  have hra : (CArr.mk v.buf v.off props.v.w props.v.h (-1)).read m1 =
      some (fun c => if inGrid props.v.w props.v.h c then 1 else 0) := by
    have := read_contig (v := v) hkv hp.wide hp.high hVv (-1)
    rw [show v.cells m1 = restrict props.v.w props.v.h (fun _ => 1) from cells_fresh _ _ _ _] at this
    exact this
  have hnd1 : castT .f64 (overload (.int (-1))) = some (-1) := by decide +kernel
  have hwr : wrap m1 ⟨v, .f64, { props.md with noData := some (.int (-1)) }⟩ =
      .ok m1 ⟨v.buf, v.off, props.v.w, props.v.h, -1⟩ := by
    unfold wrap
    rw [if_neg (by simp)]
    simp only [Option.getD_some, hnd1, ensure_contig hkv]
    rfl
  have hT : flowAccumFromProps line m props none inPlace =
      .ok ((CArr.mk v.buf v.off props.v.w props.v.h (-1)).write m1 g)
        (copyFromWrapped (addAnalysis ⟨v, .f64, { props.md with noData := some (.int (-1)) }⟩ line)
          ⟨v.buf, v.off, props.v.w, props.v.h, -1⟩) := by
    simp only [flowAccumFromProps, accumArr3, ← hv, ← hm1, hwr, wrap3_usable hp m1]
    rw [if_neg (by simp), if_neg (by simp)]
    simp only [hrd, hra, Option.bind_some, hvals]
    rw [show accFromProps props.v.w props.v.h nd (props.v.vals m)
      (fun c => if inGrid props.v.w props.v.h c then 1 else 0) = some g from hf]
  refine ⟨_, _, hT, ?_, hb, rfl, rfl, rfl, rfl, ?_⟩
  · intro b hb'
    have : b ≠ m.next := fun e => hb' (e ▸ hb)
    rw [write_other _ this, hm1, alloc_other _ _ _ _ this]
  · intro c hc
    have := cells_write (v := v) hkv hp.wide hp.high hVv (-1) g
    have hc' : inGrid v.w v.h c = true := inGrid_iff.2 hc
    show v.cells _ c = g c
    rw [show v.cells ((CArr.mk v.buf v.off props.v.w props.v.h (-1)).write m1 g) = restrict v.w v.h g from this]
    simp only [restrict, hc', if_true]

/-- C112: the accumulation obtained in two steps, `FlowAccumFromProps(FlowProportions(dem, m))`, is that of
`FlowAccumulation(dem, m)`, for every metric that does not draw random numbers. -/
theorem C112_two_steps_partial (impl : Metric → Option ℚ → CProp) (method : String) (exponent : Option ℚ)
    (line line' line'' : String) (m : PyMem) (hm : m.WF) (dem : RdArr) (nd : ℚ) (hd : Usable m dem nd)
    (hsz : 9 * dem.v.w * dem.v.h < 2147483648) (hg : dem.md.geo = none ∨ ∃ l, dem.md.geo = some (.tuple l))
    (k : Metric) (x : Option ℚ) (hk : chooseMetric fpropTable method exponent = some (k, x)) (p : Cell → Nat → ℚ)
    (hp : impl k x dem.dt dem.v.w dem.v.h nd (dem.cells m) = some p) (g : Cell → ℚ)
    (ha : accFromProps dem.v.w dem.v.h (-2) p (fun c => if inGrid dem.v.w dem.v.h c then 1 else 0) = some g) :
    ∃ m1 props m2 r2 m3 r3,
      flowProportions impl method exponent line m dem = .ok m1 props ∧
      flowAccumFromProps line' m1 props none false = .ok m2 r2 ∧
      flowAccumulation (faOf (impl k x)) line'' m dem none false = .ok m3 dem (some r3) ∧
      r2.v.w = r3.v.w ∧ r2.v.h = r3.v.h ∧ r2.dt = r3.dt ∧ r2.md.noData = r3.md.noData ∧
      (∀ c, InGrid dem.v.w dem.v.h c → r2.cells m2 c = r3.cells m3 c) ∧
      (∀ b, m.blk b ≠ none → m2.blk b = m.blk b) := by
  obtain ⟨m1, props, e1, f1, _, w1, u1, ew, eh, emd, hv1⟩ :=
    C112_proportions_partial impl method exponent line m hm dem nd hd hsz hg k x hk p hp
  have ha' : accFromProps props.v.w props.v.h (-2) (props.vals m1)
      (fun c => if inGrid props.v.w props.v.h c then 1 else 0) = some g := by
    rw [ew, eh, accFromProps_congr hv1]; exact ha
  obtain ⟨m2, r2, e2, f2, _, d2, w2, h2, md2, c2⟩ := C112_from_props_partial line' m1 w1 props false (-2) u1 g ha'
  have hf : faOf (impl k x) dem.dt dem.v.w dem.v.h nd (dem.cells m) dem.v.w dem.v.h
      (fun c => if inGrid dem.v.w dem.v.h c then 1 else 0) = some g := by
    unfold faOf
    rw [hp]; exact ha
  obtain ⟨m3, r3, e3, _, _, d3, w3, h3, n3, _, _, _, c3⟩ :=
    C91_accumulation_partial (faOf (impl k x)) line'' m hm dem false nd hd.noData hd.valid hd.contig hd.wide hd.high g hf
  refine ⟨m1, props, m2, r2, m3, r3, e1, e2, e3, by rw [w2, ew, w3], by rw [h2, eh, h3], by rw [d2, d3],
    by rw [md2, n3], ?_, ?_⟩
  · intro c hc
    rw [c2 c (by rw [ew, eh]; exact hc), c3 c hc]
  · intro b hb
    rw [f2 b (by rw [f1 b hb]; exact hb), f1 b hb]

/-- Border cells that send nothing, in terms of the array. -/
theorem accFromProps_some {w h : Nat} {nd : ℚ} {p : Cell → Nat → ℚ} {init : Cell → ℚ}
    (he : ∀ c, OnEdge w h c → ∀ n ∈ List.range' 1 8, p c n ≤ 0) :
    EdgesSilent w h (seenProps w h nd p) ∧
    accFromProps w h nd p init = some (RichDEM.flowAccumulation (fifo Cell) w h (seenProps w h nd p) init) := by
  have hE : EdgesSilent w h (seenProps w h nd p) := by
    intro c hc n hn
    have h1 : 1 ≤ n ∧ n < 9 := by simpa using List.mem_range'_1.1 hn
    simp only [seenProps]
    split
    · rw [if_neg (by omega)]; exact he c hc n hn
    · exact le_rfl
  refine ⟨hE, ?_⟩
  unfold accFromProps
  rw [if_pos]
  rw [List.all_eq_true]
  intro c hc
  have hg := mem_allCells.1 hc
  by_cases hce : isEdgeCell w h c = true
  · rw [hce]
    simp only [Bool.not_true, Bool.false_or, List.all_eq_true, decide_eq_true_eq]
    exact fun n hn => hE c ((isEdgeCell_iff hg).1 hce) n hn
  · simp [hce]

/-- C112: what `FlowAccumFromProps` computes, for any proportions whose border cells send nothing: NoData cells (number
0 is the NoData value) get -1; every other cell not on or below a cycle gets one plus the proportions of the
accumulations of the cells that send to it. -/
theorem C112_upstream_partial (line : String) (m : PyMem) (hm : m.WF) (props : Rd3) (inPlace : Bool) (nd : ℚ)
    (hp : UsableProps m props nd)
    (he : ∀ c, OnEdge props.v.w props.v.h c → ∀ n ∈ List.range' 1 8, props.vals m c n ≤ 0) :
    ∃ (m' : PyMem) (r : RdArr), flowAccumFromProps line m props none inPlace = .ok m' r ∧
      ∀ c, InGrid props.v.w props.v.h c →
        (props.vals m c 0 = nd → r.cells m' c = -1) ∧
        (props.vals m c 0 ≠ nd → NoCycleAbove (FlowEdge props.v.w props.v.h (seenProps props.v.w props.v.h nd (props.vals m))) c →
          r.cells m' c = 1 + ((allCells props.v.w props.v.h).map (fun q => ((List.range' 1 8).map (fun n =>
            if props.vals m q 0 ≠ nd ∧ 0 < props.vals m q n ∧ nbr .D8 q n = c
            then props.vals m q n * r.cells m' q else 0)).sum)).sum) := by
  obtain ⟨hE, hf⟩ := accFromProps_some (nd := nd)
    (init := fun c => if inGrid props.v.w props.v.h c then 1 else 0) he
  obtain ⟨m', r, e, _, _, _, _, _, _, hc⟩ := C112_from_props_partial line m hm props inPlace nd hp _ hf
  set w := props.v.w
  set h := props.v.h
  set s := seenProps w h nd (props.vals m) with hs
  have hs0 : ∀ c, InGrid w h c → (s c 0 = -2 ↔ props.vals m c 0 = nd) := by
    intro c hcg
    simp only [hs, seenProps]
    rw [if_pos ⟨inGrid_iff.2 hcg, by omega⟩, if_pos trivial]
    by_cases h1 : props.vals m c 0 = nd
    · simp [h1]
    · rw [if_neg h1]
      by_cases h2 : props.vals m c 0 = -2
      · rw [if_pos h2]; simp only [h1, iff_false]; norm_num
      · rw [if_neg h2]; simp [h1, h2]
  have hsn : ∀ c, InGrid w h c → ∀ n ∈ List.range' 1 8, s c n = props.vals m c n := by
    intro c hcg n hn
    have h1 : 1 ≤ n ∧ n < 9 := by simpa using List.mem_range'_1.1 hn
    simp only [hs, seenProps]
    rw [if_pos ⟨inGrid_iff.2 hcg, h1.2⟩, if_neg (by omega)]
  refine ⟨m', r, e, fun c hcg => ⟨fun h0 => ?_, fun h0 hac => ?_⟩⟩
  · rw [hc c hcg]
    exact C20_noData _ _ _ _ _ _ ((hs0 c hcg).2 h0)
  · rw [hc c hcg, C20_upstream_sum (fifo Cell) w h s _ hE c ⟨hcg, fun e2 => h0 ((hs0 c hcg).1 e2)⟩ hac]
    rw [if_pos (inGrid_iff.2 hcg)]
    congr 1
    unfold inflow
    congr 1
    apply List.map_congr_left
    intro q hq
    have hqg := mem_allCells.1 hq
    congr 1
    apply List.map_congr_left
    intro n hn
    rw [hsn q hqg n hn, hc q hqg]
    exact if_congr (and_congr_left' (not_congr (hs0 q hqg))) rfl rfl

/-- The D8 metric of `C17` as Python calls it; `mx` is the largest value of the element type. -/
def ocProp (mx : ℚ) : CProp := fun _ w h nd z => some fun c n => ((fmOCallaghan w h .D8 z nd mx c).slot n : ℚ)

theorem slot_pos_iff (f : Props1) (n : Nat) (hn : n ≠ 0) : 0 < ((f.slot n : Int) : ℚ) ↔ f = .flow n := by
  rw [Int.cast_pos]
  cases f with
  | noData => obtain ⟨k, rfl⟩ := Nat.exists_eq_succ_of_ne_zero hn; simp [Props1.slot]
  | noFlow => simp [Props1.slot]
  | flow m =>
    simp only [Props1.slot, Props1.flow.injEq]
    by_cases e : n = m
    · simp [e]
    · simp [e, hn, Ne.symm e]

theorem slot_zero_iff (f : Props1) (hf : f ≠ .flow 0) : ((f.slot 0 : Int) : ℚ) = -2 ↔ f = .noData := by
  cases f with
  | noData => simp [Props1.slot]
  | noFlow => simp [Props1.slot]
  | flow m =>
    have : (0 : Nat) ≠ m := fun e => hf (e ▸ rfl)
    simp [Props1.slot, this]

/-- C112: with the D8 metric the two steps always work, and give NoData cells -1 and every other cell one plus the
sum of what the cells hold that send their flow to it, each to its lowest lower neighbour (`C17_metric`). -/
theorem C112_d8_partial (impl : Metric → Option ℚ → CProp) (mx : ℚ) (himpl : impl (.ocallaghan .D8) none = ocProp mx)
    (exponent : Option ℚ) (line line' : String) (m : PyMem) (hm : m.WF) (dem : RdArr) (nd : ℚ) (hd : Usable m dem nd)
    (hsz : 9 * dem.v.w * dem.v.h < 2147483648) (hg : dem.md.geo = none ∨ ∃ l, dem.md.geo = some (.tuple l))
    (hmx : ∀ c, dem.cells m c ≤ mx) :
    ∃ m1 props m2 r,
      flowProportions impl "D8" exponent line m dem = .ok m1 props ∧
      flowAccumFromProps line' m1 props none false = .ok m2 r ∧
      ∀ c, InGrid dem.v.w dem.v.h c →
        (dem.cells m c = nd → r.cells m2 c = -1) ∧
        (dem.cells m c ≠ nd → r.cells m2 c =
          1 + ((allCells dem.v.w dem.v.h).map (fun q => ((List.range' 1 8).map (fun n =>
            if fmOCallaghan dem.v.w dem.v.h .D8 (dem.cells m) nd mx q = .flow n ∧ nbr .D8 q n = c
            then r.cells m2 q else 0)).sum)).sum) := by
  set w := dem.v.w with hw
  set h := dem.v.h with hh
  set z := dem.cells m with hz
  have hk : chooseMetric fpropTable "D8" exponent = some (.ocallaghan .D8, none) := by
    rw [(C112_methods _ _).2]; rfl
  obtain ⟨m1, props, e1, _, _, w1, u1, ew, eh, _, hv1⟩ :=
    C112_proportions_partial impl "D8" exponent line m hm dem nd hd hsz hg _ _ hk
      (fun c n => ((fmOCallaghan w h .D8 z nd mx c).slot n : ℚ)) (by rw [himpl]; rfl)
  rw [← hw] at ew; rw [← hh] at eh
  rw [← hw, ← hh] at hv1
  have hM : ∀ c, InGrid w h c → _ := fun c hc => C17_metric w h .D8 z nd mx c (hmx c) hc
  have hf0 : ∀ c, InGrid w h c → fmOCallaghan w h .D8 z nd mx c ≠ .flow 0 := by
    intro c hc e
    obtain ⟨a1, a2, a3⟩ := hM c hc
    have hnd : z c ≠ nd := fun e2 => by rw [a1.2 e2] at e; cases e
    by_cases he : OnEdge w h c
    · rw [a2 he hnd] at e; cases e
    · have := ((a3 he hnd).2 0 e).1; omega
  have hv0 : ∀ c, InGrid w h c → (props.vals m1 c 0 = -2 ↔ z c = nd) := by
    intro c hc
    rw [hv1 c hc 0 (by omega), slot_zero_iff _ (hf0 c hc), (hM c hc).1]
  have hvn : ∀ c, InGrid w h c → ∀ n ∈ List.range' 1 8,
      (0 < props.vals m1 c n ↔ fmOCallaghan w h .D8 z nd mx c = .flow n) := by
    intro c hc n hn
    have h1 : 1 ≤ n ∧ n < 9 := by simpa using List.mem_range'_1.1 hn
    rw [hv1 c hc n h1.2, slot_pos_iff _ _ (by omega)]
  have hedge : ∀ c, OnEdge props.v.w props.v.h c → ∀ n ∈ List.range' 1 8, props.vals m1 c n ≤ 0 := by
    rw [ew, eh]
    intro c hc n hn
    have hcg : InGrid w h c := hc.1
    rw [← not_lt, hvn c hcg n hn]
    intro e
    obtain ⟨a1, a2, _⟩ := hM c hcg
    have hnd : z c ≠ nd := fun e2 => by rw [a1.2 e2] at e; cases e
    rw [a2 hc hnd] at e; cases e
  obtain ⟨m2, r, e2, hr⟩ := C112_upstream_partial line' m1 w1 props false (-2) u1 hedge
  rw [ew, eh] at hr
  refine ⟨m1, props, m2, r, e1, e2, fun c hc => ⟨fun h0 => (hr c hc).1 ((hv0 c hc).2 h0), fun h0 => ?_⟩⟩
  have hdown : ∀ a b, FlowEdge w h (seenProps w h (-2) (props.vals m1)) a b → z b < z a := by
    rintro a b ⟨ha, _, n, hn, hpos, rfl⟩
    have h1 : 1 ≤ n ∧ n < 9 := by simpa using List.mem_range'_1.1 hn
    simp only [seenProps] at hpos
    rw [if_pos ⟨inGrid_iff.2 ha.1, h1.2⟩, if_neg (by omega), hv1 a ha.1 n h1.2, Int.cast_pos] at hpos
    exact (C17_d8_consistent w h z nd mx a (hmx a) ha.1 n hpos).2.2.1
  have htrans : ∀ a b, Relation.TransGen (FlowEdge w h (seenProps w h (-2) (props.vals m1))) a b → z b < z a := by
    intro a b hab
    induction hab with
    | single h1 => exact hdown _ _ h1
    | tail _ h1 ih => exact lt_trans (hdown _ _ h1) ih
  rw [(hr c hc).2 (fun e => h0 ((hv0 c hc).1 e)) (fun a _ hcyc => lt_irrefl _ (htrans a a hcyc))]
  congr 2
  apply List.map_congr_left
  intro q hq
  have hqg := mem_allCells.1 hq
  congr 1
  apply List.map_congr_left
  intro n hn
  have h1 : 1 ≤ n ∧ n < 9 := by simpa using List.mem_range'_1.1 hn
  by_cases hfl : fmOCallaghan w h .D8 z nd mx q = .flow n ∧ nbr .D8 q n = c
  · have hq0 : ¬ props.vals m1 q 0 = -2 := by
      rw [hv0 q hqg]
      intro e
      rw [(hM q hqg).1.2 e] at hfl; cases hfl.1
    rw [if_pos hfl, if_pos ⟨hq0, (hvn q hqg n hn).2 hfl.1, hfl.2⟩, hv1 q hqg n h1.2, hfl.1]
    simp [Props1.slot]
  · rw [if_neg hfl, if_neg]
    rintro ⟨_, h2, h3⟩
    exact hfl ⟨(hvn q hqg n hn).1 h2, h3⟩

/-- C112, refuted part: proportions that are not C-contiguous (a slice, a transposed array) make
`FlowAccumFromProps` undefined behaviour, not an exception. -/
theorem C112_view_refuted (line : String) (m : PyMem) (props : Rd3) (inPlace : Bool) (nd : ℚ)
    (hnd : castT .f32 (overload (props.md.noData.getD (.int (-9999)))) = some nd)
    (hg : props.md.geo = none ∨ ∃ l, props.md.geo = some (.tuple l)) (hk : props.v.contig = false) :
    flowAccumFromProps line m props none inPlace = .ub := by
  set v := m.fresh props.v.h props.v.w with hv
  set m1 := m.alloc props.v.h props.v.w (fun _ => 1) with hm1
  have hkv : v.contig = true := contig_fresh m _ _
  have hnd1 : castT .f64 (overload (.int (-1))) = some (-1) := by decide +kernel
  have hwr : wrap m1 ⟨v, .f64, { props.md with noData := some (.int (-1)) }⟩ =
      .ok m1 ⟨v.buf, v.off, props.v.w, props.v.h, -1⟩ := by
    unfold wrap
    rw [if_neg (by simp)]
    simp only [Option.getD_some, hnd1, ensure_contig hkv]
    rfl
  obtain ⟨t, ht⟩ := geoTruth_ok hg
  simp only [flowAccumFromProps, accumArr3, ← hv, ← hm1, hwr]
  rw [if_neg (by simp)]
  by_cases hsz : 2 ^ 31 ≤ 9 * props.v.w * props.v.h
  · simp only [wrap3, if_pos hsz]
  · simp only [wrap3, if_neg hsz, hnd, ht]
    rw [if_neg (by simp)]
    simp only [read_dangling3 hk, Option.bind_none]

/-- C112, refuted part: an array with fewer than nine layers that fills its memory is read beyond its end; the number
of layers is never looked at. -/
theorem C112_layers_refuted (line : String) (m : PyMem) (hm : m.WF) (props : Rd3) (inPlace : Bool) (nd : ℚ)
    (hnd : castT .f32 (overload (props.md.noData.getD (.int (-9999)))) = some nd)
    (hg : props.md.geo = none ∨ ∃ l, props.md.geo = some (.tuple l)) (hk : props.v.contig = true) (hd : props.v.d < 9)
    (hw : 0 < props.v.w) (hh : 0 < props.v.h) (b : PyBlk) (hb : m.blk props.v.buf = some b)
    (hl : b.len = props.v.d * (props.v.w * props.v.h)) (ho : props.v.off = 0) :
    flowAccumFromProps line m props none inPlace = .ub := by
  set v := m.fresh props.v.h props.v.w with hv
  set m1 := m.alloc props.v.h props.v.w (fun _ => 1) with hm1
  have hkv : v.contig = true := contig_fresh m _ _
  have hnd1 : castT .f64 (overload (.int (-1))) = some (-1) := by decide +kernel
  have hwr : wrap m1 ⟨v, .f64, { props.md with noData := some (.int (-1)) }⟩ =
      .ok m1 ⟨v.buf, v.off, props.v.w, props.v.h, -1⟩ := by
    unfold wrap
    rw [if_neg (by simp)]
    simp only [Option.getD_some, hnd1, ensure_contig hkv]
    rfl
  obtain ⟨t, ht⟩ := geoTruth_ok hg
  have hne : props.v.buf ≠ m.next := by
    intro e
    rw [e, hm _ le_rfl] at hb; cases hb
  have hblk : m1.blk props.v.buf = some b := by rw [hm1, alloc_other _ _ _ _ hne, hb]
  simp only [flowAccumFromProps, accumArr3, ← hv, ← hm1, hwr]
  rw [if_neg (by simp)]
  by_cases hsz : 2 ^ 31 ≤ 9 * props.v.w * props.v.h
  · simp only [wrap3, if_pos hsz]
  · simp only [wrap3, if_neg hsz, hnd, ht, ensure_contig3 hk]
    rw [if_neg (by simp)]
    have hr : (CArr3.mk props.v.buf props.v.off props.v.w props.v.h nd).read m1 = none := by
      simp only [CArr3.read, hblk]
      rw [if_neg]
      rw [hl, ho]
      have hpos : 0 < props.v.w * props.v.h := Nat.mul_pos hw hh
      have := Nat.mul_lt_mul_of_pos_right hd hpos
      omega
    simp only [hr, Option.bind_none]

/-- C112, refuted part: the caller's weights are overwritten although `in_place=False`, and the returned array is a
view of them. -/
theorem C112_weights_refuted (line : String) (m : PyMem) (props : Rd3) (wt : RdArr) (inPlace : Bool) (nd : ℚ)
    (hp : UsableProps m props nd) (hVw : wt.v.Valid m) (hkw : wt.v.contig = true) (hdt : wt.dt = .f64)
    (hw : wt.v.w = props.v.w) (hh : wt.v.h = props.v.h) (g : Cell → ℚ)
    (hf : accFromProps props.v.w props.v.h nd (props.vals m) (wt.cells m) = some g) :
    ∃ (m' : PyMem) (r : RdArr), flowAccumFromProps line m props (some wt) inPlace = .ok m' r ∧
      r.v = wt.v ∧ ∀ c, InGrid props.v.w props.v.h c → wt.cells m' c = g c := by
  have hra := read_contig hkw (hw ▸ hp.wide) (hh ▸ hp.high) hVw (-1)
  have hrd := read_contig3 hp.layers hp.contig hp.wide hp.high hp.valid nd
  set acc := (accumArr3 m props (some wt) inPlace).2 with hacc
  have hav : acc.v = wt.v := by rw [hacc]; cases inPlace <;> rfl
  have hat : acc.dt = .f64 := by rw [hacc]; cases inPlace <;> exact hdt
  have han : acc.md.noData = some (.int (-1)) := by rw [hacc]; cases inPlace <;> rfl
  have ham : (accumArr3 m props (some wt) inPlace).1 = m := by cases inPlace <;> rfl
  have hnd1 : castT .f64 (overload (.int (-1))) = some (-1) := by decide +kernel
  have hwr : wrap m acc = .ok m ⟨wt.v.buf, wt.v.off, wt.v.w, wt.v.h, -1⟩ := by
    unfold wrap
    rw [if_neg (by rw [hat]; decide), han, hat]
    simp only [Option.getD_some, hnd1, hav, ensure_contig hkw]
  have hT : flowAccumFromProps line m props (some wt) inPlace =
      .ok ((CArr.mk wt.v.buf wt.v.off wt.v.w wt.v.h (-1)).write m g)
        (copyFromWrapped (addAnalysis acc line) ⟨wt.v.buf, wt.v.off, wt.v.w, wt.v.h, -1⟩) := by
    simp only [flowAccumFromProps, ← hacc, ham, hwr, wrap3_usable hp m]
    rw [if_neg (by rw [hat]; simp), if_neg (by rw [hw, hh]; simp)]
    simp only [hrd, hra, Option.bind_some]
    rw [show accFromProps props.v.w props.v.h nd (props.v.vals m) (wt.v.cells m) = some g from hf]
  refine ⟨_, _, hT, hav, fun c hc => ?_⟩
  have := cells_write (v := wt.v) hkw (hw ▸ hp.wide) (hh ▸ hp.high) hVw (-1) g
  show wt.v.cells _ c = g c
  rw [show wt.v.cells ((CArr.mk wt.v.buf wt.v.off wt.v.w wt.v.h (-1)).write m g) = restrict wt.v.w wt.v.h g from this]
  have hc' : inGrid wt.v.w wt.v.h c = true := by rw [hw, hh]; exact inGrid_iff.2 hc
  simp only [restrict, hc', if_true]

/-! ### Concrete arrays -/

/-- A metric that sends the flow of interior cells east. -/
def eastMetric : Metric → Option ℚ → CProp := fun _ _ _ w h nd z =>
  some fun c n => if z c = nd then -2 else if n = 0 then 0 else if isEdgeCell w h c then -1 else if n = 5 then 1 else -1

/-- A 4×3 DEM with a NoData corner. -/
def demEx : RdArr × PyMem :=
  (⟨⟨0, 0, 3, 4, 4, 1⟩, .f32, ⟨some (.int (-9999)), some (.tuple [0, 1, 0, 0, 0, -1]), "p", ["made"]⟩⟩,
   ⟨fun b => if b = 0 then some ⟨12, fun i => if i = 0 then -9999 else 5⟩ else none, 1⟩)

/-- The rows of the accumulation in two steps. -/
def twoSteps (method : String) (exponent : Option ℚ) : Option (List (List ℚ) × List String) :=
  match flowProportions eastMetric method exponent "fp" demEx.2 demEx.1 with
  | .ok m1 props =>
    match flowAccumFromProps "fa" m1 props none false with
    | .ok m2 r => some (toRows r.v.w r.v.h (r.cells m2), r.md.hist)
    | _ => none
  | _ => none

/-- The hypotheses of `C112_two_steps_partial` hold for the DEM, and both ways give the same. -/
example : Usable demEx.2 demEx.1 (-9999) ∧ chooseMetric fpropTable "D8" none = some (.ocallaghan .D8, none) ∧
    twoSteps "D8" none = some ([[-1, 1, 1, 1], [1, 1, 2, 3], [1, 1, 1, 1]], ["made", "fp", "fa"]) ∧
    (match flowAccumulation (faOf (eastMetric (.ocallaghan .D8) none)) "acc" demEx.2 demEx.1 none false with
     | .ok m' _ (some r) => some (toRows 4 3 (r.cells m'))
     | _ => none) = some [[-1, 1, 1, 1], [1, 1, 2, 3], [1, 1, 1, 1]] ∧
    twoSteps "Holmgren" none = none ∧ twoSteps "OCallaghan" none = none := by
  refine ⟨⟨⟨by decide, by decide +kernel⟩, ⟨_, rfl, ?_⟩, by decide, by decide, by decide⟩, by decide, by decide +kernel,
    by decide +kernel, by decide +kernel, by decide +kernel⟩
  rintro ⟨x, y⟩ ⟨h1, h2, h3, h4⟩
  simp only [NdView.addr, demEx] at h1 h2 h3 h4 ⊢
  omega

/-- A 4×3 DEM falling to the east, and its D8 accumulation in two steps as `C112_d8_partial` says. -/
def slopeEx : RdArr × PyMem :=
  (⟨⟨0, 0, 3, 4, 4, 1⟩, .f32, ⟨some (.int (-9999)), none, "", []⟩⟩,
   ⟨fun b => if b = 0 then some ⟨12, fun i => if i = 0 then -9999 else ((4 - i % 4 : Nat) : ℚ) + (i / 4 : Nat)⟩ else none, 1⟩)

example : NoDataIs slopeEx.1 (-9999) ∧ slopeEx.1.v.contig = true ∧ 9 * slopeEx.1.v.w * slopeEx.1.v.h < 2147483648 ∧
    (match flowProportions (fun _ _ => ocProp 1000) "D8" none "fp" slopeEx.2 slopeEx.1 with
     | .ok m1 props =>
       match flowAccumFromProps "fa" m1 props none false with
       | .ok m2 r => some (toRows r.v.w r.v.h (r.cells m2))
       | _ => none
     | _ => none) = some [[-1, 1, 2, 2], [1, 1, 1, 1], [1, 1, 1, 1]] := by
  refine ⟨⟨by decide, by decide +kernel⟩, by decide, by decide, by decide +kernel⟩

end RichDEM.Py
