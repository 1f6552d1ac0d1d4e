/-
Property theorems C91: what a call from Python does to the caller's arrays.
-/
import Verif.Py.Thm
import Verif.Py.Fill
import Verif.Py.Rounding
import Verif.Props.Breach
import Verif.Props.Flood3

namespace RichDEM.Py

/-- `setNoData` of the array's `no_data` is defined and gives `nd` in C++. -/
def NoDataIs (a : RdArr) (nd : ℚ) : Prop :=
  a.dt ≠ .other ∧ castT a.dt (overload (a.md.noData.getD (.int (-9999)))) = some nd

/-- The array object after a call: same memory and type, one more line of history, `no_data` as C++ saw it. -/
def annotated (a : RdArr) (line : String) (nd : ℚ) : RdArr :=
  { a with md := { a.md with noData := some (noDataOf a.dt nd), hist := a.md.hist ++ [line] } }

/-- C91: a call with `in_place=False` returns a new array holding the C++ function's result for the cells of
the DEM, whatever strides the DEM has, and touches none of the memory that was in use and nothing of the
caller's array object. -/
theorem C91_not_in_place (f : CFun) (line : String) (m : PyMem) (hm : m.WF) (dem : RdArr) (nd : ℚ)
    (hn : NoDataIs dem nd) (hw : 0 < dem.v.w) (hh : 0 < dem.v.h) (g : Cell → ℚ)
    (hf : f dem.dt dem.v.w dem.v.h nd (dem.cells m) = some g) :
    ∃ (m' : PyMem) (r : RdArr), transform f line false m dem = .ok m' dem (some r) ∧
      (∀ b, m.blk b ≠ none → m'.blk b = m.blk b) ∧
      r.v.w = dem.v.w ∧ r.v.h = dem.v.h ∧ r.dt = dem.dt ∧ r.v.Valid m' ∧ m.blk r.v.buf = none ∧ r.v.contig = true ∧
      r.md = (annotated dem line nd).md ∧ ∀ c, InGrid dem.v.w dem.v.h c → r.cells m' c = g c := by
  set v := m.fresh dem.v.h dem.v.w with hv
  set m1 := m.alloc dem.v.h dem.v.w (dem.v.cells m) with hm1
  have hk : v.contig = true := contig_fresh m _ _
  have hV : v.Valid m1 := valid_fresh m _ _ _
  have hrd : (CArr.mk v.buf v.off dem.v.w dem.v.h nd).read m1 = some (dem.v.cells m) := by
    have := read_contig (v := v) hk hw hh hV nd
    rw [show v.cells m1 = dem.v.cells m from by rw [hv, hm1, cells_fresh, restrict_cells]] at this
    exact this
  have hb : m.blk m.next = none := hm _ le_rfl
  have hT : transform f line false m dem =
      .ok ((CArr.mk v.buf v.off dem.v.w dem.v.h nd).write m1 g) dem
        (some { annotated dem line nd with v := v }) := by
    have hwr : wrap m1 (addAnalysis { dem with v := v } line) =
        .ok m1 ⟨v.buf, v.off, dem.v.w, dem.v.h, nd⟩ := by
      unfold wrap addAnalysis
      dsimp only
      rw [if_neg hn.1, hn.2]
      simp only [ensure_contig hk]
      rfl
    simp only [transform, pyCopy, ← hv, ← hm1, hwr, hrd, Bool.false_eq_true, if_false]
    simp only [Option.bind_some, addAnalysis]
    rw [show f dem.dt dem.v.w dem.v.h nd (dem.v.cells m) = some g from hf]
    rfl
  refine ⟨_, _, hT, ?_, rfl, rfl, rfl, ?_, hb, hk, rfl, ?_⟩
  · intro b hne
    have : b ≠ m.next := fun e => hne (e ▸ hb)
    rw [write_other _ this, hm1, alloc_other _ _ _ _ this]
  · obtain ⟨b, h1, h2⟩ := hV
    exact ⟨_, write_blk _ h1 g, h2⟩
  · intro c hc
    have := cells_write (v := v) hk hw hh hV nd g
    have hc' : inGrid v.w v.h c = true := inGrid_iff.2 hc
    show v.cells _ c = g c
    rw [show v.cells ((CArr.mk v.buf v.off dem.v.w dem.v.h nd).write m1 g) = restrict v.w v.h g from this]
    simp only [restrict, hc', if_true]

/-- C91: a call with `in_place=True` on a C-contiguous array stores the result in the array itself, changes no
other memory (in the array's own block, only its elements), and returns nothing. -/
theorem C91_in_place_partial (f : CFun) (line : String) (m : PyMem) (dem : RdArr) (nd : ℚ)
    (hn : NoDataIs dem nd) (hV : dem.v.Valid m) (hk : dem.v.contig = true) (hw : 0 < dem.v.w) (hh : 0 < dem.v.h)
    (g : Cell → ℚ) (hf : f dem.dt dem.v.w dem.v.h nd (dem.cells m) = some g) :
    ∃ m' : PyMem, transform f line true m dem = .ok m' (annotated dem line nd) none ∧
      (∀ b, b ≠ dem.v.buf → m'.blk b = m.blk b) ∧
      (∃ b b', m.blk dem.v.buf = some b ∧ m'.blk dem.v.buf = some b' ∧ b'.len = b.len ∧
        ∀ i : Nat, (∀ c, InGrid dem.v.w dem.v.h c → dem.v.addr c ≠ i) → b'.val i = b.val i) ∧
      ∀ c, InGrid dem.v.w dem.v.h c → (annotated dem line nd).cells m' c = g c := by
  have hrd := read_contig hk hw hh hV nd
  have hT : transform f line true m dem =
      .ok ((CArr.mk dem.v.buf dem.v.off dem.v.w dem.v.h nd).write m g) (annotated dem line nd) none := by
    have hwr : wrap m (addAnalysis dem line) = .ok m ⟨dem.v.buf, dem.v.off, dem.v.w, dem.v.h, nd⟩ := by
      unfold wrap addAnalysis
      dsimp only
      rw [if_neg hn.1, hn.2]
      simp only [ensure_contig hk]
    simp only [transform, if_true, hwr, hrd]
    simp only [Option.bind_some, addAnalysis]
    rw [show f dem.dt dem.v.w dem.v.h nd (dem.v.cells m) = some g from hf]
    rfl
  refine ⟨_, hT, fun b hb => write_other _ hb, ?_, ?_⟩
  · obtain ⟨b, h1, _⟩ := id hV
    refine ⟨b, _, h1, write_blk _ h1 g, rfl, ?_⟩
    · intro i hi
      have hr := contig_range hk hw hh h1 hV
      show (if dem.v.off ≤ i ∧ (i : Int) < dem.v.off + (dem.v.w * dem.v.h : Nat) then _ else b.val i) = b.val i
      rw [if_neg]
      rintro ⟨ha, hb⟩
      set j := ((i : Int) - dem.v.off).toNat with hj
      have hjl : j < dem.v.w * dem.v.h := by omega
      have hc := iToxy_inGrid hjl
      refine hi _ hc ?_
      rw [contig_addr hk hc, xyToI_iToxy]
      omega
  · intro c hc
    have := cells_write hk hw hh hV nd g
    show dem.v.cells _ c = g c
    rw [this]
    simp only [restrict, inGrid_iff.2 hc, if_true]

/-- C91, refuted part: `in_place=True` on an array that is not C-contiguous (a slice, a transposed or a
Fortran-ordered array) is always undefined behaviour: C++ works on a copy that was already freed. -/
theorem C91_in_place_view_refuted (f : CFun) (line : String) (m : PyMem) (dem : RdArr) (nd : ℚ)
    (hn : NoDataIs dem nd) (hk : dem.v.contig = false) : transform f line true m dem = .ub := by
  have hwr : wrap m (addAnalysis dem line) =
      .ok (ensurePtr m dem.v).1 ⟨(ensurePtr m dem.v).2.1, (ensurePtr m dem.v).2.2, dem.v.w, dem.v.h, nd⟩ := by
    unfold wrap addAnalysis
    dsimp only
    rw [if_neg hn.1, hn.2]
  simp only [transform, if_true, hwr, read_dangling hk, Option.bind_none]

/-- C91, refuted part: filling an empty array is undefined behaviour: the C++ code visits the cells of its border. -/
theorem C91_fill_empty_refuted (pq : PQ (ℚ × Cell) zLt) (next : Dtype → ℚ → ℚ) (eps inPlace : Bool) (t : Topo)
    (m : PyMem) (dem : RdArr) (nd : ℚ) (hn : NoDataIs dem nd) (h0 : dem.v.w = 0 ∨ dem.v.h = 0) :
    fillDepressions pq next eps inPlace (some t) m dem = .ub := by
  have key : ∀ (m : PyMem) (d : RdArr) (line : String), d.dt = dem.dt → d.md.noData = dem.md.noData → d.v.w = dem.v.w →
      d.v.h = dem.v.h → ∃ m2 a, wrap m (addAnalysis d line) = .ok m2 a ∧ a.w = dem.v.w ∧ a.h = dem.v.h := by
    intro m d line h1 h2 h3 h4
    unfold wrap addAnalysis
    dsimp only
    rw [h1, h2, if_neg hn.1, hn.2]
    exact ⟨_, _, rfl, h3, h4⟩
  have hf : ∀ (a : CArr) (o : Option (Cell → ℚ)) (d : Dtype), a.w = dem.v.w → a.h = dem.v.h →
      o.bind (fillFun pq next eps t d a.w a.h a.nd) = none := by
    intro a o d h1 h2
    cases o with
    | none => rfl
    | some g => rw [Option.bind_some, h1, h2]; unfold fillFun; rw [if_pos h0]
  unfold fillDepressions
  dsimp only
  unfold transform
  cases inPlace with
  | true =>
    obtain ⟨m2, a, e, h1, h2⟩ := key m dem
      (if eps then "FillDepressions(dem, epsilon=True)" else "FillDepressions(dem, epsilon=False)") rfl rfl rfl rfl
    simp only [if_true, e, hf a _ _ h1 h2]
  | false =>
    obtain ⟨m2, a, e, h1, h2⟩ := key (pyCopy m dem).1 (pyCopy m dem).2
      (if eps then "FillDepressions(dem, epsilon=True)" else "FillDepressions(dem, epsilon=False)") rfl rfl rfl rfl
    simp only [Bool.false_eq_true, if_false, e, hf a _ _ h1 h2]

/-- C91: an unsupported element type or topology raises without touching any cell of any array in use. -/
theorem C91_raises (pq : PQ (ℚ × Cell) zLt) (next : Dtype → ℚ → ℚ) (eps inPlace : Bool) (topology : Option Topo)
    (m : PyMem) (hm : m.WF) (dem : RdArr) (hbad : topology = none ∨ dem.dt = .other) :
    ∃ (m' : PyMem) (d : RdArr), fillDepressions pq next eps inPlace topology m dem = .raised m' d ∧
      (∀ b, m.blk b ≠ none → m'.blk b = m.blk b) ∧ d.v = dem.v ∧ d.dt = dem.dt ∧
      (topology = none ∨ inPlace = false → d = dem) := by
  cases topology with
  | none => exact ⟨m, dem, rfl, fun _ _ => rfl, rfl, rfl, fun _ => rfl⟩
  | some t =>
    have hd : dem.dt = .other := by rcases hbad with h | h; · exact absurd h (by simp)
                                    · exact h
    have hb : m.blk m.next = none := hm _ le_rfl
    cases inPlace with
    | true =>
      refine ⟨m, addAnalysis dem
        (if eps then "FillDepressions(dem, epsilon=True)" else "FillDepressions(dem, epsilon=False)"),
        ?_, fun _ _ => rfl, rfl, rfl, by simp⟩
      simp only [fillDepressions, transform, if_true, wrap, addAnalysis, hd]
    | false =>
      refine ⟨m.alloc dem.v.h dem.v.w (dem.v.cells m), dem, ?_, ?_, rfl, rfl, fun _ => rfl⟩
      · simp only [fillDepressions, transform, Bool.false_eq_true, if_false, wrap, pyCopy, addAnalysis, hd, if_true]
      · intro b hne
        exact alloc_other _ _ _ _ (fun e => hne (e ▸ hb))

/-- C91: `FillDepressions(dem)` from Python — for every DEM array, contiguous or not — returns a new array that
is the depression-filled DEM for the topology asked for, and leaves the DEM as it was. -/
theorem C91_fill_not_in_place (pq : PQ (ℚ × Cell) zLt) (next : Dtype → ℚ → ℚ) (t : Topo) (m : PyMem) (hm : m.WF)
    (dem : RdArr) (nd : ℚ) (hV : dem.v.Valid m) (hn : NoDataIs dem nd) (hw : 0 < dem.v.w) (hh : 0 < dem.v.h) :
    ∃ (m' : PyMem) (r : RdArr), fillDepressions pq next false false (some t) m dem = .ok m' dem (some r) ∧
      r.v.w = dem.v.w ∧ r.v.h = dem.v.h ∧ dem.cells m' = dem.cells m ∧
      IsFilled dem.v.w dem.v.h t (dem.cells m) (r.cells m') := by
  have hf : fillFun pq next false t dem.dt dem.v.w dem.v.h nd (dem.cells m) =
      some (fillDepressionsTopo pq t dem.v.w dem.v.h (dem.cells m)) := by
    simp only [fillFun, Bool.false_eq_true, if_false]
    rw [if_neg (by omega)]
  obtain ⟨m', r, h1, h2, h3, h4, _, _, _, _, _, h10⟩ := C91_not_in_place (fillFun pq next false t)
    "FillDepressions(dem, epsilon=False)" m hm dem nd hn hw hh _ hf
  refine ⟨m', r, h1, h3, h4, ?_, ?_⟩
  · obtain ⟨b, hb, _⟩ := hV
    funext c
    simp only [RdArr.cells, NdView.cells, h2 _ (by rw [hb]; simp)]
  · intro c hc
    rw [h10 c hc]
    exact C15_fillDepressions_is_fill pq t _ _ _ hw hh c hc

/-- C91: the same in place, for contiguous arrays. -/
theorem C91_fill_in_place_partial (pq : PQ (ℚ × Cell) zLt) (next : Dtype → ℚ → ℚ) (t : Topo) (m : PyMem)
    (dem : RdArr) (nd : ℚ) (hV : dem.v.Valid m) (hk : dem.v.contig = true) (hn : NoDataIs dem nd)
    (hw : 0 < dem.v.w) (hh : 0 < dem.v.h) :
    ∃ (m' : PyMem) (dem' : RdArr), fillDepressions pq next false true (some t) m dem = .ok m' dem' none ∧
      dem'.v = dem.v ∧ IsFilled dem.v.w dem.v.h t (dem.cells m) (dem'.cells m') := by
  have hf : fillFun pq next false t dem.dt dem.v.w dem.v.h nd (dem.cells m) =
      some (fillDepressionsTopo pq t dem.v.w dem.v.h (dem.cells m)) := by
    simp only [fillFun, Bool.false_eq_true, if_false]
    rw [if_neg (by omega)]
  obtain ⟨m', h1, _, _, h4⟩ := C91_in_place_partial (fillFun pq next false t)
    "FillDepressions(dem, epsilon=False)" m dem nd hn hV hk hw hh _ hf
  refine ⟨m', _, h1, rfl, fun c hc => ?_⟩
  rw [h4 c hc]
  exact C15_fillDepressions_is_fill pq t _ _ _ hw hh c hc

/-- C91: `FillDepressions(dem, epsilon=True)`: every cell of the returned array has a strictly descending path
off the raster or to a NoData cell, when `nextafter` works and no elevation is below the NoData value C++ saw. -/
theorem C91_fill_epsilon (pq : PQ (ℚ × Cell) zLt) (next : Dtype → ℚ → ℚ) (t : Topo) (m : PyMem) (hm : m.WF)
    (dem : RdArr) (nd : ℚ) (hn : NoDataIs dem nd) (hw : 0 < dem.v.w) (hh : 0 < dem.v.h)
    (hnext : ∀ z, z < next dem.dt z) (hnd : ∀ c, nd ≤ dem.cells m c) :
    ∃ (m' : PyMem) (r : RdArr) (out : Cell → ℚ), fillDepressions pq next true false (some t) m dem = .ok m' dem (some r) ∧
      (∀ c, InGrid dem.v.w dem.v.h c → r.cells m' c = out c ∧ dem.cells m c ≤ out c ∧
        ∃ p, StrictDescent dem.v.w dem.v.h t out (fun e => dem.cells m e = nd) c p) := by
  have hf : fillFun pq next true t dem.dt dem.v.w dem.v.h nd (dem.cells m) =
      some (priorityFloodEpsilon pq dem.v.w dem.v.h t nd (next dem.dt) (dem.cells m)).elev := by
    simp only [fillFun, if_true]
    rw [if_neg (by omega)]
  obtain ⟨m', r, h1, _, _, _, _, _, _, _, _, h10⟩ := C91_not_in_place (fillFun pq next true t)
    "FillDepressions(dem, epsilon=True)" m hm dem nd hn hw hh _ hf
  have k := C10_epsilon_drains pq dem.v.w dem.v.h t nd (next dem.dt) hnext (dem.cells m) hnd hw hh
  exact ⟨m', r, _, h1, fun c hc => ⟨h10 c hc, k.1 c, k.2.2.2 c hc⟩⟩

/-- C91: `BreachDepressions(dem)`: in the returned array every data cell has a path through data cells to the
edge or to NoData that never rises. -/
theorem C91_breach_not_in_place (pq : PQ (ℚ × Cell) zLt) (top : Dtype → ℚ) (t : Topo) (m : PyMem) (hm : m.WF)
    (dem : RdArr) (nd : ℚ) (hn : NoDataIs dem nd) (hw : 0 < dem.v.w) (hh : 0 < dem.v.h)
    (htop : ∀ c, InGrid dem.v.w dem.v.h c → dem.cells m c ≤ top dem.dt) :
    ∃ (m' : PyMem) (r : RdArr), breachDepressions pq top false (some t) m dem = .ok m' dem (some r) ∧
      ∀ c, InGrid dem.v.w dem.v.h c → dem.cells m c ≠ nd → ∃ p, DataPath dem.v.w dem.v.h t (dem.cells m) nd c p ∧
        p.IsChain (fun a b => r.cells m' b ≤ r.cells m' a) := by
  obtain ⟨m', r, h1, _, _, _, _, _, _, _, _, h10⟩ := C91_not_in_place (breachFun pq top t)
    "BreachDepressions(dem)" m hm dem nd hn hw hh _ rfl
  have k := C46_drained pq t dem.v.w dem.v.h nd (top dem.dt) (dem.cells m) htop
  refine ⟨m', r, h1, fun c hc hd => ?_⟩
  obtain ⟨p, hp, hch⟩ := k.2 c hc hd
  refine ⟨p, hp, ?_⟩
  refine List.IsChain.imp_of_mem_imp ?_ hch
  intro a b ha hb hab
  rw [h10 a (hp.data a ha).1, h10 b (hp.data b hb).1]
  exact hab

/-! ### Flow accumulation -/

/-- C91, refuted part: `FlowAccumulation(dem, weights=w, in_place=False)` writes the accumulation into the
caller's weights (the `copy=True` it passes is ignored) and returns an array on the same memory, exactly as
with `in_place=True`; only the returned object's metadata differ. -/
theorem C91_weights_refuted (f : CAcc) (line : String) (m : PyMem) (dem wt : RdArr) (inPlace : Bool) (nd : ℚ)
    (hn : NoDataIs dem nd) (hV : dem.v.Valid m) (hk : dem.v.contig = true) (hVw : wt.v.Valid m)
    (hkw : wt.v.contig = true) (hdt : wt.dt = .f64) (hw : wt.v.w = dem.v.w) (hh : wt.v.h = dem.v.h)
    (h0 : 0 < dem.v.w) (h1 : 0 < dem.v.h) (g : Cell → ℚ)
    (hf : f dem.dt dem.v.w dem.v.h nd (dem.cells m) dem.v.w dem.v.h (wt.cells m) = some g) :
    ∃ (m' : PyMem) (r : RdArr), flowAccumulation f line m dem (some wt) inPlace = .ok m' dem (some r) ∧
      r.v = wt.v ∧ ∀ c, InGrid dem.v.w dem.v.h c → wt.cells m' c = g c := by
  have hrd := read_contig hk h0 h1 hV nd
  have hra := read_contig hkw (hw ▸ h0) (hh ▸ h1) hVw (-1)
  set acc := rdNew wt (if inPlace then none else some dem) (.int (-1)) with hacc
  have hav : acc.v = wt.v := rfl
  have hat : acc.dt = .f64 := hdt
  have hnd1 : castT .f64 (overload (.int (-1))) = some (-1) := by decide +kernel
  have hwr : wrap m acc = .ok m ⟨wt.v.buf, wt.v.off, wt.v.w, wt.v.h, -1⟩ := by
    unfold wrap
    rw [if_neg (by rw [hat]; decide)]
    rw [show acc.md.noData.getD (.int (-9999)) = .int (-1) from rfl, hat, hnd1, hav]
    simp only [ensure_contig hkw]
  have hwd : wrap m dem = .ok m ⟨dem.v.buf, dem.v.off, dem.v.w, dem.v.h, nd⟩ := by
    unfold wrap
    rw [if_neg hn.1, hn.2]
    simp only [ensure_contig hk]
  have hT : flowAccumulation f line m dem (some wt) inPlace =
      .ok ((CArr.mk wt.v.buf wt.v.off wt.v.w wt.v.h (-1)).write m g) dem
        (some (copyFromWrapped (addAnalysis acc line) ⟨wt.v.buf, wt.v.off, wt.v.w, wt.v.h, -1⟩)) := by
    simp only [flowAccumulation, accumArr, ← hacc, hwr, hwd]
    rw [if_neg (by rw [hat]; simp)]
    rw [if_neg (by simp [hw, hh])]
    simp only [hrd, hra, Option.bind_some]
    rw [hw, hh]
    rw [show f dem.dt dem.v.w dem.v.h nd (dem.v.cells m) dem.v.w dem.v.h (wt.v.cells m) = some g from hf]
  refine ⟨_, _, hT, rfl, fun c hc => ?_⟩
  have := cells_write hkw (hw ▸ h0) (hh ▸ h1) hVw (-1) g
  show wt.v.cells _ c = g c
  rw [this]
  have : inGrid wt.v.w wt.v.h c = true := inGrid_iff.2 (by rw [hw, hh]; exact hc)
  simp only [restrict, this, if_true]

/-- C91: without weights `FlowAccumulation` returns a new array with the accumulation of one unit per cell,
and leaves the DEM and all memory in use alone — for contiguous DEMs. -/
theorem C91_accumulation_partial (f : CAcc) (line : String) (m : PyMem) (hm : m.WF) (dem : RdArr) (inPlace : Bool) (nd : ℚ)
    (hn : NoDataIs dem nd) (hV : dem.v.Valid m) (hk : dem.v.contig = true)
    (h0 : 0 < dem.v.w) (h1 : 0 < dem.v.h) (g : Cell → ℚ)
    (hf : f dem.dt dem.v.w dem.v.h nd (dem.cells m) dem.v.w dem.v.h
      (fun c => if inGrid dem.v.w dem.v.h c then 1 else 0) = some g) :
    ∃ (m' : PyMem) (r : RdArr), flowAccumulation f line m dem none inPlace = .ok m' dem (some r) ∧
      (∀ b, m.blk b ≠ none → m'.blk b = m.blk b) ∧ m.blk r.v.buf = none ∧ r.dt = .f64 ∧
      r.v.w = dem.v.w ∧ r.v.h = dem.v.h ∧ r.md.noData = some (.float (-1)) ∧ r.md.hist = dem.md.hist ++ [line] ∧
      r.md.geo = dem.md.geo ∧ r.md.proj = dem.md.proj ∧
      ∀ c, InGrid dem.v.w dem.v.h c → r.cells m' c = g c := by
  set v := m.fresh dem.v.h dem.v.w with hv
  set m1 := m.alloc dem.v.h dem.v.w (fun _ => 1) with hm1
  have hkv : v.contig = true := contig_fresh m _ _
  have hVv : v.Valid m1 := valid_fresh m _ _ _
  have hb : m.blk m.next = none := hm _ le_rfl
  have hne : dem.v.buf ≠ m.next := by
    intro e
    obtain ⟨b, hb', _⟩ := hV
    rw [e, hb] at hb'; cases hb'
  have hblk : m1.blk dem.v.buf = m.blk dem.v.buf := alloc_other _ _ _ _ hne
  have hV1 : dem.v.Valid m1 := by
    obtain ⟨b, hb', hr⟩ := hV
    exact ⟨b, by rw [hblk, hb'], hr⟩
  have hcells : dem.v.cells m1 = dem.v.cells m := by
    funext c; simp only [NdView.cells, hblk]
  have hrd := read_contig hk h0 h1 hV1 nd
  have hra : (CArr.mk v.buf v.off dem.v.w dem.v.h (-1)).read m1 =
      some (fun c => if inGrid dem.v.w dem.v.h c then 1 else 0) := by
    have := read_contig (v := v) hkv h0 h1 hVv (-1)
    rw [show v.cells m1 = restrict dem.v.w dem.v.h (fun _ => 1) from cells_fresh _ _ _ _] at this
    exact this
  have hnd1 : castT .f64 (overload (.int (-1))) = some (-1) := by decide +kernel
  have hwr : wrap m1 ⟨v, .f64, { dem.md with noData := some (.int (-1)) }⟩ =
      .ok m1 ⟨v.buf, v.off, dem.v.w, dem.v.h, -1⟩ := by
    unfold wrap
    rw [if_neg (by simp)]
    simp only [Option.getD_some, hnd1, ensure_contig hkv]
    rfl
  have hwd : wrap m1 dem = .ok m1 ⟨dem.v.buf, dem.v.off, dem.v.w, dem.v.h, nd⟩ := by
    unfold wrap
    rw [if_neg hn.1, hn.2]
    simp only [ensure_contig hk]
  have hT : flowAccumulation f line m dem none inPlace =
      .ok ((CArr.mk v.buf v.off dem.v.w dem.v.h (-1)).write m1 g) dem
        (some (copyFromWrapped (addAnalysis ⟨v, .f64, { dem.md with noData := some (.int (-1)) }⟩ line)
          ⟨v.buf, v.off, dem.v.w, dem.v.h, -1⟩)) := by
    simp only [flowAccumulation, accumArr, ← hv, ← hm1, hwr, hwd]
    rw [if_neg (by simp), if_neg (by simp)]
    simp only [hrd, hra, Option.bind_some, hcells]
    rw [show f dem.dt dem.v.w dem.v.h nd (dem.v.cells m) dem.v.w dem.v.h
      (fun c => if inGrid dem.v.w dem.v.h c then 1 else 0) = some g from hf]
  refine ⟨_, _, hT, ?_, hb, rfl, rfl, rfl, rfl, rfl, rfl, rfl, ?_⟩
  · intro b hb'
    have : b ≠ m.next := fun e => hb' (e ▸ hb)
    rw [write_other _ this, hm1, alloc_other _ _ _ _ this]
  · intro c hc
    have := cells_write (v := v) hkv h0 h1 hVv (-1) g
    have hc' : inGrid v.w v.h c = true := inGrid_iff.2 hc
    show v.cells _ c = g c
    rw [show v.cells ((CArr.mk v.buf v.off dem.v.w dem.v.h (-1)).write m1 g) = restrict v.w v.h g from this]
    simp only [restrict, hc', if_true]

/-- C91, refuted part: on a DEM that is not C-contiguous `FlowAccumulation` is undefined behaviour although it
only reads the DEM. -/
theorem C91_accumulation_view_refuted (f : CAcc) (line : String) (m : PyMem) (dem : RdArr)
    (inPlace : Bool) (nd : ℚ) (hn : NoDataIs dem nd) (hk : dem.v.contig = false) :
    flowAccumulation f line m dem none inPlace = .ub := by
  set v := m.fresh dem.v.h dem.v.w with hv
  set m1 := m.alloc dem.v.h dem.v.w (fun _ => 1) with hm1
  have hkv : v.contig = true := contig_fresh m _ _
  have hnd1 : castT .f64 (overload (.int (-1))) = some (-1) := by decide +kernel
  have hwr : wrap m1 ⟨v, .f64, { dem.md with noData := some (.int (-1)) }⟩ =
      .ok m1 ⟨v.buf, v.off, dem.v.w, dem.v.h, -1⟩ := by
    unfold wrap
    rw [if_neg (by simp)]
    simp only [Option.getD_some, hnd1, ensure_contig hkv]
    rfl
  have hwd : wrap m1 dem = .ok (ensurePtr m1 dem.v).1
      ⟨(ensurePtr m1 dem.v).2.1, (ensurePtr m1 dem.v).2.2, dem.v.w, dem.v.h, nd⟩ := by
    unfold wrap
    rw [if_neg hn.1, hn.2]
  simp only [flowAccumulation, accumArr, ← hv, ← hm1, hwr, hwd]
  rw [if_neg (by simp), if_neg (by simp)]
  simp only [read_dangling hk, Option.bind_none]

/-! ### NoData and metadata -/

/-- The lowest and the highest number of each integer type. -/
def typeBounds : Dtype → Option (Int × Int)
  | .i8 => some (-128, 127)
  | .i16 => some (-32768, 32767)
  | .i32 => some (-2147483648, 2147483647)
  | .i64 => some (-9223372036854775808, 9223372036854775807)
  | .u8 => some (0, 255)
  | .u16 => some (0, 65535)
  | .u32 => some (0, 4294967295)
  | .u64 => some (0, 18446744073709551615)
  | _ => none

theorem intRange_bounds {d : Dtype} {lo hi : Int} (hb : typeBounds d = some (lo, hi)) :
    intRange d = some (lo, hi + 1 - lo) := by
  cases d <;> simp [typeBounds] at hb <;> obtain ⟨rfl, rfl⟩ := hb <;> simp [intRange]

/-- `q` without its fraction. -/
def IsTrunc (q : ℚ) (z : Int) : Prop := |(z : ℚ)| ≤ |q| ∧ |q| < |(z : ℚ)| + 1 ∧ 0 ≤ q * z

theorem truncQ_isTrunc (q : ℚ) : IsTrunc q (truncQ q) := by
  unfold truncQ IsTrunc
  split
  · rename_i hq
    have h1 : (0 : ℚ) ≤ ⌊q⌋ := by exact_mod_cast Int.floor_nonneg.2 hq
    rw [abs_of_nonneg hq, abs_of_nonneg h1]
    exact ⟨Int.floor_le q, Int.lt_floor_add_one q, mul_nonneg hq h1⟩
  · rename_i hq
    push Not at hq
    have h1 : ((⌈q⌉ : Int) : ℚ) ≤ 0 := by
      have : ⌈q⌉ ≤ 0 := Int.ceil_le.2 (by exact_mod_cast hq.le)
      exact_mod_cast this
    rw [abs_of_neg hq, abs_of_nonpos h1]
    have h2 := Int.le_ceil q
    have h3 := Int.ceil_lt_add_one q
    exact ⟨by linarith, by linarith, mul_nonneg_of_nonpos_of_nonpos hq.le h1⟩

/-- C91: a float `no_data` of an integer raster loses its fraction (after rounding to single precision); if what
is left is no number of the type, C++ does not define what happens. -/
theorem C91_no_data_fraction (a : RdArr) (q : ℚ) (lo hi : Int) (hr : typeBounds a.dt = some (lo, hi))
    (hq : a.md.noData = some (.float q)) :
    ∃ z, IsTrunc (roundBits 24 q) z ∧ (lo ≤ z ∧ z ≤ hi → NoDataIs a z) ∧
      (¬ (lo ≤ z ∧ z ≤ hi) → castT a.dt (overload (.float q)) = none) := by
  have e := intRange_bounds hr
  refine ⟨_, truncQ_isTrunc _, fun hz => ⟨?_, ?_⟩, fun hz => ?_⟩
  · intro e'; rw [e'] at hr; cases hr
  · rw [hq, Option.getD_some]
    simp only [overload, castT, e]
    rw [if_pos (by omega)]
  · simp only [overload, castT, e]
    rw [if_neg (by omega)]

/-- C91: the `no_data` of an integer raster survives a call when it is a Python int that the type can hold. -/
theorem C91_no_data_int (a : RdArr) (z : Int) (lo hi : Int) (hb : typeBounds a.dt = some (lo, hi))
    (h1 : lo ≤ z) (h2 : z ≤ hi) (hz : a.md.noData = some (.int z)) :
    NoDataIs a z ∧ (annotated a "" z).md.noData = a.md.noData := by
  have hr := intRange_bounds hb
  obtain ⟨k, hkdef⟩ : ∃ k, hi + 1 - lo = k := ⟨_, rfl⟩
  rw [hkdef] at hr
  have hk : 0 < k ∧ -2 ^ 63 ≤ lo ∧ lo + k ≤ 2 ^ 64 := by
    cases hd : a.dt <;> rw [hd] at hr <;> simp [intRange] at hr <;> omega
  have ho : overload (.int z) = .i z := by
    simp only [overload]
    rw [if_pos (by omega)]
  refine ⟨⟨?_, ?_⟩, ?_⟩
  · intro e; rw [e] at hr; simp [intRange] at hr
  · rw [hz, Option.getD_some, ho]
    simp only [castT, hr]
    rw [Int.emod_eq_of_lt (by omega) (by omega)]
    congr 2
    omega
  · simp [annotated, noDataOf, hr, hz]

theorem roundEven_intCast (z : Int) : roundEven (z : ℚ) = z := by
  simp [roundEven]

/-- Integers of at most 24 binary digits are single-precision numbers. -/
theorem roundBits_int (p : Nat) (z : Int) (hz : |z| < 2 ^ p) : roundBits p (z : ℚ) = z := by
  unfold roundBits
  by_cases h0 : (z : ℚ) = 0
  · rw [if_pos h0, h0]
  · rw [if_neg h0]
    have hz0 : z ≠ 0 := by exact_mod_cast h0
    set e := Int.log 2 |(z : ℚ)| + 1 - p with he
    have hlog : Int.log 2 |(z : ℚ)| + 1 ≤ p := by
      have hp : 0 < |(z : ℚ)| := abs_pos.2 h0
      have : Int.log 2 |(z : ℚ)| < p := by
        rw [← Int.lt_zpow_iff_log_lt (by norm_num) hp]
        have : ((|z| : Int) : ℚ) < ((2 ^ p : Int) : ℚ) := by exact_mod_cast hz
        push_cast at this
        exact_mod_cast this
      omega
    obtain ⟨n, hn⟩ : ∃ n : Nat, e = -(n : Int) := ⟨(-e).toNat, by omega⟩
    have hq : (z : ℚ) / 2 ^ e = ((z * 2 ^ n : Int) : ℚ) := by
      rw [hn, zpow_neg, zpow_natCast]
      push_cast
      field_simp
    rw [hq, roundEven_intCast, ← hq]
    field_simp

/-- C91: the `no_data` of a floating-point raster survives a call when it is a whole number of at most 24 binary
digits, such as -9999, given as an int or a float (it comes back as a float). -/
theorem C91_no_data_float_partial (a : RdArr) (z : Int) (hd : a.dt = .f32 ∨ a.dt = .f64) (hz : |z| < 2 ^ 24)
    (hn : a.md.noData = some (.int z) ∨ a.md.noData = some (.float z)) :
    NoDataIs a z ∧ (annotated a "" z).md.noData = some (.float z) := by
  have hr : intRange a.dt = none := by rcases hd with e | e <;> rw [e] <;> rfl
  have hrng : -2 ^ 63 ≤ z ∧ z < 2 ^ 64 := by
    have := abs_lt.1 hz
    omega
  have h24 := roundBits_int 24 z hz
  have h53 := roundBits_int 53 z (lt_trans hz (by norm_num))
  refine ⟨⟨?_, ?_⟩, ?_⟩
  · rcases hd with e | e <;> rw [e] <;> decide
  · rcases hn with e | e
    · rw [e, Option.getD_some]
      simp only [overload]
      rw [if_pos hrng]
      simp only [castT, hr, h24, h53, ite_self]
    · rw [e, Option.getD_some]
      simp only [overload, castT, hr, h24]
  · simp [annotated, noDataOf, hr]

/-- C91: a Python int as `no_data` of a floating-point raster is rounded to the raster's own precision: one of at most 53
binary digits survives in a double-precision raster, and in single precision the nearest number is used. -/
theorem C91_no_data_float_int (a : RdArr) (z : Int) (hz : |z| < 2 ^ 53) (hn : a.md.noData = some (.int z)) :
    (a.dt = .f64 → NoDataIs a z) ∧
    (a.dt = .f32 → NoDataIs a (roundBits 24 z) ∧ IsFloat 24 (roundBits 24 z) ∧
      ∀ y, IsFloat 24 y → |roundBits 24 z - z| ≤ |y - z|) := by
  have hrng : -2 ^ 63 ≤ z ∧ z < 2 ^ 64 := by
    have := abs_lt.1 hz
    omega
  have ho : overload (.int z) = .i z := by simp only [overload]; rw [if_pos hrng]
  refine ⟨fun hd => ⟨by rw [hd]; decide, ?_⟩, fun hd => ⟨⟨by rw [hd]; decide, ?_⟩, ?_⟩⟩
  · rw [hn, Option.getD_some, ho, hd]
    simp [castT, intRange, roundBits_int 53 z hz]
  · rw [hn, Option.getD_some, ho, hd]
    simp [castT, intRange]
  · exact ⟨roundBits_isFloat 24 (by norm_num) _, fun y hy => (roundBits_nearest 24 (by norm_num) _ y hy).1⟩

/-- A double-precision 2×1 raster whose first cell holds its `no_data`, the Python float -9999.9. -/
def ndEx : RdArr × PyMem :=
  (⟨⟨0, 0, 1, 2, 2, 1⟩, .f64, ⟨some (.float (-5497503163298611 / 549755813888)), none, "", []⟩⟩,
   ⟨fun b => if b = 0 then some ⟨2, fun i => if i = 0 then -5497503163298611 / 549755813888 else 7⟩ else none, 1⟩)

/-- C91, refuted part: `no_data` passes through single precision.  -9999.9 reaches C++ as
-9999.900390625, so the NoData cells of a double-precision raster are taken for data, and the array's
`no_data` is another number after the call. -/
theorem C91_no_data_refuted :
    ∃ nd, NoDataIs ndEx.1 nd ∧ (∀ c ∈ [((0 : Int), (0 : Int)), (1, 0)], ndEx.1.cells ndEx.2 c ≠ nd) ∧
      ndEx.1.md.noData = some (.float (ndEx.1.cells ndEx.2 (0, 0))) ∧
      (annotated ndEx.1 "" nd).md.noData ≠ ndEx.1.md.noData := by
  refine ⟨-5119949 / 512, ⟨by decide, ?_⟩, ?_, ?_, ?_⟩ <;> decide +kernel

/-- C91, refuted part: `FlowProportions` raises on every DEM whose geotransform is a NumPy array of several
numbers, such as all terrain made by `generate_perlin_terrain`. -/
theorem C91_proportions_refuted (m : PyMem) (size : Nat) (f : Cell → ℚ) (line : String) :
    flowProportionsStarts (generatePerlin m size f line).2 = false := rfl

/-- C91: what `generate_perlin_terrain` makes: a square array of doubles holding the generator's values, with NoData
`-9999` and the geotransform `[0, 1, 0, 0, 0, -1]`. -/
theorem C91_perlin_metadata (m : PyMem) (size : Nat) (f : Cell → ℚ) (line : String) :
    let a := (generatePerlin m size f line).2
    a.v.w = size ∧ a.v.h = size ∧ a.dt = .f64 ∧ a.md.geo = some (.array [0, 1, 0, 0, 0, -1]) ∧
    a.md.noData = some (.float (-9999)) ∧
    ∀ c, InGrid size size c → a.cells (generatePerlin m size f line).1 c = f c := by
  refine ⟨rfl, rfl, rfl, rfl, rfl, ?_⟩
  intro c hc
  have e := congrFun (cells_fresh m size size f) c
  have : (generatePerlin m size f line).2.cells (generatePerlin m size f line).1 c = restrict size size f c := e
  rw [this]
  simp only [restrict, inGrid_iff.2 hc, if_true]

/-- C91: with a tuple (as `LoadGDAL` stores) or no geotransform `FlowProportions` runs. -/
theorem C91_proportions_partial (dem : RdArr) (hg : dem.md.geo = none ∨ ∃ l, dem.md.geo = some (.tuple l)) :
    flowProportionsStarts dem = true := by
  rcases hg with e | ⟨l, e⟩ <;> simp [flowProportionsStarts, geoTruth, e]

/-! ### Concrete arrays -/

/-- A 3×3 raster with a pit, held in the even columns of a 3×6 block: not contiguous. -/
def sliceEx : RdArr × PyMem :=
  (⟨⟨0, 0, 3, 3, 6, 2⟩, .i32, ⟨some (.int (-9999)), some (.tuple [0, 1, 0, 0, 0, -1]), "", ["made"]⟩⟩,
   ⟨fun b => if b = 0 then some ⟨18, fun i => [9, 0, 9, 0, 9, 0, 9, 0, 1, 0, 5, 0, 9, 0, 9, 0, 9, 0].getD i 0⟩ else none, 1⟩)

/-- The outcome of a call as the rows of the returned array and of the caller's array. -/
def showRes : PyRes → Option (List (List ℚ) × List (List ℚ) × List String)
  | .ok m dem (some r) => some (toRows r.v.w r.v.h (r.cells m), toRows dem.v.w dem.v.h (dem.cells m), r.md.hist)
  | .ok m dem none => some ([], toRows dem.v.w dem.v.h (dem.cells m), dem.md.hist)
  | _ => none

/-- The hypotheses of `C91_fill_not_in_place` hold for the slice, and the call does what the theorem says. -/
example : NoDataIs sliceEx.1 (-9999) ∧ sliceEx.1.v.contig = false ∧
    (∀ x ∈ [0, 1, 2], ∀ y ∈ [0, 1, 2], 0 ≤ sliceEx.1.v.addr ((x : Int), (y : Int)) ∧ sliceEx.1.v.addr ((x : Int), (y : Int)) < 18) ∧
    showRes (fillDepressions zPQ (fun _ z => z) false false (some .D8) sliceEx.2 sliceEx.1) =
      some ([[9, 9, 9], [9, 5, 5], [9, 9, 9]], [[9, 9, 9], [9, 1, 5], [9, 9, 9]],
        ["made", "FillDepressions(dem, epsilon=False)"]) ∧
    showRes (fillDepressions zPQ (fun _ z => z) false true (some .D8) sliceEx.2 sliceEx.1) = none := by
  refine ⟨⟨by decide, by decide +kernel⟩, by decide, by decide, by decide +kernel, by decide +kernel⟩

/-- In place on a contiguous array: the hypotheses of `C91_in_place_partial` are met. -/
example : let r := transform (fun _ _ _ _ g => some g) "id" false sliceEx.2 sliceEx.1
    (match r with
     | .ok m _ (some d) => showRes (fillDepressions zPQ (fun _ z => z) false true (some .D4) m d)
     | _ => none) = some ([], [[9, 9, 9], [9, 5, 5], [9, 9, 9]], ["made", "id", "FillDepressions(dem, epsilon=False)"]) := by
  decide +kernel

/-- A C++ accumulation for the examples: every cell passes its flow to the cell on its right. -/
def rowAcc : CAcc := fun _ _ _ _ _ w h ga =>
  some fun c => if inGrid w h c then (List.range (c.1.toNat + 1)).foldl (fun a (x : Nat) => a + ga ((x : Int), c.2)) 0 else 0

/-- Weights in a block of their own beside a contiguous DEM. -/
def wtEx : RdArr × RdArr × PyMem :=
  (⟨⟨0, 0, 1, 3, 3, 1⟩, .f32, ⟨some (.int (-9999)), none, "dem", []⟩⟩,
   ⟨⟨1, 0, 1, 3, 3, 1⟩, .f64, ⟨some (.int (-1)), none, "weights", []⟩⟩,
   ⟨fun b => if b = 0 then some ⟨3, fun i => [3, 2, 1].getD i 0⟩ else if b = 1 then some ⟨3, fun i => [1, 10, 100].getD i 0⟩
     else none, 2⟩)

/-- The hypotheses of `C91_weights_refuted` are met, and the caller's weights are changed though `in_place=False`. -/
example : NoDataIs wtEx.1 (-9999) ∧ wtEx.1.v.contig = true ∧ wtEx.2.1.v.contig = true ∧
    toRows 3 1 (wtEx.2.1.cells wtEx.2.2) = [[1, 10, 100]] ∧
    (match flowAccumulation rowAcc "acc" wtEx.2.2 wtEx.1 (some wtEx.2.1) false with
     | .ok m' _ (some r) => some (toRows 3 1 (wtEx.2.1.cells m'), r.md.proj, r.md.noData)
     | _ => none) = some ([[1, 11, 111]], "dem", some (.float (-1))) ∧
    (match flowAccumulation rowAcc "acc" wtEx.2.2 wtEx.1 none false with
     | .ok m' _ (some r) => some (toRows 3 1 (r.cells m'), r.md.hist)
     | _ => none) = some ([[1, 2, 3]], ["acc"]) := by
  refine ⟨⟨by decide, by decide +kernel⟩, by decide, by decide, by decide +kernel, by decide +kernel, by decide +kernel⟩

end RichDEM.Py
