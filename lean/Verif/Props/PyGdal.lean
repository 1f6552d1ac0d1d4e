/-
Property theorems C104 (what the Python package reads from and writes to raster files) and C105 (its command-line
programs).
-/
import Verif.Py.Gdal
import Verif.Props.Python

namespace RichDEM.Py

/-- RichDEM can use `q`, the NoData value of a file, for cells of type `d`: any number for a floating-point type;
for an integer type, rounded to single precision and without its fraction it is a number of the type. -/
def GoodNoData (d : Dtype) (q : ℚ) : Prop :=
  ∀ lo hi, typeBounds d = some (lo, hi) → ∃ z, IsTrunc (roundBits 24 q) z ∧ lo ≤ z ∧ z ≤ hi

/-- The element types of GDAL that `LoadGDAL` accepts. -/
def Readable (d : Dtype) : Prop := d ∈ [Dtype.u8, .i16, .i32, .u16, .u32, .f32, .f64]

theorem gdalType_iff (d : Dtype) : gdalType d = true ↔ Readable d := by
  cases d <;> simp [gdalType, Readable]

theorem isTrunc_unique {q : ℚ} {a b : Int} (ha : IsTrunc q a) (hb : IsTrunc q b) : a = b := by
  obtain ⟨a1, a2, a3⟩ := ha
  obtain ⟨b1, b2, b3⟩ := hb
  have e : |a| = |b| := by
    have h1 : ((|a| : Int) : ℚ) < ((|b| + 1 : Int) : ℚ) := by push_cast; linarith
    have h2 : ((|b| : Int) : ℚ) < ((|a| + 1 : Int) : ℚ) := by push_cast; linarith
    have := Int.cast_lt.1 h1
    have := Int.cast_lt.1 h2
    omega
  rcases abs_eq_abs.1 e with e | e
  · exact e
  · subst e
    by_cases hq : q = 0
    · rw [hq, abs_zero] at b1
      have := abs_nonpos_iff.1 b1
      have : b = 0 := by exact_mod_cast this
      omega
    · push_cast at a3
      have h0 : q * b = 0 := by linarith
      rcases mul_eq_zero.1 h0 with h | h
      · exact absurd h hq
      · have : b = 0 := by exact_mod_cast h
        omega

theorem goodNoData_cast {d : Dtype} {q : ℚ} (hd : Readable d) :
    GoodNoData d q ↔ ∃ nd, castT d (overload (.float q)) = some nd := by
  have hcase : (∃ lo hi, typeBounds d = some (lo, hi)) ∨ (typeBounds d = none ∧ intRange d = none) := by
    cases d <;> simp [Readable] at hd <;> simp [typeBounds, intRange]
  rcases hcase with ⟨lo, hi, hb⟩ | ⟨hb, hr⟩
  · have e := intRange_bounds hb
    have hG : GoodNoData d q ↔ ∃ z, IsTrunc (roundBits 24 q) z ∧ lo ≤ z ∧ z ≤ hi := by
      unfold GoodNoData
      constructor
      · intro hg; exact hg lo hi hb
      · intro hg lo' hi' hb'
        rw [hb] at hb'
        cases hb'
        exact hg
    rw [hG]
    simp only [overload, castT, e]
    constructor
    · rintro ⟨z, h1, h2, h3⟩
      obtain rfl := isTrunc_unique h1 (truncQ_isTrunc _)
      exact ⟨_, if_pos (by omega)⟩
    · rintro ⟨nd, hnd⟩
      split at hnd
      · exact ⟨_, truncQ_isTrunc _, by omega, by omega⟩
      · cases hnd
  · simp [GoodNoData, hb, overload, castT, hr]

/-! ### Reading and writing -/

/-- C104: `LoadGDAL` gives a new contiguous array with the file's cells, element type, geotransform, projection
and history (one line longer) and touches no memory in use.  The NoData value is the argument, or else the
file's. -/
theorem C104_load (m : PyMem) (hm : m.WF) (f : GFile) (arg : Option ℚ) (line : String) (q : ℚ) (hd : Readable f.dt)
    (hq : arg = some q ∨ arg = none ∧ f.noData = some q) :
    ∃ m1 a, loadGDAL m f arg line = some (m1, a) ∧ m1.WF ∧ (∀ b, m.blk b ≠ none → m1.blk b = m.blk b) ∧
      a.v.Valid m1 ∧ a.v.contig = true ∧ a.v.w = f.w ∧ a.v.h = f.h ∧ a.dt = f.dt ∧ m.blk a.v.buf = none ∧
      (∀ c, InGrid f.w f.h c → a.cells m1 c = f.band c) ∧
      a.md = ⟨some (.float q), some (.tuple f.geo), f.proj, f.hist ++ [line]⟩ := by
  have e : loadGDAL m f arg line = some (m.alloc f.h f.w f.band,
      addAnalysis ⟨m.fresh f.h f.w, f.dt, ⟨some (.float q), some (.tuple f.geo), f.proj, f.hist⟩⟩ line) := by
    unfold loadGDAL
    have : arg.orElse (fun _ => f.noData) = some q := by
      rcases hq with e | ⟨e1, e2⟩
      · rw [e]; rfl
      · rw [e1, e2]; rfl
    simp only [this]
    rw [if_pos ((gdalType_iff _).2 hd)]
  have hb : m.blk m.next = none := hm _ le_rfl
  refine ⟨_, _, e, ?_, ?_, valid_fresh m _ _ _, contig_fresh m _ _, rfl, rfl, rfl, hb, ?_, rfl⟩
  · intro b hb
    have hb' : m.next + 1 ≤ b := hb
    rw [alloc_other _ _ _ _ (by omega)]
    exact hm b (by omega)
  · intro b hne
    exact alloc_other _ _ _ _ (fun e => hne (e ▸ hb))
  · intro c hc
    show (m.fresh f.h f.w).cells (m.alloc f.h f.w f.band) c = f.band c
    rw [cells_fresh]
    simp only [restrict, inGrid_iff.2 hc, if_true]

/-- C104: `LoadGDAL` raises exactly when there is no NoData value or the element type is not supported. -/
theorem C104_load_raises (m : PyMem) (f : GFile) (arg : Option ℚ) (line : String) :
    loadGDAL m f arg line = none ↔ (arg = none ∧ f.noData = none) ∨ ¬ Readable f.dt := by
  rw [← gdalType_iff]
  unfold loadGDAL
  cases arg <;> cases hq : f.noData <;> simp

/-- C104: what `SaveGDAL` writes: the array's size, geotransform, projection and history, and in every cell a
single-precision number nearest to the array's (of two equally near ones the one whose last digit is even), so
that no two cells change order. -/
theorem C104_save (m : PyMem) (a : RdArr) (g : PyGeo) (nd : PyNum) (hg : a.md.geo = some g) (h6 : g.coefs.length = 6)
    (hn : a.md.noData = some nd) :
    ∃ f, saveGDAL m a = some f ∧ f.w = a.v.w ∧ f.h = a.v.h ∧ f.dt = .f32 ∧ f.geo = g.coefs ∧ f.proj = a.md.proj ∧
      f.hist = a.md.hist ∧ (∀ q, nd = .float q → f.noData = some q) ∧
      (∀ z : Int, nd = .int z → |z| < 2 ^ 53 → f.noData = some (z : ℚ)) ∧
      (∀ c, IsFloat 24 (f.band c) ∧ ∀ v, IsFloat 24 v → |f.band c - a.cells m c| ≤ |v - a.cells m c| ∧
        (|v - a.cells m c| = |f.band c - a.cells m c| → v ≠ f.band c →
          ∃ k e : Int, k % 2 = 0 ∧ (2 : ℚ) ^ 23 ≤ |(k : ℚ)| ∧ f.band c = k * (2 : ℚ) ^ e)) ∧
      ∀ c d, a.cells m c ≤ a.cells m d → f.band c ≤ f.band d := by
  have e : saveGDAL m a = some ⟨a.v.w, a.v.h, .f32, fun c => roundBits 24 (a.cells m c), some nd.toDouble, g.coefs,
      a.md.proj, a.md.hist⟩ := by
    unfold saveGDAL
    simp only [hg, hn]
    rw [if_pos h6]
  refine ⟨_, e, rfl, rfl, rfl, rfl, rfl, rfl, ?_, ?_, ?_, ?_⟩
  · rintro q rfl; rfl
  · rintro z rfl hz
    show some (roundBits 53 (z : ℚ)) = _
    rw [roundBits_int 53 z hz]
  · intro c
    refine ⟨roundBits_isFloat 24 (by norm_num) _, fun v hv => ?_⟩
    have := roundBits_nearest 24 (by norm_num) (a.cells m c) v hv
    norm_num at this ⊢
    exact this
  · intro c d hcd
    exact roundBits_mono 24 (by norm_num) hcd

/-- C104: an array without geotransform (or with one that is not six numbers) or without NoData cannot be saved. -/
theorem C104_save_raises (m : PyMem) (a : RdArr) :
    saveGDAL m a = none ↔ a.md.noData = none ∨ a.md.geo = none ∨ ∃ g, a.md.geo = some g ∧ g.coefs.length ≠ 6 := by
  unfold saveGDAL
  cases a.md.geo with
  | none => simp
  | some g =>
    cases a.md.noData with
    | none => simp
    | some nd => by_cases h6 : g.coefs.length = 6 <;> simp [h6]

/-- C104: loading a file and saving it again keeps its size, cells, NoData, geotransform, projection and history
(one line longer) when every cell is a single-precision number.  The element type becomes `Float32`. -/
theorem C104_round_trip_partial (m : PyMem) (hm : m.WF) (f : GFile) (line : String) (q : ℚ) (hd : Readable f.dt)
    (hq : f.noData = some q) (h6 : f.geo.length = 6) (hb : ∀ c, InGrid f.w f.h c → IsFloat 24 (f.band c)) :
    ∃ m1 a f', loadGDAL m f none line = some (m1, a) ∧ saveGDAL m1 a = some f' ∧ f'.w = f.w ∧ f'.h = f.h ∧
      f'.dt = .f32 ∧ f'.noData = some q ∧ f'.geo = f.geo ∧ f'.proj = f.proj ∧ f'.hist = f.hist ++ [line] ∧
      ∀ c, InGrid f.w f.h c → f'.band c = f.band c := by
  obtain ⟨m1, a, e1, _, _, _, _, h3, h4, _, _, hc, hmd⟩ := C104_load m hm f none line q hd (.inr ⟨rfl, hq⟩)
  have e2 : saveGDAL m1 a = some ⟨a.v.w, a.v.h, .f32, fun c => roundBits 24 (a.cells m1 c), some q, f.geo,
      f.proj, f.hist ++ [line]⟩ := by
    unfold saveGDAL
    rw [hmd]
    simp only [PyGeo.coefs, h6, if_true, PyNum.toDouble]
  refine ⟨m1, a, _, e1, e2, h3, h4, rfl, rfl, rfl, rfl, rfl, fun c hc' => ?_⟩
  show roundBits 24 (a.cells m1 c) = f.band c
  rw [hc c hc', roundBits_float 24 (by norm_num) _ (hb c hc')]

/-- The integer types of at most sixteen digits only hold single-precision numbers. -/
theorem C104_small_types (d : Dtype) (hd : d ∈ [Dtype.i8, .u8, .i16, .u16]) (lo hi z : Int)
    (hb : typeBounds d = some (lo, hi)) (h1 : lo ≤ z) (h2 : z ≤ hi) : IsFloat 24 (z : ℚ) := by
  refine isFloat_int 24 z (abs_lt.2 ?_)
  cases d <;> simp at hd <;> simp [typeBounds] at hb <;> omega

/-- A one-cell file. -/
def oneCell (d : Dtype) (x nd : ℚ) : GFile := ⟨1, 1, d, fun _ => x, some nd, [0, 1, 0, 0, 0, -1], "", []⟩

/-- Load and save in a fresh interpreter. -/
def reSave (f : GFile) : Option GFile := (loadGDAL ⟨fun _ => none, 0⟩ f none "load").bind fun p => saveGDAL p.1 p.2

/-- C104, refuted part: loading and saving is not the identity.  An `Int32` cell of 16777217 is saved as 16777216;
a `Float64` data cell of 1+2⁻³⁰ in a raster whose NoData value is 1 is saved as NoData. -/
theorem C104_round_trip_refuted :
    ((reSave (oneCell .i32 16777217 (-9999))).map fun f => (f.dt, f.band (0, 0))) = some (.f32, 16777216) ∧
    ((reSave (oneCell .f64 (1 + 1 / 2 ^ 30) 1)).map fun f => (f.band (0, 0), f.noData)) = some (1, some 1) := by
  constructor <;> decide +kernel

/-! ### The programs -/

/-- The loaded DEM with the program's line of history, as the programs hand it on. -/
theorem loaded (m : PyMem) (hm : m.WF) (f : GFile) (loadLine argv : String) (q nd : ℚ) (hd : Readable f.dt)
    (hq : f.noData = some q) (hnd : castT f.dt (overload (.float q)) = some nd) :
    ∃ m1 a, loadGDAL m f none loadLine = some (m1, a) ∧ m1.WF ∧ (addAnalysis a argv).v.Valid m1 ∧
      (addAnalysis a argv).v.contig = true ∧ (addAnalysis a argv).v.w = f.w ∧ (addAnalysis a argv).v.h = f.h ∧
      (addAnalysis a argv).dt = f.dt ∧ NoDataIs (addAnalysis a argv) nd ∧
      (∀ c, InGrid f.w f.h c → (addAnalysis a argv).cells m1 c = f.band c) ∧
      (addAnalysis a argv).md = ⟨some (.float q), some (.tuple f.geo), f.proj, f.hist ++ [loadLine] ++ [argv]⟩ := by
  obtain ⟨m1, a, e1, k1, _, k2, k3, h3, h4, h5, _, hc, hmd⟩ := C104_load m hm f none loadLine q hd (.inr ⟨rfl, hq⟩)
  refine ⟨m1, a, e1, k1, k2, k3, h3, h4, h5, ⟨?_, ?_⟩, hc, ?_⟩
  · show a.dt ≠ .other
    rw [h5]
    intro e
    rw [e] at hd
    simp [Readable] at hd
  · show castT a.dt (overload (a.md.noData.getD _)) = some nd
    rw [hmd, h5]
    exact hnd
  · simp only [addAnalysis, hmd]

/-- Rounding the elevations of a filled DEM gives the filled DEM of the rounded elevations. -/
theorem isFilled_map {w h : Nat} {t : Topo} {dem out : Cell → ℚ} {φ : ℚ → ℚ} (hφ : Monotone φ)
    (hf : IsFilled w h t dem out) : IsFilled w h t (fun c => φ (dem c)) (fun c => φ (out c)) := by
  intro c hc
  obtain ⟨⟨p, hp, hle⟩, hl⟩ := hf c hc
  refine ⟨⟨p, hp, fun q hq => hφ (hle q hq)⟩, fun p hp => ?_⟩
  obtain ⟨q, hq, hz⟩ := hl p hp
  exact ⟨q, hq, hφ hz⟩

theorem isFilled_congr {w h : Nat} {t : Topo} {dem dem' out out' : Cell → ℚ}
    (h1 : ∀ c, InGrid w h c → dem c = dem' c) (h2 : ∀ c, InGrid w h c → out c = out' c)
    (hf : IsFilled w h t dem out) : IsFilled w h t dem' out' := by
  intro c hc
  obtain ⟨⟨p, hp, hle⟩, hl⟩ := hf c hc
  rw [← h2 c hc]
  refine ⟨⟨p, hp, fun q hq => h1 q (hp.inGrid q hq) ▸ hle q hq⟩, fun p hp => ?_⟩
  obtain ⟨q, hq, hz⟩ := hl p hp
  exact ⟨q, hq, h1 q (hp.inGrid q hq) ▸ hz⟩

/-- The NoData value a program writes when C++ saw `nd`. -/
theorem saved_ok (m : PyMem) (a : RdArr) (nd : ℚ) (geo : List ℚ) (h6 : geo.length = 6)
    (hg : a.md.geo = some (.tuple geo)) (hn : a.md.noData = some (noDataOf a.dt nd)) :
    saved m a = .ok ⟨a.v.w, a.v.h, .f32, fun c => roundBits 24 (a.cells m c), some (noDataOf a.dt nd).toDouble, geo,
      a.md.proj, a.md.hist⟩ := by
  unfold saved saveGDAL
  simp only [hg, hn, PyGeo.coefs, h6, if_true]

/-- The NoData value written after a call: the one C++ used. -/
def UsedNoData (d : Dtype) (q nd : ℚ) : Prop :=
  (∀ lo hi, typeBounds d = some (lo, hi) → ∃ z : Int, IsTrunc (roundBits 24 q) z ∧ nd = z) ∧
  (typeBounds d = none → nd = roundBits 24 q)

theorem usedNoData {d : Dtype} {q nd : ℚ} (hd : Readable d) (hnd : castT d (overload (.float q)) = some nd) :
    UsedNoData d q nd ∧ (noDataOf d nd).toDouble = nd := by
  have hcase : (∃ lo hi, typeBounds d = some (lo, hi) ∧ -2 ^ 53 < lo ∧ hi < 2 ^ 53) ∨
      (typeBounds d = none ∧ intRange d = none) := by
    cases d <;> simp [Readable] at hd <;> simp [typeBounds, intRange]
  rcases hcase with ⟨lo, hi, hb, hlo, hhi⟩ | ⟨hb, hr⟩
  · have e := intRange_bounds hb
    simp only [overload, castT, e] at hnd
    split at hnd
    · rename_i hz
      obtain rfl := Option.some.inj hnd
      refine ⟨⟨fun _ _ _ => ⟨_, truncQ_isTrunc _, rfl⟩, fun h => (by rw [hb] at h; cases h)⟩, ?_⟩
      simp only [noDataOf, e, Option.isSome_some, if_true, Int.floor_intCast, PyNum.toDouble]
      exact roundBits_int 53 _ (abs_lt.2 (by omega))
    · cases hnd
  · simp only [overload, castT, hr, Option.some.injEq] at hnd
    refine ⟨⟨fun lo hi h => (by rw [hb] at h; cases h), fun _ => hnd.symm⟩, ?_⟩
    simp [noDataOf, hr, PyNum.toDouble]

/-- C105: the depression-filling program without `-g` writes the depression-filled DEM of the input's elevations,
each rounded to single precision; a DEM of single-precision numbers is filled exactly.  The history tells what
was done. -/
theorem C105_fill_tool (pq : PQ (ℚ × Cell) zLt) (next : Dtype → ℚ → ℚ) (loadLine argv : String) (m : PyMem) (hm : m.WF)
    (f : GFile) (q : ℚ) (hd : Readable f.dt) (hq : f.noData = some q) (hgood : GoodNoData f.dt q) (h6 : f.geo.length = 6)
    (hw : 0 < f.w) (hh : 0 < f.h) :
    ∃ out, fillTool pq next false loadLine argv m f = .ok out ∧ out.w = f.w ∧ out.h = f.h ∧ out.dt = .f32 ∧
      out.geo = f.geo ∧ out.proj = f.proj ∧
      out.hist = f.hist ++ [loadLine, argv, "FillDepressions(dem, epsilon=False)"] ∧
      (∃ nd, out.noData = some nd ∧ UsedNoData f.dt q nd) ∧
      IsFilled f.w f.h .D8 (fun c => roundBits 24 (f.band c)) out.band ∧
      ((∀ c, InGrid f.w f.h c → IsFloat 24 (f.band c)) → IsFilled f.w f.h .D8 f.band out.band) := by
  obtain ⟨nd, hnd⟩ := (goodNoData_cast hd).1 hgood
  obtain ⟨m1, a, e1, _, hV, hk, h3, h4, h5, hN, hc, hmd⟩ := loaded m hm f loadLine argv q nd hd hq hnd
  set d := addAnalysis a argv with hdd
  have hf : fillFun pq next false .D8 d.dt d.v.w d.v.h nd (d.cells m1) =
      some (fillDepressionsTopo pq .D8 d.v.w d.v.h (d.cells m1)) := by
    simp only [fillFun, Bool.false_eq_true, if_false]
    rw [if_neg (by omega)]
  obtain ⟨m2, k1, _, _, k4⟩ := C91_in_place_partial (fillFun pq next false .D8) "FillDepressions(dem, epsilon=False)"
    m1 d nd hN hV hk (by omega) (by omega) _ hf
  have hfill : IsFilled f.w f.h .D8 f.band ((annotated d "FillDepressions(dem, epsilon=False)" nd).cells m2) := by
    have := C15_fillDepressions_is_fill pq .D8 d.v.w d.v.h (d.cells m1) (by omega) (by omega)
    rw [h3, h4] at this k4
    exact isFilled_congr hc (fun c hc' => (k4 c hc').symm) this
  have hs := saved_ok m2 (annotated d "FillDepressions(dem, epsilon=False)" nd) nd f.geo h6
    (by show d.md.geo = _; rw [hmd]) rfl
  have hT : fillTool pq next false loadLine argv m f =
      saved m2 (annotated d "FillDepressions(dem, epsilon=False)" nd) := by
    have k1' : fillDepressions pq next false true (some .D8) m1 (addAnalysis a argv) =
      .ok m2 (annotated d "FillDepressions(dem, epsilon=False)" nd) none := k1
    unfold fillTool
    simp only [e1, k1']
  have hr : IsFilled f.w f.h .D8 (fun c => roundBits 24 (f.band c)) fun c =>
      roundBits 24 ((annotated d "FillDepressions(dem, epsilon=False)" nd).cells m2 c) :=
    isFilled_map (roundBits_mono 24 (by norm_num)) hfill
  refine ⟨_, hT.trans hs, h3, h4, rfl, rfl, ?_, ?_, ?_, hr, fun hfl => ?_⟩
  · show d.md.proj = _; rw [hmd]
  · show d.md.hist ++ _ = _
    rw [hmd]; simp
  · have hu := usedNoData hd hnd
    refine ⟨nd, ?_, hu.1⟩
    show some (noDataOf d.dt nd).toDouble = some nd
    rw [h5, hu.2]
  · exact isFilled_congr (fun c hc' => roundBits_float 24 (by norm_num) _ (hfl c hc')) (fun _ _ => rfl) hr

/-- C105, refuted part: an integer raster whose NoData value is no number of its type after rounding to single
precision cannot be processed: C++ does not define what happens. -/
theorem C105_no_data_refuted (pq : PQ (ℚ × Cell) zLt) (next : Dtype → ℚ → ℚ) (gradient : Bool) (loadLine argv : String)
    (m : PyMem) (hm : m.WF) (f : GFile) (q : ℚ) (hd : Readable f.dt) (hq : f.noData = some q)
    (hbad : ¬ GoodNoData f.dt q) : fillTool pq next gradient loadLine argv m f = .ub := by
  have hnone : castT f.dt (overload (.float q)) = none := by
    cases e : castT f.dt (overload (.float q)) with
    | none => rfl
    | some nd => exact absurd ((goodNoData_cast hd).2 ⟨nd, e⟩) hbad
  obtain ⟨m1, a, e1, _, _, _, _, _, _, h5, _, _, hmd⟩ := C104_load m hm f none loadLine q hd (.inr ⟨rfl, hq⟩)
  have hoth : f.dt ≠ .other := by
    intro e; rw [e] at hd; simp [Readable] at hd
  unfold fillTool
  simp only [e1, fillDepressions, transform, if_true]
  have hwr : wrap m1 (addAnalysis (addAnalysis a argv)
      (if gradient then "FillDepressions(dem, epsilon=True)" else "FillDepressions(dem, epsilon=False)")) = .ub := by
    unfold wrap
    simp only [addAnalysis, h5, if_neg hoth, hmd, Option.getD_some, hnone]
  rw [hwr]

/-- Common NoData values that are not usable: -9999 for bytes, and the highest numbers of `Int32` and `UInt32`. -/
theorem C105_no_data_bad :
    ¬ GoodNoData .u8 (-9999) ∧ ¬ GoodNoData .i32 2147483647 ∧ ¬ GoodNoData .u32 4294967295 ∧
    GoodNoData .u8 255 ∧ GoodNoData .i16 (-32768) ∧ GoodNoData .i32 (-2147483648) ∧ GoodNoData .f32 (-9999) := by
  have key : ∀ d q, Readable d → (castT d (overload (.float q))).isSome = true → GoodNoData d q := by
    intro d q hd e
    exact (goodNoData_cast hd).2 (Option.isSome_iff_exists.1 e)
  have keyn : ∀ d q, Readable d → castT d (overload (.float q)) = none → ¬ GoodNoData d q := by
    intro d q hd e hg
    obtain ⟨nd, hn⟩ := (goodNoData_cast hd).1 hg
    rw [e] at hn; cases hn
  refine ⟨keyn _ _ ?_ ?_, keyn _ _ ?_ ?_, keyn _ _ ?_ ?_, key _ _ ?_ ?_, key _ _ ?_ ?_, key _ _ ?_ ?_, key _ _ ?_ ?_⟩
  all_goals first | decide +kernel | simp [Readable]

/-! ### The gradient option -/

/-- The epsilon fill only makes numbers by stepping up from numbers of the raster. -/
theorem epsilon_closed {E : Type*} [LinearOrder E] (pq : PQ (E × Cell) zLt) (w h : Nat) (t : Topo) (nodata : E)
    (next : E → E) (dem : Cell → E) (hw : 0 < w) (hh : 0 < h) (P : E → Prop) (hP : ∀ z, P z → P (next z)) (hnd : P nodata)
    (hdem : ∀ c, InGrid w h c → P (dem c)) :
    ∀ c, InGrid w h c → P ((priorityFloodEpsilon pq w h t nodata next dem).elev c) := by
  let Inv : EState E → Prop := fun s => (∀ c, InGrid w h c → P (s.elev c)) ∧ ∀ e, e ∈ s.openQ ∨ e ∈ s.pitQ → P e.1
  have hnbr : ∀ (c : E × Cell), P c.1 → ∀ s, Inv s → ∀ n, Inv (epsNbr pq w h t nodata next c s n) := by
    rintro c hc s ⟨i1, i2⟩ n
    unfold epsNbr
    simp only
    split
    · exact ⟨i1, i2⟩
    · rename_i hg
      have hg' : InGrid w h (nbr t c.2 n) := inGrid_iff.1 (by simpa using hg)
      split
      · exact ⟨i1, i2⟩
      · split
        · refine ⟨i1, fun e he => ?_⟩
          simp only [List.mem_append, List.mem_singleton, ← or_assoc] at he
          rcases he with he | rfl
          · exact i2 e he
          · exact hnd
        · split
          · refine ⟨fun d hd => ?_, fun e he => ?_⟩
            · show P (Function.update s.elev _ _ d)
              by_cases e : d = nbr t c.2 n
              · rw [e, Function.update_self]; exact hP _ hc
              · rw [Function.update_of_ne e]; exact i1 d hd
            · simp only [List.mem_append, List.mem_singleton, ← or_assoc] at he
              rcases he with he | rfl
              · exact i2 e he
              · exact hP _ hc
          · refine ⟨i1, fun e he => ?_⟩
            simp only [pq.mem_push] at he
            rcases he with (rfl | he) | he
            · exact i1 _ hg'
            · exact i2 e (.inl he)
            · exact i2 e (.inr he)
  have hstep : ∀ s s', Inv s → epsStep pq w h t nodata next s = some s' → Inv s' := by
    intro s s' hs hst
    unfold epsStep at hst
    cases hn : epsNext pq nodata s with
    | none => simp only [hn] at hst; cases hst
    | some cs =>
      obtain ⟨c, s1⟩ := cs
      simp only [hn, Option.some.injEq] at hst
      have hc : P c.1 ∧ Inv s1 := by
        unfold epsNext at hn
        obtain ⟨i1, i2⟩ := hs
        cases hp : s.pitQ with
        | nil =>
          simp only [hp] at hn
          cases hpop : pq.pop s.openQ with
          | none => simp only [hpop] at hn; cases hn
          | some cr =>
            obtain ⟨c', r⟩ := cr
            simp only [hpop, Option.some.injEq, Prod.mk.injEq] at hn
            obtain ⟨rfl, rfl⟩ := hn
            have hm := (pq.pop_some hpop).1
            refine ⟨i2 _ (.inl (hm.mem_iff.2 (by simp))), i1, fun e he => i2 e ?_⟩
            rcases he with he | he
            · exact .inl (hm.mem_iff.2 (by simp [show e ∈ r from he]))
            · exact .inr (hp ▸ he)
        | cons p rest =>
          simp only [hp] at hn
          have hfront : ∀ z, s1 = { s with pitQ := rest, pitTop := z } → c = p → P c.1 ∧ Inv s1 := by
            rintro z rfl rfl
            refine ⟨i2 _ (.inr (by simp [hp])), i1, fun e he => i2 e ?_⟩
            rcases he with he | he
            · exact .inl he
            · exact .inr (by rw [hp]; simp [show e ∈ rest from he])
          cases hpop : pq.pop s.openQ with
          | none =>
            simp only [hpop, Option.some.injEq, Prod.mk.injEq] at hn
            exact hfront _ hn.2.symm hn.1.symm
          | some cr =>
            obtain ⟨c', r⟩ := cr
            simp only [hpop] at hn
            split at hn
            · simp only [Option.some.injEq, Prod.mk.injEq] at hn
              obtain ⟨rfl, rfl⟩ := hn
              have hm := (pq.pop_some hpop).1
              refine ⟨i2 _ (.inl (hm.mem_iff.2 (by simp))), i1, fun e he => i2 e ?_⟩
              rcases he with he | he
              · exact .inl (hm.mem_iff.2 (by simp [show e ∈ r from he]))
              · exact .inr (hp ▸ he)
            · simp only [Option.some.injEq, Prod.mk.injEq] at hn
              exact hfront _ hn.2.symm hn.1.symm
      rw [← hst]
      exact foldl_inv' Inv _ _ (fun s n _ hs => hnbr c hc.1 s hs n) hc.2
  have hinit : Inv (epsInit pq w h nodata dem) := by
    refine ⟨hdem, fun e he => ?_⟩
    simp only [epsInit, pq.mem_pushAll, List.mem_map, List.not_mem_nil, or_false] at he
    obtain ⟨c, hc, rfl⟩ := he
    exact hdem c ((mem_perimeter hw hh).1 hc).1
  exact (loop_inv Inv hstep _ _ hinit).1

/-- C105: with `-g` the program's output for a single-precision DEM has a strictly descending path from every cell
to the edge or to NoData, as its help text promises: saving loses nothing.  (`next` is the single-precision
successor.) -/
theorem C105_gradient_partial (pq : PQ (ℚ × Cell) zLt) (next : Dtype → ℚ → ℚ) (loadLine argv : String) (m : PyMem)
    (hm : m.WF) (f : GFile) (q : ℚ) (hd : f.dt = .f32) (hq : f.noData = some q) (h6 : f.geo.length = 6)
    (hw : 0 < f.w) (hh : 0 < f.h) (hnext : ∀ z, z < next .f32 z) (hfl : ∀ z, IsFloat 24 z → IsFloat 24 (next .f32 z))
    (hb : ∀ c, InGrid f.w f.h c → IsFloat 24 (f.band c)) (hqf : IsFloat 24 q) (hq0 : q ≤ 0)
    (hnd : ∀ c, InGrid f.w f.h c → q ≤ f.band c) :
    ∃ out, fillTool pq next true loadLine argv m f = .ok out ∧ out.w = f.w ∧ out.h = f.h ∧ out.noData = some q ∧
      (∀ c, InGrid f.w f.h c → f.band c ≤ out.band c ∧
        ∃ p, StrictDescent f.w f.h .D8 out.band (fun e => f.band e = q) c p) := by
  have hnd0 : castT f.dt (overload (.float q)) = some q := by
    rw [hd]; simp only [overload, castT, intRange, roundBits_float 24 (by norm_num) q hqf]
  obtain ⟨m1, a, e1, _, hV, hk, h3, h4, h5, hN, hc, hmd⟩ :=
    loaded m hm f loadLine argv q q (by rw [hd]; simp [Readable]) hq hnd0
  set d := addAnalysis a argv with hdd
  have hdt : d.dt = .f32 := h5.trans hd
  set el := (priorityFloodEpsilon pq d.v.w d.v.h .D8 q (next d.dt) (d.cells m1)).elev with hel
  have hf : fillFun pq next true .D8 d.dt d.v.w d.v.h q (d.cells m1) = some el := by
    simp only [fillFun, if_true]
    rw [if_neg (by omega)]
  obtain ⟨m2, k1, _, _, k4⟩ := C91_in_place_partial (fillFun pq next true .D8) "FillDepressions(dem, epsilon=True)"
    m1 d q hN hV hk (by omega) (by omega) _ hf
  have hall : ∀ c, q ≤ d.cells m1 c := by
    intro c
    by_cases hcg : InGrid f.w f.h c
    · rw [hc c hcg]; exact hnd c hcg
    · show q ≤ d.v.cells m1 c
      have : inGrid d.v.w d.v.h c = false := inGrid_false.2 (by rw [h3, h4]; exact hcg)
      simp only [NdView.cells, this, Bool.false_eq_true, if_false]
      exact hq0
  have hdr := C10_epsilon_drains pq d.v.w d.v.h .D8 q (next d.dt) (by rw [hdt]; exact hnext) (d.cells m1) hall
    (by omega) (by omega)
  have hcl := epsilon_closed pq d.v.w d.v.h .D8 q (next d.dt) (d.cells m1) (by omega) (by omega) (IsFloat 24)
    (by rw [hdt]; exact hfl) hqf (by rw [h3, h4]; intro c hc'; rw [hc c hc']; exact hb c hc')
  rw [← hel] at hdr hcl
  set o := annotated d "FillDepressions(dem, epsilon=True)" q with ho
  have hs := saved_ok m2 o q f.geo h6 (by show d.md.geo = _; rw [hmd]) rfl
  have hT : fillTool pq next true loadLine argv m f = saved m2 o := by
    have k1' : fillDepressions pq next true true (some .D8) m1 (addAnalysis a argv) = .ok m2 o none := k1
    unfold fillTool
    simp only [e1, k1']
  rw [h3, h4] at hdr hcl k4
  have hband : ∀ c, InGrid f.w f.h c → roundBits 24 (o.cells m2 c) = el c := by
    intro c hc'
    rw [k4 c hc', roundBits_float 24 (by norm_num) _ (hcl c hc')]
  refine ⟨_, hT.trans hs, h3, h4, ?_, fun c hc' => ?_⟩
  · show some (noDataOf d.dt q).toDouble = some q
    rw [hdt]; rfl
  · refine ⟨?_, ?_⟩
    · show f.band c ≤ roundBits 24 (o.cells m2 c)
      rw [hband c hc', ← hc c hc']
      exact hdr.1 c
    · obtain ⟨p, p1, p2, p3, e, p4, p5⟩ := hdr.2.2.2 c hc'
      refine ⟨p, p1, p2, ?_, e, p4, ?_⟩
      · refine List.IsChain.imp_of_mem_imp ?_ p3
        intro x y hx hy hxy
        refine ⟨hxy.1, ?_⟩
        show roundBits 24 (o.cells m2 y) < roundBits 24 (o.cells m2 x)
        rw [hband y (p2 y hy), hband x (p2 x hx)]
        exact hxy.2
      · rcases p5 with p5 | p5
        · exact .inl p5
        · right
          have heg := p2 e (List.mem_of_getLast? p4)
          rw [← hc e heg]; exact p5

/-- The successor of a positive number of at most 53 binary digits with one digit before the point. -/
def ulp53 : Dtype → ℚ → ℚ := fun _ z => z + 1 / 2 ^ 52

/-- A double-precision raster with a pit: 1 around 0. -/
def pit64 : GFile := ⟨3, 3, .f64, fun c => if c = (1, 1) then 0 else 1, some (-9999), [0, 1, 0, 0, 0, -1], "", []⟩

def toolRows : ToolOut → Option (List (List ℚ))
  | .ok f => some (toRows f.w f.h f.band)
  | _ => none

/-- C105, refuted part: with `-g` on a double-precision DEM the gradient is lost on saving: the pit of `pit64` is
filled to 1+2⁻⁵² in memory, but written as 1, so no neighbour of the middle cell is lower. -/
theorem C105_gradient_refuted :
    toolRows (fillTool zPQ ulp53 true "load" "rd_depression_filling -g" ⟨fun _ => none, 0⟩ pit64) =
      some [[1, 1, 1], [1, 1, 1], [1, 1, 1]] := by
  decide +kernel

/-- C105, refuted part: the breaching program never breaches.  For every file it writes the elevations it read
(rounded to single precision), and the history has no line for the breaching. -/
theorem C105_breach_tool_refuted (pq : PQ (ℚ × Cell) zLt) (top : Dtype → ℚ) (loadLine argv : String) (m : PyMem)
    (hm : m.WF) (f : GFile) (q : ℚ) (hd : Readable f.dt) (hq : f.noData = some q) (hgood : GoodNoData f.dt q)
    (h6 : f.geo.length = 6) (hw : 0 < f.w) (hh : 0 < f.h) :
    ∃ out, breachTool pq top loadLine argv m f = .ok out ∧ out.w = f.w ∧ out.h = f.h ∧
      out.hist = f.hist ++ [loadLine, argv] ∧ out.noData = some q ∧
      ∀ c, InGrid f.w f.h c → out.band c = roundBits 24 (f.band c) := by
  obtain ⟨nd, hnd⟩ := (goodNoData_cast hd).1 hgood
  obtain ⟨m1, a, e1, hm1, hV, hk, h3, h4, h5, hN, hc, hmd⟩ := loaded m hm f loadLine argv q nd hd hq hnd
  set d := addAnalysis a argv with hdd
  obtain ⟨m2, r, k1, k2, _, _, _, _, _, _, _, _⟩ := C91_not_in_place (breachFun pq top .D8)
    "BreachDepressions(dem)" m1 hm1 d nd hN (by omega) (by omega) _ rfl
  have hcells : d.cells m2 = d.cells m1 := by
    obtain ⟨b, hb, _⟩ := hV
    funext c
    simp only [RdArr.cells, NdView.cells, k2 _ (by rw [hb]; simp)]
  have k1' : breachDepressions pq top false (some .D8) m1 (addAnalysis a argv) = .ok m2 d (some r) := k1
  have hT : breachTool pq top loadLine argv m f = .ok ⟨d.v.w, d.v.h, .f32, fun c => roundBits 24 (d.cells m2 c),
      some q, f.geo, f.proj, f.hist ++ [loadLine] ++ [argv]⟩ := by
    unfold breachTool saved saveGDAL
    simp only [e1, k1']
    rw [hmd]
    simp only [PyGeo.coefs, h6, if_true, PyNum.toDouble]
  refine ⟨_, hT, h3, h4, by simp, rfl, fun c hc' => ?_⟩
  show roundBits 24 (d.cells m2 c) = _
  rw [hcells, hc c hc']

/-- So the output need not drain: a pit stays a pit. -/
theorem C105_breach_pit_refuted :
    toolRows (breachTool zPQ (fun _ => 1000) "load" "rd_breach_depressions" ⟨fun _ => none, 0⟩ pit64) =
      some [[1, 1, 1], [1, 0, 1], [1, 1, 1]] := by
  decide +kernel

/-- C105: the accumulation program writes the accumulation computed by the method's C++ function, NoData -1,
rounded to single precision: exact where it is a single-precision number, such as a whole number up to 2²⁴. -/
theorem C105_accum_tool_partial (impl : String → Option ℚ → CAcc) (method : String) (exponent : Option ℚ)
    (loadLine argv line : String) (m : PyMem) (hm : m.WF) (f : GFile) (q : ℚ) (hd : Readable f.dt)
    (hq : f.noData = some q) (hgood : GoodNoData f.dt q) (h6 : f.geo.length = 6) (hw : 0 < f.w) (hh : 0 < f.h)
    (fa : CAcc) (hfa : faccFor impl method exponent = some fa)
    (hdef : ∀ nd g1 g2, (fa f.dt f.w f.h nd g1 f.w f.h g2).isSome) :
    ∃ (out : GFile) (nd : ℚ) (g1 g2 acc : Cell → ℚ),
      accumTool impl method exponent loadLine argv line m f = .ok out ∧
      castT f.dt (overload (.float q)) = some nd ∧ (∀ c, InGrid f.w f.h c → g1 c = f.band c ∧ g2 c = 1) ∧
      fa f.dt f.w f.h nd g1 f.w f.h g2 = some acc ∧ out.w = f.w ∧ out.h = f.h ∧ out.noData = some (-1) ∧
      out.hist = f.hist ++ [loadLine, argv, line] ∧ out.geo = f.geo ∧ out.proj = f.proj ∧
      ∀ c, InGrid f.w f.h c → out.band c = roundBits 24 (acc c) ∧ (IsFloat 24 (acc c) → out.band c = acc c) := by
  obtain ⟨nd, hnd⟩ := (goodNoData_cast hd).1 hgood
  obtain ⟨m1, a, e1, hm1, hV, hk, h3, h4, h5, hN, hc, hmd⟩ := loaded m hm f loadLine argv q nd hd hq hnd
  set d := addAnalysis a argv with hdd
  obtain ⟨acc, hacc⟩ := Option.isSome_iff_exists.1
    (hdef nd (d.cells m1) (fun c => if inGrid f.w f.h c then 1 else 0))
  obtain ⟨m2, r, k1, _, _, kdt, kw, kh, knd, khist, kgeo, kproj, kc⟩ := C91_accumulation_partial fa line m1 hm1 d false nd hN hV hk
    (by omega) (by omega) acc (by rw [h3, h4, h5]; exact hacc)
  have k1' : flowAccumulation fa line m1 (addAnalysis a argv) none false = .ok m2 d (some r) := k1
  have hgeo : r.md.geo = some (.tuple f.geo) := by rw [kgeo, hmd]
  have hT : accumTool impl method exponent loadLine argv line m f = .ok ⟨r.v.w, r.v.h, .f32,
      fun c => roundBits 24 (r.cells m2 c), some (-1), f.geo, r.md.proj, r.md.hist⟩ := by
    unfold accumTool saved saveGDAL
    simp only [e1, hfa, k1', hgeo, knd, PyGeo.coefs, h6, if_true, PyNum.toDouble]
  refine ⟨_, nd, _, _, acc, hT, hnd, ?_, hacc, kw.trans h3, kh.trans h4, rfl, ?_, rfl, ?_, ?_⟩
  · intro c hc'
    exact ⟨hc c hc', by simp only [inGrid_iff.2 hc', if_true]⟩
  · show r.md.hist = _
    rw [khist, hmd]; simp
  · show r.md.proj = _
    rw [kproj, hmd]
  · intro c hc'
    have e : r.cells m2 c = acc c := kc c (by rw [h3, h4]; exact hc')
    refine ⟨by rw [← e], fun hfl => ?_⟩
    show roundBits 24 (r.cells m2 c) = _
    rw [e, roundBits_float 24 (by norm_num) _ hfl]

/-- C105, refuted part: an accumulation of 16777217 cells is written as 16777216. -/
theorem C105_accum_large_refuted : roundBits 24 16777217 = 16777216 := by decide +kernel

/-- C105: the accumulation program accepts exactly the names of the Python function's table, those of Freeman and
Holmgren only with an exponent; everything else raises. -/
theorem C105_methods (impl : String → Option ℚ → CAcc) (method : String) (exponent : Option ℚ) (loadLine argv line : String)
    (m : PyMem) (f : GFile)
    (hbad : method ∉ ["Tarboton", "Dinf", "Quinn", "FairfieldLeymarieD8", "FairfieldLeymarieD4", "Rho8", "Rho4",
      "OCallaghanD8", "OCallaghanD4", "D8", "D4"] ∧ (method ∈ ["Freeman", "Holmgren"] → exponent = none)) :
    accumTool impl method exponent loadLine argv line m f = .raised := by
  have : faccFor impl method exponent = none := by
    unfold faccFor
    rw [if_neg (show method ∉ faccMethods from hbad.1)]
    split
    · rename_i hm'
      rw [hbad.2 hm']; rfl
    · rfl
  unfold accumTool
  cases loadGDAL m f none loadLine with
  | none => rfl
  | some p => simp only [this]

/-- C105, refuted part: the program's help text offers `OCallaghan` and `FairfieldLeymarie` (cli.py:65, 67); both
raise. -/
theorem C105_methods_help_refuted (impl : String → Option ℚ → CAcc) (exponent : Option ℚ) (loadLine argv line : String)
    (m : PyMem) (f : GFile) :
    accumTool impl "OCallaghan" exponent loadLine argv line m f = .raised ∧
    accumTool impl "FairfieldLeymarie" exponent loadLine argv line m f = .raised :=
  ⟨C105_methods _ _ _ _ _ _ _ _ ⟨by decide, fun h => absurd h (by decide)⟩,
   C105_methods _ _ _ _ _ _ _ _ ⟨by decide, fun h => absurd h (by decide)⟩⟩

/-! ### Concrete files -/

/-- An `Int16` file with a pit. -/
def pit16 : GFile := ⟨3, 3, .i16, fun c => if c = (1, 1) then 2 else if c = (2, 1) then 5 else 9, some (-32768),
  [10, 1, 0, 20, 0, -1], "EPSG:1", ["made"]⟩

/-- The round trip of the same file, which meets the hypotheses of `C104_load`, `C104_save` and
`C104_round_trip_partial`. -/
example : (reSave pit16).map (fun f => (toRows f.w f.h f.band, f.noData, f.geo, f.proj, f.hist)) =
    some ([[9, 9, 9], [9, 2, 5], [9, 9, 9]], some (-32768), [10, 1, 0, 20, 0, -1], "EPSG:1", ["made", "load"]) := by
  decide +kernel

/-- The hypotheses of `C105_fill_tool`, `C105_breach_tool_refuted` and `C105_accum_tool_partial` are met. -/
example : Readable pit16.dt ∧ GoodNoData .i16 (-32768) ∧ pit16.geo.length = 6 ∧
    toolRows (fillTool zPQ ulp53 false "load" "argv" ⟨fun _ => none, 0⟩ pit16) = some [[9, 9, 9], [9, 5, 5], [9, 9, 9]] ∧
    toolRows (accumTool (fun _ _ => rowAcc) "D8" none "load" "argv" "acc" ⟨fun _ => none, 0⟩ pit16) =
      some [[1, 2, 3], [1, 2, 3], [1, 2, 3]] :=
  ⟨by simp [Readable, pit16], C105_no_data_bad.2.2.2.2.1, rfl, by decide +kernel, by decide +kernel⟩

end RichDEM.Py
