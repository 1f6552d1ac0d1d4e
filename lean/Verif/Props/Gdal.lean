import Verif.IO.Gdal

/-!
C86 — windows and georeferencing of rasters that are read and written through GDAL;
C87 — metadata and the processing history.
-/

namespace RichDEM
namespace Gdal

/-! ## Specification -/

/-- Where GDAL puts the corner of pixel `(x, y)` (comment of Array2D.hpp:1145-1151). -/
def GT.world (g : GT) (x y : ℚ) : ℚ × ℚ := (g.g0 + x * g.g1 + y * g.g2, g.g3 + x * g.g4 + y * g.g5)

/-- The raster covers the `w × h` window of the file that starts at `(x0, y0)`. -/
def Covers {E : Type} (a : Arr E) (f : File E) (x0 y0 w h : Int) : Prop :=
  a.width = w ∧ a.height = h ∧ 0 ≤ x0 ∧ 0 ≤ y0 ∧ x0 + w ≤ f.width ∧ y0 + h ≤ f.height ∧
    ∀ x y, 0 ≤ x → x < w → 0 ≤ y → y < h → a.cells x y = f.band (x0 + x) (y0 + y)

/-- A file with at least one cell, whose width fits an `int` with the margin `resize` asserts, and
whose metadata pointer is null or has entries. -/
structure GoodFile {E : Type} (f : File E) : Prop where
  wpos : 0 < f.width
  hpos : 0 < f.height
  wmax : f.width ≤ maxXY - 2
  hmax : f.height ≤ maxXY
  md : f.mdata ≠ some []

/-! ## C86 -/

theorem processMetadata_good {E : Type} {f : File E} (g : GoodFile f) :
    processMetadata f.mdata = .ok [] := by
  have := g.md
  unfold processMetadata
  match hm : f.mdata with
  | none => rfl
  | some [] => exact absurd hm this
  | some (m :: ms) => simp [metaLoop]

theorem partSize_pos {off part total : Int} (h1 : off < total) (h2 : 0 < part) :
    partSize off part total = min part (total - off) := by
  unfold partSize
  dsimp only
  split_ifs <;> omega

theorem partSize_whole {total : Int} (h1 : 0 < total) : partSize 0 0 total = total := by
  unfold partSize
  dsimp only
  split_ifs <;> omega

theorem loadGDAL_ok {E : Type} {f : File E} (hm : processMetadata f.mdata = .ok [])
    {x0 y0 pw ph : Int} {ex : Bool} {a : Arr E} (ha : loadGDAL f x0 y0 pw ph ex = .ok a) :
    a = { width := partSize x0 pw f.width
          height := partSize y0 ph f.height
          cells := fun x y => f.band (x0 + x) (y0 + y)
          geotransform := f.geotransform
          projection := f.projection
          noData := f.noData
          xoff := x0
          yoff := y0
          metadata := [] } ∧
      ¬ (partSize x0 pw f.width < 0 ∨ partSize y0 ph f.height < 0 ∨
        maxXY - 2 < partSize x0 pw f.width) ∧
      ¬ (x0 < 0 ∨ y0 < 0 ∨ f.width < x0 + partSize x0 pw f.width ∨
        f.height < y0 + partSize y0 ph f.height) ∧
      ¬ (ex = true ∧ (f.width - x0 ≠ pw ∨ f.height - y0 ≠ ph)) := by
  unfold loadGDAL at ha
  rw [hm] at ha
  unfold loadWindow at ha
  dsimp only at ha
  by_cases he : ex = true ∧ (f.width - x0 ≠ pw ∨ f.height - y0 ≠ ph)
  · rw [if_pos he] at ha; simp at ha
  rw [if_neg he] at ha
  by_cases ho : maxXY < x0 + pw ∨ maxXY < y0 + ph
  · rw [if_pos ho] at ha; simp at ha
  rw [if_neg ho] at ha
  unfold loadData at ha
  dsimp only at ha
  by_cases hneg : partSize x0 pw f.width < 0 ∨ partSize y0 ph f.height < 0 ∨
      maxXY - 2 < partSize x0 pw f.width
  · rw [if_pos hneg] at ha; simp at ha
  rw [if_neg hneg] at ha
  unfold rasterRead at ha
  by_cases hwin : x0 < 0 ∨ y0 < 0 ∨ f.width < x0 + partSize x0 pw f.width ∨
      f.height < y0 + partSize y0 ph f.height
  · rw [if_pos hwin] at ha; simp at ha
  rw [if_neg hwin] at ha
  simp only [Res.ok.injEq] at ha
  exact ⟨ha.symm, hneg, hwin, he⟩

/-- **C86.** A window that starts inside the file and asks for at least one cell each way is
loaded: the raster is the part of the window that lies in the file, cell by cell, with the
file's NoData value, geotransform and projection. -/
theorem C86_window {E : Type} (f : File E) (gf : GoodFile f) (x0 y0 pw ph : Int)
    (hx0 : 0 ≤ x0) (hx : x0 < f.width) (hy0 : 0 ≤ y0) (hy : y0 < f.height)
    (hpw : 0 < pw) (hph : 0 < ph) (ox : x0 + pw ≤ maxXY) (oy : y0 + ph ≤ maxXY) :
    ∃ a, loadGDAL f x0 y0 pw ph false = .ok a ∧
      Covers a f x0 y0 (min pw (f.width - x0)) (min ph (f.height - y0)) ∧
      a.noData = f.noData ∧ a.geotransform = f.geotransform ∧ a.projection = f.projection ∧
      a.xoff = x0 ∧ a.yoff = y0 := by
  have := gf.wmax
  unfold loadGDAL
  rw [processMetadata_good gf]
  unfold loadWindow
  dsimp only
  rw [if_neg (by simp), if_neg (by omega)]
  unfold loadData
  dsimp only
  rw [partSize_pos hx hpw, partSize_pos hy hph, if_neg (by omega)]
  unfold rasterRead
  rw [if_neg (by omega)]
  exact ⟨_, rfl, ⟨rfl, rfl, hx0, hy0, by omega, by omega, fun _ _ _ _ _ _ => rfl⟩,
    rfl, rfl, rfl, rfl, rfl⟩

/-- **C86.** Without a window the whole file is loaded. -/
theorem C86_whole {E : Type} (f : File E) (gf : GoodFile f) :
    ∃ a, loadGDAL f 0 0 0 0 false = .ok a ∧ Covers a f 0 0 f.width f.height ∧
      a.noData = f.noData ∧ a.geotransform = f.geotransform ∧ a.projection = f.projection ∧
      a.xoff = 0 ∧ a.yoff = 0 := by
  have := gf.wmax
  have := gf.wpos
  have := gf.hpos
  unfold loadGDAL
  rw [processMetadata_good gf]
  unfold loadWindow
  dsimp only
  rw [if_neg (by simp), if_neg (by unfold maxXY; omega)]
  unfold loadData
  dsimp only
  rw [partSize_whole gf.wpos, partSize_whole gf.hpos, if_neg (by omega)]
  unfold rasterRead
  rw [if_neg (by omega)]
  exact ⟨_, rfl, ⟨rfl, rfl, le_refl _, le_refl _, by omega, by omega, fun _ _ _ _ _ _ => rfl⟩,
    rfl, rfl, rfl, rfl, rfl⟩

/-- **C86.** Exactly these windows load: on each axis either the whole file (offset and size zero)
or a window that starts inside the file and has at least one cell. -/
theorem C86_loads_iff {E : Type} (f : File E) (gf : GoodFile f) (x0 y0 pw ph : Int)
    (ox : x0 + pw ≤ maxXY) (oy : y0 + ph ≤ maxXY) :
    (∃ a, loadGDAL f x0 y0 pw ph false = .ok a) ↔
      ((0 ≤ x0 ∧ x0 < f.width ∧ 0 < pw) ∨ (x0 = 0 ∧ pw = 0)) ∧
      ((0 ≤ y0 ∧ y0 < f.height ∧ 0 < ph) ∨ (y0 = 0 ∧ ph = 0)) := by
  have := gf.wmax
  have := gf.wpos
  have := gf.hpos
  constructor
  · rintro ⟨a, ha⟩
    obtain ⟨-, hneg, hwin, -⟩ := loadGDAL_ok (processMetadata_good gf) ha
    have hX : partSize x0 pw f.width = f.width ∧ (x0 = 0 ∧ pw = 0 ∨ x0 ≥ f.width ∨ pw = 0 ∨
        0 < pw ∧ x0 = 0) ∨ partSize x0 pw f.width ≠ 0 ∧ (partSize x0 pw f.width = pw ∨
        pw ≥ f.width - x0 ∧ partSize x0 pw f.width = f.width - x0) := by
      unfold partSize
      dsimp only
      split_ifs <;> omega
    have hY : partSize y0 ph f.height = f.height ∧ (y0 = 0 ∧ ph = 0 ∨ y0 ≥ f.height ∨ ph = 0 ∨
        0 < ph ∧ y0 = 0) ∨ partSize y0 ph f.height ≠ 0 ∧ (partSize y0 ph f.height = ph ∨
        ph ≥ f.height - y0 ∧ partSize y0 ph f.height = f.height - y0) := by
      unfold partSize
      dsimp only
      split_ifs <;> omega
    omega
  · rintro ⟨hX, hY⟩
    have eX : 0 ≤ partSize x0 pw f.width ∧ 0 ≤ x0 ∧ x0 + partSize x0 pw f.width ≤ f.width := by
      unfold partSize
      dsimp only
      split_ifs <;> omega
    have eY : 0 ≤ partSize y0 ph f.height ∧ 0 ≤ y0 ∧ y0 + partSize y0 ph f.height ≤ f.height := by
      unfold partSize
      dsimp only
      split_ifs <;> omega
    unfold loadGDAL
    rw [processMetadata_good gf]
    unfold loadWindow
    dsimp only
    rw [if_neg (by simp), if_neg (by omega)]
    unfold loadData
    dsimp only
    rw [if_neg (by omega)]
    unfold rasterRead
    rw [if_neg (by omega)]
    exact ⟨_, rfl⟩

/-- **C86.** Whatever is loaded comes from inside the file: no successful load has a cell that is
not the file's cell at the requested offset, and none is wider than asked for. -/
theorem C86_sound {E : Type} (f : File E) (gf : GoodFile f) (x0 y0 pw ph : Int) (exact : Bool)
    (a : Arr E) (ha : loadGDAL f x0 y0 pw ph exact = .ok a) :
    Covers a f x0 y0 a.width a.height ∧ (0 < pw → a.width ≤ pw) ∧ (0 < ph → a.height ≤ ph) := by
  have := gf.wpos
  have := gf.hpos
  obtain ⟨rfl, hneg, hwin, -⟩ := loadGDAL_ok (processMetadata_good gf) ha
  refine ⟨⟨rfl, rfl, by omega, by omega, by dsimp only; omega, by dsimp only; omega,
    fun _ _ _ _ _ _ => rfl⟩, ?_, ?_⟩
  · dsimp only
    intro hp
    have : partSize x0 pw f.width = f.width ∧ x0 ≥ f.width ∨ partSize x0 pw f.width = pw ∨
        pw ≥ f.width - x0 ∧ partSize x0 pw f.width = f.width - x0 := by
      unfold partSize
      dsimp only
      split_ifs <;> omega
    omega
  · dsimp only
    intro hp
    have : partSize y0 ph f.height = f.height ∧ y0 ≥ f.height ∨ partSize y0 ph f.height = ph ∨
        ph ≥ f.height - y0 ∧ partSize y0 ph f.height = f.height - y0 := by
      unfold partSize
      dsimp only
      split_ifs <;> omega
    omega

/-- **C86, what fails.** Size zero means "to the edge" only from offset zero: with any other offset
inside the file the load always throws, for every file. -/
theorem C86_zero_size_refuted {E : Type} (f : File E) (gf : GoodFile f) (x0 y0 ph : Int)
    (hx0 : 0 < x0) (hx : x0 < f.width) (hy : y0 < f.height)
    (hph : 0 < ph) (oy : y0 + ph ≤ maxXY) :
    loadGDAL f x0 y0 0 ph false = .throws := by
  have := gf.wmax
  unfold loadGDAL
  rw [processMetadata_good gf]
  unfold loadWindow
  dsimp only
  have e : partSize x0 0 f.width = f.width := by
    unfold partSize
    dsimp only
    split_ifs <;> omega
  rw [if_neg (by simp), if_neg (by omega)]
  unfold loadData
  dsimp only
  rw [e, partSize_pos hy hph, if_neg (by omega)]
  unfold rasterRead
  rw [if_pos (by omega)]

/-- **C86.** `exact` accepts a window only if it ends exactly at the right and bottom edges of the
file: an interior tile of the right size is refused. -/
theorem C86_exact {E : Type} (f : File E) (gf : GoodFile f) (x0 y0 pw ph : Int)
    (hx0 : 0 ≤ x0) (hx : x0 < f.width) (hy0 : 0 ≤ y0) (hy : y0 < f.height)
    (hpw : 0 < pw) (hph : 0 < ph) (ox : x0 + pw ≤ maxXY) (oy : y0 + ph ≤ maxXY) :
    (∃ a, loadGDAL f x0 y0 pw ph true = .ok a) ↔ x0 + pw = f.width ∧ y0 + ph = f.height := by
  have e : x0 + pw = f.width → y0 + ph = f.height →
      loadGDAL f x0 y0 pw ph true = loadGDAL f x0 y0 pw ph false := by
    intro h1 h2
    unfold loadGDAL
    rw [processMetadata_good gf]
    unfold loadWindow
    dsimp only
    rw [if_neg (by rintro ⟨-, h | h⟩ <;> omega), if_neg (c := false = true ∧ _) (by simp)]
  constructor
  · rintro ⟨a, ha⟩
    by_contra hc
    unfold loadGDAL at ha
    rw [processMetadata_good gf] at ha
    unfold loadWindow at ha
    dsimp only at ha
    rw [if_pos ⟨rfl, by omega⟩] at ha
    simp at ha
  · rintro ⟨h1, h2⟩
    rw [e h1 h2]
    obtain ⟨a, ha, -⟩ := C86_window f gf x0 y0 pw ph hx0 hx hy0 hy hpw hph ox oy
    exact ⟨a, ha⟩

/-- **C86.** A raster that is saved and loaded again has the same size, cells, NoData value,
projection and geotransform (the stand-in, if it had none). -/
theorem C86_save_load {E : Type} (a : Arr E) (time prog op : Str)
    (hw : 0 < a.width) (hh : 0 < a.height) (hwm : a.width ≤ maxXY - 2) (hhm : a.height ≤ maxXY)
    (hg : a.geotransform = [] ∨ a.geotransform.length = 6) :
    ∃ f a', saveGDAL a time prog op 0 0 = .ok (f, a') ∧ GoodFile f ∧
      ∃ b, loadGDAL f 0 0 0 0 false = .ok b ∧ b.width = a.width ∧ b.height = a.height ∧
        (∀ x y, 0 ≤ x → x < a.width → 0 ≤ y → y < a.height → b.cells x y = a.cells x y) ∧
        b.noData = a.noData ∧ b.projection = a.projection ∧
        b.geotransform = (if a.geotransform = [] then defaultGT else a.geotransform) := by
  have key : ∀ g, outGT a.geotransform 0 0 = .ok g →
      (match g with | some g => g.toList | none => defaultGT) =
        (if a.geotransform = [] then defaultGT else a.geotransform) →
      ∃ f a', saveGDAL a time prog op 0 0 = .ok (f, a') ∧ GoodFile f ∧
      ∃ b, loadGDAL f 0 0 0 0 false = .ok b ∧ b.width = a.width ∧ b.height = a.height ∧
        (∀ x y, 0 ≤ x → x < a.width → 0 ≤ y → y < a.height → b.cells x y = a.cells x y) ∧
        b.noData = a.noData ∧ b.projection = a.projection ∧
        b.geotransform = (if a.geotransform = [] then defaultGT else a.geotransform) := by
    intro g hgo hgt
    unfold saveGDAL
    rw [hgo]
    refine ⟨_, _, rfl, ⟨hw, hh, hwm, hhm, ?_⟩, ?_⟩
    · dsimp only
      unfold render
      split_ifs with h0
      · simp
      · simpa using h0
    · obtain ⟨b, hb, hc, hn, hgb, hp, -⟩ := C86_whole
        { width := a.width
          height := a.height
          band := a.cells
          gt := g
          projection := a.projection
          noData := a.noData
          mdata := render (setItems (historyAfterSave time prog op a.metadata)
            (mapSet keySoftware prog (mapSet keyDateTime time []))) }
        ⟨hw, hh, hwm, hhm, by
          dsimp only
          unfold render
          split_ifs with h0
          · simp
          · simpa using h0⟩
      refine ⟨b, hb, hc.1, hc.2.1, ?_, hn, hp, ?_⟩
      · intro x y h1 h2 h3 h4
        have := hc.2.2.2.2.2.2 x y h1 h2 h3 h4
        simpa using this
      · rw [hgb, ← hgt]
        rfl
  rcases hg with hg | hg
  · refine key none (by rw [hg]; rfl) (by rw [hg]; rfl)
  · obtain ⟨g0, g1, g2, g3, g4, g5, e⟩ : ∃ g0 g1 g2 g3 g4 g5,
        a.geotransform = [g0, g1, g2, g3, g4, g5] := by
      match hl : a.geotransform, hg with
      | [g0, g1, g2, g3, g4, g5], _ => exact ⟨g0, g1, g2, g3, g4, g5, rfl⟩
    refine key (some ⟨g0, g1, g2, g3, g4, g5⟩) (by rw [e]; simp [outGT]) (by rw [e]; rfl)

/-- **C86.** A geotransform that has neither zero nor six entries makes saving throw. -/
theorem C86_bad_geotransform {E : Type} (a : Arr E) (time prog op : Str) (x y : Int)
    (h0 : a.geotransform ≠ []) (h6 : a.geotransform.length ≠ 6) :
    saveGDAL a time prog op x y = .throws := by
  unfold saveGDAL
  have : outGT a.geotransform x y = .throws := by
    unfold outGT
    match hl : a.geotransform with
    | [] => exact absurd hl h0
    | [_] => rfl
    | [_, _] => rfl
    | [_, _, _] => rfl
    | [_, _, _, _] => rfl
    | [_, _, _, _, _] => rfl
    | [_, _, _, _, _, _] => rw [hl] at h6; exact absurd rfl h6
    | _ :: _ :: _ :: _ :: _ :: _ :: _ :: _ => rfl
  rw [this]

/-- **C86.** A window that is loaded and saved with its own offsets keeps its place in the world —
every cell of the new file has the world coordinates of the cell it was read from — exactly if
the file's rotation terms do not matter for the offsets. In particular north-up rasters
(`g2 = g4 = 0`) keep their place. -/
theorem C86_tile_place {E : Type} (f : File E) (g : GT) (hg : f.gt = some g) (gf : GoodFile f)
    (x0 y0 pw ph : Int) (time prog op : Str) (a : Arr E)
    (ha : loadGDAL f x0 y0 pw ph false = .ok a) :
    ∃ t a' g', saveGDAL a time prog op a.xoff a.yoff = .ok (t, a') ∧ t.gt = some g' ∧
      ((∀ x y : ℚ, g'.world x y = g.world (x0 + x) (y0 + y)) ↔
        (y0 : ℚ) * g.g2 = 0 ∧ (x0 : ℚ) * g.g4 = 0) := by
  have hax : a.geotransform = g.toList ∧ a.xoff = x0 ∧ a.yoff = y0 := by
    obtain ⟨rfl, -⟩ := loadGDAL_ok (processMetadata_good gf) ha
    exact ⟨by simp [File.geotransform, hg], rfl, rfl⟩
  obtain ⟨h1, h2, h3⟩ := hax
  unfold saveGDAL
  rw [h1, h2, h3]
  refine ⟨_, _, ⟨g.g0 + x0 * g.g1, g.g1, g.g2, g.g3 + y0 * g.g5, g.g4, g.g5⟩, rfl, rfl, ?_⟩
  simp only [GT.world, Prod.mk.injEq]
  constructor
  · intro h
    have := h 0 0
    constructor <;> linarith [this.1, this.2]
  · rintro ⟨e1, e2⟩ x y
    constructor <;> linarith

/-- **C86.** A window that is loaded and saved with the default offsets 0, 0 is displaced, unless
the offset is nothing in world coordinates. -/
theorem C86_default_offset_refuted {E : Type} (f : File E) (g : GT) (hg : f.gt = some g)
    (gf : GoodFile f) (x0 y0 pw ph : Int) (time prog op : Str) (a : Arr E)
    (ha : loadGDAL f x0 y0 pw ph false = .ok a)
    (hne : g.world x0 y0 ≠ g.world 0 0) :
    ∃ t a' g', saveGDAL a time prog op 0 0 = .ok (t, a') ∧ t.gt = some g' ∧
      ∀ x y : ℚ, g'.world x y ≠ g.world (x0 + x) (y0 + y) := by
  have hax : a.geotransform = g.toList := by
    obtain ⟨rfl, -⟩ := loadGDAL_ok (processMetadata_good gf) ha
    simp [File.geotransform, hg]
  unfold saveGDAL
  rw [hax]
  refine ⟨_, _, g, rfl, by simp, ?_⟩
  intro x y e
  apply hne
  simp only [GT.world, Prod.mk.injEq] at e ⊢
  obtain ⟨e1, e2⟩ := e
  constructor <;> linarith

/-! ### Padding -/

/-- **C86.** Loading with padding puts the window inside a frame of `T()` — not of NoData — and the
frame is as wide as asked for.  Where the window starts is not recorded in the raster. -/
theorem C86_padding {E : Type} (f : File E) (gf : GoodFile f) (zero : E)
    (padx pady x0 y0 pw ph : Nat) (hx : (x0 : Int) < f.width) (hy : (y0 : Int) < f.height)
    (hpw : 0 < pw) (hph : 0 < ph) (hw : f.width + 2 * padx ≤ maxXY - 2) :
    ∃ a, LoadGDAL f zero padx pady x0 y0 pw ph = .ok a ∧
      a.width = min (pw : Int) (f.width - x0) + 2 * padx ∧
      a.height = min (ph : Int) (f.height - y0) + 2 * pady ∧
      (∀ x y : Int, 0 ≤ x → x < min (pw : Int) (f.width - x0) →
        0 ≤ y → y < min (ph : Int) (f.height - y0) →
        a.cells (padx + x) (pady + y) = f.band (x0 + x) (y0 + y)) ∧
      (∀ x y : Int, (x < padx ∨ a.width - padx ≤ x ∨ y < pady ∨ a.height - pady ≤ y) →
        a.cells x y = zero) ∧
      a.xoff = 0 ∧ a.yoff = 0 ∧ a.noData = f.noData ∧ a.projection = f.projection ∧
      a.geotransform = f.geotransform := by
  unfold LoadGDAL
  rw [processMetadata_good gf]
  unfold loadPadded
  dsimp only
  rw [partSize_pos hx (by omega), partSize_pos hy (by omega),
    if_neg (by omega)]
  unfold rasterRead
  rw [if_neg (by omega)]
  refine ⟨_, rfl, rfl, rfl, ?_, ?_, rfl, rfl, rfl, rfl, rfl⟩
  · intro x y h1 h2 h3 h4
    dsimp only
    rw [if_pos (by omega)]
    congr 1 <;> ring
  · intro x y hb
    dsimp only at hb ⊢
    rw [if_neg (by omega)]

/-- **C86.** Without padding `LoadGDAL` loads the same cells as the constructor. -/
theorem C86_LoadGDAL_agrees {E : Type} (f : File E) (gf : GoodFile f) (zero : E)
    (x0 y0 pw ph : Nat) (hx : (x0 : Int) < f.width) (hy : (y0 : Int) < f.height)
    (hpw : 0 < pw) (hph : 0 < ph) :
    ∃ a, LoadGDAL f zero 0 0 x0 y0 pw ph = .ok a ∧
      Covers a f x0 y0 (min (pw : Int) (f.width - x0)) (min (ph : Int) (f.height - y0)) := by
  have := gf.wmax
  obtain ⟨a, ha, h1, h2, h3, -⟩ := C86_padding f gf zero 0 0 x0 y0 pw ph hx hy hpw hph
    (by simpa using this)
  refine ⟨a, ha, by simpa using h1, by simpa using h2, by omega, by omega, by omega, by omega, ?_⟩
  intro x y a1 a2 a3 a4
  have := h3 x y a1 a2 a3 a4
  simpa using this

/-- The file after stripping a padding: size and cells of the unpadded raster. -/
def Stripped {E : Type} (f : File E) (a : Arr E) (padx pady : Nat) : Prop :=
  f.width = a.width - 2 * padx ∧ f.height = a.height - 2 * pady ∧
    ∀ x y : Int, 0 ≤ x → x < f.width → 0 ≤ y → y < f.height →
      f.band x y = a.cells (padx + x) (pady + y)

/-- **C86.** Saving without padding writes every cell. -/
theorem C86_SaveGDAL {E : Type} (a : Arr E) (fresh : E) (time prog op : Str) (x y : Int) (f : File E)
    (hf : SaveGDAL a fresh time prog op x y 0 0 = .ok f) : Stripped f a 0 0 := by
  unfold SaveGDAL at hf
  match hg : outGT a.geotransform x y with
  | .throws => rw [hg] at hf; simp at hf
  | .ub => rw [hg] at hf; simp at hf
  | .ok g =>
    rw [hg] at hf
    simp only [Res.ok.injEq] at hf
    subst hf
    refine ⟨by simp, by simp, ?_⟩
    intro u v h1 h2 h3 h4
    dsimp only at h2 h4 ⊢
    rw [if_pos (by omega)]
    congr 1 <;> omega

/-- **C86, what fails.** Saving with a padding never strips it: for every raster the file keeps the
padded size. -/
theorem C86_strip_refuted {E : Type} (a : Arr E) (fresh : E) (time prog op : Str) (x y : Int)
    (padx pady : Nat) (hp : 0 < padx) (f : File E)
    (hf : SaveGDAL a fresh time prog op x y padx pady = .ok f) :
    f.width = a.width ∧ ¬ Stripped f a padx pady ∧
      ∀ u v, a.width - 2 * padx ≤ u → f.band u v = fresh := by
  unfold SaveGDAL at hf
  match hg : outGT a.geotransform x y with
  | .throws => rw [hg] at hf; simp at hf
  | .ub => rw [hg] at hf; simp at hf
  | .ok g =>
    rw [hg] at hf
    simp only [Res.ok.injEq] at hf
    subst hf
    refine ⟨rfl, ?_, ?_⟩
    · rintro ⟨h1, -⟩
      dsimp only at h1
      omega
    · intro u v hu
      dsimp only
      rw [if_neg (by omega)]

/-- **C86.** What a save with padding does write: the unpadded block, at the top left corner. -/
theorem C86_padded_block_partial {E : Type} (a : Arr E) (fresh : E) (time prog op : Str) (x y : Int)
    (padx pady : Nat) (f : File E) (hf : SaveGDAL a fresh time prog op x y padx pady = .ok f) :
    ∀ u v, u < a.width - 2 * padx → v < a.height - 2 * pady → f.band u v = a.cells (padx + u) (pady + v) := by
  unfold SaveGDAL at hf
  match hg : outGT a.geotransform x y with
  | .throws => rw [hg] at hf; simp at hf
  | .ub => rw [hg] at hf; simp at hf
  | .ok g =>
    rw [hg] at hf
    simp only [Res.ok.injEq] at hf
    subst hf
    intro u v h1 h2
    dsimp only
    rw [if_pos ⟨h1, h2⟩]
    congr 1 <;> omega

/-! ## C87 -/

/-- An entry is split at its first `=`. -/
theorem splitEq_iff (s k v : Str) : splitEq s = some (k, v) ↔ s = k ++ '=' :: v ∧ '=' ∉ k := by
  induction s generalizing k with
  | nil => simp [splitEq]
  | cons c s ih =>
    unfold splitEq
    by_cases hc : c = '='
    · subst hc
      rw [if_pos rfl]
      constructor
      · intro h
        simp only [Option.some.injEq, Prod.mk.injEq] at h
        obtain ⟨rfl, rfl⟩ := h
        simp
      · rintro ⟨h, hk⟩
        cases k with
        | nil => simp at h; simp [h]
        | cons d k =>
          simp only [List.cons_append, List.cons.injEq] at h
          exact absurd (List.mem_cons.2 (.inl h.1)) hk
    · rw [if_neg hc]
      constructor
      · intro h
        obtain ⟨⟨k', v'⟩, h1, h2⟩ := Option.map_eq_some_iff.1 h
        simp only [Prod.mk.injEq] at h2
        obtain ⟨rfl, rfl⟩ := h2
        obtain ⟨h3, h4⟩ := (ih k').1 h1
        exact ⟨by rw [h3]; rfl, fun h5 => by
          rcases List.mem_cons.1 h5 with h6 | h6
          · exact hc h6.symm
          · exact h4 h6⟩
      · rintro ⟨h, hk⟩
        cases k with
        | nil => simp at h; exact absurd h.1 hc
        | cons d k =>
          simp only [List.cons_append, List.cons.injEq] at h
          rw [(ih k).2 ⟨h.2, fun h5 => hk (List.mem_cons.2 (.inr h5))⟩, h.1]
          rfl

/-- What the metadata of a file should be read as: every `key=value` entry, the last one for a key
winning, entries without `=` skipped (the loop body of Array2D.hpp:49-62). -/
def addEntry (m : List (Str × Str)) (s : Str) : List (Str × Str) :=
  match splitEq s with
  | some p => mapSet p.1 p.2 m
  | none => m

def readEntries (ms : List Str) : List (Str × Str) := ms.foldl addEntry []

theorem mapGet_set (k v j : Str) (m : List (Str × Str)) :
    mapGet j (mapSet k v m) = if j = k then some v else mapGet j m := by
  induction m with
  | nil => simp [mapSet, mapGet, eq_comm]
  | cons p m ih =>
    obtain ⟨k', v'⟩ := p
    unfold mapSet
    by_cases h : k' = k
    · subst h
      rw [if_pos rfl]
      simp only [mapGet]
      by_cases hj : j = k'
      · subst hj; simp
      · rw [if_neg hj, if_neg (Ne.symm hj), if_neg (Ne.symm hj)]
    · rw [if_neg h]
      simp only [mapGet]
      by_cases h2 : k' = j
      · subst h2
        rw [if_pos rfl, if_pos rfl, if_neg h]
      · rw [if_neg h2, if_neg h2, ih]

theorem mapSet_ne_nil (k v : Str) (m : List (Str × Str)) : mapSet k v m ≠ [] := by
  match m with
  | [] => simp [mapSet]
  | (k', v') :: m => unfold mapSet; split_ifs <;> simp

theorem historyAfterSave_eq (time prog op : Str) (m : List (Str × Str)) :
    historyAfterSave time prog op m =
      mapSet keyHistory (((mapGet keyHistory m).getD []) ++ ('\n' :: entry time prog) ++ op)
        (mapSet keyHistory (((mapGet keyHistory m).getD []) ++ ('\n' :: entry time prog)) m) := by
  unfold historyAfterSave
  dsimp only
  rw [if_pos (mapSet_ne_nil _ _ _), mapGet_set, if_pos rfl]
  rfl

/-- **C87, what fails.** Reading a file loses all its metadata: for every file with metadata the
map is empty, whatever the entries. -/
theorem C87_metadata_lost_refuted {E : Type} (f : File E) (ms : List Str) (hm : f.mdata = some ms)
    (hne : ms ≠ []) (x0 y0 pw ph : Int) (exact : Bool) (a : Arr E)
    (ha : loadGDAL f x0 y0 pw ph exact = .ok a) :
    a.metadata = [] ∧
      (∀ s ∈ ms, ∀ p, splitEq s = some p → mapGet p.1 (readEntries ms) ≠ mapGet p.1 a.metadata) := by
  have hp : processMetadata f.mdata = .ok [] := by
    rw [hm]
    match ms, hne with
    | m :: ms, _ => simp [processMetadata, metaLoop]
  have h1 : a.metadata = [] := by
    obtain ⟨rfl, -⟩ := loadGDAL_ok hp ha
    rfl
  refine ⟨h1, ?_⟩
  intro s hs p hsp
  rw [h1]
  have key : ∀ (l : List Str) (m : List (Str × Str)), (s ∈ l ∨ mapGet p.1 m ≠ none) →
      mapGet p.1 (l.foldl addEntry m) ≠ none := by
    intro l
    induction l with
    | nil =>
      intro m hml
      rcases hml with h | h
      · simp at h
      · exact h
    | cons t l ih =>
      intro m hml
      apply ih
      rcases hml with h | h
      · rcases List.mem_cons.1 h with h | h
        · right
          subst h
          unfold addEntry
          rw [hsp]
          simp [mapGet_set]
        · exact Or.inl h
      · right
        unfold addEntry
        cases splitEq t with
        | some q =>
          dsimp only
          rw [mapGet_set]
          split_ifs
          · simp
          · exact h
        | none => exact h
  exact key ms [] (Or.inl hs)

/-- **C87, what fails.** A list of entries that is there but empty makes loading undefined. -/
theorem C87_empty_list_refuted {E : Type} (f : File E) (hm : f.mdata = some []) (x0 y0 pw ph : Int)
    (exact : Bool) : loadGDAL f x0 y0 pw ph exact = .ub := by
  unfold loadGDAL
  rw [hm]
  rfl

/-- The history item of a raster or of a file. -/
def history (m : List (Str × Str)) : Str := (mapGet keyHistory m).getD []

/-- **C87.** Each save appends one line — time, program, operation — to the history of the raster
in memory and changes no other item. -/
theorem C87_save_appends {E : Type} (a a' : Arr E) (f : File E) (time prog op : Str) (x y : Int)
    (hs : saveGDAL a time prog op x y = .ok (f, a')) :
    history a'.metadata = history a.metadata ++ '\n' :: entry time prog ++ op ∧
      ∀ k, k ≠ keyHistory → mapGet k a'.metadata = mapGet k a.metadata := by
  unfold saveGDAL at hs
  match hg : outGT a.geotransform x y with
  | .throws => rw [hg] at hs; simp at hs
  | .ub => rw [hg] at hs; simp at hs
  | .ok g =>
    rw [hg] at hs
    simp only [Res.ok.injEq, Prod.mk.injEq] at hs
    rw [← hs.2]
    dsimp only
    rw [historyAfterSave_eq]
    constructor
    · unfold history
      rw [mapGet_set, if_pos rfl]
      simp
    · intro k hk
      rw [mapGet_set, if_neg hk, mapGet_set, if_neg hk]

theorem mapSet_keys (k v : Str) (m : List (Str × Str)) :
    ∀ j, j ∈ (mapSet k v m).map Prod.fst ↔ j = k ∨ j ∈ m.map Prod.fst := by
  induction m with
  | nil => intro j; simp [mapSet]
  | cons p m ih =>
    intro j
    obtain ⟨k', v'⟩ := p
    unfold mapSet
    split_ifs with e
    · subst e; simp
    · simp only [List.map_cons, List.mem_cons, ih]; tauto

theorem mapSet_nodup (k v : Str) (m : List (Str × Str)) (hm : (m.map Prod.fst).Nodup) :
    ((mapSet k v m).map Prod.fst).Nodup := by
  induction m with
  | nil => simp [mapSet]
  | cons p m ih =>
    obtain ⟨k', v'⟩ := p
    simp only [List.map_cons, List.nodup_cons] at hm
    unfold mapSet
    split_ifs with e
    · subst e; simpa using hm
    · simp only [List.map_cons, List.nodup_cons, mapSet_keys]
      refine ⟨?_, ih hm.2⟩
      rintro (h1 | h1)
      · exact e h1
      · exact hm.1 h1

theorem mapGet_none {k : Str} {m : List (Str × Str)} (hk : k ∉ m.map Prod.fst) : mapGet k m = none := by
  induction m with
  | nil => rfl
  | cons p m ih =>
    obtain ⟨k', v'⟩ := p
    simp only [List.map_cons, List.mem_cons, not_or] at hk
    unfold mapGet
    rw [if_neg (fun e => hk.1 e.symm)]
    exact ih hk.2

theorem mem_of_mapGet {k v : Str} {m : List (Str × Str)} (hg : mapGet k m = some v) : (k, v) ∈ m := by
  induction m with
  | nil => simp [mapGet] at hg
  | cons p m ih =>
    obtain ⟨k', v'⟩ := p
    unfold mapGet at hg
    split_ifs at hg with e
    · subst e; cases hg; simp
    · exact List.mem_cons_of_mem _ (ih hg)

theorem mapGet_setItems (kvs : List (Str × Str)) : ∀ (m : List (Str × Str)), (kvs.map Prod.fst).Nodup →
    ∀ j, mapGet j (setItems kvs m) = (mapGet j kvs).orElse (fun _ => mapGet j m) := by
  induction kvs with
  | nil => intro m _ j; rfl
  | cons p l ih =>
    obtain ⟨k, v⟩ := p
    intro m hn j
    simp only [List.map_cons, List.nodup_cons] at hn
    have e : setItems ((k, v) :: l) m = setItems l (mapSet k v m) := rfl
    rw [e, ih _ hn.2, mapGet_set]
    conv_rhs => rw [mapGet]
    by_cases hj : j = k
    · subst hj
      rw [if_pos rfl, if_pos rfl, mapGet_none hn.1]; rfl
    · rw [if_neg hj, if_neg (fun e => hj e.symm)]

/-- **C87.** The file gets an entry `key=value` for every item of the raster's metadata, with the history just
extended. -/
theorem C87_file_items {E : Type} (a a' : Arr E) (f : File E) (time prog op : Str) (x y : Int)
    (hk : (a.metadata.map Prod.fst).Nodup) (hs : saveGDAL a time prog op x y = .ok (f, a')) :
    ∃ ms, f.mdata = some ms ∧ (∀ k v, mapGet k a'.metadata = some v → k ++ '=' :: v ∈ ms) ∧
      keyHistory ++ '=' :: (history a.metadata ++ '\n' :: entry time prog ++ op) ∈ ms := by
  have happ := (C87_save_appends a a' f time prog op x y hs).1
  unfold saveGDAL at hs
  match hg : outGT a.geotransform x y with
  | .throws => rw [hg] at hs; simp at hs
  | .ub => rw [hg] at hs; simp at hs
  | .ok g =>
    rw [hg] at hs
    simp only [Res.ok.injEq, Prod.mk.injEq] at hs
    obtain ⟨hf, ha⟩ := hs
    have hmd : a'.metadata = historyAfterSave time prog op a.metadata := by rw [← ha]
    have hnd : (a'.metadata.map Prod.fst).Nodup := by
      rw [hmd, historyAfterSave_eq]
      exact mapSet_nodup _ _ _ (mapSet_nodup _ _ _ hk)
    have hhist : mapGet keyHistory a'.metadata = some (history a.metadata ++ '\n' :: entry time prog ++ op) := by
      rw [hmd, historyAfterSave_eq, mapGet_set, if_pos rfl]
      simp [history]
    set items := setItems a'.metadata (mapSet keySoftware prog (mapSet keyDateTime time [])) with hi
    have hfm : f.mdata = render items := by rw [← hf, hi, hmd]
    have hget : ∀ k v, mapGet k a'.metadata = some v → (k, v) ∈ items := by
      intro k v hkv
      apply mem_of_mapGet
      rw [hi, mapGet_setItems _ _ hnd, hkv]; rfl
    have hne : items ≠ [] := List.ne_nil_of_mem (hget _ _ hhist)
    have hr : render items = some (items.map fun p => p.1 ++ '=' :: p.2) := by
      unfold render; rw [if_neg hne]
    have hall : ∀ k v, mapGet k a'.metadata = some v → k ++ '=' :: v ∈ items.map fun p => p.1 ++ '=' :: p.2 :=
      fun k v hkv => List.mem_map.2 ⟨(k, v), hget k v hkv, rfl⟩
    exact ⟨_, hfm.trans hr, hall, hall _ _ hhist⟩

/-- Saves of one raster in memory, one after the other. -/
def saveSeq {E : Type} (prog : Str) (a : Arr E) : List (Str × Str) → Res (Arr E)
  | [] => .ok a
  | (time, op) :: l =>
    match saveGDAL a time prog op 0 0 with
    | .ok (_, a') => saveSeq prog a' l
    | .throws => .throws
    | .ub => .ub

/-- **C87.** After any number of saves the raster's history is the old one and one line per save,
in order. -/
theorem C87_history {E : Type} (prog : Str) (ops : List (Str × Str)) (a b : Arr E)
    (hs : saveSeq prog a ops = .ok b) :
    history b.metadata = history a.metadata ++
      ops.flatMap (fun o => '\n' :: entry o.1 prog ++ o.2) := by
  induction ops generalizing a with
  | nil =>
    simp only [saveSeq, Res.ok.injEq] at hs
    subst hs
    simp
  | cons o l ih =>
    obtain ⟨time, op⟩ := o
    unfold saveSeq at hs
    match hg : saveGDAL a time prog op 0 0 with
    | .throws => rw [hg] at hs; simp at hs
    | .ub => rw [hg] at hs; simp at hs
    | .ok (f, a') =>
      rw [hg] at hs
      dsimp only at hs
      rw [ih a' hs, (C87_save_appends a a' f time prog op 0 0 hg).1]
      simp

/-- A file with these entries is the loader's input; a chain of programs each of which loads the
previous one's output and saves it. -/
def chain {E : Type} (prog : Str) (f : File E) : List (Str × Str) → Res (Arr E)
  | [] => loadGDAL f 0 0 0 0 false
  | (time, op) :: l =>
    match loadGDAL f 0 0 0 0 false with
    | .throws => .throws
    | .ub => .ub
    | .ok a =>
      match saveGDAL a time prog op 0 0 with
      | .ok (f', _) => chain prog f' l
      | .throws => .throws
      | .ub => .ub

/-- **C87, what fails.** Through files no history accumulates: however many programs processed the
raster, the one that loads it finds no history, and the history it writes has only its own
line. -/
theorem C87_chain_refuted {E : Type} (prog : Str) (ops : List (Str × Str)) (f : File E)
    (gf : GoodFile f) (a : Arr E) (hc : chain prog f ops = .ok a) :
    history a.metadata = [] ∧
      ∀ (time op : Str) (f' : File E) (a' : Arr E), saveGDAL a time prog op 0 0 = .ok (f', a') →
        history a'.metadata = '\n' :: entry time prog ++ op := by
  have key : a.metadata = [] := by
    induction ops generalizing f with
    | nil =>
      unfold chain at hc
      obtain ⟨rfl, -⟩ := loadGDAL_ok (processMetadata_good gf) hc
      rfl
    | cons o l ih =>
      obtain ⟨time, op⟩ := o
      obtain ⟨b, hb, hcov, -⟩ := C86_whole f gf
      unfold chain at hc
      rw [hb] at hc
      dsimp only at hc
      match hg : saveGDAL b time prog op 0 0 with
      | .throws => rw [hg] at hc; simp at hc
      | .ub => rw [hg] at hc; simp at hc
      | .ok (f', b') =>
        rw [hg] at hc
        dsimp only at hc
        refine ih f' ?_ hc
        unfold saveGDAL at hg
        match hgt : outGT b.geotransform 0 0 with
        | .throws => rw [hgt] at hg; simp at hg
        | .ub => rw [hgt] at hg; simp at hg
        | .ok g =>
          rw [hgt] at hg
          simp only [Res.ok.injEq, Prod.mk.injEq] at hg
          rw [← hg.1]
          refine ⟨by rw [hcov.1]; exact gf.wpos, by rw [hcov.2.1]; exact gf.hpos,
            by rw [hcov.1]; exact gf.wmax, by rw [hcov.2.1]; exact gf.hmax, ?_⟩
          dsimp only
          unfold render
          split_ifs with h0
          · simp
          · simpa using h0
  refine ⟨by rw [key]; rfl, ?_⟩
  intro time op f' a' hs
  have := (C87_save_appends a a' f' time prog op 0 0 hs).1
  rw [this, key]
  rfl

/-- **C87, what fails.** `saveGDAL` never writes "Unspecified Operation": without an operation
the line just ends. `SaveGDAL` does write it. -/
theorem C87_unspecified_refuted {E : Type} (a a' : Arr E) (f : File E) (time prog : Str) (x y : Int)
    (hs : saveGDAL a time prog [] x y = .ok (f, a')) :
    history a'.metadata = history a.metadata ++ '\n' :: entry time prog ∧
      ∀ m, ∃ p, historyString time prog [] m = p ++ unspecified := by
  refine ⟨by simpa using (C87_save_appends a a' f time prog [] x y hs).1, ?_⟩
  intro m
  exact ⟨_, rfl⟩

/-- **C87.** `SaveGDAL` writes a history that begins with the old one and ends with the time, the
program and the operation. -/
theorem C87_SaveGDAL_history (time prog op : Str) (m : List (Str × Str)) (hop : op ≠ []) :
    historyString time prog op m =
      history m ++ (if history m = [] then [] else ['\n']) ++ entry time prog ++ op := by
  unfold historyString history
  dsimp only
  rw [if_pos hop]
  by_cases h : (mapGet keyHistory m).getD [] = []
  · rw [h]; simp
  · rw [if_pos h, if_neg h]

theorem mapGet_filter (j k : Str) (m : List (Str × Str)) (hj : j ≠ k) :
    mapGet j (m.filter fun kv => kv.1 ≠ k) = mapGet j m := by
  induction m with
  | nil => rfl
  | cons p m ih =>
    obtain ⟨k', v'⟩ := p
    by_cases e : k' = k
    · rw [List.filter_cons_of_neg (by simp [e]), ih]
      conv_rhs => rw [mapGet]
      rw [if_neg (by rw [e]; exact fun h => hj h.symm)]
    · rw [List.filter_cons_of_pos (by simp [e])]
      simp only [mapGet, ih]

/-- **C87.** The file `SaveGDAL` writes has an entry for every item of the raster's metadata, and the history
extended by the time, the program and the operation in place of the old one. -/
theorem C87_SaveGDAL_items {E : Type} (a : Arr E) (f : File E) (fresh : E) (time prog op : Str) (x y : Int)
    (padx pady : Nat) (hk : (a.metadata.map Prod.fst).Nodup) (hop : op ≠ [])
    (hs : SaveGDAL a fresh time prog op x y padx pady = .ok f) :
    ∃ items : List (Str × Str), f.mdata = some (items.map fun p => p.1 ++ '=' :: p.2) ∧
      (∀ k, k ≠ keyHistory → ∀ v, mapGet k a.metadata = some v → (k, v) ∈ items) ∧
      ∀ v, (keyHistory, v) ∈ items ↔
        v = history a.metadata ++ (if history a.metadata = [] then [] else ['\n']) ++ entry time prog ++ op := by
  unfold SaveGDAL at hs
  match hg : outGT a.geotransform x y with
  | .throws => rw [hg] at hs; simp at hs
  | .ub => rw [hg] at hs; simp at hs
  | .ok g =>
    rw [hg] at hs
    simp only [Res.ok.injEq] at hs
    set flt := a.metadata.filter fun kv => kv.1 ≠ keyHistory with hflt
    set base := mapSet keyHistory (historyString time prog op a.metadata)
      (mapSet keySoftware prog (mapSet keyDateTime time [])) with hb
    have hnd : (flt.map Prod.fst).Nodup := hk.sublist (List.filter_sublist.map _)
    have hget := mapGet_setItems flt base hnd
    have hh : mapGet keyHistory (setItems flt base) = some (historyString time prog op a.metadata) := by
      rw [hget, mapGet_none (by
        intro hm
        obtain ⟨p, hp, e⟩ := List.mem_map.1 hm
        have := (List.mem_filter.1 hp).2
        simp [e] at this)]
      simp [hb, mapGet_set]
    have hnd2 : ∀ (l m : List (Str × Str)), (m.map Prod.fst).Nodup → ((setItems l m).map Prod.fst).Nodup := by
      intro l
      induction l with
      | nil => intro m hm; exact hm
      | cons p l ih => intro m hm; exact ih _ (mapSet_nodup _ _ _ hm)
    have hbn : (base.map Prod.fst).Nodup := mapSet_nodup _ _ _ (mapSet_nodup _ _ _ (mapSet_nodup _ _ _ (by simp)))
    have hne : setItems flt base ≠ [] := List.ne_nil_of_mem (mem_of_mapGet hh)
    refine ⟨setItems flt base, ?_, ?_, ?_⟩
    · rw [← hs]
      dsimp only
      unfold render
      rw [if_neg hne]
    · intro k hkh v hv
      apply mem_of_mapGet
      rw [hget, hflt, mapGet_filter k keyHistory _ hkh, hv]
      rfl
    · intro v
      rw [← C87_SaveGDAL_history time prog op a.metadata hop]
      constructor
      · intro hv
        have : mapGet keyHistory (setItems flt base) = some v := by
          have hn := hnd2 flt base hbn
          generalize setItems flt base = l at hv hn
          clear hh hget hne
          induction l with
          | nil => cases hv
          | cons p l ih =>
            obtain ⟨k', v'⟩ := p
            simp only [List.map_cons, List.nodup_cons] at hn
            unfold mapGet
            rcases List.mem_cons.1 hv with e | e
            · cases e; rw [if_pos rfl]
            · rw [if_neg, ih e hn.2]
              rintro rfl
              exact hn.1 (List.mem_map.2 ⟨_, e, rfl⟩)
        rw [hh] at this
        cases this; rfl
      · rintro rfl
        exact mem_of_mapGet hh

/-! ## Concrete cases -/

def exFile : File Int where
  width := 5
  height := 4
  band := fun x y => 10 * y + x
  gt := some ⟨500, 30, 0, 4000, 0, -30⟩
  projection := ['U', 'T', 'M']
  noData := -1
  mdata := some [['A', '=', 'B']]

theorem exFile_good : GoodFile exFile :=
  ⟨by decide, by decide, by decide, by decide, by simp [exFile]⟩

/-- A window in the middle, one over the edge, and the cells read. -/
example : (match loadGDAL exFile 2 1 2 2 false with
      | .ok a => (a.width, a.height, a.cells 0 0, a.cells 1 1, a.metadata.length)
      | _ => (0, 0, 0, 0, 9)) = (2, 2, 12, 23, 0) ∧
    (match loadGDAL exFile 3 3 10 10 false with
      | .ok a => (a.width, a.height, a.cells 1 0) | _ => (0, 0, 0)) = (2, 1, 34) := by
  decide +kernel

example : (match loadGDAL exFile 2 1 0 2 false with | .throws => true | _ => false) = true := by
  decide +kernel

/-- Padding of one cell is loaded and survives the save that should strip it. -/
example : (match LoadGDAL exFile 0 1 1 0 0 5 4 with
      | .ok a => (match SaveGDAL a (-7) [] [] [] 0 0 1 1 with
        | .ok f => (a.width, f.width, f.band 0 0, f.band 4 3, f.band 6 0)
        | _ => (0, 0, 0, 0, 0))
      | _ => (0, 0, 0, 0, 0)) = (7, 7, 0, 34, -7) := by
  decide +kernel

/-- A rotated file: the tile at (2, 1) is displaced. -/
theorem C86_rotated_refuted :
    ∃ (f : File Int) (g : GT) (a a' : Arr Int) (t : File Int) (g' : GT), GoodFile f ∧
      f.gt = some g ∧ loadGDAL f 2 1 2 2 false = .ok a ∧
      saveGDAL a [] [] [] a.xoff a.yoff = .ok (t, a') ∧ t.gt = some g' ∧
      g'.world 0 0 ≠ g.world 2 1 := by
  have gf : GoodFile { exFile with gt := some ⟨0, 1, 1, 0, 1, -1⟩ } :=
    ⟨by decide, by decide, by decide, by decide, by simp [exFile]⟩
  obtain ⟨a, ha, -⟩ := C86_window
    { exFile with gt := some ⟨0, 1, 1, 0, 1, -1⟩ } gf 2 1 2 2 (by decide) (by decide)
    (by decide) (by decide) (by decide) (by decide) (by decide) (by decide)
  obtain ⟨t, a', g', hs, ht, hiff⟩ := C86_tile_place _ ⟨0, 1, 1, 0, 1, -1⟩ rfl gf 2 1 2 2 [] [] [] a ha
  refine ⟨_, _, a, a', t, g', gf, rfl, ha, hs, ht, ?_⟩
  intro e
  have hax : a.geotransform = [0, 1, 1, 0, 1, -1] ∧ a.xoff = 2 ∧ a.yoff = 1 := by
    obtain ⟨rfl, -⟩ := loadGDAL_ok (processMetadata_good gf) ha
    exact ⟨rfl, rfl, rfl⟩
  unfold saveGDAL at hs
  rw [hax.1, hax.2.1, hax.2.2] at hs
  simp only [outGT, Res.ok.injEq, Prod.mk.injEq] at hs
  rw [← hs.1] at ht
  simp only [Option.some.injEq] at ht
  rw [← ht] at e
  simp only [GT.world, Prod.mk.injEq] at e
  norm_num at e

end Gdal
end RichDEM
