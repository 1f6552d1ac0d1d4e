import Verif.IO.Native

/-!
C37 (native cache round trip) and C38 (truncated cache files).
-/

namespace RichDEM

variable {T : Type}

/-- On every raster whose storage fits in fewer than `2^32` cells the two cell counts the code
computes agree. -/
theorem size_agrees (w h : Word32) (hc : cellsOf w h < 2 ^ 32) :
    sizeOf32 w h = cellsOf w h := by
  have h1 : ∀ x : Word32, (x.signExtend 64).toNat % 2 ^ 32 = x.toNat := by
    intro x
    have hx : x.toNat < 2 ^ 32 := x.isLt
    rw [BitVec.toNat_signExtend]
    have : (x.setWidth 64).toNat = x.toNat := by
      rw [BitVec.toNat_setWidth, Nat.mod_eq_of_lt (by omega)]
    rw [this]
    split <;> omega
  have h2 : cellsOf w h % 2 ^ 32 = sizeOf32 w h := by
    unfold cellsOf sizeOf32
    rw [BitVec.toNat_mul, BitVec.toNat_mul, Nat.mod_mod_of_dvd _ (by norm_num),
      Nat.mul_mod, h1, h1]
  rw [← h2, Nat.mod_eq_of_lt hc]

/-- A raster in a consistent state that was given a geotransform: six geotransform entries, as
many cells as its dimensions say, and sizes that can be allocated. -/
structure Savable (lim : Nat) (r : NRaster T) : Prop where
  geo : r.geo.length = 6
  cells : r.data.length = cellsOf r.width r.height
  fits : cellsOf r.width r.height ≤ lim
  proj : r.projection.length ≤ lim

/-- The file is the header followed by the cells. -/
theorem saveToCache_eq {lim : Nat} (hlim : lim < 2 ^ 32) (c : Codec T) (r : NRaster T)
    (h : Savable lim r) : saveToCache c r = some (header c r ++ encAll c r.data) := by
  have hs := size_agrees r.width r.height (by have := h.fits; omega)
  unfold saveToCache header
  rw [if_neg (by rw [h.geo]; decide), if_neg (by rw [hs, h.cells]; omega), hs, ← h.cells,
    List.take_length]
  simp only [List.append_assoc]

/-- **C37.** For every cell type, every consistent raster with a geotransform, and every state
of the object loading it: saving succeeds and loading the file restores dimensions, offsets,
NoData, the data-cell count, geotransform, projection and every cell. -/
theorem C37_round_trip_partial {lim : Nat} (hlim : lim < 2 ^ 32) (c : Codec T) (dflt : T)
    (junk : Word64) (o r : NRaster T) (h : Savable lim r) :
    ∃ file, saveToCache c r = some file ∧
      loadNative c lim dflt junk o file true = some r ∧
      loadNative c lim dflt junk o file false = some { r with data := o.data } := by
  refine ⟨_, saveToCache_eq hlim c r h, ?_, ?_⟩
  · rw [(loadNative_header c lim dflt junk o r _ h.geo h.proj
      (by have := h.proj; omega) h.fits).1]
    have := readArr_ok c r.data (List.replicate (cellsOf r.width r.height) dflt) []
      (by rw [List.length_replicate, h.cells])
    rw [List.append_nil] at this
    rw [this]
  · exact (loadNative_header c lim dflt junk o r _ h.geo h.proj
      (by have := h.proj; omega) h.fits).2

/-- **C37 (dumpData / loadData).** Offloading a raster and loading it again restores it. -/
theorem C37_dump_load_partial {lim : Nat} (hlim : lim < 2 ^ 32) (c : Codec T) (dflt : T)
    (junk : Word64) (r : NRaster T) (h : Savable lim r) :
    ∃ file r', dumpData c r = some (file, r') ∧ r'.data = [] ∧
      loadData c lim dflt junk r' file = some r := by
  obtain ⟨file, h1, h2, _⟩ := C37_round_trip_partial hlim c dflt junk { r with data := [] } r h
  exact ⟨file, { r with data := [] }, by simp [dumpData, h1], rfl, by simp [loadData, h2]⟩

/-- **C37 is false of a raster without a geotransform** (every raster built by
`Array2D(width,height)` and never given one): saving it reads outside the vector. -/
theorem C37_no_geotransform (c : Codec T) (r : NRaster T) (h : r.geo = []) :
    saveToCache c r = none := by simp [saveToCache, h]

/-- **C37**: a raster whose cells were already offloaded cannot be saved again without reading
outside its storage. -/
theorem C37_saving_offloaded (c : Codec T) (r : NRaster T) (h : r.data = [])
    (hs : 0 < sizeOf32 r.width r.height) : saveToCache c r = none := by
  simp [saveToCache, h, hs]

/-- The number of bytes before the cells. -/
theorem header_length (c : Codec T) (r : NRaster T) (hg : r.geo.length = 6) :
    (header c r).length = 76 + c.size + r.projection.length := by
  have e := encAll_length (wordCodec 8) (r.geo.take 6)
  rw [List.length_take, hg] at e
  have e8 : (wordCodec 8).size = 8 := rfl
  simp only [header, List.length_append, (wordCodec 4).len, c.len, (wordCodec 8).len, e, e8]
  have e4 : (wordCodec 4).size = 4 := rfl
  omega

/-- **C38 is false.** For every cell type and raster and every crash point after which only
the first `m` cells have reached the disk, the load reports no error: it returns a raster with
the original dimensions, the first `m` cells, and `T()` everywhere else. -/
theorem C38_truncation_not_detected {lim : Nat} (hlim : lim < 2 ^ 32) (c : Codec T) (dflt : T)
    (junk : Word64) (o r : NRaster T) (h : Savable lim r) (m : Nat) (hm : m ≤ r.data.length) :
    ∃ file, saveToCache c r = some file ∧
      loadNative c lim dflt junk o
          (file.take (76 + c.size + r.projection.length + m * c.size)) true =
        some { r with
          data := r.data.take m ++ List.replicate (r.data.length - m) dflt } := by
  refine ⟨_, saveToCache_eq hlim c r h, ?_⟩
  have hcut : (encAll c r.data).take (m * c.size) = encAll c (r.data.take m) := by
    conv_lhs => rw [← List.take_append_drop m r.data]
    rw [encAll_append, List.take_left']
    rw [encAll_length, List.length_take, Nat.min_eq_left hm]
  have hl := header_length c r h.geo
  have htake : (header c r ++ encAll c r.data).take
      (76 + c.size + r.projection.length + m * c.size) =
      header c r ++ encAll c (r.data.take m) := by
    rw [← hl, List.take_append, List.take_of_length_le (by omega), Nat.add_sub_cancel_left, hcut]
  rw [htake, (loadNative_header c lim dflt junk o r _ h.geo h.proj
    (by have := h.proj; omega) h.fits).1,
    readArr_short c r.data _ m (by rw [List.length_replicate, h.cells]) hm,
    List.drop_replicate, h.cells]

/-- **C38, general crash point.** Whatever prefix of the file survives, as long as it contains
the header the load succeeds: no later crash point is ever reported. -/
theorem C38_never_reports {lim : Nat} (hlim : lim < 2 ^ 32) (c : Codec T) (dflt : T)
    (junk : Word64) (o r : NRaster T) (h : Savable lim r) (k : Nat)
    (hk : 76 + c.size + r.projection.length ≤ k) :
    ∃ file r', saveToCache c r = some file ∧
      loadNative c lim dflt junk o (file.take k) true = some r' ∧
      r' = { r with data := r'.data } ∧ r'.data.length = r.data.length := by
  refine ⟨header c r ++ encAll c r.data,
    { r with data := ((⟨(encAll c r.data).take (k - (header c r).length), true⟩ :
        IStream).readArr c (List.replicate (cellsOf r.width r.height) dflt)).1 },
    saveToCache_eq hlim c r h, ?_, rfl, ?_⟩
  rotate_left
  · have : ∀ n bs, (decAll c n bs).length = n := by
      intro n
      induction n with
      | zero => intro bs; rfl
      | succ n ih => intro bs; simp [decAll, ih]
    simp only [IStream.readArr]
    rw [this, List.length_replicate, h.cells]
  · have hl := header_length c r h.geo
    rw [List.take_append, List.take_of_length_le (by omega)]
    exact (loadNative_header c lim dflt junk o r _ h.geo h.proj
      (by have := h.proj; omega) h.fits).1

/-- **C38 is false, concretely**: a 2×1 raster of bytes loses its second cell without any error,
and the loaded raster differs from the saved one. -/
theorem C38_wrong_contents :
    let r : NRaster Byte := ⟨1, 2, 0, 0, 2, 255, [0, 0, 0, 0, 0, 0], [], [7, 9]⟩
    Savable 1000 r ∧ ∃ file, saveToCache byteCodec r = some file ∧
      ∃ r', loadNative byteCodec 1000 0 0 r (file.take (file.length - 1)) true = some r' ∧
        r'.data = [7, 0] := by
  intro r
  have hs : Savable 1000 r := ⟨rfl, by decide, by decide, by decide⟩
  obtain ⟨file, h1, h2⟩ := C38_truncation_not_detected (by norm_num) byteCodec 0 0 r r hs 1 (by decide)
  refine ⟨hs, file, h1, { r with data := r.data.take 1 ++ List.replicate (r.data.length - 1) 0 },
    ?_, rfl⟩
  have e := saveToCache_eq (lim := 1000) (by norm_num) byteCodec r hs
  rw [h1] at e
  have hl : file.length - 1 = 76 + byteCodec.size + r.projection.length + 1 * byteCodec.size := by
    injection e with e
    rw [e, List.length_append, header_length _ _ hs.geo, encAll_length]
    rfl
  rw [hl]
  exact h2

/-- Non-vacuity of C37: a 2×2 raster of 32-bit cells with a projection string. -/
example : Savable 1000 (⟨2, 2, 0, 0, 4, 5, [1, 2, 3, 4, 5, 6], [65, 66], [10, 20, 30, 40]⟩ :
    NRaster Word32) := ⟨rfl, by decide, by decide, by decide⟩

end RichDEM
