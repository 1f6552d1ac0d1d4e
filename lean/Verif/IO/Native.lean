import Mathlib.Data.List.Basic
import Mathlib.Data.Nat.Digits.Defs
import Mathlib.Tactic.Ring

/-!
Model of the native raster cache: `Array2D::saveToCache`, `loadNative`, `dumpData`, `loadData`
(include/richdem/common/Array2D.hpp:201-281, 441-479), without compression, on a little-endian
machine with 32-bit `xy_t`/`i_t`, 64-bit `size_type` and 8-byte doubles (kept as bit patterns).
-/

namespace RichDEM

abbrev Byte := Fin 256

/-- The `n` low-order bytes of `v`, least significant first. -/
def leEnc : Nat → Nat → List Byte
  | 0, _ => []
  | n + 1, v => ⟨v % 256, Nat.mod_lt _ (by decide)⟩ :: leEnc n (v / 256)

/-- The number with the given little-endian bytes. -/
def leDec : List Byte → Nat
  | [] => 0
  | b :: bs => b.val + 256 * leDec bs

theorem leEnc_length (n v : Nat) : (leEnc n v).length = n := by
  induction n generalizing v with
  | zero => rfl
  | succ n ih => simp [leEnc, ih]

theorem leDec_leEnc (n v : Nat) (h : v < 256 ^ n) : leDec (leEnc n v) = v := by
  induction n generalizing v with
  | zero => simp at h; simp [leEnc, leDec, h]
  | succ n ih =>
    simp only [leEnc, leDec]
    rw [ih (v / 256) (by rw [Nat.div_lt_iff_lt_mul (by decide), ← Nat.pow_succ]; exact h)]
    omega

/-- How the bytes of a cell type are laid out in memory. -/
structure Codec (T : Type) where
  size : Nat
  enc : T → List Byte
  dec : List Byte → T
  len : ∀ x, (enc x).length = size
  dec_enc : ∀ x, dec (enc x) = x

/-- Fixed-width words. -/
def wordCodec (n : Nat) : Codec (BitVec (8 * n)) where
  size := n
  enc v := leEnc n v.toNat
  dec bs := BitVec.ofNat (8 * n) (leDec bs)
  len v := leEnc_length n _
  dec_enc v := by
    apply BitVec.eq_of_toNat_eq
    have : v.toNat < 256 ^ n := by
      have := v.isLt
      rwa [Nat.pow_mul] at this
    rw [leDec_leEnc n _ this, BitVec.toNat_ofNat, Nat.mod_eq_of_lt v.isLt]

abbrev Word32 := BitVec (8 * 4)
abbrev Word64 := BitVec (8 * 8)

/-- Memory of an array of `T`. -/
def encAll {T : Type} (c : Codec T) (l : List T) : List Byte := l.flatMap c.enc

/-- `n` consecutive cells read from memory. -/
def decAll {T : Type} (c : Codec T) : Nat → List Byte → List T
  | 0, _ => []
  | n + 1, bs => c.dec (bs.take c.size) :: decAll c n (bs.drop c.size)

/-- Array2D.hpp:90-129: the members the cache stores. -/
structure NRaster (T : Type) where
  height : Word32
  width : Word32
  xoff : Word32
  yoff : Word32
  ndc : Word32
  noData : T
  geo : List Word64
  projection : List Byte
  data : List T
deriving DecidableEq

/-- `(uint64_t)width0*(uint64_t)height0` of Array2D.hpp:856. -/
def cellsOf (w h : Word32) : Nat := (w.signExtend 64 * h.signExtend 64).toNat

/-- Array2D.hpp:496 (`size()`), an `int` product converted to `i_t`. -/
def sizeOf32 (w h : Word32) : Nat := (w * h).toNat

/-- Array2D.hpp:209-243: the bytes `saveToCache` writes; `none` when it reads outside
`geotransform` (fewer than six entries) or outside the cell storage. -/
def saveToCache {T : Type} (c : Codec T) (r : NRaster T) : Option (List Byte) :=
  if r.geo.length < 6 then none
  else if r.data.length < sizeOf32 r.width r.height then none
  else some (
    (wordCodec 4).enc r.height ++ ((wordCodec 4).enc r.width ++ ((wordCodec 4).enc r.xoff ++
    ((wordCodec 4).enc r.yoff ++ ((wordCodec 4).enc r.ndc ++ (c.enc r.noData ++
    (encAll (wordCodec 8) (r.geo.take 6) ++
    ((wordCodec 8).enc (BitVec.ofNat _ r.projection.length) ++ (r.projection ++
    encAll c (r.data.take (sizeOf32 r.width r.height)))))))))))

/-- A `std::istream` on a file: what is left, and `good()`. -/
structure IStream where
  rest : List Byte
  ok : Bool

/-- `istream::read(p, n)` into memory holding `old` (`old.length = n`): nothing once the stream
has failed; on a short read the available bytes are stored and the stream fails. -/
def IStream.read (s : IStream) (n : Nat) (old : List Byte) : List Byte × IStream :=
  if s.ok = false then (old, s)
  else if n ≤ s.rest.length then (s.rest.take n, ⟨s.rest.drop n, true⟩)
  else (s.rest ++ old.drop s.rest.length, ⟨[], false⟩)

/-- Reads into a variable. -/
def IStream.readVar {T : Type} (c : Codec T) (s : IStream) (old : T) : T × IStream :=
  let p := s.read c.size (c.enc old)
  (c.dec p.1, p.2)

/-- Reads into an array. -/
def IStream.readArr {T : Type} (c : Codec T) (s : IStream) (old : List T) : List T × IStream :=
  let p := s.read (old.length * c.size) (encAll c old)
  (decAll c old.length p.1, p.2)

/-- `std::vector::resize(6)` / `std::string::resize(n, ' ')`. -/
def resizeTo {α : Type} (n : Nat) (fill : α) (l : List α) : List α :=
  l.take n ++ List.replicate (n - l.length) fill

/-- Bytes as an array of `char`. -/
def byteCodec : Codec Byte where
  size := 1
  enc b := [b]
  dec bs := bs.headD 0
  len _ := rfl
  dec_enc _ := rfl

/-- Array2D.hpp:246-281: `loadNative` into object `o` whose cell storage is empty, from a file
holding `file`.  `lim` is the largest allocation that succeeds, a larger one throws (`none`);
`junk` is the indeterminate initial content of `projection_size`; `dflt` is `T()`. -/
def loadNative {T : Type} (c : Codec T) (lim : Nat) (dflt : T) (junk : Word64)
    (o : NRaster T) (file : List Byte) (loadData : Bool) : Option (NRaster T) :=
  let s : IStream := ⟨file, true⟩
  let (height, s) := s.readVar (wordCodec 4) o.height
  let (width, s) := s.readVar (wordCodec 4) o.width
  let (xoff, s) := s.readVar (wordCodec 4) o.xoff
  let (yoff, s) := s.readVar (wordCodec 4) o.yoff
  let (ndc, s) := s.readVar (wordCodec 4) o.ndc
  let (noData, s) := s.readVar c o.noData
  let (geo, s) := s.readArr (wordCodec 8) (resizeTo 6 0 o.geo)
  let (ps, s) := s.readVar (wordCodec 8) junk
  if ps.toNat > lim then none
  else
    let (proj, s) := s.readArr byteCodec (resizeTo ps.toNat 32 o.projection)
    if loadData then
      if cellsOf width height > lim then none
      else
        let (data, _) := s.readArr c (List.replicate (cellsOf width height) dflt)
        some ⟨height, width, xoff, yoff, ndc, noData, geo, proj, data⟩
    else some ⟨height, width, xoff, yoff, ndc, noData, geo, proj, o.data⟩

/-- Array2D.hpp:448-451: `dumpData`, returning the file and the emptied raster (`clear()`,
Array2D.hpp:1093-1095). -/
def dumpData {T : Type} (c : Codec T) (r : NRaster T) : Option (List Byte × NRaster T) :=
  (saveToCache c r).map fun f => (f, { r with data := [] })

/-- Array2D.hpp:460-465: `loadData` after `dumpData` (`from_cache` is set); throws when data is
already in memory. -/
def loadData {T : Type} (c : Codec T) (lim : Nat) (dflt : T) (junk : Word64) (o : NRaster T)
    (file : List Byte) : Option (NRaster T) :=
  if o.data ≠ [] then none else loadNative c lim dflt junk o file true

/-! ### Lemmas -/

theorem encAll_length {T : Type} (c : Codec T) (l : List T) :
    (encAll c l).length = l.length * c.size := by
  induction l with
  | nil => simp [encAll]
  | cons a l ih =>
    simp only [encAll, List.flatMap_cons, List.length_append, c.len, List.length_cons] at *
    rw [ih]; ring

theorem encAll_append {T : Type} (c : Codec T) (l m : List T) :
    encAll c (l ++ m) = encAll c l ++ encAll c m := by simp [encAll]

theorem decAll_encAll {T : Type} (c : Codec T) (l : List T) (bs : List Byte) :
    decAll c l.length (encAll c l ++ bs) = l := by
  induction l with
  | nil => rfl
  | cons a l ih =>
    have h1 : (c.enc a ++ (encAll c l ++ bs)).take c.size = c.enc a := by
      rw [List.take_left' (c.len a)]
    have h2 : (c.enc a ++ (encAll c l ++ bs)).drop c.size = encAll c l ++ bs := by
      rw [List.drop_left' (c.len a)]
    have h3 : encAll c (a :: l) ++ bs = c.enc a ++ (encAll c l ++ bs) := by simp [encAll]
    rw [h3, List.length_cons, decAll, h1, h2, ih, c.dec_enc]

theorem readVar_ok {T : Type} (c : Codec T) (x old : T) (rest : List Byte) :
    (⟨c.enc x ++ rest, true⟩ : IStream).readVar c old = (x, ⟨rest, true⟩) := by
  have h : c.size ≤ (c.enc x ++ rest).length := by
    rw [List.length_append, c.len]; omega
  simp only [IStream.readVar, IStream.read, Bool.true_eq_false, if_false, h, if_true]
  rw [List.take_left' (c.len x), List.drop_left' (c.len x), c.dec_enc]

theorem readArr_ok {T : Type} (c : Codec T) (l old : List T) (rest : List Byte)
    (h : old.length = l.length) :
    (⟨encAll c l ++ rest, true⟩ : IStream).readArr c old = (l, ⟨rest, true⟩) := by
  have e := encAll_length c l
  have hle : old.length * c.size ≤ (encAll c l ++ rest).length := by
    rw [List.length_append, e, h]; omega
  simp only [IStream.readArr, IStream.read, Bool.true_eq_false, if_false, hle, if_true]
  rw [h, List.take_left' e, List.drop_left' e]
  have := decAll_encAll c l []
  rw [List.append_nil] at this
  rw [this]

theorem encAll_byte (l : List Byte) : encAll byteCodec l = l := by
  induction l with
  | nil => rfl
  | cons a l ih => rw [show a :: l = [a] ++ l from rfl, encAll_append, ih]; rfl

theorem resizeTo_length {α : Type} (n : Nat) (f : α) (l : List α) :
    (resizeTo n f l).length = n := by
  simp [resizeTo]; omega

/-- A short (or complete) read of an array: the complete cells of the file, the cell cut by the
end of the file mixed with the old one, the old cells after it. -/
theorem readArr_short {T : Type} (c : Codec T) (l old : List T) (k : Nat) (h : old.length = l.length)
    (hk : k ≤ l.length) :
    ((⟨encAll c (l.take k), true⟩ : IStream).readArr c old).1 = l.take k ++ old.drop k := by
  have hlen : (l.take k).length = k := by rw [List.length_take]; omega
  have e : (encAll c (l.take k)).length = k * c.size := by rw [encAll_length, hlen]
  have e2 : (encAll c (old.take k)).length = k * c.size := by
    rw [encAll_length, List.length_take]; congr 1; omega
  have key : decAll c old.length (encAll c (l.take k ++ old.drop k)) = l.take k ++ old.drop k := by
    have hl : old.length = (l.take k ++ old.drop k).length := by
      rw [List.length_append, hlen, List.length_drop]; omega
    rw [hl]
    have := decAll_encAll c (l.take k ++ old.drop k) []
    rwa [List.append_nil] at this
  simp only [IStream.readArr, IStream.read, Bool.true_eq_false, if_false]
  split
  · rename_i hle
    have : old.length * c.size = k * c.size := by
      have : k * c.size ≤ old.length * c.size := Nat.mul_le_mul_right _ (by omega)
      omega
    rw [this, ← e, List.take_length]
    have hd : encAll c (old.drop k) = [] := by
      apply List.eq_nil_of_length_eq_zero
      rw [encAll_length, List.length_drop, Nat.sub_mul]; omega
    rw [encAll_append, hd, List.append_nil] at key
    exact key
  · have hd : (encAll c old).drop (encAll c (l.take k)).length = encAll c (old.drop k) := by
      conv_lhs => rw [← List.take_append_drop k old]
      rw [encAll_append, e, List.drop_left' e2]
    simp only
    rw [hd, ← encAll_append]
    exact key

/-- The header of a cache file. -/
def header {T : Type} (c : Codec T) (r : NRaster T) : List Byte :=
  (wordCodec 4).enc r.height ++ ((wordCodec 4).enc r.width ++ ((wordCodec 4).enc r.xoff ++
    ((wordCodec 4).enc r.yoff ++ ((wordCodec 4).enc r.ndc ++ (c.enc r.noData ++
    (encAll (wordCodec 8) (r.geo.take 6) ++
    ((wordCodec 8).enc (BitVec.ofNat _ r.projection.length) ++ r.projection)))))))

/-- Loading a file that starts with the header of `r`: everything but the cells is that of `r`,
the cells are read from the rest of the file. -/
theorem loadNative_header {T : Type} (c : Codec T) (lim : Nat) (dflt : T) (junk : Word64)
    (o r : NRaster T) (body : List Byte) (hg : r.geo.length = 6)
    (hp : r.projection.length ≤ lim) (hp' : r.projection.length < 2 ^ 64)
    (hc : cellsOf r.width r.height ≤ lim) :
    loadNative c lim dflt junk o (header c r ++ body) true =
      some { r with data := ((⟨body, true⟩ : IStream).readArr c
        (List.replicate (cellsOf r.width r.height) dflt)).1 } ∧
    loadNative c lim dflt junk o (header c r ++ body) false = some { r with data := o.data } := by
  have hge : r.geo.take 6 = r.geo := by rw [List.take_of_length_le (by omega)]
  have hpl : (BitVec.ofNat (8 * 8) r.projection.length).toNat = r.projection.length := by
    rw [BitVec.toNat_ofNat, Nat.mod_eq_of_lt hp']
  have hproj : ∀ l : List Byte, l.length = r.projection.length →
      (⟨r.projection ++ body, true⟩ : IStream).readArr byteCodec l =
        (r.projection, ⟨body, true⟩) := by
    intro l hl
    have := readArr_ok byteCodec r.projection l body hl
    rwa [encAll_byte] at this
  have hgeo := readArr_ok (wordCodec 8) r.geo (resizeTo 6 0 o.geo)
    ((wordCodec 8).enc (BitVec.ofNat _ r.projection.length) ++ (r.projection ++ body))
    (by rw [resizeTo_length, hg])
  constructor <;>
  · simp only [loadNative, header, List.append_assoc, hge, readVar_ok, hgeo, hpl,
      Nat.not_lt.2 hp, Nat.not_lt.2 hc, if_false,
      hproj _ (resizeTo_length _ _ _)]
    simp

end RichDEM
