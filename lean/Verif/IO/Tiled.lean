import Verif.DS.LRU
import Verif.DS.Disjoint

/-!
Model of the tile cache of `A2Array2D<T>` (include/richdem/tiled/A2Array2D.hpp) for writable
rasters (`readonly == false`).

A tile is named by its number `ty * W + tx` (in the code: its address).  Its cells in memory and
on disk are functions of the in-tile coordinates: `Props/Native.lean` (C37) proves that
`dumpData` followed by `loadData` restores exactly the cells when the tile has a geotransform;
without one `dumpData` is undefined (C37_no_geotransform), which is kept here as the flag
`hasGeo`.  Reads and writes through `operator()` are single operations (the reference the code
returns is not kept across other accesses).
-/

namespace RichDEM

/-- A2Array2D.hpp:72-88 (`WrappedArray2D`). -/
structure Tile (T : Type) where
  loaded : Bool
  created : Bool
  doSetAll : Bool
  setAllVal : T
  mem : Nat → Nat → T
  hasGeo : Bool

/-- A2Array2D.hpp:61-102.  `quick`/`qw` are `null_tile_quick`/`quick_width_in_tiles`;
`fname` are the tiles' cache file names, `disk` the cache files. -/
structure Tiled (T : Type) where
  tw : Nat
  th : Nat
  W : Nat
  H : Nat
  quick : List Bool
  qw : Nat
  fname : Nat → Nat
  noData : Nat → T
  tiles : Nat → Tile T
  disk : Nat → Option (Nat → Nat → T)
  lru : LRU Nat
  evictions : Nat

namespace Tiled
variable {T : Type}

/-- A2Array2D.hpp:581-583 (`isNullTile`); `none` is a read outside the vector. -/
def isNullTile (s : Tiled T) (tx ty : Nat) : Option Bool := s.quick[ty * s.qw + tx]?

/-- A2Array2D.hpp:82-87 (`lazySetAll`). -/
def lazySetAll (s : Tiled T) (t : Nat) : Tiled T :=
  if (s.tiles t).doSetAll then
    { s with tiles := upd s.tiles t ({ s.tiles t with
        doSetAll := false, mem := fun _ _ => (s.tiles t).setAllVal } : Tile T) }
  else s

/-- A2Array2D.hpp:116-129: making room; `none` is undefined behaviour. -/
def evict (s : Tiled T) : Option (Tiled T) :=
  if s.lru.full then
    match s.lru.back, s.lru.popBack with
    | some b, some l =>
      if (s.tiles b).hasGeo = false then none
      else some { s with
        disk := upd s.disk (s.fname b) (some (s.tiles b).mem)
        tiles := upd s.tiles b { s.tiles b with loaded := false }
        lru := l
        evictions := s.evictions + 1 }
    | _, _ => none
  else some s

/-- A2Array2D.hpp:104-150 (`_LoadTile`) on tile number `t = ty*W+tx`, not a null tile; `none` is
an exception (missing cache file) or undefined behaviour. `dflt` is `T()`. -/
def loadTile (dflt : T) (s : Tiled T) (t : Nat) : Option (Tiled T) :=
  if (s.tiles t).loaded then
    some (({ s with lru := s.lru.insert t }).lazySetAll t)
  else
    match s.evict with
    | none => none
    | some s =>
      let content : Option (Nat → Nat → T) :=
        if (s.tiles t).created then s.disk (s.fname t) else some (fun _ _ => dflt)
      match content with
      | none => none
      | some m =>
        some (({ s with
          tiles := upd s.tiles t { s.tiles t with mem := m, created := true, loaded := true }
          lru := s.lru.insert t }).lazySetAll t)

/-- A2Array2D.hpp:350-370 (`operator()(x,y)`), used as a value. -/
def read (dflt : T) (s : Tiled T) (x y : Nat) : Option (T × Tiled T) :=
  let tx := x / s.tw
  let ty := y / s.th
  let t := ty * s.W + tx
  match s.isNullTile tx ty with
  | none => none
  | some true => some (s.noData t, s)
  | some false =>
    match s.loadTile dflt t with
    | none => none
    | some s' => some ((s'.tiles t).mem (x % s.tw) (y % s.th), s')

/-- A2Array2D.hpp:350-370 (`operator()(x,y) = v`).  On a null tile the assignment goes to the
scratch member `no_data_to_set`. -/
def write (dflt : T) (s : Tiled T) (x y : Nat) (v : T) : Option (Tiled T) :=
  let tx := x / s.tw
  let ty := y / s.th
  let t := ty * s.W + tx
  match s.isNullTile tx ty with
  | none => none
  | some true => some s
  | some false =>
    match s.loadTile dflt t with
    | none => none
    | some s' => some { s' with tiles := upd s'.tiles t { s'.tiles t with
        mem := fun a b => if a = x % s.tw ∧ b = y % s.th then v else (s'.tiles t).mem a b } }

/-- A2Array2D.hpp:428-434 (`setAll`). -/
def setAll (s : Tiled T) (v : T) : Tiled T :=
  { s with tiles := fun t => { s.tiles t with doSetAll := true, setAllVal := v } }

/-- A2Array2D.hpp:250-288: a writable raster made from a template of `W × H` tiles of `tw × th`
cells with null tiles `quick` (row major) and cache file names `fname`; all tiles of the
template have a geotransform (they were opened with GDAL).  `junk` is the uninitialised
`LRU::last`, `noData` the tiles' NoData values. -/
def fromTemplate (tw th W H : Nat) (quick : List Bool) (fname : Nat → Nat) (noData : Nat → T)
    (zero : T) (cachesize : Int) (junk : Nat) : Tiled T :=
  ⟨tw, th, W, H, quick, W, fname, noData,
    fun _ => ⟨false, false, false, zero, fun _ _ => zero, true⟩, fun _ => none,
    (LRU.new junk).setCapacity cachesize, 0⟩

/-- A2Array2D.hpp:226-247: a writable raster from dimensions.  `null_tile_quick` stays empty and
the tiles have no geotransform; `qw` is the uninitialised `quick_width_in_tiles`. -/
def fromDims (tw th W H : Nat) (qw : Nat) (fname : Nat → Nat) (noData : Nat → T)
    (zero : T) (cachesize : Int) (junk : Nat) : Tiled T :=
  ⟨tw, th, W, H, [], qw, fname, noData,
    fun _ => ⟨false, false, false, zero, fun _ _ => zero, false⟩, fun _ => none,
    (LRU.new junk).setCapacity cachesize, 0⟩

/-- Number of tiles held in memory. -/
def resident (s : Tiled T) : Nat :=
  ((List.range (s.W * s.H)).filter fun t => (s.tiles t).loaded).length

/-! ### Refinement -/

/-- The value of an in-tile cell, wherever it is kept. -/
def val (dflt : T) (s : Tiled T) (t a b : Nat) : T :=
  if (s.tiles t).doSetAll then (s.tiles t).setAllVal
  else if (s.tiles t).loaded then (s.tiles t).mem a b
  else if (s.tiles t).created then ((s.disk (s.fname t)).getD (fun _ _ => dflt)) a b
  else dflt

/-- Cache invariant. -/
structure Inv (s : Tiled T) : Prop where
  lru : s.lru.Inv
  mem : ∀ t, t ∈ s.lru.cache ↔ (s.tiles t).loaded = true
  small : ∀ t ∈ s.lru.cache, t < s.W * s.H
  first : s.lru.cache = [] → s.W * s.H ≤ s.lru.last
  bound : s.lru.maxlen < 0 ∨ (0 < s.lru.maxlen ∧ s.lru.len ≤ s.lru.maxlen)
  disk : ∀ t, (s.tiles t).created = true → (s.tiles t).loaded = false →
    (s.disk (s.fname t)).isSome
  cr : ∀ t, (s.tiles t).loaded = true → (s.tiles t).created = true
  geo : ∀ t, (s.tiles t).hasGeo = true
  inj : ∀ t u, t < s.W * s.H → u < s.W * s.H → s.fname t = s.fname u → t = u

/-- The parts no operation changes. -/
structure Same (s s' : Tiled T) : Prop where
  tw : s'.tw = s.tw
  th : s'.th = s.th
  W : s'.W = s.W
  H : s'.H = s.H
  quick : s'.quick = s.quick
  qw : s'.qw = s.qw
  fname : s'.fname = s.fname
  noData : s'.noData = s.noData
  cap : s'.lru.maxlen = s.lru.maxlen

theorem Same.refl (s : Tiled T) : Same s s := ⟨rfl, rfl, rfl, rfl, rfl, rfl, rfl, rfl, rfl⟩

theorem Same.trans {a b c : Tiled T} (h : Same a b) (k : Same b c) : Same a c :=
  ⟨k.tw.trans h.tw, k.th.trans h.th, k.W.trans h.W, k.H.trans h.H, k.quick.trans h.quick,
    k.qw.trans h.qw, k.fname.trans h.fname, k.noData.trans h.noData, k.cap.trans h.cap⟩

theorem lazySetAll_spec (dflt : T) (s : Tiled T) (t : Nat) (I : Inv s)
    (hl : (s.tiles t).loaded = true) :
    Inv (s.lazySetAll t) ∧ Same s (s.lazySetAll t) ∧
      ((s.lazySetAll t).tiles t).loaded = true ∧ ((s.lazySetAll t).tiles t).doSetAll = false ∧
      ∀ u a b, val dflt (s.lazySetAll t) u a b = val dflt s u a b := by
  unfold lazySetAll
  by_cases hd : (s.tiles t).doSetAll = true
  · rw [if_pos hd]
    generalize hT : ({ s.tiles t with
        doSetAll := false, mem := fun _ _ => (s.tiles t).setAllVal } : Tile T) = T1
    have hL : ∀ u, ((upd s.tiles t T1) u).loaded = (s.tiles u).loaded := by
      intro u; by_cases h : u = t
      · subst h; rw [upd_same, ← hT]
      · rw [upd_ne _ _ _ h]
    have hC : ∀ u, ((upd s.tiles t T1) u).created = (s.tiles u).created := by
      intro u; by_cases h : u = t
      · subst h; rw [upd_same, ← hT]
      · rw [upd_ne _ _ _ h]
    have hG : ∀ u, ((upd s.tiles t T1) u).hasGeo = (s.tiles u).hasGeo := by
      intro u; by_cases h : u = t
      · subst h; rw [upd_same, ← hT]
      · rw [upd_ne _ _ _ h]
    refine ⟨⟨I.lru, ?_, I.small, I.first, I.bound, ?_, ?_, ?_, I.inj⟩,
      ⟨rfl, rfl, rfl, rfl, rfl, rfl, rfl, rfl, rfl⟩, ?_, ?_, ?_⟩
    · intro u; simp only [hL]; exact I.mem u
    · intro u h1 h2; simp only [hL, hC] at h1 h2; exact I.disk u h1 h2
    · intro u h1; simp only [hL, hC] at h1 ⊢; exact I.cr u h1
    · intro u; simp only [hG]; exact I.geo u
    · simp only [hL, hl]
    · simp only [upd_same, ← hT]
    · intro u a b
      by_cases h : u = t
      · subst h
        simp [val, upd_same, ← hT, hl, hd]
      · simp only [val, upd_ne _ _ _ h]
  · rw [if_neg hd]
    exact ⟨I, Same.refl s, hl, by simpa using hd, fun _ _ _ => rfl⟩

/-- Making room keeps every value and leaves the wanted tile insertable. -/
theorem evict_spec (dflt : T) (s : Tiled T) (t : Nat) (I : Inv s) (ht : t < s.W * s.H)
    (hl : (s.tiles t).loaded = false) :
    ∃ s', s.evict = some s' ∧ Same s s' ∧ s'.lru.Inv ∧
      (∀ u, u ∈ s'.lru.cache ↔ (s'.tiles u).loaded = true) ∧
      (∀ u ∈ s'.lru.cache, u < s'.W * s'.H) ∧
      ¬ (s'.lru.cache = [] ∧ t = s'.lru.last) ∧
      (s'.lru.maxlen < 0 ∨ s'.lru.len < s'.lru.maxlen) ∧
      (∀ u, (s'.tiles u).created = true → (s'.tiles u).loaded = false →
        (s'.disk (s'.fname u)).isSome) ∧
      (∀ u, (s'.tiles u).loaded = true → (s'.tiles u).created = true) ∧
      (∀ u, (s'.tiles u).hasGeo = true) ∧
      s'.tiles t = s.tiles t ∧
      (∀ u a b, u < s.W * s.H → val dflt s' u a b = val dflt s u a b) := by
  unfold evict
  by_cases hfull : s.lru.full = true
  · rw [if_pos hfull]
    have hlen : s.lru.len = s.lru.maxlen := by simpa [LRU.full] using hfull
    have hne : s.lru.cache ≠ [] := by
      intro h
      have := I.lru.len; rw [h] at this; simp at this
      rcases I.bound with hb | hb <;> omega
    obtain ⟨l, hp, hI, hc, hm, hln⟩ := I.lru.popBack hne
    have hback : s.lru.back = some (s.lru.cache.getLast hne) := List.getLast?_eq_some_getLast hne
    rw [hback, hp]
    simp only
    generalize hb : s.lru.cache.getLast hne = b
    have hbm : b ∈ s.lru.cache := by rw [← hb]; exact List.getLast_mem hne
    have hbl : (s.tiles b).loaded = true := (I.mem b).1 hbm
    have hbs : b < s.W * s.H := I.small b hbm
    have htb : t ≠ b := by rintro rfl; rw [hl] at hbl; cases hbl
    rw [if_neg (by rw [I.geo b]; decide)]
    have hsplit : s.lru.cache = l.cache ++ [b] := by
      rw [hc, ← hb]; exact (List.dropLast_append_getLast hne).symm
    have hbl' : b ∉ l.cache := by
      have := I.lru.nodup; rw [hsplit] at this
      intro h; exact (List.nodup_append.1 this).2.2 b h b (by simp) rfl
    refine ⟨_, rfl, ⟨rfl, rfl, rfl, rfl, rfl, rfl, rfl, rfl, hm⟩, hI, ?_, ?_, ?_, ?_, ?_, ?_, ?_, ?_, ?_⟩
    · intro u
      simp only
      by_cases hu : u = b
      · subst hu; rw [upd_same]; simp [hbl']
      · rw [upd_ne _ _ _ hu, ← I.mem u, hsplit]; simp [hu]
    · intro u hu
      exact I.small u (by rw [hsplit]; simp [show u ∈ l.cache from hu])
    · rintro ⟨he, hlast⟩
      simp only at he hlast
      -- the evicted tile was the head of the list, hence `last`
      have h1 : s.lru.cache = [b] := by rw [hsplit, he]; rfl
      have h2 : l.last = s.lru.last := by
        unfold LRU.popBack at hp
        split at hp
        · cases hp
        · injection hp with hp; rw [← hp]
      rcases I.lru.last with h | h
      · exact hne h
      · rw [h1] at h; simp at h
        rw [hlast, h2, ← h] at htb
        exact htb rfl
    · simp only
      rw [hm, hln]
      rcases I.bound with hb' | hb'
      · exact .inl hb'
      · right; omega
    · intro u h1 h2
      simp only at h1 h2 ⊢
      by_cases hf : s.fname u = s.fname b
      · rw [hf, upd_same]; rfl
      · rw [upd_ne _ _ _ hf]
        have hu : u ≠ b := by rintro rfl; exact hf rfl
        rw [upd_ne _ _ _ hu] at h1 h2
        exact I.disk u h1 h2
    · intro u h1
      simp only at h1 ⊢
      by_cases hu : u = b
      · subst hu; rw [upd_same]; exact I.cr u hbl
      · rw [upd_ne _ _ _ hu] at h1 ⊢; exact I.cr u h1
    · intro u
      simp only
      by_cases hu : u = b
      · subst hu; rw [upd_same]; exact I.geo u
      · rw [upd_ne _ _ _ hu]; exact I.geo u
    · simp only; rw [upd_ne _ _ _ htb]
    · intro u a c hu
      by_cases hub : u = b
      · subst hub
        simp [val, upd_same, hbl, I.cr u hbl]
      · have hf : s.fname u ≠ s.fname b := fun h => hub (I.inj u b hu hbs h)
        simp only [val, upd_ne _ _ _ hub, upd_ne _ _ _ hf]
  · rw [if_neg hfull]
    refine ⟨s, rfl, Same.refl s, I.lru, I.mem, I.small, ?_, ?_, I.disk, I.cr, I.geo, rfl,
      fun _ _ _ _ => rfl⟩
    · rintro ⟨h1, h2⟩; have := I.first h1; omega
    · have : ¬ s.lru.len = s.lru.maxlen := by simpa [LRU.full] using hfull
      rcases I.bound with hb | hb
      · exact .inl hb
      · right; omega

theorem insert_maxlen (l : LRU Nat) (t : Nat) : (l.insert t).maxlen = l.maxlen := by
  unfold LRU.insert; split
  · rfl
  · split <;> rfl

theorem insert_last (l : LRU Nat) (t : Nat) : (l.insert t).last = t := by
  unfold LRU.insert; split
  · rename_i h; exact h.symm
  · split <;> rfl

/-- **Loading a tile.** It always succeeds, keeps the invariant and every cell's value, and
leaves the tile in memory with no pending `setAll`. -/
theorem loadTile_spec (dflt : T) (s : Tiled T) (t : Nat) (I : Inv s) (ht : t < s.W * s.H) :
    ∃ s', s.loadTile dflt t = some s' ∧ Inv s' ∧ Same s s' ∧
      (s'.tiles t).loaded = true ∧ (s'.tiles t).doSetAll = false ∧
      ∀ u a b, u < s.W * s.H → val dflt s' u a b = val dflt s u a b := by
  unfold loadTile
  by_cases hl : (s.tiles t).loaded = true
  · rw [if_pos hl]
    have htc : t ∈ s.lru.cache := (I.mem t).2 hl
    have hne : s.lru.cache ≠ [] := List.ne_nil_of_mem htc
    have hc := I.lru.insert_cache t
    rw [if_neg (by simp [hne])] at hc
    have I' : Inv { s with lru := s.lru.insert t } := by
      refine ⟨I.lru.insert t, ?_, ?_, ?_, ?_, I.disk, I.cr, I.geo, I.inj⟩
      · intro u
        simp only
        rw [← I.mem u, hc, List.mem_cons, I.lru.nodup.mem_erase_iff]
        constructor
        · rintro (rfl | h)
          · exact htc
          · exact h.2
        · intro h; by_cases hu : u = t
          · exact .inl hu
          · exact .inr ⟨hu, h⟩
      · intro u hu
        simp only at hu ⊢
        rw [hc, List.mem_cons] at hu
        rcases hu with rfl | h
        · exact ht
        · exact I.small u (List.mem_of_mem_erase h)
      · intro h; simp only at h; rw [hc] at h; cases h
      · simp only
        rw [insert_maxlen, (I.lru.insert t).len, hc, List.length_cons,
          List.length_erase_of_mem htc]
        have := I.lru.len
        have := List.length_pos_of_mem htc
        rcases I.bound with hb | hb
        · exact .inl hb
        · right; refine ⟨hb.1, ?_⟩; omega
    obtain ⟨a1, a2, a3, a4, a5⟩ := lazySetAll_spec dflt _ t I' hl
    refine ⟨_, rfl, a1, ?_, a3, a4, ?_⟩
    · exact Same.trans (b := { s with lru := s.lru.insert t })
        ⟨rfl, rfl, rfl, rfl, rfl, rfl, rfl, rfl, insert_maxlen _ _⟩ a2
    · intro u a b _; rw [a5]; rfl
  · have hl : (s.tiles t).loaded = false := by simpa using hl
    rw [if_neg (by rw [hl]; decide)]
    obtain ⟨s1, e1, hS, hI, hmem, hsmall, hins, hlen, hdisk, hcr, hgeo, htile, hval⟩ :=
      evict_spec dflt s t I ht hl
    rw [e1]
    simp only
    have hl1 : (s1.tiles t).loaded = false := by rw [htile]; exact hl
    have htc : t ∉ s1.lru.cache := by rw [hmem t, hl1]; decide
    have hc := hI.insert_cache t
    rw [if_neg hins, List.erase_of_not_mem htc] at hc
    have ht1 : t < s1.W * s1.H := by rw [hS.W, hS.H]; exact ht
    -- the content loaded
    obtain ⟨m, hm, hmv⟩ : ∃ m, (if (s1.tiles t).created = true then s1.disk (s1.fname t)
        else some (fun _ _ => dflt)) = some m ∧
        ∀ a b, (s1.tiles t).doSetAll = false → val dflt s1 t a b = m a b := by
      by_cases hcd : (s1.tiles t).created = true
      · rw [if_pos hcd]
        obtain ⟨m, hm⟩ := Option.isSome_iff_exists.1 (hdisk t hcd hl1)
        refine ⟨m, hm, ?_⟩
        intro a b hd
        simp [val, hd, hl1, hcd, hm]
      · rw [if_neg hcd]
        refine ⟨_, rfl, ?_⟩
        intro a b hd
        simp [val, hd, hl1, hcd]
    rw [hm]
    simp only
    generalize hs2 : ({ s1 with
        tiles := upd s1.tiles t { s1.tiles t with mem := m, created := true, loaded := true }
        lru := s1.lru.insert t } : Tiled T) = s2
    have hS2 : Same s1 s2 := by
      subst hs2; exact ⟨rfl, rfl, rfl, rfl, rfl, rfl, rfl, rfl, insert_maxlen _ _⟩
    have h2t : s2.tiles t = { s1.tiles t with mem := m, created := true, loaded := true } := by
      subst hs2; exact upd_same _ _ _
    have h2u : ∀ u, u ≠ t → s2.tiles u = s1.tiles u := by
      intro u hu; subst hs2; exact upd_ne _ _ _ hu
    have h2lru : s2.lru = s1.lru.insert t := by subst hs2; rfl
    have h2disk : s2.disk = s1.disk := by subst hs2; rfl
    have I2 : Inv s2 := by
      refine ⟨by rw [h2lru]; exact hI.insert t, ?_, ?_, ?_, ?_, ?_, ?_, ?_, ?_⟩
      · intro u
        rw [h2lru, hc, List.mem_cons]
        by_cases hu : u = t
        · subst hu; rw [h2t]; simp
        · rw [h2u u hu, ← hmem u]; simp [hu]
      · intro u hu
        rw [h2lru, hc, List.mem_cons] at hu
        rw [hS2.W, hS2.H]
        rcases hu with rfl | hu
        · exact ht1
        · exact hsmall u hu
      · intro h; rw [h2lru, hc] at h; cases h
      · rw [h2lru, insert_maxlen, (hI.insert t).len, hc, List.length_cons]
        have := hI.len
        rcases hlen with hb | hb
        · exact .inl hb
        · right; constructor <;> push_cast <;> omega
      · intro u h1 h2
        rw [h2disk, hS2.fname]
        by_cases hu : u = t
        · subst hu; rw [h2t] at h2; cases h2
        · rw [h2u u hu] at h1 h2; exact hdisk u h1 h2
      · intro u h1
        by_cases hu : u = t
        · subst hu; rw [h2t]
        · rw [h2u u hu] at h1 ⊢; exact hcr u h1
      · intro u
        by_cases hu : u = t
        · subst hu; rw [h2t]; exact hgeo u
        · rw [h2u u hu]; exact hgeo u
      · intro u v hu hv h
        rw [hS2.W, hS2.H, hS.W, hS.H] at hu hv
        rw [hS2.fname, hS.fname] at h
        exact I.inj u v hu hv h
    obtain ⟨a1, a2, a3, a4, a5⟩ := lazySetAll_spec dflt s2 t I2 (by rw [h2t])
    refine ⟨_, rfl, a1, hS.trans (hS2.trans a2), a3, a4, ?_⟩
    intro u a b hu
    rw [a5, ← hval u a b hu]
    by_cases hut : u = t
    · subst hut
      by_cases hd : (s1.tiles u).doSetAll = true
      · simp [val, h2t, hd]
      · have hd : (s1.tiles u).doSetAll = false := by simpa using hd
        rw [hmv a b hd]
        simp [val, h2t, hd]
    · simp only [val, h2u u hut, h2disk, hS2.fname]

end Tiled
end RichDEM
