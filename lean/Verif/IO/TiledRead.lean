import Verif.IO.TiledSave
import Verif.Raster

/-!
Model of the read-only tiled raster: `A2Array2D(layoutfile, cachesize)` (include/richdem/tiled/A2Array2D.hpp:154-224) with
the tile cache for `readonly == true` (104-150), the accessors (329-370, 436-472) and `saveUnifiedGDAL` (525-568), and of
apps/rd_merge_rasters_by_layout.cpp.

A tile is named by its number `ty * W + tx`.  The layout is the rectangular grid of names the layout reader returns (C39);
a file is what GDAL returns for it.  Files are not changed while the raster is open.
-/

namespace RichDEM

/-- A file of the layout: what GDAL returns for it. -/
structure Src (T : Type) where
  w : Nat
  h : Nat
  gt : Gdal.GT
  noData : T
  data : List T

/-- A2Array2D.hpp:72-88 (`WrappedArray2D`, the members used); `mem` is `_data`, empty when nothing is loaded. -/
structure RTile (T : Type) where
  loaded : Bool
  doSetAll : Bool
  setAllVal : T
  mem : List T

/-- A2Array2D.hpp:56-102.  `nullNoData` is the NoData value of a raster that was default-constructed (Array2D.hpp:117), as
the null tiles are. -/
structure ROTiled (T : Type) where
  tw : Nat
  th : Nat
  W : Nat
  H : Nat
  flipH : Bool
  flipV : Bool
  src : List (Option (Src T))
  nullNoData : T
  tiles : Nat → RTile T
  lru : LRU Nat
  evictions : Nat

namespace ROTiled
variable {T : Type}

/-- A2Array2D.hpp:180-181: one step. -/
def maxStep (d : Src T → Nat) (m : Nat) : Option (Src T) → Nat
  | some f => max m (d f)
  | none => m

/-- A2Array2D.hpp:180-181: the largest of a dimension. -/
def maxDim (d : Src T → Nat) (l : List (Option (Src T))) : Nat := l.foldl (maxStep d) 0

/-- A2Array2D.hpp:198-207: a tile has the standard size. -/
def sized (tw th : Nat) : Option (Src T) → Bool
  | some f => f.w == tw && f.h == th
  | none => true

/-- A2Array2D.hpp:154-224: opening a layout (of at least one row, all rows of the same length); `none` is the exception of
line 216. -/
def openLayout (g : List (List (Option (Src T)))) (nullNoData zero : T) (cachesize : Int) (junk : Nat) : Option (ROTiled T) :=
  let all := g.flatten
  let tw := maxDim Src.w all
  let th := maxDim Src.h all
  if all.all (sized tw th) then
    some ⟨tw, th, (g.getLast?.getD []).length, g.length, false, false, all, nullNoData,
      fun _ => ⟨false, false, zero, []⟩, (LRU.new junk).setCapacity cachesize, 0⟩
  else none

/-- A2Array2D.hpp:132-141: reading a tile's file and reorienting it; `none` is undefined behaviour. -/
def orient (flipH flipV : Bool) (f : Src T) : Option (List T) :=
  let r : Raster T := ⟨f.w, f.h, f.data, f.noData, none, true, f.w⟩
  (if (decide (f.gt.g1 < 0)).xor flipH then r.flipHorz else some r).bind fun r =>
    (if (decide (0 < f.gt.g5)).xor flipV then r.flipVert else some r).map (·.data)

/-- A2Array2D.hpp:82-87 (`lazySetAll`). -/
def lazySetAll (s : ROTiled T) (t : Nat) : ROTiled T :=
  if (s.tiles t).doSetAll then
    { s with tiles := upd s.tiles t { s.tiles t with
        doSetAll := false, mem := (s.tiles t).mem.map fun _ => (s.tiles t).setAllVal } }
  else s

/-- A2Array2D.hpp:116-129: making room by dropping a tile; `none` is undefined behaviour. -/
def evict (s : ROTiled T) : Option (ROTiled T) :=
  if s.lru.full then
    match s.lru.back, s.lru.popBack with
    | some b, some l => some { s with
        tiles := upd s.tiles b { s.tiles b with loaded := false, mem := [] }
        lru := l
        evictions := s.evictions + 1 }
    | _, _ => none
  else some s

/-- A2Array2D.hpp:104-150 (`_LoadTile`) on the tile `t` with file `f`; `none` is an exception (`loadData` on data already
loaded) or undefined behaviour. -/
def loadTile (s : ROTiled T) (t : Nat) (f : Src T) : Option (ROTiled T) :=
  if (s.tiles t).loaded then some (({ s with lru := s.lru.insert t }).lazySetAll t)
  else
    match s.evict with
    | none => none
    | some s =>
      if (s.tiles t).mem ≠ [] then none
      else
        match orient s.flipH s.flipV f with
        | none => none
        | some m => some (({ s with
            tiles := upd s.tiles t { s.tiles t with loaded := true, mem := m }
            lru := s.lru.insert t }).lazySetAll t)

/-- A2Array2D.hpp:329-348 (`operator()(tx,ty,x,y)`), used as a value. -/
def read4 (s : ROTiled T) (tx ty px py : Nat) : Option (T × ROTiled T) :=
  match s.src[ty * s.W + tx]? with
  | none => none
  | some none => some (s.nullNoData, s)
  | some (some f) =>
    match s.loadTile (ty * s.W + tx) f with
    | none => none
    | some s' => ((s'.tiles (ty * s.W + tx)).mem[py * f.w + px]?).map fun v => (v, s')

/-- A2Array2D.hpp:350-370 (`operator()(x,y)`), used as a value. -/
def read (s : ROTiled T) (x y : Nat) : Option (T × ROTiled T) :=
  s.read4 (x / s.tw) (y / s.th) (x % s.tw) (y % s.th)

/-- A2Array2D.hpp:350-370 (`operator()(x,y) = v`). -/
def write (s : ROTiled T) (x y : Nat) (v : T) : Option (ROTiled T) :=
  let t := (y / s.th) * s.W + x / s.tw
  match s.src[t]? with
  | none => none
  | some none => some s
  | some (some f) =>
    match s.loadTile t f with
    | none => none
    | some s' => some { s' with tiles := upd s'.tiles t { s'.tiles t with
        mem := (s'.tiles t).mem.set ((y % s.th) * f.w + x % s.tw) v } }

/-- A2Array2D.hpp:436-454 (`isNoData(x,y)`). -/
def isNoData [DecidableEq T] (s : ROTiled T) (x y : Nat) : Option (Bool × ROTiled T) :=
  let t := (y / s.th) * s.W + x / s.tw
  match s.src[t]? with
  | none => none
  | some none => some (true, s)
  | some (some f) =>
    match s.loadTile t f with
    | none => none
    | some s' => ((s'.tiles t).mem[(y % s.th) * f.w + x % s.tw]?).map fun v => (decide (v = f.noData), s')

/-- A2Array2D.hpp:428-434 (`setAll`). -/
def setAll (s : ROTiled T) (v : T) : ROTiled T :=
  { s with tiles := fun t => { s.tiles t with doSetAll := true, setAllVal := v } }

/-- Number of tiles held in memory. -/
def resident (s : ROTiled T) : Nat :=
  ((List.range s.src.length).filter fun t => (s.tiles t).loaded).length

/-! ### Saving and the merging tool -/

/-- The file `saveUnifiedGDAL` creates. -/
structure MFile (T : Type) where
  width : Nat
  height : Nat
  band : Nat → Nat → T
  noData : T
  gt : Gdal.GT

/-- `data[ty][tx].noData()`. -/
def tileNoData (s : ROTiled T) : Option (Src T) → T
  | some f => f.noData
  | none => s.nullNoData

/-- A2Array2D.hpp:553-565; the tiles are written with RasterIO, whose buffer is the tile's memory (`none` if it is too
small). -/
def saveTiles : List (Nat × Nat) → (Nat → Nat → Option T) → ROTiled T → Option ((Nat → Nat → Option T) × ROTiled T)
  | [], b, s => some (b, s)
  | (tx, ty) :: l, b, s =>
    match s.src[ty * s.W + tx]? with
    | none => none
    | some none => saveTiles l b s
    | some (some f) =>
      match s.loadTile (ty * s.W + tx) f with
      | none => none
      | some s' =>
        saveTiles l (Tiled.writeTile s.tw s.th tx ty (fun x y => (s'.tiles (ty * s.W + tx)).mem[y * f.w + x]?) b) s'

/-- A2Array2D.hpp:525-568 (`saveUnifiedGDAL`); `none` is an exception.  A null tile has no geotransform, which line 541
refuses. -/
def saveUnified [DecidableEq T] (s : ROTiled T) : Option (MFile (Option T) × ROTiled T) :=
  match s.src[0]? with
  | some (some f0) =>
    if s.src.any (fun o => !decide (s.tileNoData o = f0.noData)) then none
    else
      match saveTiles (Tiled.tileOrder s.W s.H) (fun _ _ => some f0.noData) s with
      | none => none
      | some (b, s') => some (⟨s.W * s.tw, s.H * s.th, b, some f0.noData, f0.gt⟩, s')
  | _ => none

/-- apps/rd_merge_rasters_by_layout.cpp:16-41, 44-86: the tool, with its flip argument already compared to the four
words. -/
def mergeTool [DecidableEq T] (g : List (List (Option (Src T)))) (nullNoData zero : T) (cachesize : Int) (junk : Nat)
    (flipH flipV : Bool) : Option (MFile (Option T)) :=
  match openLayout g nullNoData zero cachesize junk with
  | none => none
  | some s => (saveUnified { s with flipH := flipH, flipV := flipV }).map (·.1)

/-! ### Invariant -/

/-- The cache holds what the files say. -/
structure RInv (s : ROTiled T) : Prop where
  lru : s.lru.Inv
  mem : ∀ t, t ∈ s.lru.cache ↔ (s.tiles t).loaded = true
  small : ∀ t ∈ s.lru.cache, t < s.src.length
  first : s.lru.cache = [] → s.src.length ≤ s.lru.last
  bound : s.lru.maxlen < 0 ∨ (0 < s.lru.maxlen ∧ s.lru.len ≤ s.lru.maxlen)
  clean : ∀ t, (s.tiles t).doSetAll = false
  out : ∀ t, (s.tiles t).loaded = false → (s.tiles t).mem = []
  cont : ∀ (t : Nat) (f : Src T), (s.tiles t).loaded = true → s.src[t]? = some (some f) → orient s.flipH s.flipV f = some (s.tiles t).mem
  good : ∀ (t : Nat) (f : Src T), s.src[t]? = some (some f) → ∃ l, orient s.flipH s.flipV f = some l

/-- The parts no access changes. -/
structure RSame (s s' : ROTiled T) : Prop where
  tw : s'.tw = s.tw
  th : s'.th = s.th
  W : s'.W = s.W
  H : s'.H = s.H
  fh : s'.flipH = s.flipH
  fv : s'.flipV = s.flipV
  src : s'.src = s.src
  nnd : s'.nullNoData = s.nullNoData
  cap : s'.lru.maxlen = s.lru.maxlen

theorem RSame.refl (s : ROTiled T) : RSame s s := ⟨rfl, rfl, rfl, rfl, rfl, rfl, rfl, rfl, rfl⟩

theorem RSame.trans {a b c : ROTiled T} (h : RSame a b) (k : RSame b c) : RSame a c :=
  ⟨k.tw.trans h.tw, k.th.trans h.th, k.W.trans h.W, k.H.trans h.H, k.fh.trans h.fh, k.fv.trans h.fv, k.src.trans h.src,
    k.nnd.trans h.nnd, k.cap.trans h.cap⟩

theorem lazy_clean (s : ROTiled T) (t : Nat) (hd : (s.tiles t).doSetAll = false) : s.lazySetAll t = s := by
  unfold lazySetAll
  rw [if_neg (by rw [hd]; decide)]

theorem insert_cap (l : LRU Nat) (t : Nat) : (l.insert t).maxlen = l.maxlen := Tiled.insert_maxlen l t

/-- Making room. -/
theorem evict_ok (s : ROTiled T) (t : Nat) (I : RInv s) (ht : t < s.src.length) (hl : (s.tiles t).loaded = false) :
    ∃ s', s.evict = some s' ∧ RSame s s' ∧ s'.lru.Inv ∧ (∀ u, u ∈ s'.lru.cache ↔ (s'.tiles u).loaded = true) ∧
      (∀ u ∈ s'.lru.cache, u < s'.src.length) ∧ ¬ (s'.lru.cache = [] ∧ t = s'.lru.last) ∧
      (s'.lru.maxlen < 0 ∨ s'.lru.len < s'.lru.maxlen) ∧ (∀ u, (s'.tiles u).doSetAll = false) ∧
      (∀ u, (s'.tiles u).loaded = false → (s'.tiles u).mem = []) ∧
      (∀ u, (s'.tiles u).loaded = true → s'.tiles u = s.tiles u) ∧ s'.tiles t = s.tiles t := by
  unfold evict
  by_cases hfull : s.lru.full = true
  · rw [if_pos hfull]
    have hlen : s.lru.len = s.lru.maxlen := by simpa [LRU.full] using hfull
    have hne : s.lru.cache ≠ [] := by
      intro h
      have := I.lru.len; rw [h] at this; simp at this
      rcases I.bound with hb | hb <;> omega
    obtain ⟨l, hp, hI, hc, hm, hln⟩ := I.lru.popBack hne
    have hback : s.lru.back = some (s.lru.cache.getLast hne) := List.getLast?_eq_some_getLast hne
    rw [hback, hp]
    simp only
    generalize hb : s.lru.cache.getLast hne = b
    have hbm : b ∈ s.lru.cache := by rw [← hb]; exact List.getLast_mem hne
    have hbl : (s.tiles b).loaded = true := (I.mem b).1 hbm
    have htb : t ≠ b := by rintro rfl; rw [hl] at hbl; cases hbl
    have hsplit : s.lru.cache = l.cache ++ [b] := by
      rw [hc, ← hb]; exact (List.dropLast_append_getLast hne).symm
    have hbl' : b ∉ l.cache := by
      have := I.lru.nodup; rw [hsplit] at this
      intro h; exact (List.nodup_append.1 this).2.2 b h b (by simp) rfl
    refine ⟨_, rfl, ⟨rfl, rfl, rfl, rfl, rfl, rfl, rfl, rfl, hm⟩, hI, ?_, ?_, ?_, ?_, ?_, ?_, ?_, ?_⟩
    · intro u
      simp only
      by_cases hu : u = b
      · subst hu; rw [upd_same]; simp [hbl']
      · rw [upd_ne _ _ _ hu, ← I.mem u, hsplit]; simp [hu]
    · intro u hu
      exact I.small u (by rw [hsplit]; simp [show u ∈ l.cache from hu])
    · rintro ⟨he, hlast⟩
      simp only at he hlast
      have h1 : s.lru.cache = [b] := by rw [hsplit, he]; rfl
      have h2 : l.last = s.lru.last := by
        unfold LRU.popBack at hp
        split at hp
        · cases hp
        · injection hp with hp; rw [← hp]
      rcases I.lru.last with h | h
      · exact hne h
      · rw [h1] at h; simp at h
        rw [hlast, h2, ← h] at htb
        exact htb rfl
    · simp only
      rw [hm, hln]
      rcases I.bound with hb' | hb'
      · exact .inl hb'
      · right; omega
    · intro u
      simp only
      by_cases hu : u = b
      · subst hu; rw [upd_same]; exact I.clean u
      · rw [upd_ne _ _ _ hu]; exact I.clean u
    · intro u h1
      simp only at h1 ⊢
      by_cases hu : u = b
      · subst hu; rw [upd_same]
      · rw [upd_ne _ _ _ hu] at h1 ⊢; exact I.out u h1
    · intro u h1
      simp only at h1 ⊢
      by_cases hu : u = b
      · subst hu; rw [upd_same] at h1; cases h1
      · rw [upd_ne _ _ _ hu]
    · simp only; rw [upd_ne _ _ _ htb]
  · rw [if_neg hfull]
    refine ⟨s, rfl, RSame.refl s, I.lru, I.mem, I.small, ?_, ?_, I.clean, I.out, fun _ _ => rfl, rfl⟩
    · rintro ⟨h1, h2⟩; have := I.first h1; omega
    · have : ¬ s.lru.len = s.lru.maxlen := by simpa [LRU.full] using hfull
      rcases I.bound with hb | hb
      · exact .inl hb
      · right; omega

/-- Loading a tile succeeds and keeps the invariant. -/
theorem load_ok (s : ROTiled T) (t : Nat) (f : Src T) (I : RInv s) (hf : s.src[t]? = some (some f)) :
    ∃ s', s.loadTile t f = some s' ∧ RInv s' ∧ RSame s s' ∧ (s'.tiles t).loaded = true := by
  have ht : t < s.src.length := by
    by_contra hc
    rw [List.getElem?_eq_none (by omega)] at hf
    cases hf
  unfold loadTile
  by_cases hl : (s.tiles t).loaded = true
  · rw [if_pos hl]
    have htc : t ∈ s.lru.cache := (I.mem t).2 hl
    have hne : s.lru.cache ≠ [] := List.ne_nil_of_mem htc
    have hc := I.lru.insert_cache t
    rw [if_neg (by simp [hne])] at hc
    rw [lazy_clean { s with lru := s.lru.insert t } t (I.clean t)]
    refine ⟨_, rfl, ⟨I.lru.insert t, ?_, ?_, ?_, ?_, I.clean, I.out, I.cont, I.good⟩,
      ⟨rfl, rfl, rfl, rfl, rfl, rfl, rfl, rfl, insert_cap _ _⟩, hl⟩
    · intro u
      simp only
      rw [← I.mem u, hc, List.mem_cons, I.lru.nodup.mem_erase_iff]
      constructor
      · rintro (rfl | h)
        · exact htc
        · exact h.2
      · intro h; by_cases hu : u = t
        · exact .inl hu
        · exact .inr ⟨hu, h⟩
    · intro u hu
      simp only at hu ⊢
      rw [hc, List.mem_cons] at hu
      rcases hu with rfl | h
      · exact ht
      · exact I.small u (List.mem_of_mem_erase h)
    · intro h; simp only at h; rw [hc] at h; cases h
    · simp only
      rw [insert_cap, (I.lru.insert t).len, hc, List.length_cons, List.length_erase_of_mem htc]
      have := I.lru.len
      have := List.length_pos_of_mem htc
      rcases I.bound with hb | hb
      · exact .inl hb
      · right; refine ⟨hb.1, ?_⟩; omega
  · have hl : (s.tiles t).loaded = false := by simpa using hl
    rw [if_neg (by rw [hl]; decide)]
    obtain ⟨s1, e1, hS, hI, hmem, hsmall, hins, hlen, hclean, hout, hkeep, htile⟩ := evict_ok s t I ht hl
    rw [e1]
    simp only
    have hl1 : (s1.tiles t).loaded = false := by rw [htile]; exact hl
    rw [if_neg (by rw [hout t hl1]; simp)]
    have htc : t ∉ s1.lru.cache := by rw [hmem t, hl1]; decide
    have hc := hI.insert_cache t
    rw [if_neg hins, List.erase_of_not_mem htc] at hc
    obtain ⟨m, hm⟩ := I.good t f hf
    have hm' : orient s1.flipH s1.flipV f = some m := by rw [hS.fh, hS.fv]; exact hm
    rw [hm']
    simp only
    rw [lazy_clean _ _ (by simp only [upd_same]; exact hclean t)]
    refine ⟨_, rfl, ⟨hI.insert t, ?_, ?_, ?_, ?_, ?_, ?_, ?_, ?_⟩,
      hS.trans ⟨rfl, rfl, rfl, rfl, rfl, rfl, rfl, rfl, insert_cap _ _⟩, by simp only [upd_same]⟩
    · intro u
      simp only
      rw [hc, List.mem_cons]
      by_cases hu : u = t
      · subst hu; rw [upd_same]; simp
      · rw [upd_ne _ _ _ hu, ← hmem u]; simp [hu]
    · intro u hu
      simp only at hu ⊢
      rw [hc, List.mem_cons] at hu
      rcases hu with rfl | hu
      · rw [hS.src]; exact ht
      · exact hsmall u hu
    · intro h; simp only at h; rw [hc] at h; cases h
    · simp only
      rw [insert_cap, (hI.insert t).len, hc, List.length_cons]
      have := hI.len
      rcases hlen with hb | hb
      · exact .inl hb
      · right; constructor <;> push_cast <;> omega
    · intro u
      simp only
      by_cases hu : u = t
      · subst hu; rw [upd_same]; exact hclean u
      · rw [upd_ne _ _ _ hu]; exact hclean u
    · intro u h1
      simp only at h1 ⊢
      by_cases hu : u = t
      · subst hu; rw [upd_same] at h1; cases h1
      · rw [upd_ne _ _ _ hu] at h1 ⊢; exact hout u h1
    · intro u f' h1 h2
      simp only at h1 h2 ⊢
      by_cases hu : u = t
      · subst hu
        rw [hS.src, hf] at h2
        cases h2
        rw [upd_same]; exact hm'
      · rw [upd_ne _ _ _ hu] at h1 ⊢
        have h3 := hkeep u h1
        rw [h3] at h1 ⊢
        rw [hS.src] at h2
        rw [hS.fh, hS.fv]
        exact I.cont u f' h1 h2
    · intro u f' h2
      simp only at h2 ⊢
      rw [hS.src] at h2
      rw [hS.fh, hS.fv]
      exact I.good u f' h2

end ROTiled
end RichDEM
