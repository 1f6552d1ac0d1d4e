import Mathlib.Data.List.Basic
import Mathlib.Data.List.Nodup
import Mathlib.Data.List.ProdSigma
import Mathlib.Tactic.Ring

/-!
Model of the whole-raster operations of `Array2D` (include/richdem/common/Array2D.hpp): flips,
resizing, row and column access, counting.

Cells are a flat list; reading or writing outside it is undefined behaviour (`none`).
`size()` is computed by the code as an `int` product; the model uses the exact product, so it
covers rasters of fewer than `2^31` cells.
-/

namespace RichDEM

/-- Array2D.hpp:109-129 (the members used here).  `nshiftW` is the width `_nshift` was computed
for; `ndc` is `num_data_cells`, `none` for `NO_I`. -/
structure Raster (T : Type) where
  w : Nat
  h : Nat
  data : List T
  noData : T
  ndc : Option Nat
  owned : Bool
  nshiftW : Nat
deriving DecidableEq

namespace Raster
variable {T : Type}

/-- The storage has the size the dimensions say. -/
def WF (r : Raster T) : Prop := r.data.length = r.w * r.h

/-- Array2D.hpp:985-990: `operator()(x,y)` (through `xyToI`, 592-596), `none` outside the
raster. -/
def cell (r : Raster T) (x y : Nat) : Option T :=
  if x < r.w ∧ y < r.h then r.data[y * r.w + x]? else none

/-- `std::swap(_data[i], _data[j])`. -/
def swapAt (l : List T) (i j : Nat) : Option (List T) :=
  match l[i]?, l[j]? with
  | some a, some b => some ((l.set i b).set j a)
  | _, _ => none

/-- A sequence of swaps `(i, σ i)`. -/
def swaps (σ : Nat → Nat) : List Nat → List T → Option (List T)
  | [], l => some l
  | i :: is, l => (swapAt l (σ i) i).bind (swaps σ is)

/-- Row-major enumeration of the cells of the first `rows` rows, as flat indices: the loops
`for y … for x …` of Array2D.hpp:716-717, 742-743. -/
def rowMajor (w rows : Nat) : List Nat :=
  (List.range rows).flatMap fun y => (List.range w).map fun x => y * w + x

/-- Array2D.hpp:715-719 (`flipVert`): swaps rows `y` and `h-1-y` for `y < h/2`. -/
def flipVert (r : Raster T) : Option (Raster T) :=
  (swaps (fun k => (r.h - 1 - k / r.w) * r.w + k % r.w) (rowMajor r.w (r.h / 2)) r.data).map
    fun d => { r with data := d }

/-- Array2D.hpp:728-732: the `while(start<end)` loop of `flipHorz` on flat indices. -/
def flipRow : Nat → Nat → Nat → List T → Option (List T)
  | 0, _, _, l => some l
  | f + 1, s, e, l =>
    if s < e then (swapAt l s e).bind (flipRow f (s + 1) (e - 1)) else some l

/-- Array2D.hpp:724-734 (`flipHorz`), with assertions disabled: `end` starts at the address of
cell `(view_width, y)`, one past the row. -/
def flipHorz (r : Raster T) : Option (Raster T) :=
  ((List.range r.h).foldl (fun d y => d.bind (flipRow (r.w + 1) (y * r.w) (y * r.w + r.w)))
    (some r.data)).map fun d => { r with data := d }

/-- Array2D.hpp:739-747 (`transpose`): swaps `_data[x*h+y]` and `_data[y*w+x]` in place for
every cell, then exchanges the dimensions; `_nshift` is not recomputed. -/
def transpose (r : Raster T) : Option (Raster T) :=
  (swaps (fun k => (k % r.w) * r.h + k / r.w) (rowMajor r.w r.h) r.data).map
    fun d => { r with data := d, w := r.h, h := r.w }

/-- Array2D.hpp:839-842 (`setAll`). -/
def setAll (r : Raster T) (v : T) : Raster T := { r with data := r.data.map fun _ => v }

/-- Array2D.hpp:852-864 (`resize`); `none` is the exception of `ManagedVector::resize` on
wrapped memory (ManagedVector.hpp:158-172).  Every cell is then set to `val0`. -/
def resize (r : Raster T) (w h : Nat) (val : T) : Option (Raster T) :=
  if r.data.length ≠ w * h ∧ r.owned = false then none
  else some { r with w := w, h := h, nshiftW := w, data := List.replicate (w * h) val }

/-- Array2D.hpp:910-912: the copy loop of `expand`. -/
def expandCopy (oldW newW oldH : Nat) (old : List T) (d : List T) : List T :=
  (List.range oldH).foldl (fun d y => (List.range oldW).foldl (fun d x =>
    match old[y * oldW + x]? with
    | some v => d.set (y * newW + x) v
    | none => d) d) d

/-- Array2D.hpp:891-913 (`expand`); `none` is an exception. -/
def expand (r : Raster T) (w h : Nat) (val : T) : Option (Raster T) :=
  if w = r.w ∧ h = r.h then some r
  else if r.owned = false then none
  else if w < r.w then none
  else if h < r.h then none
  else
    -- `_data` has been moved from: it is empty and owned
    match ({ r with data := [], owned := true } : Raster T).resize w h val with
    | none => none
    | some r' => some { r' with data := expandCopy r.w w r.h r.data r'.data }

/-- Array2D.hpp:1039-1042 (`setRow`). -/
def setRow (r : Raster T) (y : Nat) (v : T) : Raster T :=
  { r with data := (List.range r.w).foldl (fun d x => d.set (y * r.w + x) v) r.data }

/-- Array2D.hpp:1050-1053 (`setCol`). -/
def setCol (r : Raster T) (x : Nat) (v : T) : Raster T :=
  { r with data := (List.range r.h).foldl (fun d y => d.set (y * r.w + x) v) r.data }

/-- Array2D.hpp:1060-1065 (`setEdges`). -/
def setEdges (r : Raster T) (v : T) : Raster T :=
  (((r.setRow 0 v).setRow (r.h - 1) v).setCol 0 v).setCol (r.w - 1) v

/-- Array2D.hpp:1074-1076 (`getRowData`). -/
def getRowData (r : Raster T) (y : Nat) : List T := (r.data.drop (y * r.w)).take r.w

/-- Array2D.hpp:1085-1090 (`getColData`); `none` if a cell is outside the storage. -/
def getColData (r : Raster T) (x : Nat) : Option (List T) :=
  (List.range r.h).mapM fun y => r.data[y * r.w + x]?

variable [DecidableEq T]

/-- Array2D.hpp:559-565 (`countval`). -/
def countval (r : Raster T) (v : T) : Nat :=
  r.data.foldl (fun c z => if z = v then c + 1 else c) 0

/-- Array2D.hpp:919-924 (`countDataCells`). -/
def countDataCells (r : Raster T) : Raster T :=
  { r with ndc := some (r.data.foldl (fun c z => if z ≠ r.noData then c + 1 else c) 0) }

/-- Array2D.hpp:931-935 (`numDataCells`): counts only when no count is cached. -/
def numDataCells (r : Raster T) : Nat × Raster T :=
  match r.ndc with
  | some n => (n, r)
  | none => ((r.countDataCells).ndc.getD 0, r.countDataCells)

/-- Array2D.hpp:544-548 (`replace`). -/
def replace (r : Raster T) (o n : T) : Raster T :=
  { r with data := r.data.map fun z => if z = o then n else z }

/-- Array2D.hpp:830-832 (`setNoData`). -/
def setNoData (r : Raster T) (v : T) : Raster T := { r with noData := v }

/-- Array2D.hpp:649-658 (`operator==`). -/
def eqb (r o : Raster T) : Bool :=
  if r.w ≠ o.w ∨ r.h ≠ o.h then false
  else if r.noData ≠ o.noData then false
  else r.data == o.data

end Raster

/-! ### Swap sequences -/

namespace Raster
variable {T : Type}

theorem swapAt_spec {l : List T} {i j : Nat} (hi : i < l.length) (hj : j < l.length) :
    ∃ l', swapAt l i j = some l' ∧ l'.length = l.length ∧
      ∀ k, l'[k]? = if k = j then l[i]? else if k = i then l[j]? else l[k]? := by
  refine ⟨(l.set i l[j]).set j l[i], ?_, by simp, ?_⟩
  · simp [swapAt, List.getElem?_eq_getElem hi, List.getElem?_eq_getElem hj]
  · intro k
    rw [List.getElem?_set]
    by_cases h1 : j = k
    · subst h1; simp [hj, List.getElem?_eq_getElem hi]
    · rw [if_neg h1, List.getElem?_set, if_neg (Ne.symm h1)]
      by_cases h2 : i = k
      · subst h2; simp [hi, List.getElem?_eq_getElem hj]
      · rw [if_neg h2, if_neg (Ne.symm h2)]

/-- Swapping `(i, σ i)` for each `i` of a duplicate-free list, `σ` an involution: a cell is
exchanged with its partner iff exactly one of the two was in the list. -/
theorem swaps_spec {σ : Nat → Nat} {n : Nat} (hσ : ∀ k, k < n → σ k < n)
    (hinv : ∀ k, k < n → σ (σ k) = k) :
    ∀ (L : List Nat) (l : List T), l.length = n → L.Nodup → (∀ i ∈ L, i < n) →
      ∃ l', swaps σ L l = some l' ∧ l'.length = n ∧
        ∀ k, k < n → l'[k]? = if decide (k ∈ L) != decide (σ k ∈ L) then l[σ k]? else l[k]? := by
  intro L
  induction L with
  | nil => intro l hl _ _; exact ⟨l, rfl, hl, by simp⟩
  | cons i L ih =>
    intro l hl hnd hlt
    have hi : i < n := hlt i (by simp)
    obtain ⟨hiL, hndL⟩ := List.nodup_cons.1 hnd
    obtain ⟨l1, e1, len1, s1⟩ := swapAt_spec (l := l) (i := σ i) (j := i)
      (by rw [hl]; exact hσ i hi) (by omega)
    obtain ⟨l2, e2, len2, s2⟩ := ih l1 (by omega) hndL (fun j hj => hlt j (by simp [hj]))
    refine ⟨l2, by simp [swaps, e1, e2], len2, ?_⟩
    intro k hk
    rw [s2 k hk, s1 k, s1 (σ k)]
    have hσk := hσ k hk
    have hinvk := hinv k hk
    have hinvi := hinv i hi
    by_cases h1 : k = i
    · subst h1
      by_cases h2 : σ k = k
      · simp [h2]
      · simp only [if_true, List.mem_cons, true_or, decide_true, h2, if_false, false_or,
          hiL, decide_false]
        by_cases h3 : σ k ∈ L <;> simp [h3]
    · by_cases h2 : σ k = i
      · have hki : k = σ i := by rw [← h2, hinvk]
        have hik : i ≠ σ i := by rintro h; exact h1 (hki.trans h.symm)
        simp only [h2, if_true, h1, if_false, List.mem_cons, false_or, true_or, decide_true,
          hiL, decide_false, ← hki]
        by_cases h3 : k ∈ L <;> simp [h3]
      · have h3 : k ≠ σ i := by rintro rfl; exact h2 hinvi
        have h4 : σ k ≠ σ i := by
          intro h; apply h1; rw [← hinvk, h, hinvi]
        simp only [h1, h2, h3, h4, if_false, List.mem_cons, false_or]

theorem mem_rowMajor {w rows k : Nat} : k ∈ rowMajor w rows ↔ k < rows * w := by
  unfold rowMajor
  simp only [List.mem_flatMap, List.mem_range, List.mem_map]
  constructor
  · rintro ⟨y, hy, x, hx, rfl⟩
    have : (y + 1) * w ≤ rows * w := Nat.mul_le_mul_right _ hy
    rw [Nat.add_mul] at this; omega
  · intro h
    have hw : 0 < w := by
      rcases Nat.eq_zero_or_pos w with rfl | h'
      · simp at h
      · exact h'
    exact ⟨k / w, (Nat.div_lt_iff_lt_mul hw).2 h, k % w, Nat.mod_lt _ hw, Nat.div_add_mod' k w⟩

theorem nodup_rowMajor (w rows : Nat) : (rowMajor w rows).Nodup := by
  unfold rowMajor
  rw [List.nodup_flatMap]
  refine ⟨?_, ?_⟩
  · intro y _
    refine (List.nodup_range).map ?_
    intro a b h; simp only at h; omega
  · refine List.Pairwise.imp_of_mem ?_ (List.nodup_range (n := rows))
    intro a b _ _ hab k h1 h2
    simp only [List.mem_map, List.mem_range] at h1 h2
    obtain ⟨x, hx, rfl⟩ := h1
    obtain ⟨x', hx', e⟩ := h2
    apply hab
    have hw : 0 < w := by omega
    have h3 : (b * w + x') / w = (a * w + x) / w := congrArg (· / w) e
    rw [Nat.mul_comm b, Nat.mul_comm a, Nat.mul_add_div hw, Nat.mul_add_div hw,
      Nat.div_eq_of_lt hx, Nat.div_eq_of_lt hx'] at h3
    omega

theorem idx_lt {w h x y : Nat} (hx : x < w) (hy : y < h) : y * w + x < w * h := by
  have : (y + 1) * w ≤ h * w := Nat.mul_le_mul_right _ hy
  rw [Nat.add_mul, Nat.mul_comm h] at this; omega

theorem idx_div {w x y : Nat} (hx : x < w) : (y * w + x) / w = y := by
  rw [Nat.mul_comm, Nat.mul_add_div (by omega), Nat.div_eq_of_lt hx, Nat.add_zero]

theorem idx_mod {w x y : Nat} (hx : x < w) : (y * w + x) % w = x := by
  rw [Nat.mul_comm, Nat.mul_add_mod, Nat.mod_eq_of_lt hx]

theorem cell_eq (r : Raster T) {x y : Nat} (hx : x < r.w) (hy : y < r.h) :
    r.cell x y = r.data[y * r.w + x]? := by simp [cell, hx, hy]

/-- A fold of point writes at distinct or repeated addresses with one value. -/
theorem foldl_set_const {ι : Type} (f : ι → Nat) (v : T) :
    ∀ (L : List ι) (d : List T),
      (L.foldl (fun d i => d.set (f i) v) d).length = d.length ∧
      ∀ k, k < d.length → (L.foldl (fun d i => d.set (f i) v) d)[k]? =
        if k ∈ L.map f then some v else d[k]? := by
  intro L
  induction L with
  | nil => intro d; simp
  | cons a L ih =>
    intro d
    obtain ⟨h1, h2⟩ := ih (d.set (f a) v)
    simp only [List.foldl_cons, List.map_cons, List.mem_cons]
    refine ⟨by simpa using h1, ?_⟩
    intro k hk
    rw [h2 k (by simpa using hk), List.getElem?_set]
    by_cases h3 : k ∈ L.map f
    · simp [h3]
    · by_cases h4 : f a = k
      · subst h4; simp [hk]
      · have : ¬ k = f a := fun h => h4 h.symm
        simp only [h3, if_false, h4, this, or_self]

end Raster
end RichDEM
