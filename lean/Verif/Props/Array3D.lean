/-
Property theorems C83: the raster of flow proportions (`Array3D`).
-/
import Verif.Array3D

namespace RichDEM

namespace Arr3
variable {T : Type}

/-- The storage has the size the dimensions say. -/
def WF (a : Arr3 T) : Prop := a.data.length = 9 * (a.w * a.h)

theorem index_lt {w h x y n : Nat} (hx : x < w) (hy : y < h) (hn : n < 9) :
    y * 9 * w + 9 * x + n < 9 * (w * h) := by
  have h1 : (y + 1) * w ≤ h * w := Nat.mul_le_mul_right _ hy
  have h2 : y * 9 * w = 9 * (y * w) := by ring
  have h3 : (y + 1) * w = y * w + w := by ring
  have h4 : w * h = h * w := Nat.mul_comm _ _
  omega

theorem index_inj {w x y n x' y' n' : Nat} (hx : x < w) (hx' : x' < w) (hn : n < 9) (hn' : n' < 9)
    (e : y * 9 * w + 9 * x + n = y' * 9 * w + 9 * x' + n') : x = x' ∧ y = y' ∧ n = n' := by
  have h2 : y * 9 * w = 9 * (y * w) := by ring
  have h3 : y' * 9 * w = 9 * (y' * w) := by ring
  have h4 : n = n' := by omega
  have h5 : y * w + x = y' * w + x' := by omega
  have h6 : (y * w + x) / w = (y' * w + x') / w := by rw [h5]
  have hw : 0 < w := by omega
  rw [Nat.mul_comm y, Nat.mul_comm y', Nat.mul_add_div hw, Nat.mul_add_div hw,
    Nat.div_eq_of_lt hx, Nat.div_eq_of_lt hx'] at h6
  have h7 : y = y' := by omega
  subst h7
  exact ⟨by omega, rfl, h4⟩

theorem wf_resize (a : Arr3 T) (w h : Nat) (v : T) : (a.resize w h v).WF := by
  simp [WF, resize, Nat.mul_assoc]

theorem get_eq (a : Arr3 T) {x y n : Nat} (hx : x < a.w) (hy : y < a.h) (hn : n < 9) :
    a.get x y n = a.data[y * 9 * a.w + 9 * x + n]? := by
  unfold get xyToI3
  rw [if_pos ⟨hx, hy, hn⟩, if_pos (by omega)]
  rfl

theorem set_eq (a : Arr3 T) (ha : a.WF) {x y n : Nat} (hx : x < a.w) (hy : y < a.h) (hn : n < 9)
    (v : T) : a.set x y n v = some { a with data := a.data.set (y * 9 * a.w + 9 * x + n) v } := by
  unfold set xyToI3
  rw [if_pos ⟨hx, hy, hn⟩, if_pos (by omega), Option.bind_some, if_pos]
  rw [ha]; exact index_lt hx hy hn

end Arr3

section
variable {T : Type}
open Arr3

/-- C83: a fresh or resized raster holds the given value in all nine slots of every cell. -/
theorem C83_resize (a : Arr3 T) (w h : Nat) (v : T) (x y n : Nat) (hx : x < w) (hy : y < h)
    (hn : n < 9) : (a.resize w h v).get x y n = some v := by
  rw [get_eq _ (show x < (a.resize w h v).w from hx) hy hn]
  simp only [resize]
  rw [List.getElem?_replicate, if_pos]
  have := index_lt hx hy hn
  rwa [← Nat.mul_assoc 9 w h] at this

/-- C83: every access inside the dimensions is inside the storage; reading back gives what was
written; every other slot of every cell keeps its value, and dimensions and NoData value stay. -/
theorem C83_read_write (a : Arr3 T) (ha : a.WF) (x y n : Nat) (v : T) (hx : x < a.w) (hy : y < a.h)
    (hn : n < 9) :
    (a.get x y n).isSome ∧
    ∃ b, a.set x y n v = some b ∧ b.WF ∧ b.w = a.w ∧ b.h = a.h ∧ b.noData = a.noData ∧
      b.get x y n = some v ∧
      ∀ x' y' n', x' < a.w → y' < a.h → n' < 9 → (x', y', n') ≠ (x, y, n) →
        b.get x' y' n' = a.get x' y' n' := by
  have hlt := index_lt hx hy hn
  refine ⟨?_, _, set_eq a ha hx hy hn v, by simpa [WF] using ha, rfl, rfl, rfl, ?_, ?_⟩
  · rw [get_eq a hx hy hn, List.getElem?_eq_getElem (by rw [ha]; exact hlt)]; rfl
  · rw [get_eq (Arr3.mk a.w a.h (a.data.set (y * 9 * a.w + 9 * x + n) v) a.noData a.ndc) hx hy hn]
    simp only
    rw [List.getElem?_set_self (by rw [ha]; exact hlt)]
  · intro x' y' n' hx' hy' hn' hne
    rw [get_eq (Arr3.mk a.w a.h (a.data.set (y * 9 * a.w + 9 * x + n) v) a.noData a.ndc) hx' hy' hn', get_eq a hx' hy' hn']
    simp only
    rw [List.getElem?_set_ne]
    intro e
    obtain ⟨e1, e2, e3⟩ := index_inj hx hx' hn hn' e
    exact hne (by rw [e1, e2, e3])

/-- C83: addressing by flat cell index is the same as by coordinates: cell `(x,y)` is number
`y*width+x`. -/
theorem C83_flat_addressing (a : Arr3 T) (x y n : Nat) (v : T) (hx : x < a.w) (hy : y < a.h) :
    a.getIN (y * a.w + x) n = a.get x y n ∧ a.setIN (y * a.w + x) n v = a.set x y n v := by
  have h1 : y * a.w + x < a.w * a.h := by
    have h1 : (y + 1) * a.w ≤ a.h * a.w := Nat.mul_le_mul_right _ hy
    have h3 : (y + 1) * a.w = y * a.w + a.w := by ring
    have h4 : a.w * a.h = a.h * a.w := Nat.mul_comm _ _
    omega
  have h2 : 9 * (y * a.w + x) + n = y * 9 * a.w + 9 * x + n := by ring
  unfold Arr3.getIN Arr3.get Arr3.setIN Arr3.set xyToI3
  by_cases hn : n < 9
  · simp only [h1, hn, hx, hy, and_self, if_true, show n ≤ 9 by omega, h2, Option.bind_some]
  · simp [hn]

/-- C83: every slot of the storage belongs to exactly one `(x,y,n)`. -/
theorem C83_bijection (w h i : Nat) (hi : i < 9 * (w * h)) :
    ∃ p : Nat × Nat × Nat, (p.1 < w ∧ p.2.1 < h ∧ p.2.2 < 9 ∧
        xyToI3 w p.1 p.2.1 p.2.2 = some i) ∧
      ∀ q : Nat × Nat × Nat, (q.1 < w ∧ q.2.1 < h ∧ q.2.2 < 9 ∧
        xyToI3 w q.1 q.2.1 q.2.2 = some i) → q = p := by
  have hw : 0 < w := by
    rcases Nat.eq_zero_or_pos w with k | k
    · subst k; simp at hi
    · exact k
  have hc : i / 9 < w * h := by omega
  refine ⟨(i / 9 % w, i / 9 / w, i % 9), ⟨Nat.mod_lt _ hw, Nat.div_lt_of_lt_mul hc, Nat.mod_lt _ (by omega), ?_⟩, ?_⟩
  · unfold xyToI3
    rw [if_pos (by have := Nat.mod_lt i (show 9 > 0 by omega); dsimp only; omega)]
    have h1 := Nat.div_add_mod (i / 9) w
    have h2 : i / 9 / w * 9 * w = 9 * (w * (i / 9 / w)) := by ring
    dsimp only
    congr 1
    rw [h2]
    omega
  · rintro ⟨x, y, n⟩ ⟨hx, hy, hn, e⟩
    dsimp only at hx hy hn e
    unfold xyToI3 at e
    rw [if_pos (by omega)] at e
    injection e with e
    have h2 : y * 9 * w = 9 * (y * w) := by ring
    have h3 : i / 9 = w * y + x := by rw [Nat.mul_comm w y]; omega
    have h4 : i % 9 = n := by omega
    rw [h3, h4, Nat.mul_add_div hw, Nat.div_eq_of_lt hx, Nat.mul_add_mod, Nat.mod_eq_of_lt hx]
    rfl

/-- C83, refuted for slot 9, which the assertion of the index conversion lets pass: it is slot 0 of
the next cell. -/
theorem C83_slot_nine_refuted (w x y : Nat) : xyToI3 w x y 9 = xyToI3 w (x + 1) y 0 := by
  unfold xyToI3; simp; ring

variable [DecidableEq T]

/-- C83: a cell is NoData exactly when its slot 0 holds the NoData value (which must have been
set). -/
theorem C83_isNoData (a : Arr3 T) (ha : a.WF) (nd : T) (hnd : a.noData = some nd) (x y : Nat)
    (hx : x < a.w) (hy : y < a.h) :
    ∃ v, a.get x y 0 = some v ∧ a.isNoData x y = some (decide (v = nd)) ∧
      a.isNoDataI (y * a.w + x) = some (decide (v = nd)) := by
  have h1 := (C83_read_write a ha x y 0 nd hx hy (by omega)).1
  obtain ⟨v, hv⟩ := Option.isSome_iff_exists.1 h1
  refine ⟨v, hv, ?_, ?_⟩
  · unfold isNoData; rw [hv, hnd]; rfl
  · unfold isNoDataI; rw [(C83_flat_addressing a x y 0 nd hx hy).1, hv, hnd]; rfl

/-- C83, refuted: asking before `setNoData` reads an uninitialised value. -/
theorem C83_uninitialised_refuted (w h x y : Nat) (v : T) :
    ((Arr3.empty : Arr3 T).resize w h v).isNoData x y = none := by
  unfold isNoData resize Arr3.empty
  cases Arr3.get _ x y 0 <;> rfl

theorem eqData_iff (o : List T) : ∀ d : List T, o.length ≤ d.length →
    eqData d o = some (decide (d.take o.length = o)) := by
  induction o with
  | nil => intro d _; cases d <;> simp [eqData]
  | cons y o ih =>
    intro d hd
    cases d with
    | nil => simp at hd
    | cons x d =>
      simp only [eqData]
      by_cases e : x = y
      · rw [if_pos e, ih d (by simpa using hd)]; simp [e]
      · rw [if_neg e]; simp [e]

/-- C83: `==` on two rasters holding data says whether dimensions and all numbers are equal. -/
theorem C83_eq_partial (a o : Arr3 T) (ha : a.WF) (ho : o.WF) :
    a.eq o = some (decide (a.w = o.w ∧ a.h = o.h ∧ a.data = o.data)) := by
  unfold eq
  by_cases h1 : a.w = o.w ∧ a.h = o.h
  · have hl : a.data.length = o.data.length := by rw [ha, ho, h1.1, h1.2]
    rw [if_neg (by tauto), eqData_iff _ _ (by omega), ← hl, List.take_length]
    simp [h1]
  · rw [if_pos (by tauto)]
    congr 1
    simp only [Bool.false_eq, decide_eq_false_iff_not]
    tauto

/-- C83, refuted: `==` is documented to compare the NoData values too, but does not. -/
theorem C83_eq_noData_refuted :
    let a := ((Arr3.empty : Arr3 Int).resize 1 1 7).setNoData 7
    let b := ((Arr3.empty : Arr3 Int).resize 1 1 7).setNoData 8
    a.WF ∧ b.WF ∧ a.noData ≠ b.noData ∧ a.isNoData 0 0 ≠ b.isNoData 0 0 ∧ a.eq b = some true := by
  refine ⟨rfl, rfl, by decide, by decide, by decide⟩

/-- C83, refuted: comparing a raster whose data has been cleared with one that still has its data
reads outside the storage. -/
theorem C83_eq_cleared_refuted (a o : Arr3 T) (ho : o.WF) (hw : a.w = o.w) (hh : a.h = o.h)
    (h0 : 0 < o.w * o.h) : a.clear.eq o = none := by
  unfold eq clear
  dsimp only
  rw [if_neg (by tauto)]
  have : 0 < o.data.length := by rw [ho]; omega
  cases hd : o.data with
  | nil => rw [hd] at this; simp at this
  | cons y l => rfl

/-- C83, refuted: `numDataCells` does not count the cells that are not NoData. Here one of the nine
cells is a data cell, and the count is 9. -/
theorem C83_count_refuted :
    let a := ((Arr3.empty : Arr3 Int).resize 9 1 (-2)).setNoData (-2)
    let b := (List.range 9).foldlM (fun a n => a.set 0 0 n 0) a
    b.bind (fun b => b.isNoData 0 0) = some false ∧
    (∀ x < 9, x ≠ 0 → b.bind (fun b => b.isNoData x 0) = some true) ∧
    (b.bind fun b => b.numDataCells).map Prod.fst = some 9 := by
  decide +kernel

/-- C83, refuted in the other direction: here all cells but the first are data cells and the count
is 0. -/
theorem C83_count_low_refuted :
    let a := ((Arr3.empty : Arr3 Int).resize 3 3 (-2)).setNoData (-2)
    let b := (List.range 8).foldlM (fun a i => a.setIN (i + 1) 0 0) a
    b.bind (fun b => b.isNoDataI 8) = some false ∧
    (b.bind fun b => b.numDataCells).map Prod.fst = some 0 := by
  decide +kernel

omit [DecidableEq T] in
theorem take_countP (p : T → Bool) (l : List T) : ∀ k, k ≤ l.length →
    (l.take k).countP p = (List.range k).countP (fun i => (l[i]?).any p) := by
  intro k
  induction k with
  | zero => intro _; rfl
  | succ k ih =>
    intro hk
    rw [List.range_succ, List.countP_append, ← ih (by omega), List.take_add_one, List.countP_append,
      List.getElem?_eq_getElem (by omega)]
    simp [List.countP_cons, List.getElem?_eq_getElem (show k < l.length by omega)]

/-- C83: what `numDataCells` does count, the first time it is called: the numbers different from
NoData among the nine slots of the first `size/9` cells (and the first `size % 9` slots of the
next). -/
theorem C83_count_partial (a : Arr3 T) (ha : a.WF) (nd : T) (hnd : a.noData = some nd)
    (h0 : a.ndc = none) :
    ∃ b, a.numDataCells =
      some ((List.range (a.w * a.h)).countP (fun i => (a.getIN (i / 9) (i % 9)).any (· ≠ nd)), b) := by
  unfold numDataCells
  rw [h0]
  have hlen : a.w * a.h ≤ a.data.length := by rw [ha]; omega
  simp only [countDataCells, hnd, Option.bind_some, if_pos hlen, Option.map_some]
  refine ⟨_, congrArg some (Prod.ext ?_ rfl)⟩
  dsimp only
  rw [take_countP _ _ _ hlen]
  refine List.countP_congr fun i hi => ?_
  rw [List.mem_range] at hi
  unfold Arr3.getIN
  rw [if_pos ⟨by omega, Nat.mod_lt _ (by omega)⟩, Nat.div_add_mod]

/-- C83, refuted for large wrapped arrays: a caller's array of 15500 by 15500 cells cannot be
wrapped (the length overflows an `int`), although such dimensions are fine elsewhere. -/
theorem C83_wrap_refuted (d : List T) : Arr3.wrap d 15500 15500 = none := by
  unfold Arr3.wrap; rw [if_neg (by decide)]

/-- C83: below that size, wrapping gives a raster over exactly the caller's numbers. -/
theorem C83_wrap_partial (d : List T) (w h : Nat) (hd : d.length = 9 * (w * h))
    (hs : 9 * w * h < 2 ^ 31) (x y n : Nat) (hx : x < w) (hy : y < h) (hn : n < 9) :
    ∃ a, Arr3.wrap d w h = some a ∧ a.WF ∧ a.get x y n = d[9 * (y * w + x) + n]? := by
  refine ⟨⟨w, h, d, none, none⟩, by unfold Arr3.wrap; rw [if_pos hs], hd, ?_⟩
  rw [get_eq (Arr3.mk w h d none none) hx hy hn]
  dsimp only
  congr 1
  ring

/-- Non-vacuity: a 3x2 raster, written and read. -/
example : let a := (Arr3.empty : Arr3 Int).resize 3 2 0
    a.WF ∧ ((a.set 2 1 8 5).bind fun b => b.get 2 1 8) = some 5 ∧
    ((a.set 2 1 8 5).bind fun b => b.getIN 5 8) = some 5 ∧
    ((a.set 2 1 8 5).bind fun b => b.get 1 1 8) = some 0 := by
  refine ⟨rfl, by decide +kernel, by decide +kernel, by decide +kernel⟩

end

end RichDEM
