/-
programs/parallel_d8_accum/perimeters.hpp: numbering the cells on the perimeter of a tile.
-/
import Verif.Grid
import Mathlib.Tactic.SplitIfs

namespace RichDEM

/-- perimeters.hpp:8-22 `xyToSerial` (the assert is the hypothesis `OnEdge` of the theorems). -/
def xyToSerial (w h : Nat) (c : Cell) : Int :=
  if c.2 = 0 then c.1
  else if c.1 = (w : Int) - 1 then ((w : Int) - 1) + c.2
  else if c.2 = (h : Int) - 1 then ((w : Int) - 1) + h + c.1
  else 2 * ((w : Int) - 1) + ((h : Int) - 1) + c.2

/-- perimeters.hpp:25-43 `serialToXY`. -/
def serialToXY (w h : Nat) (s : Int) : Cell :=
  if s < w then (s, 0)
  else if s < ((w : Int) - 1) + h then ((w : Int) - 1, s - ((w : Int) - 1))
  else if s < 2 * ((w : Int) - 1) + h then (s - ((w : Int) - 1) - ((h : Int) - 1) - 1, (h : Int) - 1)
  else (0, s - 2 * ((w : Int) - 1) - ((h : Int) - 1))

/-- main.cpp:515: the size of the `links` vector, `2*width+2*(height-2)`. -/
def perimLen (w h : Nat) : Nat := 2 * w + 2 * h - 4

/-- Array2D.hpp `getRowData(y)`. -/
def rowData {A : Type*} (w : Nat) (g : Cell → A) (y : Int) : List A := (List.range w).map (fun x : Nat => g ((x : Int), y))

/-- Array2D.hpp `getColData(x)`. -/
def colData {A : Type*} (h : Nat) (g : Cell → A) (x : Int) : List A := (List.range h).map (fun y : Nat => g (x, (y : Int)))

/-- perimeters.hpp:46-63 `GridPerimToArray`; `none` where the code takes an invalid iterator range: with
one row, `begin()+1` is `end()` and `end()-1` is `begin()`. -/
def gridPerim {A : Type*} (w h : Nat) (g : Cell → A) : Option (List A) :=
  if h < 2 ∨ w < 1 then none
  else some (rowData w g 0 ++ (colData h g ((w : Int) - 1)).drop 1 ++ (rowData w g ((h : Int) - 1)).dropLast ++
    ((colData h g 0).drop 1).dropLast)

theorem xyToSerial_range {w h : Nat} {c : Cell} (hh : 2 ≤ h) (hc : OnEdge w h c) :
    0 ≤ xyToSerial w h c ∧ xyToSerial w h c < perimLen w h := by
  obtain ⟨⟨h1, h2, h3, h4⟩, h5⟩ := hc
  unfold xyToSerial perimLen
  split_ifs <;> omega

theorem serialToXY_xyToSerial {w h : Nat} {c : Cell} (hc : OnEdge w h c) : serialToXY w h (xyToSerial w h c) = c := by
  obtain ⟨c1, c2⟩ := c
  obtain ⟨⟨h1, h2, h3, h4⟩, h5⟩ := hc
  simp only at h1 h2 h3 h4 h5
  unfold xyToSerial serialToXY
  simp only
  split_ifs <;> refine Prod.ext ?_ ?_ <;> simp only <;> omega

theorem serialToXY_onEdge {w h : Nat} {s : Int} (hw : 1 ≤ w) (hh : 2 ≤ h) (h0 : 0 ≤ s) (h1 : s < perimLen w h) :
    OnEdge w h (serialToXY w h s) := by
  unfold perimLen at h1
  unfold serialToXY
  split_ifs <;> refine ⟨⟨?_, ?_, ?_, ?_⟩, ?_⟩ <;> dsimp only <;> omega

theorem xyToSerial_serialToXY {w h : Nat} {s : Int} (hw : 2 ≤ w) (hh : 2 ≤ h) (h0 : 0 ≤ s) (h1 : s < perimLen w h) :
    xyToSerial w h (serialToXY w h s) = s := by
  unfold perimLen at h1
  unfold serialToXY xyToSerial
  split_ifs <;> dsimp only at * <;> omega

theorem length_rowData {A : Type*} (w : Nat) (g : Cell → A) (y : Int) : (rowData w g y).length = w := by simp [rowData]
theorem length_colData {A : Type*} (h : Nat) (g : Cell → A) (x : Int) : (colData h g x).length = h := by simp [colData]

/-- The perimeter array holds, at each serial number, the value of the cell with that number. -/
theorem gridPerim_spec {A : Type*} {w h : Nat} (hw : 1 ≤ w) (hh : 2 ≤ h) (g : Cell → A) :
    ∃ l, gridPerim w h g = some l ∧ l.length = perimLen w h ∧
      ∀ s : Nat, s < perimLen w h → l[s]? = some (g (serialToXY w h s)) := by
  refine ⟨_, by unfold gridPerim; rw [if_neg (by omega)], ?_, ?_⟩
  · simp only [List.length_append, List.length_drop, List.length_dropLast, length_rowData, length_colData, perimLen]
    omega
  · intro s hs
    unfold perimLen at hs
    have e1 : (rowData w g 0).length = w := length_rowData ..
    have e2 : ((colData h g ((w : Int) - 1)).drop 1).length = h - 1 := by simp [length_colData]
    have e3 : ((rowData w g ((h : Int) - 1)).dropLast).length = w - 1 := by simp [length_rowData]
    unfold serialToXY
    rw [List.append_assoc, List.append_assoc]
    by_cases a1 : s < w
    · rw [List.getElem?_append_left (by omega), if_pos (by omega)]
      simp [rowData, a1]
    rw [List.getElem?_append_right (by omega), if_neg (by omega), e1]
    by_cases a2 : s < (w - 1) + h
    · rw [List.getElem?_append_left (by omega), if_pos (by omega)]
      simp only [colData, List.getElem?_drop, List.getElem?_map]
      rw [List.getElem?_range (by omega)]
      simp only [Option.map_some, Option.some.injEq]
      congr 2; omega
    rw [List.getElem?_append_right (by omega), if_neg (by omega), e2]
    by_cases a3 : s < 2 * (w - 1) + h
    · rw [List.getElem?_append_left (by omega), if_pos (by omega)]
      simp only [rowData, List.getElem?_dropLast, List.getElem?_map, List.length_map, List.length_range]
      rw [if_pos (by omega), List.getElem?_range (by omega)]
      simp only [Option.map_some, Option.some.injEq]
      congr 2; omega
    rw [List.getElem?_append_right (by omega), if_neg (by omega), e3]
    simp only [colData, List.getElem?_dropLast, List.getElem?_drop, List.getElem?_map, List.length_drop, List.length_map, List.length_range]
    rw [if_pos (by omega), List.getElem?_range (by omega)]
    simp only [Option.map_some, Option.some.injEq]
    congr 2; omega

end RichDEM
