/-
Property theorems C22: `d8_upslope_cells`.
-/
import Verif.Flow.Upslope
import Verif.Examples
import Mathlib.Tactic.Linarith
import Mathlib.Tactic.Ring
import Mathlib.Algebra.Order.Ring.Int
import Mathlib.Algebra.Order.Ring.Abs

namespace RichDEM

open Relation

/-! `DrainsTo w h fd nd a b` (Verif/Flow/Upslope.lean): the in-grid data cell `a` has a direction,
and `b` is the neighbour that direction names. -/

/-- C22: flooding from any seeds: 2 on the seeds, 1 on the other cells whose flow path passes
through a seed, NoData on the rest.  For every queue order, every direction raster (cycles
included). -/
theorem C22_flood_exact (q : AnyQ Cell) (w h : Nat) (fd : Cell → Nat) (nd : Nat)
    (hfd : ∀ c, InGrid w h c → fd c ≠ nd → fd c ≤ 8) (seeds : List Cell)
    (hseeds : ∀ c ∈ seeds, InGrid w h c) (c : Cell) :
    let v := upslopeFrom q w h fd nd seeds c
    (v = 2 ↔ c ∈ seeds) ∧
    (v = 1 ↔ c ∉ seeds ∧ ∃ z ∈ seeds, ReflTransGen (DrainsTo w h fd nd) c z) ∧
    (v = 255 ↔ ¬ ∃ z ∈ seeds, ReflTransGen (DrainsTo w h fd nd) c z) :=
  upslope_spec q hfd hseeds c

/-! ### The line -/

/-- The line state after `k` columns. -/
def lineAt (x0 y0 dx dy : Int) (k : Nat) : LineS :=
  (List.range k).foldl (fun s (k : Nat) => lineStep dx dy s (x0 + k)) { y := y0, err := 0, out := [] }

theorem lineAt_succ (x0 y0 dx dy : Int) (k : Nat) :
    lineAt x0 y0 dx dy (k + 1) = lineStep dx dy (lineAt x0 y0 dx dy k) (x0 + k) := by
  simp [lineAt, List.range_succ, List.foldl_append]

theorem lineCells_eq {x0 y0 x1 y1 : Int} (hx : x0 ≤ x1) :
    lineCells x0 y0 x1 y1 = (lineAt x0 y0 (x1 - x0) (y1 - y0) (x1 - x0 + 1).toNat).out := by
  unfold lineCells lineAt
  rw [if_neg (by omega)]

/-- The end points may be given in either order (unless they share a column). -/
theorem C22_line_symm {x0 y0 x1 y1 : Int} (hx : x0 ≠ x1) :
    lineCells x0 y0 x1 y1 = lineCells x1 y1 x0 y0 := by
  unfold lineCells
  rcases lt_or_gt_of_ne hx with hlt | hgt
  · rw [if_neg (by omega), if_pos (by omega)]
  · rw [if_pos (by omega), if_neg (by omega)]

/-- C22: both end points on one cell: that cell. -/
theorem C22_point (x y : Int) : lineCells x y x y = [(x, y)] := by
  rw [lineCells_eq (le_refl _)]
  simp [lineAt, lineStep, List.range_succ]

/-- C22: a horizontal line: exactly the cells between the end points. -/
theorem C22_horizontal (x0 y x1 : Int) (hx : x0 ≤ x1) :
    lineCells x0 y x1 y = (List.range (x1 - x0 + 1).toNat).map (fun k : Nat => (x0 + k, y)) := by
  rcases eq_or_lt_of_le hx with rfl | hlt
  · rw [C22_point]; simp
  rw [lineCells_eq hx]
  have key : ∀ k, lineAt x0 y (x1 - x0) (y - y) k =
      { y := y, err := 0, out := (List.range k).map (fun k : Nat => (x0 + k, y)) } := by
    intro k
    induction k with
    | zero => simp [lineAt]
    | succ k ih =>
      rw [lineAt_succ, ih]
      unfold lineStep
      rw [if_neg (by rintro (⟨h1, h2⟩ | ⟨h1, h2⟩) <;> simp at h2 ⊢ <;> omega)]
      simp [List.range_succ]
  rw [key]

/-- The line invariant for slopes of at most 45 degrees. -/
theorem lineAt_inv (x0 y0 dx dy : Int) (hdx : 0 < dx) (hdy : |dy| ≤ dx) (k : Nat) :
    ∃ j : Int, (lineAt x0 y0 dx dy k).y = y0 + j * dy.sign ∧
      (lineAt x0 y0 dx dy k).err = k * |dy| - j * dx ∧
      -dx ≤ 2 * (lineAt x0 y0 dx dy k).err ∧ 2 * (lineAt x0 y0 dx dy k).err < dx ∧
      (∀ i < k, ∃ y, (x0 + (i : Int), y) ∈ (lineAt x0 y0 dx dy k).out ∧
        2 * |dx * (y - y0) - dy * i| ≤ dx) ∧
      (∀ c ∈ (lineAt x0 y0 dx dy k).out, x0 ≤ c.1 ∧ c.1 ≤ x0 + k ∧
        ∃ (i : Nat) (m : Int), i < k ∧ c.2 = y0 + m * dy.sign ∧ -dx ≤ 2 * (i * |dy| - m * dx) ∧
          2 * (i * |dy| - m * dx) < dx) := by
  induction k with
  | zero => exact ⟨0, by simp [lineAt], by simp [lineAt], by simp [lineAt]; omega,
      by simp [lineAt]; omega, by simp, by simp [lineAt]⟩
  | succ k ih =>
    obtain ⟨j, h1, h2, h3, h4, h5, h6⟩ := ih
    rw [lineAt_succ]
    set s := lineAt x0 y0 dx dy k with hs
    have habs : 0 ≤ |dy| := abs_nonneg dy
    have hnew : 2 * |dx * (s.y - y0) - dy * k| ≤ dx := by
      have e : dx * (s.y - y0) - dy * k = -(dy.sign * s.err) := by
        have hd : dy = dy.sign * |dy| := by rw [Int.sign_mul_abs]
        rw [h1, h2]
        generalize dy.sign = g at *
        generalize |dy| = a at *
        subst hd; ring
      rw [e, abs_neg]
      rcases lt_trichotomy dy 0 with hd | hd | hd
      · rw [Int.sign_eq_neg_one_of_neg hd, neg_one_mul, abs_neg]
        rcases abs_cases s.err with ⟨q1, _⟩ | ⟨q1, _⟩ <;> omega
      · rw [hd]; simp; omega
      · rw [Int.sign_eq_one_of_pos hd, one_mul]
        rcases abs_cases s.err with ⟨q1, _⟩ | ⟨q1, _⟩ <;> omega
    have herr : s.err + |dy| = ((k + 1 : Nat) : Int) * |dy| - j * dx := by
      rw [h2]; push_cast; ring
    unfold lineStep
    by_cases hc : dx ≤ 2 * (s.err + |dy|)
    · rw [if_pos (.inl ⟨by omega, hc⟩)]
      refine ⟨j + 1, ?_, ?_, ?_, ?_, ?_, ?_⟩
      · simp only [h1]; ring
      · simp only [herr]; ring
      · simp only; omega
      · simp only; omega
      · intro i hi
        rcases Nat.lt_succ_iff_lt_or_eq.1 hi with hi | rfl
        · obtain ⟨y, hy, hb⟩ := h5 i hi
          exact ⟨y, by simp [hy], hb⟩
        · exact ⟨s.y, by simp, hnew⟩
      · intro c hc'
        simp only [List.mem_append, List.mem_singleton] at hc'
        rcases hc' with (hc' | rfl) | rfl
        · obtain ⟨a, b, i, m, hi, hm⟩ := h6 c hc'
          exact ⟨a, by push_cast; omega, i, m, by omega, hm⟩
        · refine ⟨by simp, by push_cast; omega, k, j, by omega, h1, ?_, ?_⟩ <;> rw [← h2] <;> omega
        · refine ⟨by simp only; omega, by push_cast; omega, k, j, by omega, h1, ?_, ?_⟩ <;>
            rw [← h2] <;> omega
    · rw [if_neg (by rintro (⟨_, h⟩ | ⟨h, _⟩) <;> omega)]
      refine ⟨j, h1, herr, ?_, ?_, ?_, ?_⟩
      · simp only; omega
      · simp only; omega
      · intro i hi
        rcases Nat.lt_succ_iff_lt_or_eq.1 hi with hi | rfl
        · obtain ⟨y, hy, hb⟩ := h5 i hi
          exact ⟨y, by simp [hy], hb⟩
        · exact ⟨s.y, by simp, hnew⟩
      · intro c hc'
        simp only [List.mem_append, List.mem_singleton] at hc'
        rcases hc' with hc' | rfl
        · obtain ⟨a, b, i, m, hi, hm⟩ := h6 c hc'
          exact ⟨a, by push_cast; omega, i, m, by omega, hm⟩
        · refine ⟨by simp, by push_cast; omega, k, j, by omega, h1, ?_, ?_⟩ <;> rw [← h2] <;> omega

/-- C22: a line of slope at most 45 degrees has a cell within half a cell of the true line in every
column, and contains both of its end points. -/
theorem C22_gentle_line {x0 y0 x1 y1 : Int} (hx : x0 < x1) (hy : |y1 - y0| ≤ x1 - x0) :
    (∀ x, x0 ≤ x → x ≤ x1 → ∃ y, (x, y) ∈ lineCells x0 y0 x1 y1 ∧
      2 * |(x1 - x0) * (y - y0) - (y1 - y0) * (x - x0)| ≤ x1 - x0) ∧
    (x0, y0) ∈ lineCells x0 y0 x1 y1 ∧ (x1, y1) ∈ lineCells x0 y0 x1 y1 := by
  rw [lineCells_eq hx.le]
  obtain ⟨_, _, _, _, _, h5, _⟩ := lineAt_inv x0 y0 (x1 - x0) (y1 - y0) (by omega) hy
    (x1 - x0 + 1).toNat
  have hcol : ∀ x, x0 ≤ x → x ≤ x1 → ∃ y,
      (x, y) ∈ (lineAt x0 y0 (x1 - x0) (y1 - y0) (x1 - x0 + 1).toNat).out ∧
      2 * |(x1 - x0) * (y - y0) - (y1 - y0) * (x - x0)| ≤ x1 - x0 := by
    intro x hx0 hx1
    obtain ⟨y, hy1, hy2⟩ := h5 (x - x0).toNat (by omega)
    have e : ((x - x0).toNat : Int) = x - x0 := Int.toNat_of_nonneg (by omega)
    rw [e] at hy1 hy2
    exact ⟨y, by simpa using hy1, hy2⟩
  have tiny : ∀ t : Int, 2 * |(x1 - x0) * t| ≤ x1 - x0 → t = 0 := by
    intro t ht
    rw [abs_mul, abs_of_pos (show (0 : Int) < x1 - x0 by omega)] at ht
    by_contra hne
    have : 1 ≤ |t| := Int.one_le_abs hne
    nlinarith
  refine ⟨hcol, ?_, ?_⟩
  · obtain ⟨y, h1, h2⟩ := hcol x0 (le_refl _) hx.le
    have := tiny (y - y0) (by simpa using h2)
    rwa [show y = y0 by omega] at h1
  · obtain ⟨y, h1, h2⟩ := hcol x1 hx.le (le_refl _)
    have := tiny (y - y1) (by
      have e : (x1 - x0) * (y - y1) = (x1 - x0) * (y - y0) - (y1 - y0) * (x1 - x0) := by ring
      rw [e]; exact h2)
    rwa [show y = y1 by omega] at h1

/-- C22: such a line is drawn inside the raster if its end points are in the raster and it stops
short of the last column; then the output is exact for the cells drawn. -/
theorem C22_upslope_partial (q : AnyQ Cell) (w h : Nat) (fd : Cell → Nat) (nd : Nat)
    (hfd : ∀ c, InGrid w h c → fd c ≠ nd → fd c ≤ 8) {x0 y0 x1 y1 : Int}
    (hx : x0 < x1) (hy : |y1 - y0| ≤ x1 - x0) (h0 : InGrid w h (x0, y0)) (h1 : InGrid w h (x1, y1))
    (hw : x1 + 1 < w) :
    ∃ out, upslopeCells q w h fd nd x0 y0 x1 y1 = some out ∧ ∀ c,
      (out c = 2 ↔ c ∈ lineCells x0 y0 x1 y1) ∧
      (out c = 1 ↔ c ∉ lineCells x0 y0 x1 y1 ∧
        ∃ z ∈ lineCells x0 y0 x1 y1, ReflTransGen (DrainsTo w h fd nd) c z) ∧
      (out c = 255 ↔ ¬ ∃ z ∈ lineCells x0 y0 x1 y1, ReflTransGen (DrainsTo w h fd nd) c z) := by
  have hin : ∀ c ∈ lineCells x0 y0 x1 y1, InGrid w h c := by
    intro c hc
    rw [lineCells_eq hx.le] at hc
    obtain ⟨_, _, _, _, _, _, h6⟩ := lineAt_inv x0 y0 (x1 - x0) (y1 - y0) (by omega) hy
      (x1 - x0 + 1).toNat
    obtain ⟨a, b, i, m, hi, hm, hm1, hm2⟩ := h6 c hc
    have hi' : (i : Int) ≤ x1 - x0 := by omega
    have habs : 0 ≤ |y1 - y0| := abs_nonneg _
    -- the row offset lies between 0 and |dy|
    have hm0 : 0 ≤ m := by
      by_contra hneg
      have : m ≤ -1 := by omega
      nlinarith [mul_nonneg (Int.natCast_nonneg i) habs]
    have hmle : m ≤ |y1 - y0| := by
      by_contra hgt
      have hgt : |y1 - y0| + 1 ≤ m := by omega
      nlinarith [mul_le_mul_of_nonneg_right hi' habs]
    simp only [InGrid] at h0 h1 ⊢
    refine ⟨by omega, by omega, ?_, ?_⟩
    all_goals
      rcases lt_trichotomy (y1 - y0) 0 with hd | hd | hd
      · rw [Int.sign_eq_neg_one_of_neg hd] at hm; rw [abs_of_neg hd] at hmle; omega
      · rw [hd] at hm; simp at hm; omega
      · rw [Int.sign_eq_one_of_pos hd] at hm; rw [abs_of_pos hd] at hmle; omega
  refine ⟨upslopeFrom q w h fd nd (lineCells x0 y0 x1 y1), ?_, ?_⟩
  · unfold upslopeCells
    rw [if_pos]
    simp only [List.all_eq_true]
    exact fun c hc => inGrid_iff.2 (hin c hc)
  · exact fun c => upslope_spec q hfd hin c

/-- C22, for one cell of the raster: 2 there, 1 on the rest of its contributing area. -/
theorem C22_single_cell (q : AnyQ Cell) (w h : Nat) (fd : Cell → Nat) (nd : Nat)
    (hfd : ∀ c, InGrid w h c → fd c ≠ nd → fd c ≤ 8) {x y : Int} (h0 : InGrid w h (x, y)) :
    ∃ out, upslopeCells q w h fd nd x y x y = some out ∧ ∀ c,
      (out c = 2 ↔ c = (x, y)) ∧
      (out c = 1 ↔ c ≠ (x, y) ∧ ReflTransGen (DrainsTo w h fd nd) c (x, y)) ∧
      (out c = 255 ↔ ¬ ReflTransGen (DrainsTo w h fd nd) c (x, y)) := by
  refine ⟨upslopeFrom q w h fd nd [(x, y)], ?_, ?_⟩
  · simp only [upslopeCells, C22_point, List.all_cons, List.all_nil, Bool.and_true,
      inGrid_iff.2 h0, if_true]
  · intro c
    have := upslope_spec q hfd (seeds := [(x, y)]) (by simpa using h0) c
    simpa using this

/-- C22 fails for vertical lines: whatever their length, only their first cell and its right
neighbour are drawn. -/
theorem C22_vertical_line_lost (x y0 y1 : Int) (hy : y0 ≠ y1) :
    lineCells x y0 x y1 = [(x, y0), (x + 1, y0)] := by
  rw [lineCells_eq (le_refl _)]
  have : y1 - y0 ≠ 0 := by omega
  simp [lineAt, lineStep, List.range_succ, this]

/-- C22 fails for lines steeper than 45 degrees: the end point is not drawn. -/
theorem C22_steep_line_lost : (1, 5) ∉ lineCells 0 0 1 5 := by decide +kernel

/-- C22 fails for every diagonal that ends in the last column: a cell to the right of the raster is
written. -/
theorem C22_diagonal_overrun (q : AnyQ Cell) (w h : Nat) (fd : Cell → Nat) (nd : Nat)
    (x0 y0 : Int) (hx : x0 < (w : Int) - 1) :
    upslopeCells q w h fd nd x0 y0 (w - 1) (y0 + (w - 1 - x0)) = none := by
  unfold upslopeCells
  rw [if_neg]
  simp only [List.all_eq_true, not_forall]
  refine ⟨((w : Int), y0 + (w - 1 - x0)), ?_, ?_⟩
  · rw [lineCells_eq hx.le, add_sub_cancel_left]
    set d : Int := (w : Int) - 1 - x0 with hd
    have hd0 : 0 < d := by omega
    have key : ∀ k, (lineAt x0 y0 d d k).y = y0 + k ∧ (lineAt x0 y0 d d k).err = 0 ∧
        ∀ i < k, (x0 + (i : Int) + 1, y0 + (i : Int)) ∈ (lineAt x0 y0 d d k).out := by
      intro k
      induction k with
      | zero => simp [lineAt]
      | succ k ih =>
        obtain ⟨i1, i2, i3⟩ := ih
        rw [lineAt_succ]
        unfold lineStep
        rw [abs_of_pos hd0, if_pos (.inl ⟨by omega, by rw [i2]; omega⟩), Int.sign_eq_one_of_pos hd0]
        refine ⟨by simp only [i1]; push_cast; omega, by simp only [i2]; omega, ?_⟩
        intro i hi
        rcases Nat.lt_succ_iff_lt_or_eq.1 hi with hi | rfl
        · simp [i3 i hi]
        · simp [i1]
    have := (key (d + 1).toNat).2.2 d.toNat (by omega)
    rw [Int.toNat_of_nonneg hd0.le] at this
    convert this using 2
    omega
  · rw [Bool.not_eq_true, ← Bool.not_eq_true, inGrid_iff]
    simp [InGrid]

/-! ### Non-vacuity -/

/-- A 4x3 direction raster draining to the left, with one NoData cell and one directionless cell. -/
def upFd : Cell → Nat := ofRows 255 [[1, 1, 8, 1], [1, 1, 255, 1], [3, 1, 0, 1]]

example : ∀ c, InGrid 4 3 c → upFd c ≠ 255 → upFd c ≤ 8 := by
  intro c hc
  rw [← mem_allCells] at hc
  revert c; decide +kernel

example : toRows 4 3 (upslopeFrom (fifo Cell) 4 3 upFd 255 [(1, 1)]) =
    [[255, 255, 1, 1], [255, 2, 255, 255], [255, 255, 255, 255]] := by decide +kernel

example : toRows 4 3 (upslopeFrom (fifo Cell) 4 3 upFd 255 [(0, 1)]) =
    [[255, 255, 1, 1], [2, 1, 255, 255], [1, 1, 255, 255]] := by decide +kernel

example : lineCells 0 0 2 1 = [(0, 0), (1, 0), (1, 1), (2, 1), (3, 1)] := by decide +kernel
example : |(1 : Int) - 0| ≤ 2 - 0 ∧ InGrid 4 3 (0, 0) ∧ InGrid 4 3 (2, 1) ∧ (2 : Int) + 1 < (4 : Nat) := by
  decide +kernel

end RichDEM
