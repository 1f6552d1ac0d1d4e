/-
Model of `include/richdem/common/constants.hpp` and the addressing part of
`include/richdem/common/Array2D.hpp`.
-/
import Verif.Spec
import Mathlib.Tactic.IntervalCases
import Mathlib.Tactic.Ring
import Mathlib.Tactic.Linarith

namespace RichDEM

/-! ### constants.hpp -/

/-- constants.hpp:44 `d8x`. -/
def d8x : List Int := [0, -1, -1, 0, 1, 1, 1, 0, -1]
/-- constants.hpp:45 `d8y`. -/
def d8y : List Int := [0, 0, -1, -1, -1, 0, 1, 1, 1]
/-- constants.hpp:47 `n8_diag`. -/
def n8_diag : List Bool := [false, false, true, false, true, false, true, false, true]
/-- constants.hpp:53 `d4x`. -/
def d4x : List Int := [0, -1, 0, 1, 0]
/-- constants.hpp:54 `d4y`. -/
def d4y : List Int := [0, 0, -1, 0, 1]
/-- constants.hpp:65 `d8_inverse`. -/
def d8_inverse : List Nat := [0, 5, 6, 7, 8, 1, 2, 3, 4]
/-- constants.hpp:67 `d4_inverse`. -/
def d4_inverse : List Nat := [0, 3, 4, 1, 2]
/-- constants.hpp:73 `d8_arcgis`. -/
def d8_arcgis : List Nat := [0, 16, 32, 64, 128, 1, 2, 4, 8]

/-- constants.hpp:102-111 `get_dx_for_topology<topo>()[n]`. -/
def dx (t : Topo) (n : Nat) : Int := match t with | .D8 => d8x.getD n 0 | .D4 => d4x.getD n 0
/-- constants.hpp:113-122 `get_dy_for_topology<topo>()[n]`. -/
def dy (t : Topo) (n : Nat) : Int := match t with | .D8 => d8y.getD n 0 | .D4 => d4y.getD n 0
/-- constants.hpp:124-133 `get_nmax_for_topology`. -/
def nmax (t : Topo) : Nat := match t with | .D8 => 8 | .D4 => 4
/-- constants.hpp:135-144 `get_dinverse_for_topology<topo>()[n]`. -/
def dinverse (t : Topo) (n : Nat) : Nat :=
  match t with | .D8 => d8_inverse.getD n 0 | .D4 => d4_inverse.getD n 0

/-- The loop header `for(int n=1;n<=nmax;n++)` used everywhere (e.g. Barnes2014.hpp:85). -/
def dirs (t : Topo) : List Nat := List.range' 1 (nmax t)

/-- The neighbour computation `nx=c.x+dx[n]; ny=c.y+dy[n]` (e.g. Barnes2014.hpp:86-87). -/
def nbr (t : Topo) (c : Cell) (n : Nat) : Cell := (c.1 + dx t n, c.2 + dy t n)

/-! ### Array2D.hpp addressing -/

/-- Array2D.hpp:757-759 `inGrid(x,y)`. -/
def inGrid (w h : Nat) (c : Cell) : Bool :=
  decide (0 ≤ c.1) && decide (c.1 < w) && decide (0 ≤ c.2) && decide (c.2 < h)

/-- Array2D.hpp:782-784 `isEdgeCell(x,y)` (note: the code does not test `inGrid`). -/
def isEdgeCell (w h : Nat) (c : Cell) : Bool :=
  decide (c.1 = 0) || decide (c.2 = 0) || decide (c.1 = (w : Int) - 1) ||
    decide (c.2 = (h : Int) - 1)

/-- Array2D.hpp:592-595 `xyToI`, over unbounded integers (see `xyToI32` for the machine
version). -/
def xyToI (w : Nat) (c : Cell) : Int := c.2 * w + c.1

/-- Array2D.hpp:592-595 `xyToI` with `i_t = uint32_t` arithmetic. -/
def xyToI32 (w : BitVec 32) (x y : BitVec 32) : BitVec 32 := y * w + x

/-- Array2D.hpp:579-582 `iToxy`. -/
def iToxy (w : Nat) (i : Nat) : Cell := (((i % w : Nat) : Int), ((i / w : Nat) : Int))

/-- Array2D.hpp:607-613 `nToI`; `none` stands for `NO_I`. -/
def nToI (w h : Nat) (i : Nat) (ddx ddy : Int) : Option Int :=
  let x := ((i % w : Nat) : Int) + ddx
  let y := ((i / w : Nat) : Int) + ddy
  if x < 0 ∨ y < 0 ∨ x ≥ w ∨ y ≥ h then none else some (xyToI w (x, y))

/-- Array2D.hpp:624-631 `getN`; `none` stands for `NO_I`. -/
def getN (w h : Nat) (i : Nat) (n : Nat) : Option Int :=
  let x := ((i % w : Nat) : Int) + d8x.getD n 0
  let y := ((i / w : Nat) : Int) + d8y.getD n 0
  if x < 0 ∨ y < 0 ∨ x ≥ w ∨ y ≥ h then none else some (xyToI w (x, y))

/-- Array2D.hpp:351, 858 `_nshift`, 640-643 `nshift(n)`. -/
def nshift (w : Nat) (n : Nat) : Int :=
  [0, -1, -(w:Int)-1, -(w:Int), -(w:Int)+1, 1, (w:Int)+1, (w:Int), (w:Int)-1].getD n 0

/-! ### misc/conversion.hpp -/

/-- conversion.hpp:19-31: one cell of `convert_arc_flowdirs_to_richdem_d8`; `none` is the
`throw`. -/
def arcToRd (a : Nat) : Option Nat :=
  match a with
  | 0 => some 0 | 1 => some 5 | 2 => some 6 | 4 => some 7 | 8 => some 8
  | 16 => some 1 | 32 => some 2 | 64 => some 3 | 128 => some 4
  | _ => none

/-- conversion.hpp:18-32: the whole raster; throws if any cell throws. -/
def arcToRdAll (l : List Nat) : Option (List Nat) := l.mapM arcToRd

/-! ### Helper lemmas -/

theorem inGrid_iff {w h : Nat} {c : Cell} : inGrid w h c = true ↔ InGrid w h c := by
  simp [inGrid, InGrid, and_assoc]

theorem inGrid_false {w h : Nat} {c : Cell} : inGrid w h c = false ↔ ¬ InGrid w h c := by
  rw [← inGrid_iff]; simp

theorem isEdgeCell_iff {w h : Nat} {c : Cell} (hc : InGrid w h c) :
    isEdgeCell w h c = true ↔ OnEdge w h c := by
  simp [isEdgeCell, OnEdge, hc, or_assoc]

theorem mem_dirs {t : Topo} {n : Nat} : n ∈ dirs t ↔ 1 ≤ n ∧ n ≤ nmax t := by
  simp [dirs, List.mem_range'_1]; omega

/-- The tables enumerate exactly the adjacent cells. -/
theorem adj_iff_nbr {t : Topo} {a b : Cell} : Adj t a b ↔ ∃ n ∈ dirs t, nbr t a n = b := by
  obtain ⟨a1, a2⟩ := a; obtain ⟨b1, b2⟩ := b
  cases t
  · constructor
    · rintro ⟨h1, h2, h3⟩
      simp only at h2 h3
      have e1 : b1 = a1 - 1 ∨ b1 = a1 ∨ b1 = a1 + 1 := by omega
      have e2 : b2 = a2 - 1 ∨ b2 = a2 ∨ b2 = a2 + 1 := by omega
      have key : ∃ n ∈ List.range' 1 8, d8x.getD n 0 = b1 - a1 ∧ d8y.getD n 0 = b2 - a2 := by
        rcases e1 with rfl | rfl | rfl <;> rcases e2 with rfl | rfl | rfl
        · exact ⟨2, by decide, by simp [d8x], by simp [d8y]⟩
        · exact ⟨1, by decide, by simp [d8x], by simp [d8y]⟩
        · exact ⟨8, by decide, by simp [d8x], by simp [d8y]⟩
        · exact ⟨3, by decide, by simp [d8x], by simp [d8y]⟩
        · exact absurd rfl h1
        · exact ⟨7, by decide, by simp [d8x], by simp [d8y]⟩
        · exact ⟨4, by decide, by simp [d8x], by simp [d8y]⟩
        · exact ⟨5, by decide, by simp [d8x], by simp [d8y]⟩
        · exact ⟨6, by decide, by simp [d8x], by simp [d8y]⟩
      obtain ⟨n, hn, k1, k2⟩ := key
      refine ⟨n, hn, ?_⟩
      simp only [nbr, dx, dy, k1, k2, Prod.mk.injEq]; constructor <;> omega
    · rintro ⟨n, hn, h⟩
      rw [mem_dirs] at hn
      simp only [nmax] at hn
      obtain ⟨hn1, hn2⟩ := hn
      simp only [nbr, dx, dy, Prod.mk.injEq] at h
      obtain ⟨rfl, rfl⟩ := h
      interval_cases n <;> simp [Adj, d8x, d8y]
  · constructor
    · intro h1
      simp only [Adj] at h1
      have key : ∃ n ∈ List.range' 1 4, d4x.getD n 0 = b1 - a1 ∧ d4y.getD n 0 = b2 - a2 := by
        have : (b1 = a1 - 1 ∧ b2 = a2) ∨ (b1 = a1 + 1 ∧ b2 = a2) ∨ (b1 = a1 ∧ b2 = a2 - 1) ∨
          (b1 = a1 ∧ b2 = a2 + 1) := by omega
        rcases this with ⟨rfl, rfl⟩ | ⟨rfl, rfl⟩ | ⟨rfl, rfl⟩ | ⟨rfl, rfl⟩
        · exact ⟨1, by decide, by simp [d4x], by simp [d4y]⟩
        · exact ⟨3, by decide, by simp [d4x], by simp [d4y]⟩
        · exact ⟨2, by decide, by simp [d4x], by simp [d4y]⟩
        · exact ⟨4, by decide, by simp [d4x], by simp [d4y]⟩
      obtain ⟨n, hn, k1, k2⟩ := key
      refine ⟨n, hn, ?_⟩
      simp only [nbr, dx, dy, k1, k2, Prod.mk.injEq]; constructor <;> omega
    · rintro ⟨n, hn, h⟩
      rw [mem_dirs] at hn
      simp only [nmax] at hn
      obtain ⟨hn1, hn2⟩ := hn
      simp only [nbr, dx, dy, Prod.mk.injEq] at h
      obtain ⟨rfl, rfl⟩ := h
      interval_cases n <;> simp [Adj, d4x, d4y]

theorem nbr_adj {t : Topo} {c : Cell} {n : Nat} (h : n ∈ dirs t) : Adj t c (nbr t c n) :=
  adj_iff_nbr.2 ⟨n, h, rfl⟩

theorem xyToI_iToxy {w : Nat} (i : Nat) : xyToI w (iToxy w i) = i := by
  simp only [xyToI, iToxy]
  have := Nat.div_add_mod i w
  have h2 : ((w * (i / w) + i % w : Nat) : Int) = i := by rw [this]
  push_cast at h2 ⊢
  linarith [mul_comm ((w:Int)) ((i:Int) / w)]

theorem iToxy_inGrid {w h i : Nat} (hi : i < w * h) : InGrid w h (iToxy w i) := by
  have hw : 0 < w := by
    rcases Nat.eq_zero_or_pos w with rfl | h
    · simp at hi
    · exact h
  have h1 : i % w < w := Nat.mod_lt _ hw
  have h2 : i / w < h := Nat.div_lt_of_lt_mul hi
  simp only [InGrid, iToxy]
  exact ⟨Int.natCast_nonneg _, by exact_mod_cast h1, Int.natCast_nonneg _, by exact_mod_cast h2⟩

theorem xyToI_bounds {w h : Nat} {c : Cell} (hc : InGrid w h c) :
    0 ≤ xyToI w c ∧ xyToI w c < (w * h : Nat) := by
  obtain ⟨h1, h2, h3, h4⟩ := hc
  simp only [xyToI]
  constructor
  · positivity
  · push_cast
    have : c.2 + 1 ≤ (h : Int) := by omega
    nlinarith

theorem iToxy_xyToI {w h : Nat} {c : Cell} (hc : InGrid w h c) :
    iToxy w (xyToI w c).toNat = c := by
  obtain ⟨x, y⟩ := c
  obtain ⟨h1, h2, h3, h4⟩ := hc
  simp only at h1 h2 h3 h4
  lift x to ℕ using h1
  lift y to ℕ using h3
  have hx : x < w := by omega
  have e : (xyToI w ((x:Int), (y:Int))).toNat = y * w + x := by
    simp only [xyToI]
    have : ((y:Int) * w + x) = ((y * w + x : Nat) : Int) := by push_cast; ring
    rw [this]; rfl
  rw [e]
  simp only [iToxy]
  have a : (y * w + x) % w = x := by
    rw [Nat.add_comm, Nat.add_mul_mod_self_right]; exact Nat.mod_eq_of_lt hx
  have b : (y * w + x) / w = y := by
    rw [Nat.add_comm, Nat.add_mul_div_right _ _ (by omega)]
    rw [Nat.div_eq_of_lt hx]; omega
  rw [a, b]

end RichDEM
