/-
Specification vocabulary.  Nothing here depends on a model of the code: it is what a
reader needs in order to understand the property theorems.
-/
import Mathlib.Order.Defs.LinearOrder
import Mathlib.Data.List.Chain

namespace RichDEM

/-- A cell address `(x, y)`; may lie outside the raster. -/
abbrev Cell := Int × Int

/-- The two neighbourhoods supported by RichDEM. -/
inductive Topo | D8 | D4
  deriving DecidableEq, Repr

/-- The cell is inside a raster of width `w` and height `h`. -/
def InGrid (w h : Nat) (c : Cell) : Prop :=
  0 ≤ c.1 ∧ c.1 < w ∧ 0 ≤ c.2 ∧ c.2 < h

instance (w h : Nat) (c : Cell) : Decidable (InGrid w h c) := by
  unfold InGrid; infer_instance

/-- The cell is in the raster and in its outermost ring. -/
def OnEdge (w h : Nat) (c : Cell) : Prop :=
  InGrid w h c ∧ (c.1 = 0 ∨ c.2 = 0 ∨ c.1 = (w : Int) - 1 ∨ c.2 = (h : Int) - 1)

instance (w h : Nat) (c : Cell) : Decidable (OnEdge w h c) := by
  unfold OnEdge; infer_instance

/-- Two cells are adjacent: a king move (D8) or a rook move by one (D4). -/
def Adj : Topo → Cell → Cell → Prop
  | .D8, a, b => a ≠ b ∧ (b.1 - a.1).natAbs ≤ 1 ∧ (b.2 - a.2).natAbs ≤ 1
  | .D4, a, b => (b.1 - a.1).natAbs + (b.2 - a.2).natAbs = 1

instance (t : Topo) (a b : Cell) : Decidable (Adj t a b) := by
  cases t <;> unfold Adj <;> infer_instance

theorem Adj.symm {t : Topo} {a b : Cell} (h : Adj t a b) : Adj t b a := by
  obtain ⟨a1, a2⟩ := a; obtain ⟨b1, b2⟩ := b
  cases t
  · obtain ⟨h1, h2, h3⟩ := h
    refine ⟨fun e => h1 e.symm, ?_, ?_⟩ <;> simp only at * <;> omega
  · simp only [Adj] at *; omega

/-- `p` is a path from cell `c` to the raster's perimeter: it starts at `c`, moves between
adjacent cells, stays in the raster and ends on an edge cell. -/
structure EscapePath (w h : Nat) (t : Topo) (c : Cell) (p : List Cell) : Prop where
  head  : p.head? = some c
  chain : p.IsChain (Adj t)
  inGrid : ∀ q ∈ p, InGrid w h q
  last  : ∃ e, p.getLast? = some e ∧ OnEdge w h e

/-- `z` is the water level of `c` for terrain `dem`: the minimum over all paths from `c` to
the perimeter of the highest terrain met on the path. -/
structure IsWaterLevel {E : Type*} [LinearOrder E] (w h : Nat) (t : Topo) (dem : Cell → E)
    (c : Cell) (z : E) : Prop where
  attained : ∃ p, EscapePath w h t c p ∧ ∀ q ∈ p, dem q ≤ z
  least    : ∀ p, EscapePath w h t c p → ∃ q ∈ p, z ≤ dem q

/-- `out` is the depression-filled version of `dem`. -/
def IsFilled {E : Type*} [LinearOrder E] (w h : Nat) (t : Topo) (dem out : Cell → E) : Prop :=
  ∀ c, InGrid w h c → IsWaterLevel w h t dem c (out c)

/-- A path from `c` that leaves the data: it moves between adjacent data cells of the raster and
ends on the raster's edge or beside a NoData cell. -/
structure DataPath {E : Type*} (w h : Nat) (t : Topo) (dem : Cell → E) (nd : E) (c : Cell) (p : List Cell) :
    Prop where
  head  : p.head? = some c
  chain : p.IsChain (Adj t)
  data  : ∀ q ∈ p, InGrid w h q ∧ dem q ≠ nd
  last  : ∃ e, p.getLast? = some e ∧ (OnEdge w h e ∨ ∃ b, Adj t e b ∧ InGrid w h b ∧ dem b = nd)

/-- Every cell has a path to the perimeter that never goes uphill. -/
def Drained {E : Type*} [LinearOrder E] (w h : Nat) (t : Topo) (dem : Cell → E) : Prop :=
  ∀ c, InGrid w h c → ∃ p, EscapePath w h t c p ∧ p.IsChain (fun a b => dem b ≤ dem a)

end RichDEM
