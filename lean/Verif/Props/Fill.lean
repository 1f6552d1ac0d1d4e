/-
Property theorems C42 (bucket fill) and C47 (perimeter).
-/
import Verif.Fill.Bucket
import Verif.Fill.Perimeter
import Verif.Examples
import Mathlib.Data.Finset.Card
import Mathlib.Algebra.BigOperators.Group.Finset.Basic
import Mathlib.Algebra.BigOperators.Group.List.Basic
import Mathlib.Order.Interval.Finset.Basic
import Mathlib.Data.Int.Interval

namespace RichDEM

/-! ### C42 -/

section
variable {T U : Type*} [DecidableEq T] [DecidableEq U]

/-- One step of a paint fill: to a neighbour inside the raster that has the check value and does
not carry the set value already. -/
def PaintStep (w h : Nat) (t : Topo) (check : Cell → T) (cv : T) (set : Cell → U) (sv : U)
    (a b : Cell) : Prop :=
  Adj t a b ∧ InGrid w h b ∧ check b = cv ∧ set b ≠ sv

/-- The region a paint fill covers. -/
def PaintRegion (w h : Nat) (t : Topo) (check : Cell → T) (cv : T) (set : Cell → U) (sv : U)
    (seed : Cell → Prop) (c : Cell) : Prop :=
  ∃ s, seed s ∧ (check s = cv ∧ set s ≠ sv) ∧
    Relation.ReflTransGen (PaintStep w h t check cv set sv) s c

theorem fillReach_iff (w h : Nat) (t : Topo) (check : Cell → T) (cv : T) (set : Cell → U) (sv : U)
    (seeds : List Cell) (c : Cell) :
    FillReach w h t (fun c => check c == cv) (fun u => u == sv) set seeds c ↔
      PaintRegion w h t check cv set sv (· ∈ seeds) c := by
  have hE : FillEdge w h t (fun c => check c == cv) (fun u => u == sv) set =
      PaintStep w h t check cv set sv := by
    funext a b
    simp [FillEdge, PaintStep]
  unfold FillReach PaintRegion
  rw [hE]
  simp [and_assoc]

/-- C42: `BucketFill` ends, and sets exactly the cells of the paint region, for every order in
which pending cells are taken. -/
theorem C42_exact (q : AnyQ Cell) (w h : Nat) (t : Topo) (check : Cell → T) (cv : T)
    (set : Cell → U) (sv : U) (seeds : List Cell) (hin : ∀ c ∈ seeds, InGrid w h c) :
    let r := bucketFill q w h t check cv set sv seeds
    r.q = [] ∧
    ∀ c, (PaintRegion w h t check cv set sv (· ∈ seeds) c → r.val c = sv) ∧
      (¬ PaintRegion w h t check cv set sv (· ∈ seeds) c → r.val c = set c) := by
  intro r
  obtain ⟨h1, D, h2, h3⟩ := bucket_final q w h t check cv set sv seeds hin
  refine ⟨h1, fun c => ⟨fun hc => ?_, fun hc => ?_⟩⟩
  · show (bucketFill q w h t check cv set sv seeds).val c = sv
    rw [h3, if_pos ((h2 c).2 ((fillReach_iff ..).2 hc))]
  · show (bucketFill q w h t check cv set sv seeds).val c = set c
    rw [h3, if_neg]
    intro hd; exact hc ((fillReach_iff ..).1 ((h2 c).1 hd))

/-- C42: if no cell carries the set value beforehand, the cells that carry it afterwards are
exactly those with the check value that are connected, through such cells, to a seed. -/
theorem C42_fresh (q : AnyQ Cell) (w h : Nat) (t : Topo) (check : Cell → T) (cv : T)
    (set : Cell → U) (sv : U) (seeds : List Cell) (hin : ∀ c ∈ seeds, InGrid w h c)
    (hfresh : ∀ c, set c ≠ sv) (c : Cell) :
    (bucketFill q w h t check cv set sv seeds).val c = sv ↔
      ∃ s ∈ seeds, check s = cv ∧
        Relation.ReflTransGen (fun a b => Adj t a b ∧ InGrid w h b ∧ check b = cv) s c := by
  have h1 := (C42_exact q w h t check cv set sv seeds hin).2 c
  have hE : PaintStep w h t check cv set sv =
      fun a b => Adj t a b ∧ InGrid w h b ∧ check b = cv := by
    funext a b; simp [PaintStep, hfresh]
  have h2 : PaintRegion w h t check cv set sv (· ∈ seeds) c ↔ ∃ s ∈ seeds, check s = cv ∧
        Relation.ReflTransGen (fun a b => Adj t a b ∧ InGrid w h b ∧ check b = cv) s c := by
    unfold PaintRegion; rw [hE]; simp [hfresh]
  rw [← h2]
  constructor
  · intro h3
    by_contra h4
    exact hfresh c ((h1.2 h4).symm.trans h3)
  · exact h1.1

/-- C42: `BucketFillFromEdges` on a non-empty raster fills from exactly the edge cells. -/
theorem C42_from_edges (q : AnyQ Cell) (w h : Nat) (hw : 0 < w) (hh : 0 < h) (t : Topo)
    (check : Cell → T) (cv : T) (set : Cell → U) (sv : U) :
    let r := bucketFillFromEdges q w h t check cv set sv
    r.q = [] ∧
    ∀ c, (PaintRegion w h t check cv set sv (OnEdge w h) c → r.val c = sv) ∧
      (¬ PaintRegion w h t check cv set sv (OnEdge w h) c → r.val c = set c) := by
  have hin : ∀ c ∈ edgeSeeds w h, InGrid w h c := fun c hc => ((mem_edgeSeeds hw hh c).1 hc).1
  have hE : (fun c => c ∈ edgeSeeds w h) = OnEdge w h := by
    funext c; exact propext (mem_edgeSeeds hw hh c)
  have := C42_exact q w h t check cv set sv (edgeSeeds w h) hin
  simp only [hE] at this
  exact this

end

/-- Non-vacuity: the interior hole of a 5 by 5 ring is not filled from the edges. -/
example : toRows 5 5 (bucketFillFromEdges (lifo Cell) 5 5 .D4
      (ofRows 9 [[0,0,0,0,0], [0,1,1,1,0], [0,1,0,1,0], [0,1,1,1,0], [0,0,0,0,0]] : Cell → Int) 0
      (fun _ => (5 : Int)) 7).val =
    [[7,7,7,7,7], [7,5,5,5,7], [7,5,5,5,7], [7,5,5,5,7], [7,7,7,7,7]] := by decide +kernel

example : ∃ c, PaintRegion 5 5 .D4
      (ofRows 9 [[0,0,0,0,0], [0,1,1,1,0], [0,1,0,1,0], [0,1,1,1,0], [0,0,0,0,0]] : Cell → Int) 0
      (fun _ => (5 : Int)) 7 (OnEdge 5 5) c :=
  ⟨(0, 0), (0, 0), by decide +kernel, by decide +kernel, .refl⟩

/-! ### C47 -/

section
variable {E : Type*} [DecidableEq E]

theorem offgrid_iff {w h : Nat} {c : Cell} (hc : InGrid w h c) :
    (∃ b, Adj .D8 c b ∧ ¬ InGrid w h b) ↔ OnEdge w h c := by
  constructor
  · rintro ⟨b, h1, h2⟩
    by_contra he
    have h8 : ¬ (c.1 = 0 ∨ c.2 = 0 ∨ c.1 = (w:Int) - 1 ∨ c.2 = (h:Int) - 1) := fun e => he ⟨hc, e⟩
    obtain ⟨x, y⟩ := c; obtain ⟨x', y'⟩ := b
    obtain ⟨k1, k2, k3, k4⟩ := hc
    obtain ⟨-, h6, h7⟩ := h1
    simp only at *
    apply h2
    refine ⟨?_, ?_, ?_, ?_⟩ <;> dsimp only <;> omega
  · rintro ⟨_, h1⟩
    obtain ⟨x, y⟩ := c
    dsimp only at h1
    have key : ∀ dx dy : Int, (dx, dy) ≠ (0, 0) → dx.natAbs ≤ 1 → dy.natAbs ≤ 1 →
        Adj .D8 (x, y) (x + dx, y + dy) := by
      intro dx dy h2 h3 h4
      refine ⟨?_, ?_, ?_⟩
      · intro e; apply h2; simp only [Prod.mk.injEq] at *; omega
      · dsimp only; omega
      · dsimp only; omega
    rcases h1 with h1 | h1 | h1 | h1
    · exact ⟨_, key (-1) 0 (by simp) (by simp) (by simp), fun h => by
        obtain ⟨k1, k2, k3, k4⟩ := h; dsimp only at *; omega⟩
    · exact ⟨_, key 0 (-1) (by simp) (by simp) (by simp), fun h => by
        obtain ⟨k1, k2, k3, k4⟩ := h; dsimp only at *; omega⟩
    · exact ⟨_, key 1 0 (by simp) (by simp) (by simp), fun h => by
        obtain ⟨k1, k2, k3, k4⟩ := h; dsimp only at *; omega⟩
    · exact ⟨_, key 0 1 (by simp) (by simp) (by simp), fun h => by
        obtain ⟨k1, k2, k3, k4⟩ := h; dsimp only at *; omega⟩

/-- The cells of a `w` by `h` raster. -/
def gridCells (w h : Nat) : Finset Cell := Finset.Ico (0 : Int) w ×ˢ Finset.Ico (0 : Int) h

theorem toFinset_allCells (w h : Nat) : (allCells w h).toFinset = gridCells w h := by
  ext ⟨x, y⟩
  simp only [List.mem_toFinset, mem_allCells, gridCells, Finset.mem_product, Finset.mem_Ico, InGrid,
    and_assoc]

theorem foldl_add_sum {α : Type*} (f : α → Nat) (l : List α) (a : Nat) :
    l.foldl (fun a c => a + f c) a = a + (l.map f).sum := by
  induction l generalizing a with
  | nil => simp
  | cons x l ih => rw [List.foldl_cons, ih, List.map_cons, List.sum_cons]; omega

theorem sum_allCells (w h : Nat) (f : Cell → Nat) :
    ((allCells w h).map f).sum = ∑ c ∈ gridCells w h, f c := by
  rw [← toFinset_allCells, List.sum_toFinset f (nodup_allCells w h)]

theorem cellEdge_eq {w h : Nat} {c : Cell} (hc : InGrid w h c) :
    cellEdge w h c = if OnEdge w h c then 1 else 0 := by
  unfold cellEdge
  by_cases he : OnEdge w h c
  · rw [if_pos he]
    obtain ⟨b, h1, h2⟩ := (offgrid_iff hc).2 he
    obtain ⟨n, hn, rfl⟩ := adj_iff_nbr.1 h1
    cases hf : (dirs .D8).find? (fun n => !inGrid w h (nbr .D8 c n)) with
    | some _ => rfl
    | none =>
      rw [List.find?_eq_none] at hf
      have := hf n hn
      exfalso; apply h2
      simpa [inGrid_iff] using this
  · rw [if_neg he]
    cases hf : (dirs .D8).find? (fun n => !inGrid w h (nbr .D8 c n)) with
    | none => rfl
    | some n =>
      exfalso
      have h1 := List.find?_some hf
      have h2 := List.mem_of_find?_eq_some hf
      refine he ((offgrid_iff hc).1 ⟨_, nbr_adj h2, ?_⟩)
      intro h3; simp [inGrid_iff.2 h3] at h1

/-- C47 (partial: as documented the count should include data cells that border NoData cells; the
code ignores those, see `C47_nodata_ignored`): `Perimeter(CELL_COUNT)` is the number of data cells
on the edge of the raster. -/
theorem C47_cell_count_partial (w h : Nat) (dem : Cell → E) (nd : E) :
    perimeterCells w h dem nd =
      ((gridCells w h).filter (fun c => dem c ≠ nd ∧ OnEdge w h c)).card := by
  unfold perimeterCells
  have : (fun (a : Nat) c => if dem c = nd then a else a + cellEdge w h c) =
      fun a c => a + (if dem c = nd then 0 else cellEdge w h c) := by
    funext a c; split <;> simp
  rw [this, foldl_add_sum, sum_allCells, Nat.zero_add, Finset.card_filter]
  refine Finset.sum_congr rfl fun c hc => ?_
  have hc' : InGrid w h c := by
    rw [← toFinset_allCells, List.mem_toFinset, mem_allCells] at hc; exact hc
  rw [cellEdge_eq hc']
  by_cases h1 : dem c = nd <;> by_cases h2 : OnEdge w h c <;> simp [h1, h2]

end

/-- C47: on a 5 by 5 raster whose centre is NoData, eight further cells border a NoData cell, but
`CELL_COUNT` returns 16 rather than 24. -/
theorem C47_nodata_ignored :
    let dem : Cell → Int := fun c => if c = (2, 2) then -1 else 0
    perimeterCells 5 5 dem (-1) = 16 ∧
    ((gridCells 5 5).filter (fun c => dem c ≠ -1 ∧ (OnEdge 5 5 c ∨
      ∃ n ∈ dirs .D8, InGrid 5 5 (nbr .D8 c n) ∧ dem (nbr .D8 c n) = -1))).card = 24 := by
  decide +kernel

section
variable {E : Type*} [DecidableEq E]

/-- The side of a data cell towards the cell `b` is exposed: `b` is off the raster or NoData. -/
def Exposed (w h : Nat) (dem : Cell → E) (nd : E) (b : Cell) : Prop :=
  ¬ InGrid w h b ∨ dem b = nd

instance (w h : Nat) (dem : Cell → E) (nd : E) (b : Cell) : Decidable (Exposed w h dem nd b) := by
  unfold Exposed; infer_instance

theorem squareEdges_eq (w h : Nat) (dem : Cell → E) (nd : E) (c : Cell) :
    squareEdges w h dem nd c =
      ((if Exposed w h dem nd (c.1, c.2 - 1) then 1 else 0) +
        (if Exposed w h dem nd (c.1, c.2 + 1) then 1 else 0),
       (if Exposed w h dem nd (c.1 - 1, c.2) then 1 else 0) +
        (if Exposed w h dem nd (c.1 + 1, c.2) then 1 else 0)) := by
  have hcond : ∀ b, ((!inGrid w h b || dem b == nd) = true) ↔ Exposed w h dem nd b := by
    intro b
    unfold Exposed
    rw [Bool.or_eq_true, beq_iff_eq, Bool.not_eq_true', ← inGrid_iff, Bool.not_eq_true]
  obtain ⟨x, y⟩ := c
  have hd : dirs .D8 = [1, 2, 3, 4, 5, 6, 7, 8] := by decide
  have h1 : nbr .D8 (x, y) 1 = (x - 1, y) := by
    simp [nbr, dx, dy, d8x, d8y]; try omega
  have h3 : nbr .D8 (x, y) 3 = (x, y - 1) := by
    simp [nbr, dx, dy, d8x, d8y]; try omega
  have h5 : nbr .D8 (x, y) 5 = (x + 1, y) := by
    simp [nbr, dx, dy, d8x, d8y]; try omega
  have h7 : nbr .D8 (x, y) 7 = (x, y + 1) := by
    simp [nbr, dx, dy, d8x, d8y]; try omega
  have e1 : dx .D8 1 ≠ 0 := by decide
  have e2 : dx .D8 2 ≠ 0 := by decide
  have e2' : dy .D8 2 ≠ 0 := by decide
  have e4 : dx .D8 4 ≠ 0 := by decide
  have e4' : dy .D8 4 ≠ 0 := by decide
  have e5 : dx .D8 5 ≠ 0 := by decide
  have e6 : dx .D8 6 ≠ 0 := by decide
  have e6' : dy .D8 6 ≠ 0 := by decide
  have e8 : dx .D8 8 ≠ 0 := by decide
  have e8' : dy .D8 8 ≠ 0 := by decide
  have f1 : dy .D8 1 = 0 := by decide
  have f3 : dx .D8 3 = 0 := by decide
  have f5 : dy .D8 5 = 0 := by decide
  have f7 : dx .D8 7 = 0 := by decide
  unfold squareEdges
  rw [hd]
  simp only [List.foldl_cons, List.foldl_nil, hcond, h1, h3, h5, h7, e1, e2, e2', e4, e4', e5, e6,
    e6', e8, e8', f1, f3, f5, f7, if_true, if_false, ite_self]
  by_cases k1 : Exposed w h dem nd (x - 1, y) <;> by_cases k2 : Exposed w h dem nd (x + 1, y) <;>
    by_cases k3 : Exposed w h dem nd (x, y - 1) <;> by_cases k4 : Exposed w h dem nd (x, y + 1) <;>
    simp [k1, k2, k3, k4]

theorem foldl_pair_sum {α : Type*} (f : α → Nat × Nat) (l : List α) (a : Nat × Nat) :
    l.foldl (fun a c => (a.1 + (f c).1, a.2 + (f c).2)) a =
      (a.1 + (l.map (fun c => (f c).1)).sum, a.2 + (l.map (fun c => (f c).2)).sum) := by
  induction l generalizing a with
  | nil => simp
  | cons x l ih =>
    rw [List.foldl_cons, ih]
    simp only [List.map_cons, List.sum_cons, Prod.mk.injEq]
    omega

/-- C47: the counters behind `Perimeter(SQUARE_EDGE)`: the horizontal sides (above and below a data
cell) and the vertical sides (left and right of it) beyond which there is no data cell. -/
theorem C47_square_edges (w h : Nat) (dem : Cell → E) (nd : E) :
    (perimeterEdges w h dem nd).1 = ((gridCells w h ×ˢ ({-1, 1} : Finset Int)).filter
      (fun p => dem p.1 ≠ nd ∧ Exposed w h dem nd (p.1.1, p.1.2 + p.2))).card ∧
    (perimeterEdges w h dem nd).2 = ((gridCells w h ×ˢ ({-1, 1} : Finset Int)).filter
      (fun p => dem p.1 ≠ nd ∧ Exposed w h dem nd (p.1.1 + p.2, p.1.2))).card := by
  unfold perimeterEdges
  have e : (fun (a : Nat × Nat) c => if dem c = nd then a else
      (a.1 + (squareEdges w h dem nd c).1, a.2 + (squareEdges w h dem nd c).2)) =
      fun a c => (a.1 + (if dem c = nd then (0, 0) else squareEdges w h dem nd c).1,
        a.2 + (if dem c = nd then (0, 0) else squareEdges w h dem nd c).2) := by
    funext a c; split <;> simp
  have hne : (-1 : Int) ≠ 1 := by decide
  rw [e, foldl_pair_sum, sum_allCells, sum_allCells]
  simp only [Nat.zero_add]
  constructor
  · rw [Finset.card_filter, Finset.sum_product]
    refine Finset.sum_congr rfl fun c _ => ?_
    rw [Finset.sum_pair hne]
    by_cases h1 : dem c = nd
    · simp [h1]
    · simp only [if_neg h1, squareEdges_eq, ne_eq, h1, not_false_eq_true, true_and]
      rfl
  · rw [Finset.card_filter, Finset.sum_product]
    refine Finset.sum_congr rfl fun c _ => ?_
    rw [Finset.sum_pair hne]
    by_cases h1 : dem c = nd
    · simp [h1]
    · simp only [if_neg h1, squareEdges_eq, ne_eq, h1, not_false_eq_true, true_and]
      rfl

end

/-- C47: `Perimeter(SQUARE_EDGE)` is the length of the outline: each exposed horizontal side of a data cell counts the cell
width, each exposed vertical side the cell height. -/
theorem C47_square_length {E : Type*} [DecidableEq E] (w h : Nat) (dem : Cell → E) (nd : E) (lx ly : ℚ) :
    perimeterSquare w h dem nd lx ly =
      ((gridCells w h ×ˢ ({-1, 1} : Finset Int)).filter
        (fun p => dem p.1 ≠ nd ∧ Exposed w h dem nd (p.1.1, p.1.2 + p.2))).card * lx +
      ((gridCells w h ×ˢ ({-1, 1} : Finset Int)).filter
        (fun p => dem p.1 ≠ nd ∧ Exposed w h dem nd (p.1.1 + p.2, p.1.2))).card * ly := by
  obtain ⟨h1, h2⟩ := C47_square_edges w h dem nd
  unfold perimeterSquare
  rw [h1, h2]

/-- C47: a raster without NoData has the perimeter of the rectangle. -/
example : perimeterSquare 4 3 (fun _ => (0 : Int)) (-1) 10 7 = 2 * (4 * 10 + 3 * 7) := by
  decide +kernel

example : perimeterEdges 5 5 (fun c => if c = (2, 2) then (-1 : Int) else 0) (-1) = (12, 12) := by
  decide +kernel

end RichDEM
