import Verif.Grid
import Verif.Loop

/-!
Model of the single-direction flow metrics: `d8_FlowDir`, `d8_flow_directions`
(include/richdem/flowmet/d8_flowdirs.hpp) and `FM_OCallaghan`
(include/richdem/flowmet/OCallaghan1984.hpp).

Elevations are any linear order (no NaN).  Each cell's result depends only on the DEM, and each
iteration of the parallel loops writes only its own cell, so the rasters are functions of the
cell.
-/

namespace RichDEM

variable {E : Type*} [LinearOrder E]

/-- Array2D.hpp:788-797 (`isTopLeft` … `isBottomRight`) and 801-810 (`isTopRow` …): the first
part of `d8_FlowDir`, d8_flowdirs.hpp:37-54, for an edge cell. -/
def edgeDir (w h : Nat) (c : Cell) : Nat :=
  if c.1 = 0 ∧ c.2 = 0 then 2
  else if c.1 = 0 ∧ c.2 = (h : Int) - 1 then 8
  else if c.1 = (w : Int) - 1 ∧ c.2 = 0 then 4
  else if c.1 = (w : Int) - 1 ∧ c.2 = (h : Int) - 1 then 6
  else if c.1 = 0 then 1
  else if c.1 = (w : Int) - 1 then 5
  else if c.2 = 0 then 3
  else 7

/-- d8_flowdirs.hpp:64-72: the scan over the neighbours, on the list of directions still to be
looked at; `e n` is the elevation of neighbour `n`.  State: lowest elevation so far and its
direction. -/
def scanDir (e : Nat → E) : List Nat → E × Nat → E × Nat
  | [], s => s
  | n :: ns, (m, d) =>
    if e n < m ∨ (e n = m ∧ 0 < d ∧ d % 2 = 0 ∧ n % 2 = 1) then scanDir e ns (e n, n)
    else scanDir e ns (m, d)

/-- d8_flowdirs.hpp:33-75 (`d8_FlowDir`). -/
def d8FlowDir (w h : Nat) (dem : Cell → E) (c : Cell) : Nat :=
  if isEdgeCell w h c then edgeDir w h c
  else (scanDir (fun n => dem (nbr .D8 c n)) (dirs .D8) (dem c, 0)).2

/-- constants.hpp:76 (`FLOWDIR_NO_DATA`). -/
def FLOWDIR_NO_DATA : Nat := 255

/-- d8_flowdirs.hpp:98-124 (`d8_flow_directions`). -/
def d8FlowDirections (w h : Nat) (dem : Cell → E) (noData : E) (c : Cell) : Nat :=
  if dem c = noData then FLOWDIR_NO_DATA else d8FlowDir w h dem c

/-! ### O'Callaghan -/

/-- OCallaghan1984.hpp:48-66: the search for the lowest lower neighbour; `none` elevations are
NoData.  State: lowest elevation so far, its direction. -/
def scanLowest (e : E) (nb : Nat → Option E) : List Nat → E × Nat → E × Nat
  | [], s => s
  | n :: ns, (m, d) =>
    match nb n with
    | none => scanLowest e nb ns (m, d)
    | some ne =>
      if e ≤ ne then scanLowest e nb ns (m, d)
      else if ne < m then scanLowest e nb ns (ne, n)
      else scanLowest e nb ns (m, d)

/-- What `FM_OCallaghan` leaves in the nine numbers of a cell. -/
inductive Props1 where
  /-- `props(x,y,0) = NO_DATA_GEN`. -/
  | noData
  /-- All `NO_FLOW_GEN`. -/
  | noFlow
  /-- `HAS_FLOW_GEN` and proportion 1 in slot `n`. -/
  | flow (n : Nat)
deriving DecidableEq

/-- OCallaghan1984.hpp:14-79 (`FM_OCallaghan<topo>`); `mx` is `numeric_limits<elev_t>::max()`. -/
def fmOCallaghan (w h : Nat) (t : Topo) (dem : Cell → E) (noData mx : E) (c : Cell) : Props1 :=
  if dem c = noData then .noData
  else if isEdgeCell w h c then .noFlow
  else
    let r := scanLowest (dem c)
      (fun n => if dem (nbr t c n) = noData then none else some (dem (nbr t c n))) (dirs t) (mx, 0)
    if r.2 = 0 then .noFlow else .flow r.2

/-- The slot `n` of a cell's proportions, as `FlowAccumulation` reads it
(flow_accumulation_generic.hpp:79: slot `n` is D8 neighbour `n`). -/
def Props1.slot : Props1 → Nat → Int
  | .noData, 0 => -2
  | .flow m, n => if n = m then 1 else if n = 0 then 0 else -1
  | _, _ => -1

/-! ### Lemmas -/

/-- Loop invariant of `scanDir`. -/
theorem scanDir_spec (e : Nat → E) (e0 : E) :
    ∀ (l pre : List Nat) (m : E) (d : Nat), (∀ n ∈ pre ++ l, 0 < n) →
      ((d = 0 ∧ m = e0 ∧ ∀ n ∈ pre, ¬ e n < e0) ∨
       (d ∈ pre ∧ m = e d ∧ e d < e0 ∧ (∀ n ∈ pre, e d ≤ e n) ∧
         (d % 2 = 0 → ∀ n ∈ pre, n % 2 = 1 → e n ≠ e d))) →
      let r := scanDir e l (m, d)
      ((r.2 = 0 ∧ r.1 = e0 ∧ ∀ n ∈ pre ++ l, ¬ e n < e0) ∨
       (r.2 ∈ pre ++ l ∧ r.1 = e r.2 ∧ e r.2 < e0 ∧ (∀ n ∈ pre ++ l, e r.2 ≤ e n) ∧
         (r.2 % 2 = 0 → ∀ n ∈ pre ++ l, n % 2 = 1 → e n ≠ e r.2))) := by
  intro l
  induction l with
  | nil => intro pre m d _ h; simpa [scanDir] using h
  | cons a l ih =>
    intro pre m d hpos h
    have hassoc : pre ++ a :: l = (pre ++ [a]) ++ l := by simp
    rw [hassoc] at hpos ⊢
    have ha : 0 < a := hpos a (by simp)
    simp only [scanDir]
    split
    · rename_i hc
      refine ih (pre ++ [a]) (e a) a hpos (.inr ⟨by simp, rfl, ?_, ?_, ?_⟩)
      · rcases h with ⟨h1, h2, _⟩ | ⟨_, h2, h3, _, _⟩
        · rcases hc with hc | hc
          · rw [← h2]; exact hc
          · omega
        · rcases hc with hc | hc
          · rw [h2] at hc; exact hc.trans h3
          · rw [hc.1, h2]; exact h3
      · intro n hn
        simp only [List.mem_append, List.mem_singleton] at hn
        rcases hn with hn | rfl
        · rcases h with ⟨h1, h2, h3⟩ | ⟨_, h2, h3, h4, _⟩
          · rcases hc with hc | hc
            · rw [h2] at hc; exact hc.le.trans (not_lt.1 (h3 n hn))
            · omega
          · rcases hc with hc | hc
            · rw [h2] at hc; exact hc.le.trans (h4 n hn)
            · rw [hc.1, h2]; exact h4 n hn
        · exact le_refl _
      · intro hpar n hn hodd
        simp only [List.mem_append, List.mem_singleton] at hn
        rcases hn with hn | rfl
        · rcases hc with hc | hc
          · rcases h with ⟨h1, h2, h3⟩ | ⟨_, h2, h3, h4, _⟩
            · rw [h2] at hc
              exact fun he => h3 n hn (he ▸ hc)
            · rw [h2] at hc
              exact fun he => absurd (h4 n hn) (not_le.2 (he ▸ hc))
          · omega
        · omega
    · rename_i hc
      have hc1 : ¬ e a < m := fun h' => hc (.inl h')
      refine ih (pre ++ [a]) m d hpos ?_
      rcases h with ⟨h1, h2, h3⟩ | ⟨h1, h2, h3, h4, h5⟩
      · left
        refine ⟨h1, h2, ?_⟩
        intro n hn
        simp only [List.mem_append, List.mem_singleton] at hn
        rcases hn with hn | rfl
        · exact h3 n hn
        · rw [h2] at hc1; exact hc1
      · right
        have hd0 : 0 < d := hpos d (by simp [h1])
        refine ⟨by simp [h1], h2, h3, ?_, ?_⟩
        · intro n hn
          simp only [List.mem_append, List.mem_singleton] at hn
          rcases hn with hn | rfl
          · exact h4 n hn
          · rw [h2] at hc1; exact not_lt.1 hc1
        · intro hpar n hn hodd
          simp only [List.mem_append, List.mem_singleton] at hn
          rcases hn with hn | rfl
          · exact h5 hpar n hn hodd
          · intro he
            exact hc (.inr ⟨by rw [he, h2], hd0, hpar, hodd⟩)

/-- Loop invariant of `scanLowest`. -/
theorem scanLowest_spec (e mx : E) (hmx : e ≤ mx) (nb : Nat → Option E) :
    ∀ (l pre : List Nat) (m : E) (d : Nat), (∀ n ∈ pre ++ l, 0 < n) →
      ((d = 0 ∧ m = mx ∧ ∀ n ∈ pre, ∀ z, nb n = some z → e ≤ z) ∨
       (d ∈ pre ∧ nb d = some m ∧ m < e ∧ ∀ n ∈ pre, ∀ z, nb n = some z → m ≤ z)) →
      let r := scanLowest e nb l (m, d)
      ((r.2 = 0 ∧ ∀ n ∈ pre ++ l, ∀ z, nb n = some z → e ≤ z) ∨
       (r.2 ∈ pre ++ l ∧ nb r.2 = some r.1 ∧ r.1 < e ∧
         ∀ n ∈ pre ++ l, ∀ z, nb n = some z → r.1 ≤ z)) := by
  intro l
  induction l with
  | nil =>
    intro pre m d _ h
    simp only [scanLowest, List.append_nil]
    rcases h with ⟨h1, _, h3⟩ | h
    · exact .inl ⟨h1, h3⟩
    · exact .inr h
  | cons a l ih =>
    intro pre m d hpos h
    have hassoc : pre ++ a :: l = (pre ++ [a]) ++ l := by simp
    rw [hassoc] at hpos ⊢
    simp only [scanLowest]
    have keep : (∀ z, nb a = some z → e ≤ z ∨ m ≤ z ∧ m < e) →
        ((d = 0 ∧ m = mx ∧ ∀ n ∈ pre ++ [a], ∀ z, nb n = some z → e ≤ z) ∨
         (d ∈ pre ++ [a] ∧ nb d = some m ∧ m < e ∧
           ∀ n ∈ pre ++ [a], ∀ z, nb n = some z → m ≤ z)) := by
      intro hz
      rcases h with ⟨h1, h2, h3⟩ | ⟨h1, h2, h3, h4⟩
      · left
        refine ⟨h1, h2, ?_⟩
        intro n hn z hnz
        simp only [List.mem_append, List.mem_singleton] at hn
        rcases hn with hn | rfl
        · exact h3 n hn z hnz
        · rcases hz z hnz with h | ⟨_, h⟩
          · exact h
          · rw [h2] at h; exact absurd h (not_lt.2 hmx)
      · right
        refine ⟨by simp [h1], h2, h3, ?_⟩
        intro n hn z hnz
        simp only [List.mem_append, List.mem_singleton] at hn
        rcases hn with hn | rfl
        · exact h4 n hn z hnz
        · rcases hz z hnz with h | ⟨h, _⟩
          · exact h3.le.trans h
          · exact h
    cases hna : nb a with
    | none => exact ih (pre ++ [a]) m d hpos (keep (by rw [hna]; simp))
    | some ne =>
      simp only
      split
      · rename_i hle
        refine ih (pre ++ [a]) m d hpos (keep ?_)
        intro z hz; rw [hna] at hz; cases hz; exact .inl hle
      · rename_i hle
        split
        · rename_i hlt
          refine ih (pre ++ [a]) ne a hpos (.inr ⟨by simp, hna, not_le.1 hle, ?_⟩)
          intro n hn z hnz
          simp only [List.mem_append, List.mem_singleton] at hn
          rcases hn with hn | rfl
          · rcases h with ⟨h1, h2, h3⟩ | ⟨h1, h2, h3, h4⟩
            · exact (not_le.1 hle).le.trans (h3 n hn z hnz)
            · exact hlt.le.trans (h4 n hn z hnz)
          · rw [hna] at hnz; cases hnz; exact le_refl _
        · rename_i hlt
          refine ih (pre ++ [a]) m d hpos ?_
          rcases h with ⟨h1, h2, h3⟩ | h'
          · -- the first lower neighbour is always below `mx`
            exfalso
            rw [h2] at hlt
            exact hlt ((not_le.1 hle).trans_le hmx)
          · refine keep ?_
            intro z hz; rw [hna] at hz; cases hz
            exact .inr ⟨not_lt.1 hlt, h'.2.2.1⟩

theorem nbr_interior_inGrid {w h : Nat} {t : Topo} {c : Cell} (hc : InGrid w h c)
    (he : isEdgeCell w h c = false) {n : Nat} (hn : n ∈ dirs t) : InGrid w h (nbr t c n) := by
  have ha := nbr_adj (c := c) hn
  obtain ⟨h1, h2, h3, h4⟩ := hc
  simp only [isEdgeCell, Bool.or_eq_false_iff, decide_eq_false_iff_not] at he
  obtain ⟨⟨⟨e1, e2⟩, e3⟩, e4⟩ := he
  generalize nbr t c n = d at ha
  obtain ⟨c1, c2⟩ := c; obtain ⟨d1, d2⟩ := d
  simp only at *
  cases t
  · obtain ⟨_, a1, a2⟩ := ha
    simp only at a1 a2
    refine ⟨?_, ?_, ?_, ?_⟩ <;> simp only <;> omega
  · simp only [Adj] at ha
    refine ⟨?_, ?_, ?_, ?_⟩ <;> simp only <;> omega

end RichDEM
