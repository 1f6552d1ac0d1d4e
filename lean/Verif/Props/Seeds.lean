/-
Property theorems C110: the depression hierarchy does not depend on the threads that collect its seed cells.
-/
import Verif.DepHier.Seeds
import Verif.DepHier.Heap
import Verif.Examples

namespace RichDEM

/-- An execution of the two parallel loops that collect seeds: how the cells were dealt out, how the threads' vectors
were combined, and what the sorts left. -/
structure SeedExec {E : Type*} [LinearOrder E] (w h : Nat) (t : Topo) (dem : Cell → E) (oc : Cell → Bool)
    (ocean land : List Nat) where
  m : Nat
  work : Nat → List Cell
  work' : Nat → List Cell
  merged : List Nat
  merged' : List Nat
  dealt : Omp.Dealt m (allCells w h) work
  dealt' : Omp.Dealt m (allCells w h) work'
  combined : Combines ((List.range m).map fun i => threadSeeds w (oceanSeed w h t oc) (work i)) merged
  combined' : Combines ((List.range m).map fun i => threadSeeds w (landSeed w h t dem oc) (work' i)) merged'
  sorted : IsSort merged ocean
  sorted' : IsSort merged' land

section
variable {E : Type*} [LinearOrder E] (w h : Nat) (t : Topo) (dem : Cell → E)

/-- C110: the sorted vectors of seeds are those of a scan without threads: increasing indices, of exactly the ocean cells
next to land and of the land cells without a lower neighbour. -/
theorem C110_seeds (oc : Cell → Bool) (ocean land : List Nat) (hx : SeedExec w h t dem oc ocean land) :
    (ocean.Pairwise (· < ·) ∧ ∀ i, i ∈ ocean ↔ i < w * h ∧ oc (iToxy w i) = true ∧
      ∃ d, Adj t (iToxy w i) d ∧ InGrid w h d ∧ oc d = false) ∧
    (land.Pairwise (· < ·) ∧ ∀ i, i ∈ land ↔ i < w * h ∧ PitCell w h t dem oc (iToxy w i)) := by
  have e1 := seeds_any hx.dealt hx.combined hx.sorted
  have e2 := seeds_any hx.dealt' hx.combined' hx.sorted'
  rw [threadSeeds_all] at e1 e2
  refine ⟨⟨by rw [e1]; exact (List.pairwise_lt_range).filter _, fun i => ?_⟩,
    ⟨by rw [e2]; exact (List.pairwise_lt_range).filter _, fun i => ?_⟩⟩
  · rw [e1, List.mem_filter, List.mem_range]
    unfold oceanSeed
    simp only [Bool.and_eq_true, List.any_eq_true, Bool.not_eq_true', inGrid_iff]
    constructor
    · rintro ⟨hi, h1, n, hn, h2, h3⟩
      exact ⟨hi, h1, _, nbr_adj hn, h2, h3⟩
    · rintro ⟨hi, h1, d, hd, h2, h3⟩
      obtain ⟨n, hn, rfl⟩ := adj_iff_nbr.1 hd
      exact ⟨hi, h1, n, hn, h2, h3⟩
  · rw [e2, List.mem_filter, List.mem_range]
    constructor
    · rintro ⟨hi, hs⟩
      refine ⟨hi, mem_landSeeds.1 ?_⟩
      unfold landSeeds
      exact List.mem_filter.2 ⟨mem_allCells.2 (iToxy_inGrid hi), hs⟩
    · rintro ⟨hi, hs⟩
      have := mem_landSeeds.2 hs
      unfold landSeeds at this
      exact ⟨hi, (List.mem_filter.1 this).2⟩

/-- C110: the labels, flow directions, depressions and outlets found are those found without threads, or the same
error. -/
theorem C110_hierarchy (pq : PQ (E × Cell) zLt) (lab : Cell → Option Nat) (ocean land : List Nat)
    (hx : SeedExec w h t dem (fun c => lab c == some 0) ocean land) :
    getDHFloodFrom pq w h t dem lab ocean land = getDHFlood pq w h t dem lab := by
  have e1 := seeds_any hx.dealt hx.combined hx.sorted
  have e2 := seeds_any hx.dealt' hx.combined' hx.sorted'
  have hlen : ocean.length = 0 ↔ oceanSeeds w h t (fun c => lab c == some 0) = [] := by
    rw [e1]
    unfold threadSeeds
    rw [List.length_map, List.length_eq_zero_iff]
    rfl
  unfold getDHFloodFrom getDHFlood
  split
  · rfl
  · by_cases k : ocean.length = 0
    · rw [if_pos k, if_pos (hlen.1 k)]
    · rw [if_neg k, if_neg (fun k' => k (hlen.2 k'))]
      congr 1
      unfold dhFloodFrom dhFlood dhInit
      rw [e1, e2, seeds_cells, seeds_cells]
      rfl

/-- C110: two executions, with whatever threads, have the same result. -/
theorem C110_schedule (pq : PQ (E × Cell) zLt) (lab : Cell → Option Nat) (ocean land ocean' land' : List Nat)
    (hx : SeedExec w h t dem (fun c => lab c == some 0) ocean land)
    (hx' : SeedExec w h t dem (fun c => lab c == some 0) ocean' land') :
    getDHFloodFrom pq w h t dem lab ocean land = getDHFloodFrom pq w h t dem lab ocean' land' := by
  rw [C110_hierarchy w h t dem pq lab ocean land hx, C110_hierarchy w h t dem pq lab ocean' land' hx']

end

/-! ### An execution, and what the sort is for -/

/-- Two pits of the same elevation, (2,2) and (4,2), in an island. -/
def twoPits : Cell → Int := ofRows 0
  [[0, 0, 0, 0, 0, 0, 0], [0, 8, 8, 8, 8, 8, 0], [0, 8, 2, 8, 2, 8, 0], [0, 8, 8, 8, 8, 8, 0], [0, 0, 0, 0, 0, 0, 0]]

def twoPitsLab : Cell → Option Nat := fun c => if twoPits c = 0 then some 0 else none

/-- Thread 1 has the left part of the raster, thread 0 the right one. -/
def pitsWork (t : Nat) : List Cell :=
  if t = 1 then (allCells 7 5).filter (fun c => decide (c.1 < 3))
  else if t = 0 then (allCells 7 5).filter (fun c => !decide (c.1 < 3)) else []

/-- Two threads; their vectors are joined in the order of the threads, so that the land seeds are 18, 16 until sorted. -/
example : ∃ ocean, Nonempty (SeedExec 7 5 .D4 twoPits (fun c => twoPitsLab c == some 0) ocean [16, 18]) := by
  have hn : ∀ t, 2 ≤ t → pitsWork t = [] := by
    intro t ht
    unfold pitsWork
    rw [if_neg (by omega), if_neg (by omega)]
  have hd : Omp.Dealt 2 (allCells 7 5) pitsWork := ⟨by decide +kernel, hn⟩
  exact ⟨threadSeeds 7 (oceanSeed 7 5 .D4 (fun c => twoPitsLab c == some 0)) (allCells 7 5),
    ⟨{ m := 2, work := pitsWork, work' := pitsWork, merged := _, merged' := [18] ++ [16], dealt := hd, dealt' := hd
       combined := .both (List.Perm.refl ([_] ++ [_])) (.one _) (.one _)
       combined' := .both (by decide +kernel : _) (.one [18]) (.one [16])
       sorted := ⟨by decide +kernel, by decide +kernel⟩
       sorted' := ⟨by decide, by decide⟩ }⟩⟩

/-- Without the sort the numbers of the depressions would depend on the schedule. -/
theorem C110_sort_needed :
    ∃ ocean, (getDHFloodFrom lifoPQ 7 5 .D4 twoPits twoPitsLab ocean [16, 18]).map (·.label (2, 2)) = some (some 2) ∧
      (getDHFloodFrom lifoPQ 7 5 .D4 twoPits twoPitsLab ocean [18, 16]).map (·.label (2, 2)) = some (some 1) :=
  ⟨threadSeeds 7 (oceanSeed 7 5 .D4 (fun c => twoPitsLab c == some 0)) (allCells 7 5), by decide +kernel⟩

end RichDEM
