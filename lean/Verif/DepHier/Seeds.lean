import Verif.DepHier.Flood
import Verif.Omp.Model

/-!
The collection of seed cells in `GetDepressionHierarchy` by threads (depression_hierarchy.hpp:275-386): every thread
appends to its own copy of the vector, the copies are combined by the user-declared reduction `merge`, and the result is
sorted by cell index.
-/

namespace RichDEM

/-- depression_hierarchy.hpp:279: `omp_out.insert(omp_out.end(), omp_in…)`.  The copies are combined pairwise, in an
order and association that OpenMP leaves open, until one is left; without copies the vector stays empty. -/
inductive Combines : List (List Nat) → List Nat → Prop
  | none : Combines [] []
  | one (a : List Nat) : Combines [a] a
  | both {parts l r : List (List Nat)} {a b : List Nat} : parts.Perm (l ++ r) → Combines l a → Combines r b →
      Combines parts (a ++ b)

/-- depression_hierarchy.hpp:287-310, 341-364: the copy of a thread: the indices of its cells that are seeds. -/
def threadSeeds (w : Nat) (seed : Cell → Bool) (cells : List Cell) : List Nat :=
  (cells.filter seed).map (fun c => (xyToI w c).toNat)

/-- depression_hierarchy.hpp:370-371: what `std::sort` leaves: a sorted rearrangement. -/
structure IsSort (before after : List Nat) : Prop where
  perm : after.Perm before
  sorted : after.Pairwise (· ≤ ·)

theorem combines_perm {parts : List (List Nat)} {a : List Nat} (hc : Combines parts a) : a.Perm parts.flatten := by
  induction hc with
  | none => exact List.Perm.refl _
  | one a => simp
  | both hp _ _ iha ihb =>
    refine (iha.append ihb).trans ?_
    rw [← List.flatten_append]
    exact hp.symm.flatten

/-- Two sorted rearrangements of the same numbers are equal. -/
theorem sort_unique {a b : List Nat} (hp : a.Perm b) (ha : a.Pairwise (· ≤ ·)) (hb : b.Pairwise (· ≤ ·)) : a = b :=
  List.Perm.eq_of_pairwise (le := (· ≤ ·)) (fun _ _ _ _ h1 h2 => le_antisymm h1 h2) ha hb hp

/-- The seeds in the order of a scan, as indices. -/
theorem threadSeeds_all (w h : Nat) (seed : Cell → Bool) :
    threadSeeds w seed (allCells w h) = (List.range (w * h)).filter (fun i => seed (iToxy w i)) := by
  unfold threadSeeds allCells
  rw [List.filter_map, List.map_map]
  have : ((fun c => (xyToI w c).toNat) ∘ iToxy w) = id := by
    funext i
    simp [xyToI_iToxy]
  rw [this, List.map_id]
  rfl

/-- The seeds as the code gets them: whatever the threads, the reduction and the sort do, the scan's. -/
theorem seeds_any {w h m : Nat} {work : Nat → List Cell} {seed : Cell → Bool} {merged sorted : List Nat}
    (hd : Omp.Dealt m (allCells w h) work)
    (hc : Combines ((List.range m).map fun t => threadSeeds w seed (work t)) merged) (hs : IsSort merged sorted) :
    sorted = threadSeeds w seed (allCells w h) := by
  apply sort_unique (hs.perm.trans ((combines_perm hc).trans ?_)) hs.sorted
  · rw [threadSeeds_all]
    exact (List.pairwise_le_range).filter _
  · have e : ((List.range m).map fun t => threadSeeds w seed (work t)).flatten =
        threadSeeds w seed ((List.range m).flatMap work) := by
      unfold threadSeeds
      rw [List.filter_flatMap, List.map_flatMap, List.flatMap_def]
    rw [e]
    exact (hd.all.filter _).map _

/-- depression_hierarchy.hpp:289-307: is the cell put among the ocean seeds. -/
def oceanSeed (w h : Nat) (t : Topo) (oc : Cell → Bool) (c : Cell) : Bool :=
  oc c && (dirs t).any (fun n => inGrid w h (nbr t c n) && !(oc (nbr t c n)))

/-- depression_hierarchy.hpp:344-361: is the cell put among the land seeds. -/
def landSeed {E : Type*} [LinearOrder E] (w h : Nat) (t : Topo) (dem : Cell → E) (oc : Cell → Bool) (c : Cell) : Bool :=
  !(oc c) && !((dirs t).any (fun n => inGrid w h (nbr t c n) && decide (dem (nbr t c n) < dem c)))

/-- depression_hierarchy.hpp:236-536 given the two vectors of seeds (:380-386 push them in their order). -/
def dhFloodFrom {E : Type*} [LinearOrder E] (pq : PQ (E × Cell) zLt) (w h : Nat) (t : Topo) (dem : Cell → E)
    (oc : Cell → Bool) (ocean land : List Nat) : DHS E :=
  loop (dhStep pq w h t dem) (2 * (w * h))
    { label := fun c => if inGrid w h c && oc c then some 0 else none
      fd := fun _ => 0
      q := pq.pushAll (land.map (fun i => (dem (iToxy w i), iToxy w i)))
        (pq.pushAll (ocean.map (fun i => (dem (iToxy w i), iToxy w i))) [])
      ndep := 1
      pit := fun _ => (0, 0)
      outs := fun _ => none }

/-- depression_hierarchy.hpp:282-536, given the vectors of seeds: the checks of the labels (:289-296) and of the number
of ocean seeds (:312-314), which the threads sum. -/
def getDHFloodFrom {E : Type*} [LinearOrder E] (pq : PQ (E × Cell) zLt) (w h : Nat) (t : Topo) (dem : Cell → E)
    (lab : Cell → Option Nat) (ocean land : List Nat) : Option (DHS E) :=
  if (allCells w h).any (fun c => !(lab c == some 0) && !(lab c == none)) then none
  else if ocean.length = 0 then none
  else some (dhFloodFrom pq w h t dem (fun c => lab c == some 0) ocean land)

theorem seeds_cells {E : Type*} (w h : Nat) (seed : Cell → Bool) (dem : Cell → E) :
    (threadSeeds w seed (allCells w h)).map (fun i => (dem (iToxy w i), iToxy w i)) =
      ((allCells w h).filter seed).map (fun c => (dem c, c)) := by
  rw [threadSeeds_all]
  unfold allCells
  rw [List.filter_map, List.map_map]
  rfl

end RichDEM
