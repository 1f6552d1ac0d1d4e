/-
Property theorems C108 (thread-safety of the dependency count in dinf_upslope_area).
-/
import Verif.Flow.DinfRace
import Verif.Props.Dinf

namespace RichDEM

section
variable {K : Type*} [Field K] [LinearOrder K] [IsStrictOrderedRing K] [FloorRing K]

/-- C108: however the rows are split over the threads and whatever the schedule, the count of cells flowing into `c`
ends between 0 and the sequential count: increments may get lost, none is invented. -/
theorem C108_never_overcounts_partial (w h : Nat) (fd : Cell → K) (nd : K) (m : Nat) (rows : Nat → List Nat)
    (hr : RowSplit m h rows) (sched : List Nat) (c : Cell)
    (hdone : ∀ i, ((incRun (incInit fun i => (rows i).flatMap (dinfRowWork w h fd nd)) sched).thr i).todo = []) :
    0 ≤ (incRun (incInit fun i => (rows i).flatMap (dinfRowWork w h fd nd)) sched).mem c ∧
    (incRun (incInit fun i => (rows i).flatMap (dinfRowWork w h fd nd)) sched).mem c ≤ dinfDeps w h fd nd c := by
  have := C52_never_overcounts_partial m (fun i => (rows i).flatMap (dinfRowWork w h fd nd))
    (fun i hi => by simp [hr.none i hi]) sched c hdone
  rwa [dinf_count_rows w h fd nd m rows hr c] at this

/-- C108: a cell into which only cells of one thread's rows flow gets the sequential count; in particular with one
thread the whole matrix is right. -/
theorem C108_one_thread_exact_partial (w h : Nat) (fd : Cell → K) (nd : K) (m : Nat) (rows : Nat → List Nat)
    (hr : RowSplit m h rows) (i : Nat) (hi : i < m) (c : Cell)
    (hexcl : ∀ j, j ≠ i → ∀ y ∈ rows j, ∀ x : Nat, x < w → c ∉ dinfTargets w h fd nd ((x : Int), (y : Int)))
    (sched : List Nat)
    (hdone : ((incRun (incInit fun i => (rows i).flatMap (dinfRowWork w h fd nd)) sched).thr i).todo = []) :
    (incRun (incInit fun i => (rows i).flatMap (dinfRowWork w h fd nd)) sched).mem c = dinfDeps w h fd nd c := by
  have hno : ∀ j, j ≠ i → c ∉ (rows j).flatMap (dinfRowWork w h fd nd) := by
    intro j hj hm
    simp only [dinfRowWork, rowCells, List.mem_flatMap, List.mem_map, List.mem_range] at hm
    obtain ⟨y, hy, _, ⟨x, hx, rfl⟩, e⟩ := hm
    exact hexcl j hj y hy x hx e
  have := C52_exclusive_cells_exact_partial (fun i => (rows i).flatMap (dinfRowWork w h fd nd)) i c hno sched hdone
  rw [this, ← dinf_count_rows w h fd nd m rows hr c]
  congr 1
  rw [sum_only m i hi _ (fun j hj => List.count_eq_zero_of_not_mem (hno j hj))]

/-- C108: if no cell is fed from the rows of two threads, the areas are the sequential ones (those of C58), for every
schedule that lets the threads finish. -/
theorem C108_race_free_area_partial (q : AnyQ Cell) (w h : Nat) (fd : Cell → K) (nd : K) (m : Nat)
    (rows : Nat → List Nat) (hr : RowSplit m h rows)
    (hfree : ∀ c, ∃ i, i < m ∧ ∀ j, j ≠ i → ∀ y ∈ rows j, ∀ x : Nat, x < w →
      c ∉ dinfTargets w h fd nd ((x : Int), (y : Int)))
    (sched : List Nat)
    (hdone : ∀ i, ((incRun (incInit fun i => (rows i).flatMap (dinfRowWork w h fd nd)) sched).thr i).todo = []) :
    (dinfAreaFrom q w h fd nd (incRun (incInit fun i => (rows i).flatMap (dinfRowWork w h fd nd)) sched).mem).acc =
      dinfUpslopeArea q w h fd nd := by
  have : (incRun (incInit fun i => (rows i).flatMap (dinfRowWork w h fd nd)) sched).mem = dinfDeps w h fd nd := by
    funext c
    obtain ⟨i, hi, hx⟩ := hfree c
    exact C108_one_thread_exact_partial w h fd nd m rows hr i hi c hx sched (hdone i)
  rw [this]
  rfl

/-- What the code counts, in the words of C58: cell `a` feeds `c` if a share of its flow goes there. -/
theorem C108_feeds (w h : Nat) (fd : Cell → K) (nd : K) (hr : AngleRange w h fd nd) (a c : Cell) (ha : InGrid w h a) :
    c ∈ dinfTargets w h fd nd a ↔ DinfEdge w h fd nd a c := by
  unfold DinfEdge
  by_cases h1 : fd a = nd
  · simp [dinfTargets, h1]
  by_cases h2 : fd a = 0
  · simp [dinfTargets, h2]
  have hout : c ∈ dinfTargets w h fd nd a ↔ 0 < cnt (dinfOut w h fd nd) a c := by
    have e : dinfTargets w h fd nd a = (dinfOut w h fd nd a).map Prod.fst := by
      unfold dinfTargets dinfOut
      rw [if_neg h1, if_neg h2, if_neg h2, List.map_append]
      dsimp only
      congr 1 <;> split <;> rfl
    unfold cnt
    rw [e, List.countP_pos_iff]
    simp
  by_cases hc : InGrid w h c ∧ fd c ≠ nd
  · rw [hout, (dinfOut_spec hr ⟨ha, h1⟩ hc).2]
    simp [ha, h1, hc.1, hc.2]
  · constructor
    · intro hm
      exfalso
      apply hc
      unfold dinfTargets at hm
      simp only [h1, h2, if_false] at hm
      rcases List.mem_append.1 hm with hm | hm
      · split at hm
        · rename_i h3
          rw [List.mem_singleton] at hm
          rw [hm]; exact dinfOk_iff.1 h3.2
        · cases hm
      · split at hm
        · rename_i h3
          rw [List.mem_singleton] at hm
          rw [hm]; exact dinfOk_iff.1 h3
        · cases hm
    · rintro ⟨_, hc', _⟩
      exact absurd hc' hc

end

/-- 2 columns, 4 rows, angles in eighths of a turn (6 south, 2 north, 8 east), -1 NoData: (0,0) flows down and (0,2)
up into (0,1), which flows right into (1,1); (0,3) flows up into (0,2). -/
def exDinfRace : Cell → ℚ := ofRows (-1) [[6, -1], [8, 8], [2, -1], [2, -1]]

/-- C108, refuted: with one thread per row, the schedule in which threads 0 and 2 both load the counter of (0,1)
before either stores leaves it at 1 although two cells flow in; the area of (1,1) is then 3 instead of 5. -/
theorem C108_lost_update_refuted :
    let work := fun y => if y < 4 then dinfRowWork 2 4 exDinfRace (-1) y else []
    let s := incRun (incInit work) [0, 2, 0, 2, 1, 1, 3, 3]
    (∀ i, i < 4 → ((s.thr i).todo = [])) ∧
    dinfDeps 2 4 exDinfRace (-1) (0, 1) = 2 ∧ s.mem (0, 1) = 1 ∧
    dinfUpslopeArea (fifo Cell) 2 4 exDinfRace (-1) (1, 1) = 5 ∧
    (dinfAreaFrom (fifo Cell) 2 4 exDinfRace (-1) s.mem).acc (1, 1) = 3 ∧
    (dinfAreaFrom (fifo Cell) 2 4 exDinfRace (-1) s.mem).q = [] := by decide +kernel

/-- The same threads one after the other give the sequential counts. -/
example :
    let s := incRun (incInit (fun y => if y < 4 then dinfRowWork 2 4 exDinfRace (-1) y else [])) [0, 0, 1, 1, 2, 2, 3, 3]
    toRows 2 4 s.mem = toRows 2 4 (dinfDeps 2 4 exDinfRace (-1)) := by decide +kernel

example : AngleRange 2 4 exDinfRace (-1) := by
  intro c hc _
  have : c ∈ allCells 2 4 := mem_allCells.2 hc
  revert this hc
  have key : ∀ c ∈ allCells 2 4, exDinfRace c ≠ -1 → 0 ≤ exDinfRace c ∧ exDinfRace c ≤ 8 := by decide +kernel
  intro _ hm
  exact key c hm ‹_›

end RichDEM
