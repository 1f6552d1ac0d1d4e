/-
Property theorems C52 (thread-safety of the dependency count in d8_flow_accum).
-/
import Verif.Flow.Race
import Verif.Examples

namespace RichDEM

/-- C52: for every schedule that lets all `m` threads finish, a dependency counter ends between 0
and the number of increments made to it: the race can lose increments but not invent them. -/
theorem C52_never_overcounts_partial (m : Nat) (work : Nat → List Cell) (hw : ∀ i, m ≤ i → work i = [])
    (sched : List Nat) (c : Cell) (hdone : ∀ i, ((incRun (incInit work) sched).thr i).todo = []) :
    0 ≤ (incRun (incInit work) sched).mem c ∧
    (incRun (incInit work) sched).mem c ≤ (((List.range m).map (fun i => (work i).count c)).sum : Nat) := by
  have h0 : BoundInv m c ((List.range m).map (fun i => (work i).count c)).sum (incInit work) := by
    refine ⟨0, by simp [pendingOn, incInit], le_refl _, le_refl _, ?_, ?_⟩
    · intro i hi; simpa [incInit] using hw i hi
    · intro i v hv; simp [incInit] at hv
  have := foldl_inv' (BoundInv m c _) sched (incInit work) (fun s j _ hs => incStep_bound hs j) h0
  obtain ⟨D, h1, h2, h3, _, _⟩ := this
  refine ⟨h2, h3.trans ?_⟩
  have : D ≤ ((List.range m).map (fun i => (work i).count c)).sum := by omega
  exact_mod_cast this

/-- C52: for every schedule, a cell incremented by one thread only gets the right count. -/
theorem C52_exclusive_cells_exact_partial (work : Nat → List Cell) (i : Nat) (c : Cell)
    (hexcl : ∀ j, j ≠ i → c ∉ work j) (sched : List Nat)
    (hdone : ((incRun (incInit work) sched).thr i).todo = []) :
    (incRun (incInit work) sched).mem c = (work i).count c := by
  have h0 : ExclInv i c ((work i).count c) (incInit work) := by
    refine ⟨hexcl, by simp [pendingOn, incInit], ?_⟩
    intro v hv; simp [incInit] at hv
  have := foldl_inv' (ExclInv i c _) sched (incInit work) (fun s j _ hs => incStep_excl hs j) h0
  have h2 := this.2.1
  simp only [incRun] at hdone ⊢
  simpa [pendingOn, hdone] using h2

/-- The cells of row `y`. -/
def rowCells (w y : Nat) : List Cell := (List.range w).map (fun x : Nat => ((x : Int), (y : Int)))

theorem rows_perm (w h : Nat) :
    ((List.range h).flatMap (rowCells w)).Perm (allCells w h) := by
  apply (List.perm_ext_iff_of_nodup ?_ (nodup_allCells w h)).2
  · intro c
    rw [mem_allCells]
    simp only [rowCells, List.mem_flatMap, List.mem_map, List.mem_range, InGrid]
    constructor
    · rintro ⟨y, hy, x, hx, rfl⟩
      simp only
      omega
    · rintro ⟨h1, h2, h3, h4⟩
      exact ⟨c.2.toNat, by omega, c.1.toNat, by omega, Prod.ext (by simp; omega) (by simp; omega)⟩
  · rw [List.nodup_flatMap]
    constructor
    · intro y _
      apply List.Nodup.map _ List.nodup_range
      intro a b hab
      simpa using hab
    · apply List.Pairwise.imp _ List.nodup_range
      intro a b hab
      simp only [Function.onFun, List.disjoint_left, rowCells, List.mem_map, List.mem_range]
      rintro c ⟨x, _, rfl⟩ ⟨x', _, e⟩
      simp at e
      omega

/-- The sequential count is the number of increments of the cell. -/
theorem d8Deps_count (w h : Nat) (fd : Cell → Nat) (nd : Nat) (c : Cell) :
    d8Deps w h fd nd c = (((allCells w h).filterMap (d8Target w h fd nd)).count c : Nat) := by
  have key : ∀ (l : List Cell) (d : Cell → Int),
      l.foldl (d8DepCell w h fd nd) d c = d c + ((l.filterMap (d8Target w h fd nd)).count c : Nat) := by
    intro l
    induction l with
    | nil => intro d; simp
    | cons a l ih =>
      intro d
      rw [List.foldl_cons, ih]
      unfold d8DepCell
      by_cases h1 : fd a = nd
      · simp [d8Target, h1]
      by_cases h2 : fd a = 0
      · simp [d8Target, h2]
      by_cases h3 : inGrid w h (nbr .D8 a (fd a)) = false
      · simp [d8Target, h3]
      have e : d8Target w h fd nd a = some (nbr .D8 a (fd a)) := by
        unfold d8Target
        rw [if_neg h1, if_neg h2, if_neg h3]
      rw [List.filterMap_cons_some e, List.count_cons]
      rw [if_neg h1, if_neg h2, if_neg h3]
      by_cases h4 : nbr .D8 a (fd a) = c
      · subst h4
        simp
        ring
      · rw [Function.update_of_ne (Ne.symm h4)]
        simp [h4]
  have := key (allCells w h) (fun _ => 0)
  unfold d8Deps
  rw [this]
  simp

/-- An assignment of the rows to threads 0 … m-1, as `#pragma omp parallel for` makes it: every row
goes to exactly one thread. -/
structure RowSplit (m h : Nat) (rows : Nat → List Nat) : Prop where
  all : ((List.range m).flatMap rows).Perm (List.range h)
  none : ∀ i, m ≤ i → rows i = []

theorem sum_count_rows (w h : Nat) (fd : Cell → Nat) (nd : Nat) (m : Nat) (rows : Nat → List Nat)
    (hr : RowSplit m h rows) (c : Cell) :
    ((((List.range m).map fun i => ((rows i).flatMap (rowWork w h fd nd)).count c).sum : Nat) : Int)
      = d8Deps w h fd nd c := by
  rw [d8Deps_count]
  congr 1
  have e1 : ((List.range m).map fun i => ((rows i).flatMap (rowWork w h fd nd)).count c).sum =
      (((List.range m).flatMap rows).flatMap (rowWork w h fd nd)).count c := by
    rw [List.flatMap_assoc, List.count_flatMap]
    rfl
  rw [e1, (hr.all.flatMap_right _).count_eq c]
  have e2 : (List.range h).flatMap (rowWork w h fd nd) =
      ((List.range h).flatMap (rowCells w)).filterMap (d8Target w h fd nd) := by
    rw [List.filterMap_flatMap]
    rfl
  rw [e2, ((rows_perm w h).filterMap _).count_eq c]

/-- **C52.** However the rows are split over the threads and whatever the schedule, the count of
cells flowing into `c` ends between 0 and the sequential count. -/
theorem C52_rows_partial (w h : Nat) (fd : Cell → Nat) (nd : Nat) (m : Nat) (rows : Nat → List Nat)
    (hr : RowSplit m h rows) (sched : List Nat) (c : Cell)
    (hdone : ∀ i, ((incRun (incInit fun i => (rows i).flatMap (rowWork w h fd nd)) sched).thr i).todo
      = []) :
    0 ≤ (incRun (incInit fun i => (rows i).flatMap (rowWork w h fd nd)) sched).mem c ∧
    (incRun (incInit fun i => (rows i).flatMap (rowWork w h fd nd)) sched).mem c ≤
      d8Deps w h fd nd c := by
  have := C52_never_overcounts_partial m (fun i => (rows i).flatMap (rowWork w h fd nd))
    (fun i hi => by simp [hr.none i hi]) sched c hdone
  rwa [sum_count_rows w h fd nd m rows hr c] at this

/-- **C52.** A cell into which only cells of one thread's rows flow gets the sequential count, for
every split and every schedule; in particular with one thread the whole matrix is right. -/
theorem C52_one_thread_exact_partial (w h : Nat) (fd : Cell → Nat) (nd : Nat) (m : Nat)
    (rows : Nat → List Nat) (hr : RowSplit m h rows) (i : Nat) (hi : i < m) (c : Cell)
    (hexcl : ∀ j, j ≠ i → ∀ y ∈ rows j, ∀ x : Nat, x < w →
      d8Target w h fd nd ((x : Int), (y : Int)) ≠ some c)
    (sched : List Nat)
    (hdone : ((incRun (incInit fun i => (rows i).flatMap (rowWork w h fd nd)) sched).thr i).todo
      = []) :
    (incRun (incInit fun i => (rows i).flatMap (rowWork w h fd nd)) sched).mem c =
      d8Deps w h fd nd c := by
  have hno : ∀ j, j ≠ i → c ∉ (rows j).flatMap (rowWork w h fd nd) := by
    intro j hj hm
    simp only [rowWork, List.mem_flatMap, List.mem_filterMap, List.mem_map, List.mem_range] at hm
    obtain ⟨y, hy, _, ⟨x, hx, rfl⟩, e⟩ := hm
    exact hexcl j hj y hy x hx e
  have := C52_exclusive_cells_exact_partial (fun i => (rows i).flatMap (rowWork w h fd nd)) i c
    hno sched hdone
  rw [this, ← sum_count_rows w h fd nd m rows hr c]
  congr 1
  have key : ∀ l : List Nat, l.Nodup → (l.map fun j => ((rows j).flatMap
      (rowWork w h fd nd)).count c).sum =
      if i ∈ l then ((rows i).flatMap (rowWork w h fd nd)).count c else 0 := by
    intro l
    induction l with
    | nil => intro _; simp
    | cons a l ih =>
      intro hnd
      rw [List.nodup_cons] at hnd
      rw [List.map_cons, List.sum_cons, ih hnd.2]
      by_cases ha : a = i
      · subst ha
        simp [hnd.1]
      · rw [List.count_eq_zero_of_not_mem (hno a ha)]
        simp [Ne.symm ha]
  rw [key _ List.nodup_range, if_pos (List.mem_range.2 hi)]

/-- **C52.** If no cell is fed from the rows of two threads, then for every schedule that lets the
threads finish, the accumulation that starts from the counts they leave is the sequential one (the
one of C21, for the same queue). -/
theorem C52_race_free_area_partial (q : AnyQ Cell) (w h : Nat) (fd : Cell → Nat) (nd : Nat) (m : Nat)
    (rows : Nat → List Nat) (hr : RowSplit m h rows)
    (hfree : ∀ c, ∃ i, i < m ∧ ∀ j, j ≠ i → ∀ y ∈ rows j, ∀ x : Nat, x < w →
      d8Target w h fd nd ((x : Int), (y : Int)) ≠ some c)
    (sched : List Nat)
    (hdone : ∀ i, ((incRun (incInit fun i => (rows i).flatMap (rowWork w h fd nd)) sched).thr i).todo
      = []) :
    (d8AccumFrom q w h fd nd
      (incRun (incInit fun i => (rows i).flatMap (rowWork w h fd nd)) sched).mem (w * h)).acc =
      d8FlowAccum q w h fd nd := by
  have : (incRun (incInit fun i => (rows i).flatMap (rowWork w h fd nd)) sched).mem =
      d8Deps w h fd nd := by
    funext c
    obtain ⟨i, hi, hx⟩ := hfree c
    exact C52_one_thread_exact_partial w h fd nd m rows hr i hi c hx sched (hdone i)
  rw [this]
  rfl

/-- What the code counts: a cell flows into `c` if its direction is neither NoData nor NO_FLOW and
leads to `c`, and `c` is in the raster. -/
theorem d8Target_iff (w h : Nat) (fd : Cell → Nat) (nd : Nat) (a c : Cell) :
    d8Target w h fd nd a = some c ↔
      fd a ≠ nd ∧ fd a ≠ 0 ∧ nbr .D8 a (fd a) = c ∧ InGrid w h c := by
  unfold d8Target
  by_cases h1 : fd a = nd
  · simp [h1]
  by_cases h2 : fd a = 0
  · simp [h2]
  by_cases h3 : inGrid w h (nbr .D8 a (fd a)) = false
  · rw [if_neg h1, if_neg h2, if_pos h3]
    simp only [reduceCtorEq, false_iff]
    rintro ⟨-, -, rfl, hg⟩
    rw [inGrid_iff.2 hg] at h3
    simp at h3
  · rw [if_neg h1, if_neg h2, if_neg h3]
    simp only [Option.some.injEq]
    constructor
    · rintro rfl
      exact ⟨h1, h2, rfl, inGrid_iff.1 (by simpa using h3)⟩
    · rintro ⟨-, -, e, -⟩
      exact e

/-- 2 columns, 4 rows: (0,0) flows down and (0,2) flows up into (0,1), which flows right into
(1,1); (0,3) flows up into (0,2).  The other cells are NoData. -/
def exRaceFd : Cell → Nat := ofRows 255 [[7, 255], [5, 0], [3, 255], [3, 255]]

/-- C52 is false of the code: with one thread per row, the schedule in which threads 0 and 2 both
load the counter of (0,1) before either stores leaves it at 1 although two cells flow in; the
cell is then processed too early and the area of the cell below it, (1,1), is 3 instead of
5. -/
theorem C52_lost_update_wrong_area :
    let s := incRun (incInit (fun y => if y < 4 then rowWork 2 4 exRaceFd 255 y else []))
      [0, 2, 0, 2, 1, 1, 3, 3]
    ((List.range 4).all (fun i => (s.thr i).todo.isEmpty)) = true ∧
    d8Deps 2 4 exRaceFd 255 (0, 1) = 2 ∧ s.mem (0, 1) = 1 ∧
    d8FlowAccum (fifo Cell) 2 4 exRaceFd 255 (1, 1) = 5 ∧
    (d8AccumFrom (fifo Cell) 2 4 exRaceFd 255 s.mem 8).acc (1, 1) = 3 ∧
    (d8AccumFrom (fifo Cell) 2 4 exRaceFd 255 s.mem 8).q = [] := by decide +kernel

/-- The same threads scheduled one after the other give the sequential result. -/
example :
    let s := incRun (incInit (fun y => if y < 4 then rowWork 2 4 exRaceFd 255 y else []))
      [0, 0, 1, 1, 2, 2, 3, 3]
    toRows 2 4 s.mem = toRows 2 4 (d8Deps 2 4 exRaceFd 255) := by decide +kernel

/-- Two threads, rows dealt out alternately. -/
example : RowSplit 2 4 (fun i => if i = 0 then [0, 2] else if i = 1 then [1, 3] else []) :=
  ⟨by decide, by intro i hi; rw [if_neg (by omega), if_neg (by omega)]⟩

end RichDEM
