import Verif.Flow.Accum

/-!
The parallel dependency count of `d8_flow_accum` (d8_methods.hpp:62-90) as an interleaving of
threads.  `#pragma omp parallel for` hands whole rows to threads; the body ends with
`++dependency(nx,ny)`, a plain (non-atomic) read-modify-write of an `int8_t` that rows of
different threads may share.  Memory is sequentially consistent here, which is the most
favourable reading (formally the C++ program has a data race).
-/

namespace RichDEM

/-- A thread: the cells it has still to increment, and the register holding a value it has loaded
for the first of them but not yet stored. -/
structure IncThread where
  todo : List Cell
  reg : Option Int

/-- Shared memory and threads. -/
structure IncState where
  mem : Cell → Int
  thr : Nat → IncThread

/-- d8_methods.hpp:87, `++dependency(nx,ny)` split into its load and its store: one micro-step of
thread `i` (no effect if the thread has finished). -/
def incStep (s : IncState) (i : Nat) : IncState :=
  match (s.thr i).todo, (s.thr i).reg with
  | [], _ => s
  | c :: _, none => { s with thr := Function.update s.thr i { (s.thr i) with reg := some (s.mem c) } }
  | c :: cs, some v =>
    { mem := Function.update s.mem c (v + 1)
      thr := Function.update s.thr i { todo := cs, reg := none } }

/-- Run a schedule (the sequence of threads that take a micro-step). -/
def incRun (s : IncState) (sched : List Nat) : IncState := sched.foldl incStep s

/-- Initial state: zero dependency matrix, thread `i` has to increment `work i`. -/
def incInit (work : Nat → List Cell) : IncState :=
  { mem := fun _ => 0, thr := fun i => { todo := work i, reg := none } }

/-- d8_methods.hpp:66-88: the cell incremented on behalf of cell `c`, if any. -/
def d8Target (w h : Nat) (fd : Cell → Nat) (nd : Nat) (c : Cell) : Option Cell :=
  if fd c = nd then none
  else if fd c = 0 then none
  else if inGrid w h (nbr .D8 c (fd c)) = false then none
  else some (nbr .D8 c (fd c))

/-- The increments of row `y` (the loop over x, 64-89). -/
def rowWork (w h : Nat) (fd : Cell → Nat) (nd : Nat) (y : Nat) : List Cell :=
  ((List.range w).map (fun x : Nat => ((x : Int), (y : Int)))).filterMap (d8Target w h fd nd)

/-- d8_methods.hpp:92-136 on a given dependency matrix. -/
def d8AccumFrom (q : AnyQ Cell) (w h : Nat) (fd : Cell → Nat) (nd : Nat) (deps : Cell → Int)
    (fuel : Nat) : KS Cell Int :=
  loop (d8Step q w h fd nd) fuel
    { deps := deps
      acc := fun c => if fd c = nd then -1 else 0
      q := q.pushAll ((allCells w h).filter (fun c => deps c == 0 && !(fd c == nd))) [] }

/-- Increments of `c` that thread `i` has still to make. -/
def pendingOn (s : IncState) (i : Nat) (c : Cell) : Nat := (s.thr i).todo.count c

theorem incStep_pending (s : IncState) (i j : Nat) (c : Cell) (hij : j ≠ i) :
    pendingOn (incStep s i) j c = pendingOn s j c := by
  unfold incStep pendingOn
  split
  · rfl
  · simp [Function.update_of_ne hij]
  · simp [Function.update_of_ne hij]

/-- Invariant for a cell touched only by thread `i`. -/
def ExclInv (i : Nat) (c : Cell) (N : Nat) (s : IncState) : Prop :=
  (∀ j, j ≠ i → c ∉ (s.thr j).todo) ∧ s.mem c + pendingOn s i c = N ∧
  (∀ v, (s.thr i).reg = some v → (s.thr i).todo.head? = some c → v = s.mem c)

theorem incStep_excl {i : Nat} {c : Cell} {N : Nat} {s : IncState} (H : ExclInv i c N s) (j : Nat) :
    ExclInv i c N (incStep s j) := by
  obtain ⟨h1, h2, h3⟩ := H
  unfold incStep
  split
  · exact ⟨h1, h2, h3⟩
  · rename_i d ds htodo hreg
    refine ⟨?_, ?_, ?_⟩
    · intro k hk
      by_cases hkj : k = j
      · subst hkj; simpa using h1 k hk
      · simpa [Function.update_of_ne hkj] using h1 k hk
    · by_cases hij : i = j
      · subst hij; simpa [pendingOn] using h2
      · simpa [pendingOn, Function.update_of_ne hij] using h2
    · intro v hv hh
      by_cases hij : i = j
      · subst hij
        simp only [Function.update_self] at hv hh
        rw [htodo] at hh
        simp only [List.head?_cons, Option.some.injEq] at hh hv
        rw [← hv, hh]
      · simp only [Function.update_of_ne hij] at hv hh
        exact h3 v hv hh
  · rename_i d ds v htodo hreg
    by_cases hij : i = j
    · subst hij
      refine ⟨?_, ?_, ?_⟩
      · intro k hk; simpa [Function.update_of_ne hk] using h1 k hk
      · simp only [pendingOn, Function.update_self] at h2 ⊢
        rw [htodo] at h2
        by_cases hdc : d = c
        · subst hdc
          have := h3 v hreg (by rw [htodo]; rfl)
          rw [List.count_cons_self] at h2
          simp only [Function.update_self]
          push_cast at h2
          omega
        · rw [List.count_cons_of_ne hdc] at h2
          simpa [Function.update_of_ne (Ne.symm hdc)] using h2
      · intro u hu; simp at hu
    · have hdc : c ≠ d := by
        rintro rfl
        exact h1 j (Ne.symm hij) (by rw [htodo]; simp)
      refine ⟨?_, ?_, ?_⟩
      · intro k hk
        by_cases hkj : k = j
        · subst hkj
          simp only [Function.update_self]
          have := h1 k hk
          rw [htodo] at this
          exact fun hm => this (by simp [hm])
        · simpa [Function.update_of_ne hkj] using h1 k hk
      · simpa [pendingOn, Function.update_of_ne hij, Function.update_of_ne hdc] using h2
      · intro u hu hh
        simp only [Function.update_of_ne hij, Function.update_of_ne hdc] at hu hh ⊢
        exact h3 u hu hh

/-- Invariant giving the upper bound; `m` threads. -/
def BoundInv (m : Nat) (c : Cell) (N : Nat) (s : IncState) : Prop :=
  ∃ D : Nat, D + ((List.range m).map (fun i => pendingOn s i c)).sum = N ∧
    0 ≤ s.mem c ∧ s.mem c ≤ D ∧ (∀ i, m ≤ i → (s.thr i).todo = []) ∧
    (∀ i v, (s.thr i).reg = some v → (s.thr i).todo.head? = some c → 0 ≤ v ∧ v ≤ D)

theorem sum_range_update (m j : Nat) (hj : j < m) (f g : Nat → Nat) (h : ∀ i, i ≠ j → g i = f i)
    (hfj : f j = g j + 1) :
    ((List.range m).map g).sum + 1 = ((List.range m).map f).sum := by
  induction m with
  | zero => omega
  | succ m ih =>
    rw [List.range_succ, List.map_append, List.map_append, List.sum_append, List.sum_append]
    simp only [List.map_cons, List.map_nil, List.sum_cons, List.sum_nil, add_zero]
    by_cases hjm : j = m
    · subst hjm
      have : (List.range j).map g = (List.range j).map f := by
        apply List.map_congr_left
        intro a ha
        rw [List.mem_range] at ha
        exact h a (by omega)
      rw [this]; omega
    · have := ih (by omega)
      rw [h m (Ne.symm hjm)]; omega

theorem incStep_bound {m : Nat} {c : Cell} {N : Nat} {s : IncState} (H : BoundInv m c N s) (j : Nat) :
    BoundInv m c N (incStep s j) := by
  obtain ⟨D, h1, h2, h3, h4, h5⟩ := H
  unfold incStep
  split
  · exact ⟨D, h1, h2, h3, h4, h5⟩
  · rename_i d ds htodo hreg
    have hp : ∀ i, pendingOn (IncState.mk s.mem (Function.update s.thr j
        { todo := (s.thr j).todo, reg := some (s.mem d) })) i c = pendingOn s i c := by
      intro i
      by_cases hij : i = j
      · subst hij; simp [pendingOn]
      · simp [pendingOn, Function.update_of_ne hij]
    refine ⟨D, ?_, h2, h3, ?_, ?_⟩
    · simp only [hp]; exact h1
    · intro i hi
      by_cases hij : i = j
      · subst hij; simpa using h4 i hi
      · simpa [Function.update_of_ne hij] using h4 i hi
    · intro i v hv hh
      by_cases hij : i = j
      · subst hij
        simp only [Function.update_self, Option.some.injEq] at hv hh
        rw [htodo] at hh
        simp only [List.head?_cons, Option.some.injEq] at hh
        rw [← hv, hh]; exact ⟨h2, h3⟩
      · simp only [Function.update_of_ne hij] at hv hh
        exact h5 i v hv hh
  · rename_i d ds v htodo hreg
    have hjm : j < m := by
      by_contra hjm
      have := h4 j (by omega)
      rw [htodo] at this; cases this
    have h4' : ∀ i, m ≤ i → ((Function.update s.thr j { todo := ds, reg := none }) i).todo = [] := by
      intro i hi
      have hij : i ≠ j := by omega
      simpa [Function.update_of_ne hij] using h4 i hi
    have hne : ∀ i, i ≠ j → (Function.update s.thr j { todo := ds, reg := none }) i = s.thr i :=
      fun i hi => Function.update_of_ne hi _ _
    by_cases hdc : d = c
    · subst hdc
      obtain ⟨k1, k2⟩ := h5 j v hreg (by rw [htodo]; rfl)
      refine ⟨D + 1, ?_, ?_, ?_, h4', ?_⟩
      · have := sum_range_update m j hjm (fun i => pendingOn s i d)
          (fun i => pendingOn (IncState.mk (Function.update s.mem d (v + 1))
            (Function.update s.thr j { todo := ds, reg := none })) i d)
          (by intro i hi; simp [pendingOn, hne i hi])
          (by simp [pendingOn, htodo])
        omega
      · simp; omega
      · simp; omega
      · intro i u hu hh
        by_cases hij : i = j
        · subst hij; simp at hu
        · simp only [hne i hij] at hu hh
          have := h5 i u hu hh
          push_cast; omega
    · refine ⟨D, ?_, ?_, ?_, h4', ?_⟩
      · rw [← h1]
        congr 2
        apply List.map_congr_left
        intro i _
        by_cases hij : i = j
        · subst hij; simp [pendingOn, htodo, List.count_cons_of_ne hdc]
        · simp [pendingOn, hne i hij]
      · simpa [Function.update_of_ne (Ne.symm hdc)] using h2
      · simpa [Function.update_of_ne (Ne.symm hdc)] using h3
      · intro i u hu hh
        by_cases hij : i = j
        · subst hij; simp at hu
        · simp only [hne i hij] at hu hh
          exact h5 i u hu hh

end RichDEM
