import Verif.Flow.Kahn
import Verif.Flow.FlowDir
import Mathlib.Algebra.Order.Ring.Rat

/-!
Models of `FlowAccumulation` (include/richdem/methods/flow_accumulation_generic.hpp) and
`d8_flow_accum` (include/richdem/methods/d8_methods.hpp).

Simplifications.  Cells are addressed by `(x,y)` rather than by flat index (`ci + nshift(n)` is
the index of neighbour `n` for interior cells, theorem C01 family).  Accumulations are elements of an ordered
commutative ring (exact arithmetic, no rounding, no overflow).  The FIFO queue is replaced by one
that may serve its entries in any order.  The parallel dependency count is executed
sequentially here; `Verif/Flow/Race.lean` treats its interleavings.  Logging and progress bars are
not modelled.
-/

namespace RichDEM

open Finset

/-- A work queue that may serve any entry. -/
abbrev AnyQ (A : Type*) := PQ A (fun _ _ => False)

/-- FIFO, the queue the code uses (`std::queue`). -/
def fifo (A : Type*) : AnyQ A where
  push e l := l ++ [e]
  pop l := match l with | [] => none | a :: t => some (a, t)
  push_perm e l := by simp
  pop_nil := rfl
  pop_cons l hl := by
    cases l with
    | nil => exact absurd rfl hl
    | cons a t => exact ⟨a, t, rfl, List.Perm.refl _, fun _ _ h => h⟩

/-- LIFO. -/
def lifo (A : Type*) : AnyQ A where
  push e l := e :: l
  pop l := match l with | [] => none | a :: t => some (a, t)
  push_perm e l := List.Perm.refl _
  pop_nil := rfl
  pop_cons l hl := by
    cases l with
    | nil => exact absurd rfl hl
    | cons a t => exact ⟨a, t, rfl, List.Perm.refl _, fun _ _ h => h⟩

/-! ### FlowAccumulation -/

section FA
variable {R : Type*} [CommRing R] [LinearOrder R]

/-- Array3D `isNoData(i)`: slot 0 equals the NoData value, `NO_DATA_GEN = -2`
(constants.hpp:85). -/
def propNoData (props : Cell → Nat → R) (c : Cell) : Bool := decide (props c 0 = -2)

/-- The loop header `for(y=1;y<height-1;y++) for(x=1;x<width-1;x++)`,
flow_accumulation_generic.hpp:47-48. -/
def interiorCells (w h : Nat) : List Cell :=
  (List.range' 1 (h - 2)).flatMap
    (fun y : Nat => (List.range' 1 (w - 2)).map (fun x : Nat => ((x : Int), (y : Int))))

/-- flow_accumulation_generic.hpp:52-56: the dependencies created by one cell. -/
def faDepCell (props : Cell → Nat → R) (d : Cell → Int) (c : Cell) : Cell → Int :=
  if propNoData props c then d
  else (dirs .D8).foldl (fun d n =>
    if 0 < props c n then Function.update d (nbr .D8 c n) (d (nbr .D8 c n) + 1) else d) d

/-- flow_accumulation_generic.hpp:46-57: the dependency array (`int8_t`; a cell has at most eight
neighbours, so it cannot overflow). -/
def faDeps (w h : Nat) (props : Cell → Nat → R) : Cell → Int :=
  (interiorCells w h).foldl (faDepCell props) (fun _ => 0)

/-- flow_accumulation_generic.hpp:60-63: the initial queue. -/
def faStart (q : AnyQ Cell) (w h : Nat) (props : Cell → Nat → R) (init : Cell → R) : KS Cell R :=
  let deps := faDeps w h props
  { deps := deps
    acc := init
    q := q.pushAll ((allCells w h).filter (fun c => deps c == 0 && !propNoData props c)) [] }

/-- flow_accumulation_generic.hpp:79-91: one direction of the popped cell. -/
def faDir (q : AnyQ Cell) (props : Cell → Nat → R) (c : Cell) (cacc : R) (s : KS Cell R)
    (n : Nat) : KS Cell R :=
  if props c n ≤ 0 then s
  else if propNoData props (nbr .D8 c n) then s
  else
    let ni := nbr .D8 c n
    let dep := Function.update s.deps ni (s.deps ni - 1)
    { deps := dep
      acc := Function.update s.acc ni (s.acc ni + props c n * cacc)
      q := if dep ni = 0 then q.push ni s.q else s.q }

/-- flow_accumulation_generic.hpp:70-91: one iteration of the main loop. -/
def faStep (q : AnyQ Cell) (props : Cell → Nat → R) (s : KS Cell R) : Option (KS Cell R) :=
  match q.pop s.q with
  | none => none
  | some (c, rest) => some ((dirs .D8).foldl (faDir q props c (s.acc c)) { s with q := rest })

/-- The state when the main loop stops (`w*h` iterations suffice, `C20_terminates`). -/
def faLoop (q : AnyQ Cell) (w h : Nat) (props : Cell → Nat → R) (init : Cell → R) : KS Cell R :=
  loop (faStep q props) (w * h) (faStart q w h props init)

/-- flow_accumulation_generic.hpp:35-99 (`FlowAccumulation`): the resulting raster.  The
dimension check (42-43) is not modelled: both arrays have the same size here. -/
def flowAccumulation (q : AnyQ Cell) (w h : Nat) (props : Cell → Nat → R) (init : Cell → R)
    (c : Cell) : R :=
  if propNoData props c then -1 else (faLoop q w h props init).acc c

end FA

/-! ### d8_flow_accum -/

/-- d8_methods.hpp:66-88: the effect of one cell on the dependency matrix. -/
def d8DepCell (w h : Nat) (fd : Cell → Nat) (nd : Nat) (d : Cell → Int) (c : Cell) : Cell → Int :=
  if fd c = nd then d
  else if fd c = 0 then d
  else if inGrid w h (nbr .D8 c (fd c)) = false then d
  else Function.update d (nbr .D8 c (fd c)) (d (nbr .D8 c (fd c)) + 1)

/-- d8_methods.hpp:62-90: the dependency matrix. -/
def d8Deps (w h : Nat) (fd : Cell → Nat) (nd : Nat) : Cell → Int :=
  (allCells w h).foldl (d8DepCell w h fd nd) (fun _ => 0)

/-- d8_methods.hpp:57-59, 66-69, 93-97: initial area raster and source queue. -/
def d8Start (q : AnyQ Cell) (w h : Nat) (fd : Cell → Nat) (nd : Nat) : KS Cell Int :=
  let deps := d8Deps w h fd nd
  { deps := deps
    acc := fun c => if fd c = nd then -1 else 0
    q := q.pushAll ((allCells w h).filter (fun c => deps c == 0 && !(fd c == nd))) [] }

/-- d8_methods.hpp:102-129: one iteration of the main loop. -/
def d8Step (q : AnyQ Cell) (w h : Nat) (fd : Cell → Nat) (nd : Nat) (s : KS Cell Int) :
    Option (KS Cell Int) :=
  match q.pop s.q with
  | none => none
  | some (c, rest) =>
    let area := Function.update s.acc c (s.acc c + 1)
    let s1 : KS Cell Int := { s with q := rest, acc := area }
    if fd c = 0 then some s1
    else
      let ni := nbr .D8 c (fd c)
      if inGrid w h ni = false then some s1
      else if fd ni = nd then some s1
      else
        let dep := Function.update s.deps ni (s.deps ni - 1)
        some { deps := dep
               acc := Function.update area ni (area ni + area c)
               q := if dep ni = 0 then q.push ni rest else rest }

/-- The state when the main loop stops. -/
def d8Loop (q : AnyQ Cell) (w h : Nat) (fd : Cell → Nat) (nd : Nat) : KS Cell Int :=
  loop (d8Step q w h fd nd) (w * h) (d8Start q w h fd nd)

/-- d8_methods.hpp:49-138 (`d8_flow_accum`): the resulting area raster. -/
def d8FlowAccum (q : AnyQ Cell) (w h : Nat) (fd : Cell → Nat) (nd : Nat) : Cell → Int :=
  (d8Loop q w h fd nd).acc

/-- d8_methods.hpp:133-136: the number of loops reported (`countval(-1)` is added eight
times). -/
def d8LoopsReported (q : AnyQ Cell) (w h : Nat) (fd : Cell → Nat) (nd : Nat) : Nat :=
  8 * (allCells w h).countP (fun c => (d8Loop q w h fd nd).deps c == -1)

/-! ### Lemmas -/

theorem foldl_pointwise {α V : Type*} {M : Type*} [AddCommMonoid M] (f : (V → M) → α → V → M)
    (g : α → V → M) (x : V) (l : List α) (hf : ∀ d a, a ∈ l → f d a x = d x + g a x)
    (d : V → M) : l.foldl f d x = d x + (l.map (fun a => g a x)).sum := by
  induction l generalizing d with
  | nil => simp
  | cons a l ih =>
    simp only [List.foldl_cons, List.map_cons, List.sum_cons]
    rw [ih (fun d b hb => hf d b (by simp [hb])), hf d a (by simp), add_assoc]

theorem sum_toFinset' {V M : Type*} [DecidableEq V] [AddCommMonoid M] (l : List V) (hl : l.Nodup)
    (f : V → M) : (l.map f).sum = ∑ x ∈ l.toFinset, f x := by
  rw [List.sum_toFinset f hl]

theorem mem_interiorCells {w h : Nat} {c : Cell} :
    c ∈ interiorCells w h ↔ InGrid w h c ∧ ¬ OnEdge w h c := by
  obtain ⟨x, y⟩ := c
  simp only [interiorCells, List.mem_flatMap, List.mem_map, List.mem_range'_1, Prod.mk.injEq]
  constructor
  · rintro ⟨y', hy, x', hx, rfl, rfl⟩
    have : InGrid w h ((x' : Int), (y' : Int)) := by
      refine ⟨?_, ?_, ?_, ?_⟩ <;> simp only <;> omega
    refine ⟨this, ?_⟩
    rintro ⟨-, h1⟩
    simp only at h1
    omega
  · rintro ⟨h1, h2⟩
    have h3 : ¬ (x = 0 ∨ y = 0 ∨ x = (w : Int) - 1 ∨ y = (h : Int) - 1) := fun h3 => h2 ⟨h1, h3⟩
    obtain ⟨a1, a2, a3, a4⟩ := h1
    simp only at a1 a2 a3 a4
    refine ⟨y.toNat, by omega, x.toNat, by omega, by omega, by omega⟩

theorem nodup_interiorCells (w h : Nat) : (interiorCells w h).Nodup := by
  unfold interiorCells
  rw [List.nodup_flatMap]
  constructor
  · intro y _
    refine List.Nodup.map ?_ List.nodup_range'
    intro a b hab
    simp only [Prod.mk.injEq] at hab
    omega
  · refine List.Pairwise.imp ?_ (List.nodup_range' (s := 1) (n := h - 2))
    intro a b hab c hc1 hc2
    simp only [List.mem_map] at hc1 hc2
    obtain ⟨x1, _, rfl⟩ := hc1
    obtain ⟨x2, _, he⟩ := hc2
    simp only [Prod.mk.injEq] at he
    omega

theorem foldl_filterMap_eq {α β S : Type*} (g : α → Option β) (f : S → β → S) (f' : S → α → S)
    (hf : ∀ s a, f' s a = match g a with | none => s | some b => f s b) (l : List α) (s : S) :
    l.foldl f' s = (l.filterMap g).foldl f s := by
  induction l generalizing s with
  | nil => rfl
  | cons a l ih =>
    simp only [List.foldl_cons, List.filterMap_cons]
    rw [hf]
    cases h : g a with
    | none => simpa using ih s
    | some b => simpa using ih (f s b)

theorem foldl_congr_mem {S α : Type*} {f g : S → α → S} (l : List α) (s : S)
    (h : ∀ s a, a ∈ l → f s a = g s a) : l.foldl f s = l.foldl g s := by
  induction l generalizing s with
  | nil => rfl
  | cons a l ih =>
    simp only [List.foldl_cons]
    rw [h s a (by simp)]
    exact ih _ (fun s b hb => h s b (by simp [hb]))

section FA
variable {R : Type*} [CommRing R] [LinearOrder R]

/-- The outgoing flow of a cell as a list of (data neighbour, positive proportion). -/
def faOut (props : Cell → Nat → R) (c : Cell) : List (Cell × R) :=
  (dirs .D8).filterMap (fun n =>
    if props c n ≤ 0 then none
    else if propNoData props (nbr .D8 c n) then none
    else some (nbr .D8 c n, props c n))

/-- The data cells of the raster. -/
def faVerts (w h : Nat) (props : Cell → Nat → R) : Finset Cell :=
  (allCells w h).toFinset.filter (fun c => propNoData props c = false)

theorem mem_faVerts {w h : Nat} {props : Cell → Nat → R} {c : Cell} :
    c ∈ faVerts w h props ↔ InGrid w h c ∧ propNoData props c = false := by
  simp [faVerts, mem_allCells]

theorem faStep_eq (q : AnyQ Cell) (props : Cell → Nat → R) (s : KS Cell R) :
    faStep q props s = kStep q (faOut props) 0 s := by
  unfold faStep kStep
  rcases hpop : q.pop s.q with _ | ⟨c, rest⟩
  · rfl
  · simp only
    rw [add_zero, Function.update_eq_self]
    congr 1
    unfold faOut
    apply foldl_filterMap_eq
    intro s n
    unfold faDir
    by_cases h1 : props c n ≤ 0
    · simp [h1]
    · by_cases h2 : propNoData props (nbr .D8 c n) = true
      · simp [h1, h2]
      · rw [if_neg h1, if_neg h2, if_neg h1, if_neg h2]
        simp [kRelax]

theorem faDepCell_apply (props : Cell → Nat → R) (d : Cell → Int) (c x : Cell) :
    faDepCell props d c x = d x + (if propNoData props c then 0 else
      ((dirs .D8).countP (fun n => decide (0 < props c n) && decide (nbr .D8 c n = x)) : Int)) := by
  unfold faDepCell
  by_cases hnd : propNoData props c = true
  · simp [hnd]
  · rw [if_neg hnd, if_neg hnd]
    rw [foldl_pointwise _ (fun n x => if 0 < props c n ∧ nbr .D8 c n = x then (1 : Int) else 0)]
    · congr 1
      generalize dirs .D8 = l
      induction l with
      | nil => simp
      | cons a l ih =>
        rw [List.map_cons, List.sum_cons, ih, List.countP_cons]
        by_cases h1 : 0 < props c a <;> by_cases h2 : nbr .D8 c a = x <;>
          simp [h1, h2, add_comm]
    · intro d n _
      by_cases h1 : 0 < props c n
      · by_cases h2 : nbr .D8 c n = x
        · subst h2; simp [h1]
        · simp [h1, h2, Function.update_of_ne (Ne.symm h2)]
      · simp [h1]

theorem faDeps_eq {w h : Nat} {props : Cell → Nat → R}
    (hedge : ∀ c, OnEdge w h c → ∀ n ∈ dirs .D8, props c n ≤ 0) {x : Cell}
    (hx : x ∈ faVerts w h props) :
    faDeps w h props x = ∑ p ∈ faVerts w h props, (cnt (faOut props) p x : Int) := by
  obtain ⟨hx1, hx2⟩ := mem_faVerts.1 hx
  unfold faDeps
  rw [foldl_pointwise (faDepCell props) (fun c x => if propNoData props c then (0 : Int) else
      ((dirs .D8).countP (fun n => decide (0 < props c n) && decide (nbr .D8 c n = x)) : Int)) x _
      (fun d a _ => faDepCell_apply props d a x)]
  rw [zero_add, sum_toFinset' _ (nodup_interiorCells w h)]
  have hcnt : ∀ p, (cnt (faOut props) p x : Int)
      = ((dirs .D8).countP (fun n => decide (0 < props p n) && decide (nbr .D8 p n = x)) : Int) := by
    intro p
    congr 1
    unfold cnt faOut
    generalize dirs .D8 = l
    induction l with
    | nil => rfl
    | cons a l ih =>
      rw [List.filterMap_cons, List.countP_cons, ← ih]
      by_cases h1 : props p a ≤ 0
      · simp [h1, not_lt.2 h1]
      · by_cases h2 : propNoData props (nbr .D8 p a) = true
        · have h3 : nbr .D8 p a ≠ x := by rintro h3; rw [h3, hx2] at h2; cases h2
          simp [h1, h2, h3]
        · simp only [if_neg h1, if_neg h2, List.countP_cons]
          simp [not_le.1 h1]
  have e1 : ∑ p ∈ faVerts w h props, (cnt (faOut props) p x : Int)
      = ∑ p ∈ (faVerts w h props) ∩ (interiorCells w h).toFinset, (cnt (faOut props) p x : Int) := by
    symm
    apply Finset.sum_subset Finset.inter_subset_left
    intro p hp hpn
    rw [hcnt]
    have hpe : OnEdge w h p := by
      by_contra hne
      apply hpn
      rw [Finset.mem_inter]
      exact ⟨hp, by simpa using mem_interiorCells.2 ⟨(mem_faVerts.1 hp).1, hne⟩⟩
    have : (dirs .D8).countP (fun n => decide (0 < props p n) && decide (nbr .D8 p n = x)) = 0 := by
      rw [List.countP_eq_zero]
      intro n hn
      simp [not_lt.2 (hedge p hpe n hn)]
    omega
  have e2 : ∑ p ∈ (interiorCells w h).toFinset,
      (if propNoData props p then (0 : Int) else
        ((dirs .D8).countP (fun n => decide (0 < props p n) && decide (nbr .D8 p n = x)) : Int))
      = ∑ p ∈ (faVerts w h props) ∩ (interiorCells w h).toFinset,
        (cnt (faOut props) p x : Int) := by
    have : ∑ p ∈ (interiorCells w h).toFinset,
      (if propNoData props p then (0 : Int) else
        ((dirs .D8).countP (fun n => decide (0 < props p n) && decide (nbr .D8 p n = x)) : Int))
      = ∑ p ∈ (faVerts w h props) ∩ (interiorCells w h).toFinset,
      (if propNoData props p then (0 : Int) else
        ((dirs .D8).countP (fun n => decide (0 < props p n) && decide (nbr .D8 p n = x)) : Int)) := by
      symm
      apply Finset.sum_subset Finset.inter_subset_right
      intro p hp hpn
      have hp' := mem_interiorCells.1 (by simpa using hp)
      have : propNoData props p = true := by
        by_contra hne
        apply hpn
        rw [Finset.mem_inter]
        exact ⟨mem_faVerts.2 ⟨hp'.1, by simpa using hne⟩, hp⟩
      simp [this]
    rw [this]
    apply Finset.sum_congr rfl
    intro p hp
    rw [Finset.mem_inter] at hp
    rw [hcnt, (mem_faVerts.1 hp.1).2]
    simp
  rw [e1, ← e2]

theorem faOut_verts {w h : Nat} {props : Cell → Nat → R}
    (hedge : ∀ c, OnEdge w h c → ∀ n ∈ dirs .D8, props c n ≤ 0) :
    ∀ p ∈ faVerts w h props, ∀ e ∈ faOut props p, e.1 ∈ faVerts w h props := by
  intro p hp e he
  obtain ⟨h1, h2⟩ := mem_faVerts.1 hp
  simp only [faOut, List.mem_filterMap] at he
  obtain ⟨n, hn, he⟩ := he
  split at he
  · cases he
  rename_i h3
  split at he
  · cases he
  rename_i h4
  have hne : isEdgeCell w h p = false := by
    rw [← Bool.not_eq_true, isEdgeCell_iff h1]
    intro hE
    exact h3 (hedge p hE n hn)
  cases he
  exact mem_faVerts.2 ⟨nbr_interior_inGrid h1 hne hn, by simpa using h4⟩

theorem card_faVerts_le (w h : Nat) (props : Cell → Nat → R) :
    (faVerts w h props).card ≤ w * h := by
  refine (Finset.card_filter_le _ _).trans ?_
  refine (List.toFinset_card_le _).trans ?_
  rw [length_allCells]

theorem nodup_pushAll_filter (q : AnyQ Cell) (l : List Cell) (hl : l.Nodup) (p : Cell → Bool) :
    (q.pushAll (l.filter p) []).Nodup ∧ ∀ c, c ∈ q.pushAll (l.filter p) [] ↔ c ∈ l ∧ p c = true := by
  constructor
  · have : ∀ (l r : List Cell), l.Nodup → r.Nodup → (∀ a ∈ l, a ∉ r) → (q.pushAll l r).Nodup := by
      intro l
      induction l with
      | nil => intro r _ hr _; exact hr
      | cons a l ih =>
        intro r h1 h2 h3
        rw [List.nodup_cons] at h1
        refine ih (q.push a r) h1.2 ?_ ?_
        · rw [(q.push_perm a r).nodup_iff]; exact List.nodup_cons.2 ⟨h3 a (by simp), h2⟩
        · intro b hb hbr
          rw [q.mem_push] at hbr
          rcases hbr with rfl | hbr
          · exact h1.1 hb
          · exact h3 b (by simp [hb]) hbr
    exact this _ _ (hl.filter p) List.nodup_nil (by simp)
  · intro c
    rw [q.mem_pushAll]; simp

/-- The final state of `FlowAccumulation`. -/
theorem fa_final (q : AnyQ Cell) (w h : Nat) (props : Cell → Nat → R) (init : Cell → R)
    (hedge : ∀ c, OnEdge w h c → ∀ n ∈ dirs .D8, props c n ≤ 0) :
    let r := faLoop q w h props init
    r.q = [] ∧ (∀ c ∈ faVerts w h props, 0 ≤ r.deps c) ∧
    ∃ done : Finset Cell, done ⊆ faVerts w h props ∧
      (∀ c ∈ faVerts w h props, c ∈ done ↔
        Acc (fun p c => p ∈ faVerts w h props ∧ 0 < cnt (faOut props) p c) c) ∧
      (∀ c ∈ faVerts w h props, (c ∈ done ↔ r.deps c = 0)) ∧
      (∀ c ∈ done, r.acc c = init c + ∑ p ∈ faVerts w h props, wt (faOut props) p c * r.acc p) ∧
      (∀ c ∈ faVerts w h props, c ∉ done →
        r.acc c = init c + ∑ p ∈ done, wt (faOut props) p c * r.acc p) := by
  have hstep : faStep q props = kStep q (faOut props) 0 := funext (faStep_eq q props)
  obtain ⟨n1, n2⟩ := nodup_pushAll_filter q (allCells w h) (nodup_allCells w h)
    (fun c => faDeps w h props c == 0 && !propNoData props c)
  have := kahn_final q (faOut_verts hedge) 0 (faStart q w h props init)
    (fun c hc => faDeps_eq hedge hc) n1
    (by
      intro c
      simp only [faStart]
      rw [n2, mem_allCells, mem_faVerts]
      simp only [Bool.and_eq_true, beq_iff_eq, Bool.not_eq_true']
      tauto) (w * h) (card_faVerts_le w h props)
  simp only [faLoop, hstep]
  simpa [faStart] using this

end FA

/-! ### d8_flow_accum lemmas -/

/-- The data cells of a direction raster. -/
def d8Verts (w h : Nat) (fd : Cell → Nat) (nd : Nat) : Finset Cell :=
  (allCells w h).toFinset.filter (fun c => fd c ≠ nd)

theorem mem_d8Verts {w h : Nat} {fd : Cell → Nat} {nd : Nat} {c : Cell} :
    c ∈ d8Verts w h fd nd ↔ InGrid w h c ∧ fd c ≠ nd := by
  simp [d8Verts, mem_allCells]

/-- The outgoing flow of a cell: nothing, or one unit edge. -/
def d8Out (w h : Nat) (fd : Cell → Nat) (nd : Nat) (c : Cell) : List (Cell × Int) :=
  if fd c = 0 then []
  else if inGrid w h (nbr .D8 c (fd c)) = false then []
  else if fd (nbr .D8 c (fd c)) = nd then []
  else [(nbr .D8 c (fd c), 1)]

theorem nbr_ne {c : Cell} {n : Nat} (hn : n ∈ dirs .D8) : nbr .D8 c n ≠ c :=
  fun h => (nbr_adj (c := c) hn).1 h.symm

theorem d8Step_eq (q : AnyQ Cell) (w h : Nat) (fd : Cell → Nat) (nd : Nat)
    (s : KS Cell Int) :
    d8Step q w h fd nd s = kStep q (d8Out w h fd nd) 1 s := by
  unfold d8Step kStep
  rcases hpop : q.pop s.q with _ | ⟨c, rest⟩
  · rfl
  · simp only [d8Out]
    by_cases h0 : fd c = 0
    · simp [h0]
    · by_cases h1 : inGrid w h (nbr .D8 c (fd c)) = false
      · simp [h0, h1]
      · by_cases h2 : fd (nbr .D8 c (fd c)) = nd
        · simp [h0, h1, h2]
        · simp [h0, h1, h2, kRelax]

theorem d8Deps_eq {w h : Nat} {fd : Cell → Nat} {nd : Nat} {x : Cell}
    (hx : x ∈ d8Verts w h fd nd) :
    d8Deps w h fd nd x = ∑ p ∈ d8Verts w h fd nd, (cnt (d8Out w h fd nd) p x : Int) := by
  obtain ⟨hx1, hx2⟩ := mem_d8Verts.1 hx
  unfold d8Deps
  rw [foldl_pointwise _ (fun p x => if fd p = nd then (0 : Int) else if fd p = 0 then 0 else
    if inGrid w h (nbr .D8 p (fd p)) = false then 0 else if nbr .D8 p (fd p) = x then 1 else 0)]
  · rw [zero_add, sum_toFinset' _ (nodup_allCells w h)]
    have : ∑ p ∈ d8Verts w h fd nd, (cnt (d8Out w h fd nd) p x : Int)
        = ∑ p ∈ (allCells w h).toFinset, if fd p ≠ nd then (cnt (d8Out w h fd nd) p x : Int) else 0 := by
      rw [d8Verts, Finset.sum_filter]
    rw [this]
    apply Finset.sum_congr rfl
    intro p _
    by_cases h0 : fd p = nd
    · simp [h0]
    · by_cases h1 : fd p = 0
      · simp [h0, h1, cnt, d8Out]
      · by_cases h2 : inGrid w h (nbr .D8 p (fd p)) = false
        · simp [h0, h1, h2, cnt, d8Out]
        · by_cases h3 : nbr .D8 p (fd p) = x
          · subst h3; simp [h0, h1, h2, cnt, d8Out, hx2]
          · by_cases h4 : fd (nbr .D8 p (fd p)) = nd
            · simp [h0, h1, h2, h3, cnt, d8Out, h4]
            · simp [h0, h1, h2, h3, cnt, d8Out, h4]
  · intro d p _
    unfold d8DepCell
    by_cases h0 : fd p = nd
    · simp [h0]
    · by_cases h1 : fd p = 0
      · simp [h0, h1]
      · by_cases h2 : inGrid w h (nbr .D8 p (fd p)) = false
        · simp [h0, h1, h2]
        · by_cases h3 : nbr .D8 p (fd p) = x
          · subst h3; simp [h0, h1, h2]
          · simp [h0, h1, h2, h3, Function.update_of_ne (Ne.symm h3)]

theorem d8Out_verts {w h : Nat} {fd : Cell → Nat} {nd : Nat} :
    ∀ p ∈ d8Verts w h fd nd, ∀ e ∈ d8Out w h fd nd p, e.1 ∈ d8Verts w h fd nd := by
  intro p hp e he
  unfold d8Out at he
  split at he
  · simp at he
  split at he
  · simp at he
  rename_i h1
  split at he
  · simp at he
  rename_i h2
  simp only [List.mem_singleton] at he
  subst he
  exact mem_d8Verts.2 ⟨inGrid_iff.1 (by simpa using h1), h2⟩

theorem card_d8Verts_le (w h : Nat) (fd : Cell → Nat) (nd : Nat) :
    (d8Verts w h fd nd).card ≤ w * h := by
  refine (Finset.card_filter_le _ _).trans ?_
  refine (List.toFinset_card_le _).trans ?_
  rw [length_allCells]

/-- The final state of `d8_flow_accum`. -/
theorem d8_final (q : AnyQ Cell) (w h : Nat) (fd : Cell → Nat) (nd : Nat) :
    let r := d8Loop q w h fd nd
    let V := d8Verts w h fd nd
    let out := d8Out w h fd nd
    r.q = [] ∧ (∀ c ∈ V, 0 ≤ r.deps c) ∧
    ∃ done : Finset Cell, done ⊆ V ∧
      (∀ c ∈ V, c ∈ done ↔ Acc (fun p c => p ∈ V ∧ 0 < cnt out p c) c) ∧
      (∀ c ∈ V, (c ∈ done ↔ r.deps c = 0)) ∧
      (∀ c ∈ done, r.acc c = 1 + ∑ p ∈ V, wt out p c * r.acc p) ∧
      (∀ c ∈ V, c ∉ done → r.acc c = ∑ p ∈ done, wt out p c * r.acc p) := by
  intro r V out
  have hstep : d8Step q w h fd nd = kStep q (d8Out w h fd nd) 1 := funext (d8Step_eq q w h fd nd)
  obtain ⟨n1, n2⟩ := nodup_pushAll_filter q (allCells w h) (nodup_allCells w h)
    (fun c => d8Deps w h fd nd c == 0 && !(fd c == nd))
  have := kahn_final q (verts := V) (out := out) d8Out_verts 1 (d8Start q w h fd nd)
    (fun c hc => d8Deps_eq hc) n1
    (by
      intro c
      simp only [d8Start]
      rw [n2, mem_allCells, mem_d8Verts]
      simp only [Bool.and_eq_true, beq_iff_eq, Bool.not_eq_true', beq_eq_false_iff_ne]
      tauto) (w * h) (card_d8Verts_le w h fd nd)
  have hr : r = loop (kStep q out 1) (w * h) (d8Start q w h fd nd) := by
    simp only [r, d8Loop, hstep, out]
  rw [← hr] at this
  obtain ⟨k1, k2, done, k3, k4, k5, k6, k7⟩ := this
  refine ⟨k1, k2, done, k3, k4, k5, ?_, ?_⟩
  · intro c hc
    rw [k6 c hc]
    have : (d8Start q w h fd nd).acc c = 0 := by
      simp [d8Start, (mem_d8Verts.1 (k3 hc)).2]
    rw [this]; ring
  · intro c hc hn
    rw [k7 c hc hn]
    have : (d8Start q w h fd nd).acc c = 0 := by
      simp [d8Start, (mem_d8Verts.1 hc).2]
    rw [this]; ring

/-- Cells outside the vertex set are never touched. -/
theorem kStep_frame {V R : Type*} [DecidableEq V] [CommRing R] (pq : AnyQ V) {verts : Finset V}
    {out : V → List (V × R)} (hout : ∀ p ∈ verts, ∀ e ∈ out p, e.1 ∈ verts) {own : R}
    {s0 : KS V R} (hq : ∀ c ∈ s0.q, c ∈ verts) (fuel : Nat) :
    (∀ c ∈ (loop (kStep pq out own) fuel s0).q, c ∈ verts) ∧
    ∀ c, c ∉ verts → (loop (kStep pq out own) fuel s0).acc c = s0.acc c ∧
      (loop (kStep pq out own) fuel s0).deps c = s0.deps c := by
  refine loop_inv (fun s => (∀ c ∈ s.q, c ∈ verts) ∧ ∀ c, c ∉ verts → s.acc c = s0.acc c ∧
    s.deps c = s0.deps c) ?_ fuel s0 ⟨hq, fun c _ => ⟨rfl, rfl⟩⟩
  rintro s s' ⟨h1, h2⟩ hs
  unfold kStep at hs
  split at hs
  · cases hs
  rename_i c rest hpop
  obtain ⟨hperm, -⟩ := pq.pop_some hpop
  have hcv : c ∈ verts := h1 c (hperm.mem_iff.2 (by simp))
  injection hs with hs
  rw [← hs]
  apply foldl_inv' (P := fun s : KS V R => (∀ c ∈ s.q, c ∈ verts) ∧ ∀ c, c ∉ verts → s.acc c = s0.acc c ∧
    s.deps c = s0.deps c)
  · rintro s e he ⟨i1, i2⟩
    have hev := hout c hcv e he
    constructor
    · intro d hd
      simp only [kRelax] at hd
      split at hd
      · rw [pq.mem_push] at hd
        rcases hd with rfl | hd
        · exact hev
        · exact i1 d hd
      · exact i1 d hd
    · intro d hd
      have : d ≠ e.1 := by rintro rfl; exact hd hev
      simp only [kRelax, Function.update_of_ne this]
      exact i2 d hd
  · constructor
    · intro d hd
      exact h1 d (hperm.mem_iff.2 (by simp at hd; simp [hd]))
    · intro d hd
      have : d ≠ c := by rintro rfl; exact hd hcv
      simp only [Function.update_of_ne this]
      exact h2 d hd

theorem d8_frame (q : AnyQ Cell) (w h : Nat) (fd : Cell → Nat) (nd : Nat) (c : Cell)
    (hc : c ∉ d8Verts w h fd nd) :
    (d8Loop q w h fd nd).acc c = (d8Start q w h fd nd).acc c ∧
    (d8Loop q w h fd nd).deps c = d8Deps w h fd nd c := by
  have hstep : d8Step q w h fd nd = kStep q (d8Out w h fd nd) 1 := funext (d8Step_eq q w h fd nd)
  have := (kStep_frame q (verts := d8Verts w h fd nd) d8Out_verts (own := 1)
    (s0 := d8Start q w h fd nd) (by
      intro c hc
      obtain ⟨n1, n2⟩ := nodup_pushAll_filter q (allCells w h) (nodup_allCells w h)
        (fun c => d8Deps w h fd nd c == 0 && !(fd c == nd))
      simp only [d8Start] at hc
      rw [n2, mem_allCells] at hc
      simp only [Bool.and_eq_true, beq_iff_eq, Bool.not_eq_true', beq_eq_false_iff_ne] at hc
      exact mem_d8Verts.2 ⟨hc.1, hc.2.2⟩) (w * h)).2 c hc
  rw [← hstep] at this
  exact this

theorem d8Deps_nonneg (w h : Nat) (fd : Cell → Nat) (nd : Nat) (c : Cell) :
    0 ≤ d8Deps w h fd nd c := by
  unfold d8Deps
  refine foldl_inv' (P := fun d : Cell → Int => 0 ≤ d c) _ _ ?_ (le_refl _)
  intro d p _ hd
  unfold d8DepCell
  split
  · exact hd
  split
  · exact hd
  split
  · exact hd
  by_cases h3 : nbr .D8 p (fd p) = c
  · subst h3; simp; omega
  · simp only [Function.update_of_ne (Ne.symm h3)]; exact hd

end RichDEM
