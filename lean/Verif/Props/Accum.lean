/-
Property theorems C20 (generic flow accumulation) and C21 (D8 flow accumulation).
-/
import Verif.Flow.Accum
import Verif.Examples
import Mathlib.Algebra.Order.Field.Rat
import Mathlib.Algebra.Order.BigOperators.Ring.Finset

namespace RichDEM

open Finset Relation

/-! ### Specification -/

/-- A cell of the raster that the flow metric has not marked as NoData (slot 0 is -2). -/
def FlowData {R : Type*} [CommRing R] (w h : Nat) (props : Cell → Nat → R) (c : Cell) : Prop :=
  InGrid w h c ∧ props c 0 ≠ -2

/-- The metric sends a positive proportion from data cell `p` to the data cell `c`, one of its
eight neighbours. -/
def FlowEdge {R : Type*} [CommRing R] [LinearOrder R] (w h : Nat) (props : Cell → Nat → R)
    (p c : Cell) : Prop :=
  FlowData w h props p ∧ FlowData w h props c ∧
    ∃ n ∈ List.range' 1 8, 0 < props p n ∧ nbr .D8 p n = c

/-- `c` is not on and not downstream of a cycle of flow. -/
def NoCycleAbove {V : Type*} (r : V → V → Prop) (c : V) : Prop :=
  ∀ a, ReflTransGen r a c → ¬ TransGen r a a

/-- The edge cells of the raster send no flow (true of every flow metric in the library, e.g.
`C17_metric`). -/
def EdgesSilent {R : Type*} [CommRing R] [LinearOrder R] (w h : Nat) (props : Cell → Nat → R) :
    Prop := ∀ c, OnEdge w h c → ∀ n ∈ List.range' 1 8, props c n ≤ 0

/-- Flow arriving at `c` when the accumulation raster is `acc`: over all data cells `p` of the
raster and all directions `n`, the proportion sent from `p` to `c` times the accumulation of
`p`. -/
def inflow {R : Type*} [CommRing R] [LinearOrder R] (w h : Nat) (props : Cell → Nat → R)
    (acc : Cell → R) (c : Cell) : R :=
  ((allCells w h).map (fun p => ((List.range' 1 8).map (fun n =>
    if props p 0 ≠ -2 ∧ 0 < props p n ∧ nbr .D8 p n = c then props p n * acc p else 0)).sum)).sum

/-! ### C20 -/

section
variable {R : Type*} [CommRing R] [LinearOrder R]

theorem mem_faVerts_iff {w h : Nat} {props : Cell → Nat → R} {c : Cell} :
    c ∈ faVerts w h props ↔ FlowData w h props c := by
  rw [mem_faVerts]; simp [FlowData, propNoData]

theorem faEdge_iff {w h : Nat} {props : Cell → Nat → R} {p c : Cell}
    (hc : FlowData w h props c) :
    (p ∈ faVerts w h props ∧ 0 < cnt (faOut props) p c) ↔ FlowEdge w h props p c := by
  rw [mem_faVerts_iff]
  simp only [FlowEdge, hc, true_and]
  refine and_congr_right (fun hp => ?_)
  unfold cnt faOut
  rw [List.countP_pos_iff]
  simp only [List.mem_filterMap, decide_eq_true_eq]
  constructor
  · rintro ⟨e, ⟨n, hn, he⟩, hec⟩
    split at he
    · cases he
    rename_i h1
    split at he
    · cases he
    cases he
    exact ⟨n, hn, not_le.1 h1, hec⟩
  · rintro ⟨n, hn, h1, rfl⟩
    refine ⟨(nbr .D8 p n, props p n), ⟨n, hn, ?_⟩, rfl⟩
    rw [if_neg (not_le.2 h1), if_neg]
    simpa [propNoData] using hc.2

theorem faAcc_iff {w h : Nat} {props : Cell → Nat → R} {c : Cell} (hc : FlowData w h props c) :
    Acc (fun p c => p ∈ faVerts w h props ∧ 0 < cnt (faOut props) p c) c ↔
      NoCycleAbove (FlowEdge w h props) c := by
  rw [NoCycleAbove, ← acc_iff_no_cycle (faVerts w h props) (FlowEdge w h props)
    (fun a b hab => mem_faVerts_iff.2 hab.1) (mem_faVerts_iff.2 hc)]
  constructor
  · intro hA
    induction hA with
    | intro c _ ih =>
      refine Acc.intro _ (fun p hp => ih p ((faEdge_iff hc).2 hp) hp.1)
  · intro hA
    induction hA with
    | intro c _ ih =>
      refine Acc.intro _ (fun p hp => ?_)
      have := (faEdge_iff hc).1 hp
      exact ih p this this.1

theorem inflow_eq {w h : Nat} {props : Cell → Nat → R} {c : Cell} (hc : FlowData w h props c)
    (acc acc' : Cell → R) (hacc : ∀ p ∈ faVerts w h props, acc p = acc' p) :
    inflow w h props acc' c = ∑ p ∈ faVerts w h props, wt (faOut props) p c * acc p := by
  unfold inflow
  rw [sum_toFinset' _ (nodup_allCells w h), faVerts, Finset.sum_filter]
  apply Finset.sum_congr rfl
  intro p hp
  have hp' : InGrid w h p := mem_allCells.1 (by simpa using hp)
  by_cases hnd : props p 0 = -2
  · rw [if_neg (by simp [propNoData, hnd])]
    simp [hnd]
  · rw [if_pos (by simp [propNoData, hnd])]
    rw [hacc p (mem_faVerts_iff.2 ⟨hp', hnd⟩)]
    unfold wt faOut
    change ((dirs .D8).map _).sum = _
    generalize dirs .D8 = l
    induction l with
    | nil => simp
    | cons n l ih =>
      rw [List.map_cons, List.sum_cons, ih, List.filterMap_cons]
      by_cases h1 : props p n ≤ 0
      · simp [h1, not_lt.2 h1]
      · by_cases h2 : propNoData props (nbr .D8 p n) = true
        · have h3 : nbr .D8 p n ≠ c := by
            rintro rfl; exact hc.2 (by simpa [propNoData] using h2)
          simp [h1, h2, h3]
        · simp only [if_neg h1, if_neg h2, List.map_cons, List.sum_cons]
          by_cases h3 : nbr .D8 p n = c
          · rw [if_pos ⟨hnd, not_le.1 h1, h3⟩, if_pos h3]; ring
          · rw [if_neg (fun h => h3 h.2.2), if_neg h3]; ring

/-- C20: the loop stops with an empty queue within `w*h` iterations, and the dependency counters
of data cells never end below zero (the code's `assert`). -/
theorem C20_terminates (q : AnyQ Cell) (w h : Nat) (props : Cell → Nat → R) (init : Cell → R)
    (hedge : EdgesSilent w h props) :
    (faLoop q w h props init).q = [] ∧
    ∀ c, FlowData w h props c → 0 ≤ (faLoop q w h props init).deps c := by
  obtain ⟨h1, h2, _⟩ := fa_final q w h props init hedge
  exact ⟨h1, fun c hc => h2 c (mem_faVerts_iff.2 hc)⟩

/-- C20: NoData cells get the NoData accumulation value, -1. -/
theorem C20_noData (q : AnyQ Cell) (w h : Nat) (props : Cell → Nat → R) (init : Cell → R)
    (c : Cell) (hc : props c 0 = -2) : flowAccumulation q w h props init c = -1 := by
  simp [flowAccumulation, propNoData, hc]

/-- C20: a data cell that is not on or below a cycle of flow ends with its own input plus the
proportion-weighted final accumulations of the cells that flow into it. -/
theorem C20_upstream_sum (q : AnyQ Cell) (w h : Nat) (props : Cell → Nat → R) (init : Cell → R)
    (hedge : EdgesSilent w h props) (c : Cell) (hc : FlowData w h props c)
    (hac : NoCycleAbove (FlowEdge w h props) c) :
    flowAccumulation q w h props init c =
      init c + inflow w h props (flowAccumulation q w h props init) c := by
  obtain ⟨_, _, done, h3, h4, h5, h6, _⟩ := fa_final q w h props init hedge
  have hcd : c ∈ done := (h4 c (mem_faVerts_iff.2 hc)).2 ((faAcc_iff hc).2 hac)
  have hF : ∀ p ∈ faVerts w h props,
      (faLoop q w h props init).acc p = flowAccumulation q w h props init p := by
    intro p hp
    simp [flowAccumulation, (mem_faVerts.1 hp).2]
  rw [inflow_eq hc _ _ hF, ← hF c (mem_faVerts_iff.2 hc)]
  exact h6 c hcd

/-- C20: the result does not depend on the order in which the queue serves its entries, with or
without cycles. -/
theorem C20_order_independent (q q' : AnyQ Cell) (w h : Nat) (props : Cell → Nat → R)
    (init : Cell → R) (hedge : EdgesSilent w h props) (c : Cell) (hc : InGrid w h c) :
    flowAccumulation q w h props init c = flowAccumulation q' w h props init c := by
  by_cases hnd : props c 0 = -2
  · rw [C20_noData q w h props init c hnd, C20_noData q' w h props init c hnd]
  obtain ⟨_, _, D, h3, h4, _, h6, h7⟩ := fa_final q w h props init hedge
  obtain ⟨_, _, D', h3', h4', _, h6', h7'⟩ := fa_final q' w h props init hedge
  have hDD : D = D' := by
    ext x
    constructor
    · intro hx; exact (h4' x (h3 hx)).2 ((h4 x (h3 hx)).1 hx)
    · intro hx; exact (h4 x (h3' hx)).2 ((h4' x (h3' hx)).1 hx)
  have hdone : ∀ x, Acc (fun p c => p ∈ faVerts w h props ∧ 0 < cnt (faOut props) p c) x →
      x ∈ D → (faLoop q w h props init).acc x = (faLoop q' w h props init).acc x := by
    intro x hA
    induction hA with
    | intro x _ ih =>
      intro hx
      rw [h6 x hx, h6' x (hDD ▸ hx)]
      congr 1
      apply Finset.sum_congr rfl
      intro p hp
      by_cases h0 : cnt (faOut props) p x = 0
      · rw [wt_eq_zero h0]; simp
      · have he : p ∈ faVerts w h props ∧ 0 < cnt (faOut props) p x := ⟨hp, Nat.pos_of_ne_zero h0⟩
        rw [ih p he]
        exact (h4 p hp).2 (((h4 x (h3 hx)).1 hx).inv he)
  have hcv : c ∈ faVerts w h props := mem_faVerts_iff.2 ⟨hc, hnd⟩
  simp only [flowAccumulation, (mem_faVerts.1 hcv).2]
  by_cases hcd : c ∈ D
  · exact hdone c ((h4 c hcv).1 hcd) hcd
  · simp only [Bool.false_eq_true, if_false]
    rw [h7 c hcv hcd, h7' c hcv (hDD ▸ hcd), ← hDD]
    congr 1
    apply Finset.sum_congr rfl
    intro p hp
    rw [hdone p ((h4 p (h3 hp)).1 hp) hp]

/-- The share of a cell's flow that goes to data cells. -/
def sentToData (w h : Nat) (props : Cell → Nat → R) (p : Cell) : R :=
  ((List.range' 1 8).map (fun n =>
    if 0 < props p n ∧ InGrid w h (nbr .D8 p n) ∧ props (nbr .D8 p n) 0 ≠ -2
    then props p n else 0)).sum

/-- Sum over the data cells of the raster. -/
def sumData (w h : Nat) (props : Cell → Nat → R) (f : Cell → R) : R :=
  ((allCells w h).map (fun c => if props c 0 ≠ -2 then f c else 0)).sum

theorem sumData_eq (w h : Nat) (props : Cell → Nat → R) (f : Cell → R) :
    sumData w h props f = ∑ c ∈ faVerts w h props, f c := by
  unfold sumData
  rw [sum_toFinset' _ (nodup_allCells w h), faVerts, Finset.sum_filter]
  apply Finset.sum_congr rfl
  intro p _
  by_cases hnd : props p 0 = -2
  · simp [hnd, propNoData]
  · simp [hnd, propNoData]

/-- C20 (mass balance): when the flow has no cycles, what enters (the inputs of all data cells)
equals what is not passed on: each data cell keeps the share of its accumulation that it does
not send to data cells. -/
theorem C20_mass_balance (q : AnyQ Cell) (w h : Nat) (props : Cell → Nat → R) (init : Cell → R)
    (hedge : EdgesSilent w h props) (hac : ∀ c, ¬ TransGen (FlowEdge w h props) c c) :
    sumData w h props init = sumData w h props (fun c =>
      flowAccumulation q w h props init c * (1 - sentToData w h props c)) := by
  have hno : ∀ c, NoCycleAbove (FlowEdge w h props) c := fun c a _ => hac a
  set F := flowAccumulation q w h props init with hF
  have heq : ∀ c ∈ faVerts w h props,
      F c = init c + ∑ p ∈ faVerts w h props, wt (faOut props) p c * F p := by
    intro c hc
    have hc' := mem_faVerts_iff.1 hc
    rw [hF, C20_upstream_sum q w h props init hedge c hc' (hno c), ← hF,
      inflow_eq hc' F F (fun _ _ => rfl)]
  rw [sumData_eq, sumData_eq]
  have hsent : ∀ p ∈ faVerts w h props,
      ∑ c ∈ faVerts w h props, wt (faOut props) p c = sentToData w h props p := by
    intro p hp
    unfold wt sentToData faOut
    change _ = ((dirs .D8).map _).sum
    have hin : ∀ n ∈ dirs .D8, 0 < props p n → InGrid w h (nbr .D8 p n) := by
      intro n hn h0
      have hpg := (mem_faVerts.1 hp).1
      refine nbr_interior_inGrid hpg ?_ hn
      rw [← Bool.not_eq_true, isEdgeCell_iff hpg]
      intro hE
      exact absurd h0 (not_lt.2 (hedge p hE n hn))
    generalize dirs .D8 = l at hin
    induction l with
    | nil => simp
    | cons n l ih =>
      have ih' := ih (fun m hm => hin m (by simp [hm]))
      rw [List.map_cons, List.sum_cons, ← ih', List.filterMap_cons]
      by_cases h1 : props p n ≤ 0
      · simp [h1, not_lt.2 h1]
      · by_cases h2 : props (nbr .D8 p n) 0 = -2
        · have : propNoData props (nbr .D8 p n) = true := by simp [propNoData, h2]
          simp [h1, this, h2]
        · have h2' : ¬ propNoData props (nbr .D8 p n) = true := by simp [propNoData, h2]
          have h4 := hin n (by simp) (not_le.1 h1)
          simp only [if_neg h1, if_neg h2', List.map_cons, List.sum_cons]
          rw [Finset.sum_add_distrib, if_pos ⟨not_le.1 h1, h4, h2⟩]
          congr 1
          rw [Finset.sum_ite_eq, if_pos (mem_faVerts_iff.2 ⟨h4, h2⟩)]
  have hsum : ∑ c ∈ faVerts w h props, F c
      = ∑ c ∈ faVerts w h props, init c
        + ∑ p ∈ faVerts w h props, F p * sentToData w h props p := by
    rw [Finset.sum_congr rfl heq, Finset.sum_add_distrib, Finset.sum_comm]
    congr 1
    apply Finset.sum_congr rfl
    intro p hp
    rw [← Finset.sum_mul, hsent p hp]; ring
  have : ∑ c ∈ faVerts w h props, F c * (1 - sentToData w h props c)
      = ∑ c ∈ faVerts w h props, F c - ∑ c ∈ faVerts w h props, F c * sentToData w h props c := by
    rw [← Finset.sum_sub_distrib]
    apply Finset.sum_congr rfl
    intro p _; ring
  rw [this, hsum]; ring

/-- Total of a cell's positive proportions. -/
def sentTotal (props : Cell → Nat → R) (p : Cell) : R :=
  ((List.range' 1 8).map (fun n => if 0 < props p n then props p n else 0)).sum

/-- The share of a cell's flow that goes to NoData neighbours. -/
def sentToNoData (props : Cell → Nat → R) (p : Cell) : R :=
  ((List.range' 1 8).map (fun n =>
    if 0 < props p n ∧ props (nbr .D8 p n) 0 = -2 then props p n else 0)).sum

/-- C20 (conservation): when the flow has no cycles and every data cell either sends all of its
flow on (positive proportions summing to one) or none, the total input equals what accumulates
in the cells without outflow plus what the others send into NoData cells. -/
theorem C20_conservation (q : AnyQ Cell) (w h : Nat) (props : Cell → Nat → R) (init : Cell → R)
    (hedge : EdgesSilent w h props) (hac : ∀ c, ¬ TransGen (FlowEdge w h props) c c)
    (hone : ∀ c, FlowData w h props c →
      sentTotal props c = 1 ∨ ∀ n ∈ List.range' 1 8, props c n ≤ 0) :
    sumData w h props init =
      sumData w h props (fun c =>
        if ∀ n ∈ List.range' 1 8, props c n ≤ 0 then flowAccumulation q w h props init c
        else flowAccumulation q w h props init c * sentToNoData props c) := by
  have hpart : ∀ c, FlowData w h props c → sentTotal props c
      = sentToNoData props c + sentToData w h props c := by
    intro c hc
    have hin : ∀ n ∈ dirs .D8, 0 < props c n → InGrid w h (nbr .D8 c n) := by
      intro n hn h0
      refine nbr_interior_inGrid hc.1 ?_ hn
      rw [← Bool.not_eq_true, isEdgeCell_iff hc.1]
      intro hE
      exact absurd h0 (not_lt.2 (hedge c hE n hn))
    unfold sentTotal sentToData sentToNoData
    change ((dirs .D8).map _).sum = ((dirs .D8).map _).sum + ((dirs .D8).map _).sum
    generalize dirs .D8 = l at hin
    induction l with
    | nil => simp
    | cons n l ih =>
      simp only [List.map_cons, List.sum_cons]
      rw [ih (fun m hm => hin m (by simp [hm]))]
      by_cases hp : 0 < props c n
      · have hg := hin n (by simp) hp
        by_cases hnd : props (nbr .D8 c n) 0 = -2
        · rw [if_pos hp, if_pos ⟨hp, hnd⟩, if_neg (fun h => h.2.2 hnd)]; ring
        · rw [if_pos hp, if_neg (fun h => hnd h.2), if_pos ⟨hp, hg, hnd⟩]; ring
      · rw [if_neg hp, if_neg (fun h => hp h.1), if_neg (fun h => hp h.1)]; ring
  rw [C20_mass_balance q w h props init hedge hac, sumData_eq, sumData_eq]
  apply Finset.sum_congr rfl
  intro c hcv
  have hc := mem_faVerts_iff.1 hcv
  split
  · rename_i h0
    have : sentToData w h props c = 0 := by
      unfold sentToData
      apply List.sum_eq_zero
      intro x hx
      rw [List.mem_map] at hx
      obtain ⟨n, hn, rfl⟩ := hx
      rw [if_neg]
      intro h1
      exact absurd h1.1 (not_lt.2 (h0 n hn))
    rw [this]; ring
  · rename_i h0
    have h1 : sentTotal props c = 1 := by
      rcases hone c hc with h | h
      · exact h
      · exact absurd h h0
    rw [← h1, hpart c hc]; ring

/-- C20: a data cell on or below a cycle of flow is never processed: its dependency counter
stays positive. -/
theorem C20_cycle_unprocessed (q : AnyQ Cell) (w h : Nat) (props : Cell → Nat → R)
    (init : Cell → R) (hedge : EdgesSilent w h props) (c : Cell) (hc : FlowData w h props c) :
    0 < (faLoop q w h props init).deps c ↔ ¬ NoCycleAbove (FlowEdge w h props) c := by
  obtain ⟨_, h2, done, _, h4, h5, _⟩ := fa_final q w h props init hedge
  have hv := mem_faVerts_iff.2 hc
  have := h2 c hv
  rw [← faAcc_iff hc, ← h4 c hv, h5 c hv]
  omega

end

/-- A 4x4 metric: cell (1,1) splits its flow equally between (2,1) and (1,2), both of which send
everything to (2,2), which sends everything to the edge cell (3,3). -/
def exProps : Cell → Nat → ℚ := fun c n =>
  if c = (1, 1) then [0, -1, -1, -1, -1, 1/2, -1, 1/2, -1].getD n (-1)
  else if c = (2, 1) then [0, -1, -1, -1, -1, -1, -1, 1, -1].getD n (-1)
  else if c = (1, 2) then [0, -1, -1, -1, -1, 1, -1, -1, -1].getD n (-1)
  else if c = (2, 2) then [0, -1, -1, -1, -1, -1, 1, -1, -1].getD n (-1)
  else -1

example : toRows 4 4 (flowAccumulation (fifo Cell) 4 4 exProps (fun _ => 1)) =
    [[1, 1, 1, 1], [1, 1, 3/2, 1], [1, 3/2, 4, 1], [1, 1, 1, 5]] := by decide +kernel

/-- `exProps` meets the hypotheses of the C20 theorems: silent edges and no cycles (flow goes
strictly right/down). -/
example : EdgesSilent 4 4 exProps ∧ (∀ c, ¬ TransGen (FlowEdge 4 4 exProps) c c) := by
  constructor
  · intro c hc
    have hm : c ∈ allCells 4 4 := mem_allCells.2 hc.1
    have : ∀ c ∈ allCells 4 4, OnEdge 4 4 c → ∀ n ∈ List.range' 1 8, exProps c n ≤ 0 := by
      decide +kernel
    exact this c hm hc
  · have hstep : ∀ p ∈ allCells 4 4, ∀ n ∈ List.range' 1 8, 0 < exProps p n →
        p.1 + p.2 < (nbr .D8 p n).1 + (nbr .D8 p n).2 := by decide +kernel
    have hmono : ∀ a b, TransGen (FlowEdge 4 4 exProps) a b → a.1 + a.2 < b.1 + b.2 := by
      intro a b hab
      induction hab with
      | single h1 =>
        obtain ⟨h1, _, n, hn, h2, rfl⟩ := h1
        exact hstep a (mem_allCells.2 h1.1) n hn h2
      | @tail b c _ h1 ih =>
        obtain ⟨h1, _, n, hn, h2, rfl⟩ := h1
        exact ih.trans (hstep b (mem_allCells.2 h1.1) n hn h2)
    intro c hc
    exact absurd (hmono c c hc) (lt_irrefl _)

/-! ### C21 -/

/-- Data cell `a` flows to data cell `b`: `b` is the neighbour named by the direction of `a`. -/
def D8FlowsTo (w h : Nat) (fd : Cell → Nat) (nd : Nat) (a b : Cell) : Prop :=
  (InGrid w h a ∧ fd a ≠ nd) ∧ (InGrid w h b ∧ fd b ≠ nd) ∧ fd a ≠ 0 ∧ b = nbr .D8 a (fd a)

instance (w h : Nat) (fd : Cell → Nat) (nd : Nat) (a b : Cell) :
    Decidable (D8FlowsTo w h fd nd a b) := by unfold D8FlowsTo; infer_instance

open Classical in
/-- Number of data cells whose flow path passes through `c` (itself included). -/
noncomputable def upstreamCount (w h : Nat) (fd : Cell → Nat) (nd : Nat) (c : Cell) : Nat :=
  (allCells w h).countP (fun a => decide (fd a ≠ nd ∧ ReflTransGen (D8FlowsTo w h fd nd) a c))

section
variable {w h : Nat} {fd : Cell → Nat} {nd : Nat}

theorem d8FlowsTo_fun {a b c : Cell} (h1 : D8FlowsTo w h fd nd a b) (h2 : D8FlowsTo w h fd nd a c) :
    b = c := by rw [h1.2.2.2, h2.2.2.2]

theorem d8_cnt {p c : Cell} (hp : p ∈ d8Verts w h fd nd) (hc : c ∈ d8Verts w h fd nd) :
    cnt (d8Out w h fd nd) p c = if D8FlowsTo w h fd nd p c then 1 else 0 := by
  rw [mem_d8Verts] at hp hc
  unfold cnt d8Out
  by_cases h0 : fd p = 0
  · simp [h0, D8FlowsTo]
  · by_cases h3 : nbr .D8 p (fd p) = c
    · have hg : inGrid w h (nbr .D8 p (fd p)) = true := inGrid_iff.2 (by rw [h3]; exact hc.1)
      have hd : fd (nbr .D8 p (fd p)) ≠ nd := by rw [h3]; exact hc.2
      have hf : D8FlowsTo w h fd nd p c := ⟨hp, hc, h0, h3.symm⟩
      simp only [if_neg h0, hg, hd, hf, if_true]
      simp [h3]
    · have hf : ¬ D8FlowsTo w h fd nd p c := fun hf => h3 hf.2.2.2.symm
      simp only [if_neg h0, hf, if_false]
      split
      · rfl
      split
      · rfl
      simp [h3]

theorem d8_wt {p c : Cell} (hp : p ∈ d8Verts w h fd nd) (hc : c ∈ d8Verts w h fd nd) :
    wt (d8Out w h fd nd) p c = if D8FlowsTo w h fd nd p c then 1 else 0 := by
  rw [mem_d8Verts] at hp hc
  unfold wt d8Out
  by_cases h0 : fd p = 0
  · simp [h0, D8FlowsTo]
  · by_cases h3 : nbr .D8 p (fd p) = c
    · have hg : inGrid w h (nbr .D8 p (fd p)) = true := inGrid_iff.2 (by rw [h3]; exact hc.1)
      have hd : fd (nbr .D8 p (fd p)) ≠ nd := by rw [h3]; exact hc.2
      have hf : D8FlowsTo w h fd nd p c := ⟨hp, hc, h0, h3.symm⟩
      simp only [if_neg h0, hg, hd, hf, if_true]
      simp [h3]
    · have hf : ¬ D8FlowsTo w h fd nd p c := fun hf => h3 hf.2.2.2.symm
      simp only [if_neg h0, hf, if_false]
      split
      · rfl
      split
      · rfl
      simp [h3]

theorem d8Acc_iff {c : Cell} (hc : c ∈ d8Verts w h fd nd) :
    Acc (fun p c => p ∈ d8Verts w h fd nd ∧ 0 < cnt (d8Out w h fd nd) p c) c ↔
      Acc (D8FlowsTo w h fd nd) c := by
  constructor
  · intro hA
    induction hA with
    | intro c _ ih =>
      refine Acc.intro _ (fun p hp => ?_)
      have hpv : p ∈ d8Verts w h fd nd := mem_d8Verts.2 hp.1
      exact ih p ⟨hpv, by rw [d8_cnt hpv hc, if_pos hp]; exact Nat.one_pos⟩ hpv
  · intro hA
    induction hA with
    | intro c _ ih =>
      refine Acc.intro _ ?_
      rintro p ⟨hpv, hp⟩
      rw [d8_cnt hpv hc] at hp
      split at hp
      · rename_i hf; exact ih p hf hpv
      · omega

open Classical in
/-- Cells upstream of `c`. -/
noncomputable def upSet (w h : Nat) (fd : Cell → Nat) (nd : Nat) (c : Cell) : Finset Cell :=
  (d8Verts w h fd nd).filter (fun a => ReflTransGen (D8FlowsTo w h fd nd) a c)

theorem card_upSet (c : Cell) : (upSet w h fd nd c).card = upstreamCount w h fd nd c := by
  classical
  unfold upSet upstreamCount d8Verts
  rw [Finset.filter_filter, List.countP_eq_length_filter,
    ← List.toFinset_card_of_nodup ((nodup_allCells w h).filter _)]
  congr 1
  ext x
  simp

theorem mem_upSet {a c : Cell} :
    a ∈ upSet w h fd nd c ↔ a ∈ d8Verts w h fd nd ∧ ReflTransGen (D8FlowsTo w h fd nd) a c := by
  classical
  simp [upSet]

/-- If `a` reaches two cells, one of them reaches the other. -/
theorem d8_linear {a x y : Cell} (hx : ReflTransGen (D8FlowsTo w h fd nd) a x)
    (hy : ReflTransGen (D8FlowsTo w h fd nd) a y) :
    ReflTransGen (D8FlowsTo w h fd nd) x y ∨ ReflTransGen (D8FlowsTo w h fd nd) y x := by
  induction hx using ReflTransGen.head_induction_on with
  | refl => exact .inl hy
  | head h1 h2 ih =>
    rcases ReflTransGen.cases_head hy with rfl | ⟨b, hb, hby⟩
    · exact .inr (ReflTransGen.head h1 h2)
    · rw [d8FlowsTo_fun hb h1] at hby
      exact ih hby

theorem acc_of_trans {r : Cell → Cell → Prop} {a b : Cell} (hA : Acc r b) (h : ReflTransGen r a b) :
    Acc r a := by
  induction h using ReflTransGen.head_induction_on with
  | refl => exact hA
  | head h1 _ ih => exact ih.inv h1

theorem acc_not_trans {r : Cell → Cell → Prop} {c : Cell} (hA : Acc r c) : ¬ TransGen r c c := by
  intro h
  have h1 := hA.transGen
  clear hA
  induction h1 with
  | intro a _ ih => exact ih a h h

/-- The upstream sets of two different cells that flow into `c` are disjoint, provided one of
them is not below a cycle. -/
theorem upSet_disjoint {c p p' : Cell} (hp : D8FlowsTo w h fd nd p c) (hA : Acc (D8FlowsTo w h fd nd) p)
    (hp' : D8FlowsTo w h fd nd p' c) (hA' : Acc (D8FlowsTo w h fd nd) p') (hne : p ≠ p') :
    Disjoint (upSet w h fd nd p) (upSet w h fd nd p') := by
  have key : ∀ {p p'}, D8FlowsTo w h fd nd p c → D8FlowsTo w h fd nd p' c →
      Acc (D8FlowsTo w h fd nd) p' → p ≠ p' → ¬ ReflTransGen (D8FlowsTo w h fd nd) p p' := by
    intro p p' hp hp' hA' hne hr
    rcases ReflTransGen.cases_head hr with h1 | ⟨x, hx, hxp⟩
    · exact hne h1
    · rw [d8FlowsTo_fun hx hp] at hxp
      exact acc_not_trans hA' (TransGen.head' hp' hxp)
  rw [Finset.disjoint_left]
  intro a ha ha'
  rw [mem_upSet] at ha ha'
  rcases d8_linear ha.2 ha'.2 with h1 | h1
  · exact key hp hp' hA' hne h1
  · exact key hp' hp hA (Ne.symm hne) h1

theorem mem_upSet_step {a c : Cell} (hc : c ∈ d8Verts w h fd nd) :
    a ∈ upSet w h fd nd c ↔ a = c ∨ ∃ p, D8FlowsTo w h fd nd p c ∧ a ∈ upSet w h fd nd p := by
  simp only [mem_upSet]
  constructor
  · rintro ⟨h1, h2⟩
    rcases ReflTransGen.cases_tail h2 with rfl | ⟨p, hp, hpc⟩
    · exact .inl rfl
    · exact .inr ⟨p, hpc, h1, hp⟩
  · rintro (rfl | ⟨p, hp, h1, h2⟩)
    · exact ⟨hc, .refl⟩
    · exact ⟨h1, h2.tail hp⟩

/-- Sum of the upstream counts of the cells of `S` flowing into `c`. -/
theorem sum_upSet {c : Cell} (S : Finset Cell) (hS : S ⊆ d8Verts w h fd nd)
    (hA : ∀ p ∈ S, Acc (D8FlowsTo w h fd nd) p) :
    ∃ U : Finset Cell, (∑ p ∈ S, (if D8FlowsTo w h fd nd p c then 1 else 0) *
        ((upSet w h fd nd p).card : Int)) = U.card ∧
      ∀ a, a ∈ U ↔ ∃ p ∈ S, D8FlowsTo w h fd nd p c ∧ a ∈ upSet w h fd nd p := by
  refine ⟨(S.filter (fun p => D8FlowsTo w h fd nd p c)).biUnion (upSet w h fd nd), ?_, ?_⟩
  · rw [Finset.card_biUnion]
    · push_cast
      rw [Finset.sum_filter]
      apply Finset.sum_congr rfl
      intro p _
      split <;> simp
    · intro p hp p' hp' hne
      simp only [Finset.coe_filter, Set.mem_setOf_eq] at hp hp'
      exact upSet_disjoint hp.2 (hA p hp.1) hp'.2 (hA p' hp'.1) hne
  · intro a
    simp only [Finset.mem_biUnion, Finset.mem_filter]
    constructor
    · rintro ⟨p, ⟨h1, h2⟩, h3⟩; exact ⟨p, h1, h2, h3⟩
    · rintro ⟨p, h1, h2, h3⟩; exact ⟨p, ⟨h1, h2⟩, h3⟩

/-- The area of every processed cell. -/
theorem d8_area_done (q : AnyQ Cell) {c : Cell} (hA : Acc (D8FlowsTo w h fd nd) c) :
    c ∈ d8Verts w h fd nd → d8FlowAccum q w h fd nd c = (upSet w h fd nd c).card := by
  obtain ⟨_, _, done, h3, h4, h5, h6, h7⟩ := d8_final q w h fd nd
  induction hA with
  | intro c hpred ih =>
    intro hc
    have hAc : Acc (D8FlowsTo w h fd nd) c := Acc.intro _ hpred
    have hcd : c ∈ done := (h4 c hc).2 ((d8Acc_iff hc).2 hAc)
    have e1 : d8FlowAccum q w h fd nd c = 1 + ∑ p ∈ d8Verts w h fd nd,
        wt (d8Out w h fd nd) p c * (d8Loop q w h fd nd).acc p := h6 c hcd
    rw [e1]
    -- the cells flowing into c
    set S := (d8Verts w h fd nd).filter (fun p => D8FlowsTo w h fd nd p c) with hS
    have hsum : ∑ p ∈ d8Verts w h fd nd, wt (d8Out w h fd nd) p c * (d8Loop q w h fd nd).acc p
        = ∑ p ∈ S, (if D8FlowsTo w h fd nd p c then 1 else 0) * ((upSet w h fd nd p).card : Int) := by
      rw [hS, Finset.sum_filter]
      apply Finset.sum_congr rfl
      intro p hp
      rw [d8_wt hp hc]
      split
      · rename_i hf
        have := ih p hf hp
        rw [d8FlowAccum] at this
        rw [this]
      · ring
    obtain ⟨U, hU1, hU2⟩ := sum_upSet (c := c) S (Finset.filter_subset _ _) (by
      intro p hp
      rw [hS, Finset.mem_filter] at hp
      exact hpred p hp.2)
    rw [hsum, hU1]
    have hnot : c ∉ U := by
      rw [hU2]
      rintro ⟨p, _, hp, hcp⟩
      rw [mem_upSet] at hcp
      exact acc_not_trans hAc (TransGen.tail' hcp.2 hp)
    have : upSet w h fd nd c = insert c U := by
      ext a
      rw [mem_upSet_step hc, Finset.mem_insert, hU2]
      constructor
      · rintro (h1 | ⟨p, hp, h1⟩)
        · exact .inl h1
        · exact .inr ⟨p, by rw [hS, Finset.mem_filter]; exact ⟨mem_d8Verts.2 hp.1, hp⟩, hp, h1⟩
      · rintro (h1 | ⟨p, _, hp, h1⟩)
        · exact .inl h1
        · exact .inr ⟨p, hp, h1⟩
    rw [this, Finset.card_insert_of_notMem hnot]; push_cast; ring

/-- Cells on or below a cycle get less than the number of their upstream cells. -/
theorem d8_area_cycle (q : AnyQ Cell) {c : Cell} (hc : c ∈ d8Verts w h fd nd)
    (hA : ¬ Acc (D8FlowsTo w h fd nd) c) :
    d8FlowAccum q w h fd nd c < (upSet w h fd nd c).card := by
  obtain ⟨_, _, done, h3, h4, h5, h6, h7⟩ := d8_final q w h fd nd
  have hcd : c ∉ done := fun hcd => hA ((d8Acc_iff hc).1 ((h4 c hc).1 hcd))
  have e1 : d8FlowAccum q w h fd nd c = ∑ p ∈ done,
      wt (d8Out w h fd nd) p c * (d8Loop q w h fd nd).acc p := h7 c hc hcd
  have hAd : ∀ p ∈ done, Acc (D8FlowsTo w h fd nd) p :=
    fun p hp => (d8Acc_iff (h3 hp)).1 ((h4 p (h3 hp)).1 hp)
  obtain ⟨U, hU1, hU2⟩ := sum_upSet (c := c) done h3 hAd
  have hsum : ∑ p ∈ done, wt (d8Out w h fd nd) p c * (d8Loop q w h fd nd).acc p
      = ∑ p ∈ done, (if D8FlowsTo w h fd nd p c then 1 else 0) * ((upSet w h fd nd p).card : Int) := by
    apply Finset.sum_congr rfl
    intro p hp
    rw [d8_wt (h3 hp) hc]
    have := d8_area_done q (hAd p hp) (h3 hp)
    rw [d8FlowAccum] at this
    rw [this]
  rw [e1, hsum, hU1]
  have hlt : U ⊂ upSet w h fd nd c := by
    constructor
    · intro a ha
      rw [hU2] at ha
      obtain ⟨p, _, h1, h2⟩ := ha
      exact (mem_upSet_step hc).2 (.inr ⟨p, h1, h2⟩)
    · intro hsub
      have hcU := hsub ((mem_upSet_step hc).2 (.inl rfl))
      rw [hU2] at hcU
      obtain ⟨p, hpd, h1, h2⟩ := hcU
      rw [mem_upSet] at h2
      exact hA (acc_of_trans (hAd p hpd) h2.2)
  exact_mod_cast Finset.card_lt_card hlt

end

/-- C21: the loop of `d8_flow_accum` always stops with an empty queue (within `w*h` iterations),
for every direction raster, cyclic ones included. -/
theorem C21_terminates (q : AnyQ Cell) (w h : Nat) (fd : Cell → Nat) (nd : Nat) :
    (d8Loop q w h fd nd).q = [] := (d8_final q w h fd nd).1

/-- C21: the area of a data cell that is not on or below a cycle is the number of data cells
whose flow path passes through it (itself included).  `_valid`: directions of data cells are
in the range 0..8, so that the code's table look-ups are in bounds. -/
theorem C21_counts_upstream (q : AnyQ Cell) (w h : Nat) (fd : Cell → Nat) (nd : Nat)
    (_valid : ∀ a, InGrid w h a → fd a ≠ nd → fd a ≤ 8) (c : Cell) (hc : InGrid w h c) (hd : fd c ≠ nd)
    (hac : NoCycleAbove (D8FlowsTo w h fd nd) c) :
    d8FlowAccum q w h fd nd c = upstreamCount w h fd nd c := by
  have hv : c ∈ d8Verts w h fd nd := mem_d8Verts.2 ⟨hc, hd⟩
  rw [← card_upSet]
  refine d8_area_done q ?_ hv
  exact (acc_iff_no_cycle (d8Verts w h fd nd) _ (fun a b hab => mem_d8Verts.2 hab.1) hv).2 hac

/-- C21: a data cell on or below a cycle is never processed: its dependency counter stays
positive and it is given less than its upstream count. -/
theorem C21_cycles (q : AnyQ Cell) (w h : Nat) (fd : Cell → Nat) (nd : Nat)
    (_valid : ∀ a, InGrid w h a → fd a ≠ nd → fd a ≤ 8) (c : Cell) (hc : InGrid w h c) (hd : fd c ≠ nd)
    (hcy : ¬ NoCycleAbove (D8FlowsTo w h fd nd) c) :
    d8FlowAccum q w h fd nd c < upstreamCount w h fd nd c ∧ 0 < (d8Loop q w h fd nd).deps c := by
  have hv : c ∈ d8Verts w h fd nd := mem_d8Verts.2 ⟨hc, hd⟩
  have hA : ¬ Acc (D8FlowsTo w h fd nd) c := fun hA => hcy
    ((acc_iff_no_cycle (d8Verts w h fd nd) _ (fun a b hab => mem_d8Verts.2 hab.1) hv).1 hA)
  constructor
  · rw [← card_upSet]; exact d8_area_cycle q hv hA
  · obtain ⟨_, h2, done, _, h4, h5, _⟩ := d8_final q w h fd nd
    have h6 := h2 c hv
    have h7 : (d8Loop q w h fd nd).deps c ≠ 0 := by
      intro h0
      exact hA ((d8Acc_iff hv).1 ((h4 c hv).1 ((h5 c hv).2 h0)))
    omega

/-- C21: NoData cells keep the NoData area, -1. -/
theorem C21_noData (q : AnyQ Cell) (w h : Nat) (fd : Cell → Nat) (nd : Nat) (c : Cell)
    (hd : fd c = nd) : d8FlowAccum q w h fd nd c = -1 := by
  have hv : c ∉ d8Verts w h fd nd := fun hv => (mem_d8Verts.1 hv).2 hd
  have := (d8_frame q w h fd nd c hv).1
  rw [d8FlowAccum, this]
  simp [d8Start, hd]

/-- C21, disagreement: the number of loops that `d8_flow_accum` reports is zero for every input,
cyclic or not, because it counts dependency counters equal to -1 and none is ever negative. -/
theorem C21_loops_never_reported (q : AnyQ Cell) (w h : Nat) (fd : Cell → Nat) (nd : Nat) :
    d8LoopsReported q w h fd nd = 0 := by
  unfold d8LoopsReported
  have : (allCells w h).countP (fun c => (d8Loop q w h fd nd).deps c == -1) = 0 := by
    rw [List.countP_eq_zero]
    intro c _
    have hnn : 0 ≤ (d8Loop q w h fd nd).deps c := by
      by_cases hv : c ∈ d8Verts w h fd nd
      · exact (d8_final q w h fd nd).2.1 c hv
      · rw [(d8_frame q w h fd nd c hv).2]; exact d8Deps_nonneg w h fd nd c
    simp only [beq_iff_eq]
    omega
  omega

/-- Concrete: a 4x1 raster flowing right with a NoData cell. -/
example : toRows 4 1 (d8FlowAccum (fifo Cell) 4 1 (ofRows 0 [[5, 5, 0, 255]]) 255)
    = [[1, 2, 3, -1]] := by decide +kernel

/-- Concrete: two cells flowing into each other, fed by a third; nothing below is processed and
no loop is reported. -/
example : toRows 4 1 (d8FlowAccum (fifo Cell) 4 1 (ofRows 0 [[5, 5, 1, 1]]) 255)
      = [[1, 1, 1, 1]] ∧
    d8LoopsReported (fifo Cell) 4 1 (ofRows 0 [[5, 5, 1, 1]]) 255 = 0 ∧
    D8FlowsTo 4 1 (ofRows 0 [[5, 5, 1, 1]]) 255 (1, 0) (2, 0) ∧
    D8FlowsTo 4 1 (ofRows 0 [[5, 5, 1, 1]]) 255 (2, 0) (1, 0) := by decide +kernel

/-- Every direction raster computed by `d8_flow_directions` has no cycles, so
`C21_counts_upstream` applies to all of its data cells: flow goes strictly down. -/
theorem C21_d8_directions_acyclic {E : Type*} [LinearOrder E] (w h : Nat) (dem : Cell → E)
    (noData : E) (c : Cell) :
    NoCycleAbove (D8FlowsTo w h (d8FlowDirections w h dem noData) FLOWDIR_NO_DATA) c := by
  have step : ∀ a b, D8FlowsTo w h (d8FlowDirections w h dem noData) FLOWDIR_NO_DATA a b →
      dem b < dem a := by
    rintro a b ⟨⟨ha, hnd⟩, ⟨hb, _⟩, h0, rfl⟩
    have hda : dem a ≠ noData := fun h1 => hnd (by simp [d8FlowDirections, h1])
    simp only [d8FlowDirections, if_neg hda] at h0 hb ⊢
    by_cases he : OnEdge w h a
    · have he' : isEdgeCell w h a = true := (isEdgeCell_iff ha).2 he
      exfalso
      obtain ⟨hc, he2⟩ := he
      obtain ⟨a1, a2⟩ := a
      obtain ⟨h1, h2, h3, h4⟩ := hc
      simp only [d8FlowDir, he', if_true, edgeDir] at hb
      obtain ⟨b1, b2, b3, b4⟩ := hb
      simp only [nbr, dx, dy] at *
      have a1 : d8x.getD 1 0 = -1 := rfl
      have a2 : d8x.getD 2 0 = -1 := rfl
      have a8 : d8x.getD 8 0 = -1 := rfl
      have a4 : d8x.getD 4 0 = 1 := rfl
      have a5 : d8x.getD 5 0 = 1 := rfl
      have a6 : d8x.getD 6 0 = 1 := rfl
      have b3 : d8y.getD 3 0 = -1 := rfl
      have b7 : d8y.getD 7 0 = 1 := rfl
      split_ifs at * <;> omega
    · have he' : isEdgeCell w h a = false := by
        rw [← Bool.not_eq_true, isEdgeCell_iff ha]; exact he
      have key := scanDir_spec (fun n => dem (nbr .D8 a n)) (dem a) (dirs .D8) [] (dem a) 0
        (by intro n hn; rw [List.nil_append, mem_dirs] at hn; omega) (.inl ⟨rfl, rfl, by simp⟩)
      simp only [d8FlowDir, he', Bool.false_eq_true, if_false] at h0 ⊢
      rcases key with ⟨k1, _⟩ | ⟨_, _, k3, _⟩
      · exact absurd k1 h0
      · exact k3
  have mono : ∀ a b, TransGen (D8FlowsTo w h (d8FlowDirections w h dem noData) FLOWDIR_NO_DATA) a b →
      dem b < dem a := by
    intro a b hab
    induction hab with
    | single h1 => exact step _ _ h1
    | tail _ h1 ih => exact (step _ _ h1).trans ih
  intro a _ haa
  exact absurd (mono a a haa) (lt_irrefl _)

end RichDEM
