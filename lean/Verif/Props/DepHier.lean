/-
Property theorems C59-C63: the depression hierarchy.
-/
import Verif.DepHier.Main
import Verif.Examples

namespace RichDEM

variable {E : Type} [LinearOrder E]

/-- The cell reached after `k` steps along directions `fd`. -/
def followT (t : Topo) (fd : Cell → Nat) (c : Cell) : Nat → Cell
  | 0 => c
  | k + 1 => followT t fd (nbr t c (fd c)) k

theorem getDHFlood_some {pq : PQ (E × Cell) zLt} {w h : Nat} {t : Topo} {dem : Cell → E}
    {lab : Cell → Option Nat} {s : DHS E} (hs : getDHFlood pq w h t dem lab = some s) :
    s = dhFlood pq w h t dem (fun c => lab c == some 0) ∧
      ∃ c, InGrid w h c ∧ lab c = some 0 ∧ ∃ d, Adj t c d ∧ InGrid w h d ∧ lab d ≠ some 0 := by
  unfold getDHFlood at hs
  split at hs
  · cases hs
  · split at hs
    · cases hs
    · rename_i h2
      obtain ⟨c, hc⟩ := List.exists_mem_of_ne_nil _ h2
      refine ⟨by cases hs; rfl, ?_⟩
      unfold oceanSeeds at hc
      obtain ⟨c1, c2⟩ := List.mem_filter.1 hc
      simp only [Bool.and_eq_true, beq_iff_eq, List.any_eq_true, Bool.not_eq_true'] at c2
      obtain ⟨n, n1, n2, n3⟩ := c2.2
      exact ⟨c, mem_allCells.1 c1, c2.1, nbr t c n, nbr_adj n1, inGrid_iff.1 n2, by simpa using n3⟩

/-! ## C59: the labels and flow directions written by the flood -/

/-- C59: the call fails exactly when a label other than OCEAN or NO_DEP is present or no ocean cell
touches land. -/
theorem C59_error_iff (pq : PQ (E × Cell) zLt) (w h : Nat) (t : Topo) (dem : Cell → E)
    (lab : Cell → Option Nat) :
    getDHFlood pq w h t dem lab = none ↔
      (∃ c, InGrid w h c ∧ lab c ≠ some 0 ∧ lab c ≠ none) ∨
      ¬ ∃ c d, InGrid w h c ∧ InGrid w h d ∧ Adj t c d ∧ lab c = some 0 ∧ lab d ≠ some 0 := by
  have e1 : (allCells w h).any (fun c => !(lab c == some 0) && !(lab c == none)) = true ↔
      ∃ c, InGrid w h c ∧ lab c ≠ some 0 ∧ lab c ≠ none := by
    simp only [List.any_eq_true, Bool.and_eq_true, Bool.not_eq_true', beq_eq_false_iff_ne, ne_eq]
    constructor
    · rintro ⟨c, c1, c2⟩; exact ⟨c, mem_allCells.1 c1, c2⟩
    · rintro ⟨c, c1, c2⟩; exact ⟨c, mem_allCells.2 c1, c2⟩
  have e2 : oceanSeeds w h t (fun c => lab c == some 0) = [] ↔
      ¬ ∃ c d, InGrid w h c ∧ InGrid w h d ∧ Adj t c d ∧ lab c = some 0 ∧ lab d ≠ some 0 := by
    constructor
    · rintro hn ⟨c, d, h1, h2, h3, h4, h5⟩
      obtain ⟨n, n1, rfl⟩ := adj_iff_nbr.1 h3
      have : c ∈ oceanSeeds w h t (fun c => lab c == some 0) := by
        unfold oceanSeeds
        refine List.mem_filter.2 ⟨mem_allCells.2 h1, ?_⟩
        simp only [Bool.and_eq_true, beq_iff_eq, List.any_eq_true, Bool.not_eq_true']
        exact ⟨h4, n, n1, inGrid_iff.2 h2, by simpa using h5⟩
      rw [hn] at this; cases this
    · intro hn
      by_contra hne
      obtain ⟨c, hc⟩ := List.exists_mem_of_ne_nil _ hne
      unfold oceanSeeds at hc
      obtain ⟨c1, c2⟩ := List.mem_filter.1 hc
      simp only [Bool.and_eq_true, beq_iff_eq, List.any_eq_true, Bool.not_eq_true'] at c2
      obtain ⟨n, n1, n2, n3⟩ := c2.2
      exact hn ⟨c, nbr t c n, mem_allCells.1 c1, inGrid_iff.1 n2, nbr_adj n1, c2.1, by simpa using n3⟩
  unfold getDHFlood
  split
  · rename_i h1; exact ⟨fun _ => .inl (e1.1 h1), fun _ => rfl⟩
  · rename_i h1
    have h1' := mt e1.2 h1
    split
    · rename_i h2; exact ⟨fun _ => .inr (e2.1 h2), fun _ => rfl⟩
    · rename_i h2
      have h2' := mt e2.2 h2
      simp only [reduceCtorEq, false_iff, not_or]
      exact ⟨h1', h2'⟩

/-- C59: every cell ends with a label; ocean cells keep the ocean's label; following the flow
directions from any cell, the label stays the same, the elevation never rises, and after finitely
many steps the walk ends (direction 0) in an ocean cell if the label is the ocean's and otherwise
in the pit of that depression, which is a land cell without lower neighbours. -/
theorem C59_flow_to_pit (pq : PQ (E × Cell) zLt) (w h : Nat) (t : Topo) (dem : Cell → E)
    (lab : Cell → Option Nat) (s : DHS E) (hs : getDHFlood pq w h t dem lab = some s) (c : Cell)
    (hc : InGrid w h c) :
    ∃ l, s.label c = some l ∧ l < s.ndep ∧ (lab c = some 0 → l = 0) ∧
      ∃ k, (∀ i < k, s.fd (followT t s.fd c i) ∈ dirs t ∧
          dem (followT t s.fd c (i + 1)) ≤ dem (followT t s.fd c i)) ∧
        (∀ i ≤ k, InGrid w h (followT t s.fd c i) ∧ s.label (followT t s.fd c i) = some l) ∧
        s.fd (followT t s.fd c k) = 0 ∧
        ((l = 0 ∧ lab (followT t s.fd c k) = some 0) ∨
         (0 < l ∧ followT t s.fd c k = s.pit l ∧ lab (s.pit l) ≠ some 0 ∧
           ∀ d, Adj t (s.pit l) d → InGrid w h d → dem (s.pit l) ≤ dem d)) := by
  obtain ⟨rfl, _⟩ := getDHFlood_some hs
  set oc : Cell → Bool := fun c => lab c == some 0 with hoc
  obtain ⟨⟨D, I⟩, _⟩ := dhFlood_final pq w h t dem oc
  obtain ⟨hL, _⟩ := dhFlood_complete pq w h t dem oc
  set s := dhFlood pq w h t dem oc with hsd
  cases hl : s.label c with
  | none => exact absurd hl (hL c hc)
  | some l =>
    refine ⟨l, rfl, I.lt c l hl, ?_, ?_⟩
    · intro h0
      have := I.lab0 c hc (by simp [hoc, h0])
      rw [hl] at this; simpa using this
    · have P := I.path c l hl
      have hpit : 0 < l → l < s.ndep → lab (s.pit l) ≠ some 0 ∧
          ∀ d, Adj t (s.pit l) d → InGrid w h d → dem (s.pit l) ≤ dem d := by
        intro h1 h2
        obtain ⟨⟨_, p2, p3⟩, _⟩ := I.pits l h1 h2
        exact ⟨by simpa [hoc] using p2, p3⟩
      have hlt := I.lt c l hl
      clear hl hc
      induction P with
      | @ocean c a b d e f =>
        refine ⟨0, by simp, ?_, f, .inl ⟨d, by simpa [hoc, followT] using b⟩⟩
        intro i hi; obtain rfl : i = 0 := by omega
        exact ⟨a, e⟩
      | @pit c a b d e f =>
        refine ⟨0, by simp, ?_, f, .inr ⟨a, b, hpit a hlt⟩⟩
        intro i hi; obtain rfl : i = 0 := by omega
        exact ⟨d, e⟩
      | @step c a b d e f ih =>
        obtain ⟨k, k1, k2, k3, k4⟩ := ih
        refine ⟨k + 1, ?_, ?_, k3, k4⟩
        · intro i hi
          cases i with
          | zero => exact ⟨d, e⟩
          | succ i => exact k1 i (by omega)
        · intro i hi
          cases i with
          | zero => exact ⟨a, b⟩
          | succ i => exact k2 i (by omega)

/-- C59: every depression other than the ocean has exactly one pit cell: a labelled land cell
without flow direction. -/
theorem C59_one_pit (pq : PQ (E × Cell) zLt) (w h : Nat) (t : Topo) (dem : Cell → E)
    (lab : Cell → Option Nat) (s : DHS E) (hs : getDHFlood pq w h t dem lab = some s) (l : Nat)
    (h0 : 0 < l) (hl : l < s.ndep) :
    InGrid w h (s.pit l) ∧ s.label (s.pit l) = some l ∧ s.fd (s.pit l) = 0 ∧
      ∀ c, InGrid w h c → s.label c = some l → s.fd c = 0 → c = s.pit l := by
  have hs0 := hs
  obtain ⟨rfl, _⟩ := getDHFlood_some hs
  obtain ⟨⟨D, I⟩, _⟩ := dhFlood_final pq w h t dem (fun c => lab c == some 0)
  obtain ⟨⟨p1, p2, _⟩, p3⟩ := I.pits l h0 hl
  have key : ∀ c, InGrid w h c → (dhFlood pq w h t dem (fun c => lab c == some 0)).label c = some l →
      (dhFlood pq w h t dem (fun c => lab c == some 0)).fd c = 0 →
      c = (dhFlood pq w h t dem (fun c => lab c == some 0)).pit l := by
    intro c hc hcl hf
    cases I.path c l hcl with
    | ocean _ _ k _ _ => omega
    | pit _ k _ _ _ => exact k
    | step _ _ k _ _ => rw [hf, mem_dirs] at k; omega
  refine ⟨p1, p3, ?_, key⟩
  cases I.path _ l p3 with
  | ocean _ _ k _ _ => omega
  | pit _ _ _ _ k => exact k
  | step k1 k2 k3 k4 k5 =>
    obtain ⟨l', e1, _, _, k, _, m2, m3, m4⟩ := C59_flow_to_pit pq w h t dem lab _ hs0 _ p1
    rw [p3] at e1; cases e1
    rcases m4 with ⟨q, _⟩ | ⟨_, q, _⟩
    · omega
    · rw [q] at m3; exact m3

/-! ## C60: the outlet table -/

/-- C60: a link between two depressions is recorded exactly when they touch, and its elevation is
the lowest pass between them: the minimum over all pairs of adjacent cells, one in each, of the
higher of the two; it is the elevation of the recorded outlet cell, one cell of such a pair. -/
theorem C60_lowest_pass (pq : PQ (E × Cell) zLt) (w h : Nat) (t : Topo) (dem : Cell → E)
    (lab : Cell → Option Nat) (s : DHS E) (hs : getDHFlood pq w h t dem lab = some s) (a b : Nat)
    (hab : a < b) :
    (s.outs (a, b) = none → ∀ u v, InGrid w h u → InGrid w h v → Adj t u v →
      s.label u = some a → s.label v ≠ some b) ∧
    (∀ e z, s.outs (a, b) = some (e, z) →
      (∀ u v, InGrid w h u → InGrid w h v → Adj t u v → s.label u = some a → s.label v = some b →
        z ≤ max (dem u) (dem v)) ∧
      ∃ u v, InGrid w h u ∧ InGrid w h v ∧ Adj t u v ∧ s.label u = some a ∧ s.label v = some b ∧
        z = max (dem u) (dem v) ∧ dem e = z ∧ (e = u ∨ e = v)) := by
  obtain ⟨rfl, _⟩ := getDHFlood_some hs
  obtain ⟨⟨D, I⟩, _⟩ := dhFlood_final pq w h t dem (fun c => lab c == some 0)
  obtain ⟨_, hC⟩ := dhFlood_complete pq w h t dem (fun c => lab c == some 0)
  have hol : outLink a b = (a, b) := by unfold outLink; rw [if_pos hab]
  constructor
  · intro hn u v hu hv huv ha hb
    obtain ⟨x, z, h1, _⟩ := hC u v hu hv huv a b ha hb (by omega)
    rw [hol, hn] at h1; cases h1
  · intro e z he
    constructor
    · intro u v hu hv huv ha hb
      obtain ⟨x, z', h1, h2⟩ := hC u v hu hv huv a b ha hb (by omega)
      rw [hol, he] at h1
      obtain ⟨_, rfl⟩ : e = x ∧ z = z' := by simpa using h1
      exact h2
    · obtain ⟨_, u, v, k1, k2, k3, k4, k5, k6, k7, k8⟩ := I.sound a b e z he
      exact ⟨u, v, k2, k3, k1, k4, k5, k6, k8, k7⟩

/-- C60: the recorded pairs are ordered. -/
theorem C60_ordered (pq : PQ (E × Cell) zLt) (w h : Nat) (t : Topo) (dem : Cell → E)
    (lab : Cell → Option Nat) (s : DHS E) (hs : getDHFlood pq w h t dem lab = some s) (a b : Nat)
    (o : Cell × E) (ho : s.outs (a, b) = some o) : a < b := by
  obtain ⟨rfl, _⟩ := getDHFlood_some hs
  obtain ⟨⟨D, I⟩, _⟩ := dhFlood_final pq w h t dem (fun c => lab c == some 0)
  exact (I.sound a b o.1 o.2 ho).1

/-! ## C61-C63 -/

/-- Everything proved about a run of `GetDepressionHierarchy`. -/
theorem dh_run (pq : PQ (E × Cell) zLt) (w h : Nat) (t : Topo) (dem : Cell → E)
    (lab : Cell → Option Nat) (s : DHS E) (hs : getDHFlood pq w h t dem lab = some s)
    (os : List (Outlet E)) (O : IsOutletVec s os) (h32 : 2 * s.ndep < 2 ^ 32) :
    ∃ H rep, depHierarchy s os = some H ∧ HierInv s.ndep os [] rep H ∧
      (∀ x, x < H.n → x ≠ 0 → (H.dep x).parent ≠ none) := by
  obtain ⟨rfl, c0, hc0, ho0, _⟩ := getDHFlood_some hs
  obtain ⟨⟨D, I⟩, _⟩ := dhFlood_final pq w h t dem (fun c => lab c == some 0)
  obtain ⟨hL, hC⟩ := dhFlood_complete pq w h t dem (fun c => lab c == some 0)
  obtain ⟨H, rep, h1, h2⟩ := buildHier_inv h32 I.pos
    (fun d => if d = 0 then none else some ((dhFlood pq w h t dem (fun c => lab c == some 0)).pit d)) os
    (outlet_labs I O) O.sorted
  refine ⟨H, rep, h1, h2, ?_⟩
  intro x hx
  exact (h2.all_linked (all_joined I hL hC O hc0 (by simp [ho0])) x hx).2

/-- C61: whatever order equal outlets are visited in, the construction ends without a failed
assertion or exception and yields at most `2 n - 1` depressions from `n` labels. -/
theorem C61_succeeds (pq : PQ (E × Cell) zLt) (w h : Nat) (t : Topo) (dem : Cell → E)
    (lab : Cell → Option Nat) (s : DHS E) (hs : getDHFlood pq w h t dem lab = some s)
    (os : List (Outlet E)) (O : IsOutletVec s os) (h32 : 2 * s.ndep < 2 ^ 32) :
    ∃ H, depHierarchy s os = some H ∧ s.ndep ≤ H.n ∧ H.n ≤ 2 * s.ndep - 1 := by
  obtain ⟨H, rep, h1, J, _⟩ := dh_run pq w h t dem lab s hs os O h32
  refine ⟨H, h1, J.le, ?_⟩
  have h2 : 1 ≤ ((Finset.range H.n).filter (fun x => rep x = x)).card := by
    rw [Nat.one_le_iff_ne_zero, Finset.card_ne_zero]
    exact ⟨0, by simp [J.rep0]; have := J.le; have := J.pos; omega⟩
  have := J.count
  omega

/-- C61: at least one outlet vector exists, so the statements are not vacuous. -/
theorem C61_outlets_exist (pq : PQ (E × Cell) zLt) (w h : Nat) (t : Topo) (dem : Cell → E)
    (lab : Cell → Option Nat) (s : DHS E) (hs : getDHFlood pq w h t dem lab = some s) :
    IsOutletVec s (outletVec s) := by
  obtain ⟨rfl, _⟩ := getDHFlood_some hs
  obtain ⟨⟨D, I⟩, _⟩ := dhFlood_final pq w h t dem (fun c => lab c == some 0)
  exact outletVec_spec I

/-- C61: the depressions form a binary forest.  Labels of cells are the childless depressions; a
metadepression has exactly two different children with smaller labels, whose parent it is, which
spill into each other over the same outlet. -/
theorem C61_binary (pq : PQ (E × Cell) zLt) (w h : Nat) (t : Topo) (dem : Cell → E)
    (lab : Cell → Option Nat) (s : DHS E) (hs : getDHFlood pq w h t dem lab = some s)
    (os : List (Outlet E)) (O : IsOutletVec s os) (h32 : 2 * s.ndep < 2 ^ 32) (H : Hier E)
    (hH : depHierarchy s os = some H) (d : Nat) (hd : d < H.n) :
    (d < s.ndep → (H.dep d).lchild = none ∧ (H.dep d).rchild = none) ∧
    (s.ndep ≤ d → ∃ a b, (H.dep d).lchild = some a ∧ (H.dep d).rchild = some b ∧ a ≠ b ∧
      a < d ∧ b < d ∧ a ≠ 0 ∧ b ≠ 0 ∧
      (H.dep a).parent = some d ∧ (H.dep b).parent = some d ∧
      (H.dep a).oceanParent = false ∧ (H.dep b).oceanParent = false ∧
      (H.dep a).odep = some b ∧ (H.dep b).odep = some a ∧
      (H.dep a).outElev = (H.dep b).outElev ∧ (H.dep a).outCell = (H.dep b).outCell ∧
      (∃ g, (H.dep a).geolink = some g ∧ g < s.ndep ∧ Anc H.dep g b) ∧
      (∃ g, (H.dep b).geolink = some g ∧ g < s.ndep ∧ Anc H.dep g a)) := by
  obtain ⟨H', rep, h1, J, _⟩ := dh_run pq w h t dem lab s hs os O h32
  rw [hH] at h1; cases h1
  constructor
  · intro h
    have := (J.leaf d).2 (.inl h)
    exact ⟨this, J.leafr d this⟩
  · intro h
    cases hl : (H.dep d).lchild with
    | none => have := (J.leaf d).1 hl; omega
    | some a =>
      obtain ⟨b, k1, k2, k3, k4, _, _, k7, k8, k9⟩ := J.kids d a hl
      exact ⟨a, b, rfl, k1, k2, k3, k4, k7, k8, k9⟩

/-- C61: every depression other than the ocean has a parent.  Either it is a metadepression that
has it as a child, or it is a depression through which it drains to the ocean; that one lists it
among its ocean-linked depressions. The ocean has none. -/
theorem C61_parents (pq : PQ (E × Cell) zLt) (w h : Nat) (t : Topo) (dem : Cell → E)
    (lab : Cell → Option Nat) (s : DHS E) (hs : getDHFlood pq w h t dem lab = some s)
    (os : List (Outlet E)) (O : IsOutletVec s os) (h32 : 2 * s.ndep < 2 ^ 32) (H : Hier E)
    (hH : depHierarchy s os = some H) :
    (H.dep 0).parent = none ∧
    (∀ x, x < H.n → x ≠ 0 → ∃ p, (H.dep x).parent = some p ∧
      ((H.dep x).oceanParent = false → x < p ∧ p < H.n ∧ s.ndep ≤ p ∧
        ((H.dep p).lchild = some x ∨ (H.dep p).rchild = some x)) ∧
      ((H.dep x).oceanParent = true → p < s.ndep ∧ (H.dep x).geolink = some p ∧ (H.dep x).odep = none ∧
        x ∈ (H.dep p).oceanLinked)) ∧
    (∀ p x, x ∈ (H.dep p).oceanLinked → (H.dep x).parent = some p ∧ (H.dep x).oceanParent = true) := by
  obtain ⟨H', rep, h1, J, hlink⟩ := dh_run pq w h t dem lab s hs os O h32
  rw [hH] at h1; cases h1
  refine ⟨J.ocean0, ?_, J.linked⟩
  intro x hx h0
  cases hp : (H.dep x).parent with
  | none => exact absurd hp (hlink x hx h0)
  | some p =>
    refine ⟨p, rfl, ?_, ?_⟩
    · intro ho
      obtain ⟨a1, a2, a3, _, a5⟩ := J.up x p (by unfold upOf; simp [ho, hp])
      exact ⟨a1, a2, a3, a5⟩
    · intro ho
      obtain ⟨_, a2, _, _, a5, a6, a7⟩ := J.oc x p hp ho
      exact ⟨a2, a6, a7, a5⟩

/-- C61: following parents from any depression leads to the ocean; depressions that drain to the
ocean through the same neighbour are listed there once each. -/
theorem C61_drains_to_ocean (pq : PQ (E × Cell) zLt) (w h : Nat) (t : Topo) (dem : Cell → E)
    (lab : Cell → Option Nat) (s : DHS E) (hs : getDHFlood pq w h t dem lab = some s)
    (os : List (Outlet E)) (O : IsOutletVec s os) (h32 : 2 * s.ndep < 2 ^ 32) (H : Hier E)
    (hH : depHierarchy s os = some H) :
    (∀ x, x < H.n → AncU (fun y => (H.dep y).parent) x 0) ∧ ∀ p, (H.dep p).oceanLinked.Nodup := by
  obtain ⟨H', rep, h1, J, hlink⟩ := dh_run pq w h t dem lab s hs os O h32
  rw [hH] at h1; cases h1
  exact ⟨J.reach_ocean hlink, J.nodup⟩

/-- C62: the spill elevation of a depression or metadepression is the lowest pass out of it: the
minimum over adjacent cells, one inside and one outside, of the higher of the two, attained at the
recorded outlet cell. -/
theorem C62_spill_elevation (pq : PQ (E × Cell) zLt) (w h : Nat) (t : Topo) (dem : Cell → E)
    (lab : Cell → Option Nat) (s : DHS E) (hs : getDHFlood pq w h t dem lab = some s)
    (os : List (Outlet E)) (O : IsOutletVec s os) (h32 : 2 * s.ndep < 2 ^ 32) (H : Hier E)
    (hH : depHierarchy s os = some H) (x : Nat) (hx : x < H.n) (h0 : x ≠ 0) :
    ∃ z, (H.dep x).outElev = some z ∧
      (∀ u v, Adj t u v → InGrid w h u → InGrid w h v → InDep s.label H.dep x u →
        ¬ InDep s.label H.dep x v → z ≤ max (dem u) (dem v)) ∧
      ∃ u v e, Adj t u v ∧ InGrid w h u ∧ InGrid w h v ∧ InDep s.label H.dep x u ∧
        ¬ InDep s.label H.dep x v ∧ z = max (dem u) (dem v) ∧ (H.dep x).outCell = some e ∧
        (e = u ∨ e = v) ∧ dem e = z := by
  obtain ⟨H', rep, h1, J, hlink⟩ := dh_run pq w h t dem lab s hs os O h32
  rw [hH] at h1; cases h1
  obtain ⟨rfl, _⟩ := getDHFlood_some hs
  obtain ⟨⟨D, I⟩, _⟩ := dhFlood_final pq w h t dem (fun c => lab c == some 0)
  obtain ⟨hL, hC⟩ := dhFlood_complete pq w h t dem (fun c => lab c == some 0)
  cases hp : (H.dep x).parent with
  | none => exact absurd hp (hlink x hx h0)
  | some p =>
    obtain ⟨z, hz⟩ := J.elevs x p hp
    exact ⟨z, hz, spill_cells I hL hC O J hz⟩

/-- C62: spill elevations never decrease towards the root. -/
theorem C62_monotone (pq : PQ (E × Cell) zLt) (w h : Nat) (t : Topo) (dem : Cell → E)
    (lab : Cell → Option Nat) (s : DHS E) (hs : getDHFlood pq w h t dem lab = some s)
    (os : List (Outlet E)) (O : IsOutletVec s os) (h32 : 2 * s.ndep < 2 ^ 32) (H : Hier E)
    (hH : depHierarchy s os = some H) (x p : Nat) (hp : (H.dep x).parent = some p)
    (ho : (H.dep x).oceanParent = false) :
    ∃ z z', (H.dep x).outElev = some z ∧ (H.dep p).outElev = some z' ∧ z ≤ z' := by
  obtain ⟨H', rep, h1, J, hlink⟩ := dh_run pq w h t dem lab s hs os O h32
  rw [hH] at h1; cases h1
  have hu : upOf H.dep x = some p := by unfold upOf; simp [ho, hp]
  obtain ⟨a1, a2, a3, _⟩ := J.up x p hu
  obtain ⟨z, hz⟩ := J.elevs x p hp
  cases hpp : (H.dep p).parent with
  | none => exact absurd hpp (hlink p a2 (by omega))
  | some q =>
    obtain ⟨z', hz'⟩ := J.elevs p q hpp
    exact ⟨z, z', hz, hz', J.mono x p z z' hu hz hz'⟩

/-- C63: the hierarchy knows how high water must stand to reach the ocean.  For a cell of an
ocean-draining region it is the cell's own elevation; for any other cell it is the larger of its
elevation and the spill elevation of the topmost (meta)depression above its label. -/
theorem C63_ocean_level (pq : PQ (E × Cell) zLt) (w h : Nat) (t : Topo) (dem : Cell → E)
    (lab : Cell → Option Nat) (s : DHS E) (hs : getDHFlood pq w h t dem lab = some s)
    (os : List (Outlet E)) (O : IsOutletVec s os) (h32 : 2 * s.ndep < 2 ^ 32) (H : Hier E)
    (hH : depHierarchy s os = some H) (c : Cell) (hc : InGrid w h c) :
    (s.label c = some 0 ∧ IsOceanLevel w h t dem (fun c => lab c == some 0) c (dem c)) ∨
    (∃ l x z, s.label c = some l ∧ l ≠ 0 ∧ Anc H.dep l x ∧ (H.dep x).oceanParent = true ∧
      (H.dep x).outElev = some z ∧
      IsOceanLevel w h t dem (fun c => lab c == some 0) c (max (dem c) z)) := by
  obtain ⟨H', rep, h1, J, hlink⟩ := dh_run pq w h t dem lab s hs os O h32
  rw [hH] at h1; cases h1
  obtain ⟨rfl, _⟩ := getDHFlood_some hs
  obtain ⟨⟨D, I⟩, _⟩ := dhFlood_final pq w h t dem (fun c => lab c == some 0)
  obtain ⟨hL, hC⟩ := dhFlood_complete pq w h t dem (fun c => lab c == some 0)
  cases hl : (dhFlood pq w h t dem (fun c => lab c == some 0)).label c with
  | none => exact absurd hl (hL c hc)
  | some l =>
    by_cases h0 : l = 0
    · subst h0
      exact .inl ⟨rfl, level_ocean I hl⟩
    · right
      have hln : l < H.n := lt_of_lt_of_le (I.lt c l hl) J.le
      obtain ⟨x, x1, x2, x3, x4⟩ := exists_top J hlink (H.n - l) l hln h0 rfl
      cases hp : (H.dep x).parent with
      | none => exact absurd hp (hlink x x3 x4)
      | some p =>
        obtain ⟨z, hz⟩ := J.elevs x p hp
        exact ⟨l, x, z, rfl, h0, x1, x2, hz, level_cells I hL hC O J hl x4 x1 x2 hz⟩

/-! ## A concrete run -/

/-- Two pits joined over a sill of 5, ringed by 7, next to a third pit behind a ridge of 9. -/
def dhDem : Cell → Int := ofRows 0
  [[0, 0, 0, 0, 0, 0, 0, 0, 0],
   [0, 8, 8, 7, 8, 9, 8, 8, 0],
   [0, 8, 2, 5, 3, 9, 4, 6, 0],
   [0, 8, 8, 8, 8, 9, 8, 8, 0],
   [0, 0, 0, 0, 0, 0, 0, 0, 0]]

def dhLab : Cell → Option Nat := fun c => if dhDem c = 0 then some 0 else none

def dhEx : Option (DHS Int) := getDHFlood zPQ 9 5 .D4 dhDem dhLab

def dhExH : Option (Hier Int) := dhEx.bind (fun s => depHierarchy s (outletVec s))

example : (dhEx.map (fun s => (s.ndep, toRows 9 5 (fun c => (s.label c).getD 99)))) = some (4,
    [[0, 0, 0, 0, 0, 0, 0, 0, 0],
     [0, 0, 0, 0, 0, 0, 0, 0, 0],
     [0, 0, 1, 1, 2, 2, 3, 0, 0],
     [0, 0, 0, 0, 0, 0, 0, 0, 0],
     [0, 0, 0, 0, 0, 0, 0, 0, 0]]) := by decide +kernel

/-- Parent, children, spill elevation and ocean flag of a depression. -/
def depRow (H : Hier Int) (d : Nat) : List (Option Nat) × Option Int × Bool :=
  ([(H.dep d).parent, (H.dep d).lchild, (H.dep d).rchild], (H.dep d).outElev, (H.dep d).oceanParent)

example : dhExH.map (fun H => (H.n, (List.range 5).map (depRow H))) =
    some (5, [([none, none, none], none, false), ([some 4, none, none], some 5, false),
      ([some 4, none, none], some 5, false), ([some 0, none, none], some 6, true),
      ([some 0, some 1, some 2], some 7, true)]) := by decide +kernel

/-- Without an ocean the call fails. -/
example : (getDHFlood zPQ 9 5 .D4 dhDem (fun _ => none)).isNone = true := by decide +kernel

end RichDEM
