/-
Property theorems C44: Fill-Spill-Merge moves water through the hierarchy without making any.
-/
import Verif.DepHier.MoveTotal
import Verif.Props.Volume

namespace RichDEM

variable {E : Type} [CommRing E] [LinearOrder E] [IsStrictOrderedRing E]

/-- What `GetDepressionHierarchy` and `CalculateTotalVolumes` (C43, C61) guarantee. -/
theorem move_setup (pq : PQ (E × Cell) zLt) (w h : Nat) (t : Topo) (dem : Cell → E)
    (lab : Cell → Option Nat) (s : DHS E) (hs : getDHFlood pq w h t dem lab = some s)
    (os : List (Outlet E)) (O : IsOutletVec s os) (h32 : 2 * s.ndep < 2 ^ 32) (H : Hier E)
    (hH : depHierarchy s os = some H) (parts : List (List Cell)) (hp : parts.flatten.Perm (allCells w h))
    (m : Tally E) (hm : calcMarginal H.n H.dep dem s.label parts = some m) (v : Vols E)
    (hv : calcTotal H.n H.dep m = some v)
    (vol : Nat → E) (hvol : ∀ d, d < H.n → d ≠ 0 → v.vol d = some (vol d)) (hvol0 : 0 ≤ vol 0) :
    FlowTree s.ndep H.n H.dep ∧ VolOk s.ndep H.n H.dep vol := by
  obtain ⟨hvn, hvs⟩ := C43_children_le pq w h t dem lab s hs os O h32 H hH parts hp m hm v hv
  have hbin := C61_binary pq w h t dem lab s hs os O h32 H hH
  obtain ⟨H', rep, h1, J, hlink⟩ := dh_run pq w h t dem lab s hs os O h32
  rw [hH] at h1; cases h1
  have T := J.flowTree hlink
  have V : VolOk s.ndep H.n H.dep vol := by
    refine ⟨?_, ?_⟩
    · intro d hd
      by_cases h0 : d = 0
      · subst h0; exact hvol0
      · obtain ⟨x, x1, x2⟩ := hvn d hd h0
        rw [hvol d hd h0] at x1; cases x1; exact x2
    · intro d a b hd ha hb
      obtain ⟨_, xa, xb, xd, y1, y2, y3, y4⟩ := hvs d a b hd ha hb
      have hdn : s.ndep ≤ d := by
        by_contra hlt
        have := ((hbin d hd).1 (by omega)).1
        rw [ha] at this; cases this
      obtain ⟨a', b', k1, k2, _, k4, k5, k6, k7, _⟩ := (hbin d hd).2 hdn
      rw [ha] at k1; cases k1
      rw [hb] at k2; cases k2
      rw [hvol a (by omega) k6] at y1; cases y1
      rw [hvol b (by omega) k7] at y2; cases y2
      rw [hvol d hd (by omega)] at y3; cases y3
      exact y4
  exact ⟨T, V⟩

/-- C44: whatever water stands in the leaf depressions, `MoveWaterInDepHier` started at the ocean
fails no assertion and throws no exception, however deep the recursion may go; when it returns, no
depression other than the ocean holds a negative amount or more than its volume; and the water
in the ocean and in the topmost depressions is what was there, except for at most `eps` (the
tolerance of `fp_eq`) per depression. -/
theorem C44_conserved (pq : PQ (E × Cell) zLt) (w h : Nat) (t : Topo) (dem : Cell → E)
    (lab : Cell → Option Nat) (s : DHS E) (hs : getDHFlood pq w h t dem lab = some s)
    (os : List (Outlet E)) (O : IsOutletVec s os) (h32 : 2 * s.ndep < 2 ^ 32) (H : Hier E)
    (hH : depHierarchy s os = some H) (parts : List (List Cell)) (hp : parts.flatten.Perm (allCells w h))
    (m : Tally E) (hm : calcMarginal H.n H.dep dem s.label parts = some m) (v : Vols E)
    (hv : calcTotal H.n H.dep m = some v)
    (vol : Nat → E) (hvol : ∀ d, d < H.n → d ≠ 0 → v.vol d = some (vol d)) (hvol0 : 0 ≤ vol 0)
    (eps : E) (heps : 0 < eps) (water : Nat → E) (hw : ∀ d, d < s.ndep → 0 ≤ water d)
    (hw0 : ∀ d, s.ndep ≤ d → water d = 0) (f : Nat) :
    moveWater H.n H.dep vol eps f 0 ⟨water, fun _ => none⟩ ≠ .fail ∧
    ∀ s', moveWater H.n H.dep vol eps f 0 ⟨water, fun _ => none⟩ = .ok s' →
      (∀ d, d < H.n → 0 ≤ s'.water d) ∧ (∀ d, d < H.n → d ≠ 0 → s'.water d ≤ vol d) ∧
      ∃ lost, 0 ≤ lost ∧ lost ≤ eps * H.n ∧
        held H.n H.dep s'.water + lost = (Finset.range s.ndep).sum water := by
  obtain ⟨T, V⟩ := move_setup pq w h t dem lab s hs os O h32 H hH parts hp m hm v hv vol hvol hvol0
  have I : WaterInv s.ndep H.n H.dep vol (fun _ => false) ⟨water, fun _ => none⟩ := by
    refine ⟨?_, ?_, fun d c h => (by cases h), fun d h => (by cases h), fun d h => (by cases h), fun r j h => (by cases h)⟩
    · intro d _
      by_cases hd : d < s.ndep
      · exact hw d hd
      · exact le_of_eq (hw0 d (by omega)).symm
    · intro d h1 _ h3; exact absurd (hw0 d h1) h3
  have hamt : amount H.n H.dep vol (fun _ => false) water = (Finset.range s.ndep).sum water := by
    unfold amount
    simp only [Bool.false_eq_true, if_false, sub_zero]
    symm
    refine Finset.sum_subset (Finset.range_mono T.le) ?_
    intro x _ hx
    exact hw0 x (by simpa using hx)
  have key := moveWater_ocean T V heps f ⟨water, fun _ => none⟩ (fun _ => false) I
  constructor
  · intro hcon; rw [hcon] at key; exact key
  · intro s' hs'
    rw [hs'] at key
    obtain ⟨act', lost, k1, k2, k3, k4, k5⟩ := key
    refine ⟨k1.nn, k5, lost, k2, k3, ?_⟩
    rw [← amount_eq_held T V k1 k5, k4]
    exact hamt

/-- C44: the recursion ends.  `OverflowInto` never visits a depression twice in one chain of nested
calls, whatever the jump table holds, so with room for twice as many nested calls as there are
depressions `MoveWaterInDepHier` returns (and by `C44_conserved` its result accounts for all water). -/
theorem C44_returns (pq : PQ (E × Cell) zLt) (w h : Nat) (t : Topo) (dem : Cell → E)
    (lab : Cell → Option Nat) (s : DHS E) (hs : getDHFlood pq w h t dem lab = some s)
    (os : List (Outlet E)) (O : IsOutletVec s os) (h32 : 2 * s.ndep < 2 ^ 32) (H : Hier E)
    (hH : depHierarchy s os = some H) (parts : List (List Cell)) (hp : parts.flatten.Perm (allCells w h))
    (m : Tally E) (hm : calcMarginal H.n H.dep dem s.label parts = some m) (v : Vols E)
    (hv : calcTotal H.n H.dep m = some v)
    (vol : Nat → E) (hvol : ∀ d, d < H.n → d ≠ 0 → v.vol d = some (vol d)) (hvol0 : 0 ≤ vol 0)
    (eps : E) (heps : 0 < eps) (water : Nat → E) (hw : ∀ d, d < s.ndep → 0 ≤ water d)
    (hw0 : ∀ d, s.ndep ≤ d → water d = 0) (f : Nat) (hf : 2 * H.n ≤ f) :
    ∃ s', moveWater H.n H.dep vol eps f 0 ⟨water, fun _ => none⟩ = .ok s' := by
  obtain ⟨T, V⟩ := move_setup pq w h t dem lab s hs os O h32 H hH parts hp m hm v hv vol hvol hvol0
  have hn : 0 < H.n := by have := T.pos; have := T.le; omega
  have hcard : (underSet H.n H.dep 0).card ≤ H.n := by
    have : underSet H.n H.dep 0 ⊆ Finset.range H.n := by
      intro x hx; rw [mem_underSet] at hx; exact Finset.mem_range.2 hx.1
    simpa using Finset.card_le_card this
  have hret := moveWater_ret (dep := H.dep) T V heps f 0 ⟨water, fun _ => none⟩ (fun _ _ => False) hn
    ⟨fun _ _ h => h.elim, fun _ _ h => h.elim, fun d _ => (by
      by_cases hd : d < s.ndep
      · exact hw d hd
      · exact le_of_eq (hw0 d (by omega)).symm), fun x y h => (by cases h)⟩ (by omega)
  have hnf := (C44_conserved pq w h t dem lab s hs os O h32 H hH parts hp m hm v hv vol hvol hvol0 eps heps water hw
    hw0 f).1
  cases hr : moveWater H.n H.dep vol eps f 0 ⟨water, fun _ => none⟩ with
  | ok s' => exact ⟨s', rfl⟩
  | fail => exact absurd hr hnf
  | deep => rw [hr] at hret; exact hret.elim

/-! ## A concrete run -/

/-- Volumes 3, 2, 2, 11 as computed in `Props/Volume`; `a`, `b`, `c` units of water fall on the
three pits. -/
def moveEx (a b c : Int) : Option (List Int) :=
  dhExH.bind fun H =>
    match moveWater H.n H.dep (fun d => [0, 3, 2, 2, 11].getD d 0) (1 : Int) 20 0
        ⟨fun d => [0, a, b, c].getD d 0, fun _ => none⟩ with
    | .ok s => some ((List.range H.n).map s.water)
    | _ => none

/-- One of four units spills from the first pit into the second. -/
example : moveEx 4 0 0 = some [0, 3, 1, 0, 0] := by decide +kernel
/-- Two of five units spill, filling both pits, so the metadepression accounts for all five. -/
example : moveEx 5 0 0 = some [0, 3, 2, 0, 5] := by decide +kernel
/-- The second pit overflows, filling the metadepression partly: 3 + 2 + 2 = 7 units. -/
example : moveEx 3 4 0 = some [0, 3, 2, 0, 7] := by decide +kernel
/-- Everything overflows into the ocean: 12 + 4 - 11 - 2 = 3. -/
example : moveEx 10 2 4 = some [3, 3, 2, 2, 11] := by decide +kernel

end RichDEM
