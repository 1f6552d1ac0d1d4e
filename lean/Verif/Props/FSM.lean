/-
Property theorems C71: Fill-Spill-Merge as a whole.
-/
import Verif.DepHier.FillAll
import Verif.DepHier.Lifo
import Verif.DepHier.Heap
import Verif.DepHier.PitFlat
import Verif.Props.Pits

namespace RichDEM

variable {E : Type} [Field E] [LinearOrder E] [IsStrictOrderedRing E]

/-! ### Specification -/

/-- The surface of a cell: the ground, or the water standing on it. -/
def surfaceOf (dem wtd : Cell → E) (c : Cell) : E := dem c + max 0 (wtd c)

/-- The water stands still, up to the tolerance `tol`: no water surface is above the surface of a neighbour by
more than `tol`, and where two neighbours both carry water their surfaces are level. -/
def StandsStill (w h : Nat) (dem wtd : Cell → E) (tol : E) : Prop :=
  ∀ a b, InGrid w h a → InGrid w h b → Adj .D8 a b → 0 < wtd a →
    surfaceOf dem wtd a ≤ surfaceOf dem wtd b + tol ∧
    (0 < wtd b → surfaceOf dem wtd a = surfaceOf dem wtd b)

section
variable (q : AnyQ Cell) (pq pq' : PQ (E × Cell) zLt) (w h : Nat) (dem : Cell → E)
    (lab : Cell → Option Nat) (s : DHS E) (hs : getDHFlood pq w h .D8 dem lab = some s)
    (os : List (Outlet E)) (O : IsOutletVec s os) (h32 : 2 * s.ndep < 2 ^ 32) (H : Hier E)
    (hH : depHierarchy s os = some H) (parts : List (List Cell)) (hp : parts.flatten.Perm (allCells w h))
    (m : Tally E) (hm : calcMarginal H.n H.dep dem s.label parts = some m) (v : Vols E)
    (hv : calcTotal H.n H.dep m = some v)
    (vol : Nat → E) (hvol : ∀ d, d < H.n → d ≠ 0 → v.vol d = some (vol d)) (hvol0 : 0 ≤ vol 0)
    (hq : pq.Lifo)
    (eps : E) (heps : 0 < eps) (wtd0 : Cell → E) (hsat : ∀ c, InGrid w h c → 0 ≤ wtd0 c)
    (h00 : (¬ ∃ p, InGrid w h p ∧ s.fd p ≠ 0 ∧ nbr .D8 p (s.fd p) = (0, 0)) ∨ (s.fd (0, 0) = 0 ∧ wtd0 (0, 0) = 0))
    (f : Nat) (hf : 2 * H.n ≤ f)

include hs O h32 hH hp hm hv hvol hvol0 hq heps hsat h00 hf

/-- All that happens in `FillSpillMerge`. -/
theorem fsm_run : ∃ (r : FSMOut E) (lost : E),
    fillSpillMerge q pq' w h dem s.label s.fd H.n H.dep vol eps f wtd0 = .ok r ∧
    Geo w h dem s.label s.ndep H.n H.dep s.pit vol ∧ WetTree s.ndep H.n H.dep vol r.water ∧
    0 ≤ lost ∧ lost ≤ eps * H.n ∧ held H.n H.dep r.water + lost = rasterSum w h wtd0 ∧
    ∃ P, (∀ d, d < H.n → d ∈ P) ∧ SpreadInv w h dem s.label H.n H.dep eps r.water P r.wtd := by
  classical
  have hpos := lifo_volumes hq lab s hs os O h32 H hH parts hp m hm v hv vol hvol hvol0
  have G := geo_of_run pq lab s hs os O h32 H hH parts hp m hm v hv vol hvol
  obtain ⟨T, V⟩ := move_setup pq w h .D8 dem lab s hs os O h32 H hH parts hp m hm v hv vol hvol hvol0
  obtain ⟨hz, hwat⟩ := C70_saturated_partial q pq w h dem lab s hs wtd0 (fun _ => 0) hsat h00
  set p := movePits q w h s.fd (labelOf s.label) wtd0 (fun _ => 0) with hpdef
  have hw : ∀ d, d < s.ndep → 0 ≤ p.water d := by
    intro d _
    rw [hwat d, zero_add]
    exact Finset.sum_nonneg fun c hc => hsat c (mem_gridCells.1 (Finset.mem_filter.1 hc).1)
  have hw0 : ∀ d, s.ndep ≤ d → p.water d = 0 := by
    intro d hd
    rw [hwat d, zero_add]
    apply Finset.sum_eq_zero
    intro c hc
    obtain ⟨c1, c2⟩ := Finset.mem_filter.1 hc
    obtain ⟨l, l1, l2⟩ := G.lab c (mem_gridCells.1 c1)
    rw [c2] at l1; cases l1; omega
  obtain ⟨m', hm'⟩ := C44_returns pq w h .D8 dem lab s hs os O h32 H hH parts hp m hm v hv vol hvol hvol0 eps heps
    p.water hw hw0 f hf
  have I : WaterInv s.ndep H.n H.dep vol (fun _ => false) ⟨p.water, fun _ => none⟩ := by
    refine ⟨?_, ?_, fun d c h => (by cases h), fun d h => (by cases h), fun d h => (by cases h), fun r j h => (by cases h)⟩
    · intro d _
      by_cases hd : d < s.ndep
      · exact hw d hd
      · exact le_of_eq (hw0 d (by omega)).symm
    · intro d h1 _ h3; exact absurd (hw0 d h1) h3
  have key := moveWater_ocean T V heps f ⟨p.water, fun _ => none⟩ (fun _ => false) I
  rw [hm'] at key
  obtain ⟨act', lost, k1, k2, k3, k4, k5⟩ := key
  have K := k1.wetTree T k5 hpos
  have hn : 0 < H.n := by have := T.pos; have := T.le; omega
  have hcard : (underSet H.n H.dep 0).card ≤ f := by
    have : underSet H.n H.dep 0 ⊆ Finset.range H.n := by
      intro x hx; rw [mem_underSet] at hx; exact Finset.mem_range.2 hx.1
    have := Finset.card_le_card this
    rw [Finset.card_range] at this; omega
  obtain ⟨i, wtd1, e1, I1, _⟩ := findFill_spec pq' G K heps f 0 ∅ p.wtd hn hcard
    ⟨fun d hd => absurd hd (Finset.notMem_empty d), fun c hc _ => hz c hc⟩ (Finset.disjoint_empty_left _)
  rw [Finset.empty_union] at I1
  refine ⟨⟨wtd1, m'.water⟩, lost, ?_, G, K, k2, k3, ?_, underSet H.n H.dep 0, ?_, I1⟩
  · unfold fillSpillMerge
    simp only
    rw [← hpdef, hm']
    show (if (List.range H.n).all (fun d => decide (d = 0) || sanityAt H.dep vol m'.water d) = false then _ else _) = _
    rw [if_neg, e1]
    · rfl
    · rw [Bool.not_eq_false, List.all_eq_true]
      intro d hd
      rw [List.mem_range] at hd
      by_cases h0 : d = 0
      · simp [h0]
      · rw [K.sanity T hd h0]; simp
  · rw [← amount_eq_held T V k1 k5, k4]
    unfold amount
    simp only [Bool.false_eq_true, if_false, sub_zero]
    unfold rasterSum
    have hsum : (Finset.range H.n).sum p.water = (Finset.range s.ndep).sum p.water := by
      symm
      refine Finset.sum_subset (Finset.range_mono T.le) ?_
      intro x _ hx
      exact hw0 x (by simpa using hx)
    rw [hsum]
    have : ∀ d ∈ Finset.range s.ndep, p.water d = ((gridCells w h).filter (fun c => labelOf s.label c = d)).sum wtd0 := by
      intro d _
      rw [hwat d, zero_add]
      apply Finset.sum_congr _ (fun _ _ => rfl)
      apply Finset.filter_congr
      intro c hc
      obtain ⟨l, l1, _⟩ := G.lab c (mem_gridCells.1 hc)
      unfold labelOf
      rw [l1]; simp
    rw [Finset.sum_congr rfl this]
    apply Finset.sum_fiberwise_of_maps_to
    intro c hc
    obtain ⟨l, l1, l2⟩ := G.lab c (mem_gridCells.1 hc)
    rw [Finset.mem_range]
    unfold labelOf
    rw [l1]; exact l2
  · intro d hd
    exact mem_underSet.2 ⟨hd, T.reach d hd⟩

/-- C71: `FillSpillMerge` returns: on saturated ground, whatever the terrain, the amount of water and where it stands,
no assertion fails, nothing throws and the recursions end. -/
theorem C71_returns_partial :
    ∃ r, fillSpillMerge q pq' w h dem s.label s.fd H.n H.dep vol eps f wtd0 = .ok r := by
  obtain ⟨r, _, h1, _⟩ := fsm_run q pq pq' w h dem lab s hs os O h32 H hH parts hp m hm v hv vol hvol hvol0 hq eps heps
    wtd0 hsat h00 f hf
  exact ⟨r, h1⟩

variable (r : FSMOut E) (hr : fillSpillMerge q pq' w h dem s.label s.fd H.n H.dep vol eps f wtd0 = .ok r)
include hr

/-- C71: water is neither made nor lost: what stands on the raster afterwards, plus what went into the ocean, is what stood
there before, up to the tolerance of `fp_eq` for each depression and three times that for each cell. -/
theorem C71_conserved_partial : 0 ≤ r.water 0 ∧
    |rasterSum w h r.wtd + r.water 0 - rasterSum w h wtd0| ≤ eps * H.n + 3 * eps * (w * h + H.n) := by
  obtain ⟨r', lost, h1, G, K, h2, h3, h4, P, h5, I⟩ := fsm_run q pq pq' w h dem lab s hs os O h32 H hH parts hp m hm v hv vol
    hvol hvol0 hq eps heps wtd0 hsat h00 f hf
  rw [hr] at h1; cases h1
  have hn : 0 < H.n := by have := G.T.pos; have := G.T.le; omega
  refine ⟨K.nn 0 hn, ?_⟩
  have ht := I.total G.T K heps h5
  rw [K.held_eq G.T] at h4
  rw [← h4]
  rw [abs_le] at ht ⊢
  constructor <;> linarith [ht.1, ht.2]

/-- The lakes of the result. -/
theorem fsm_lakes (c : Cell) (hc : InGrid w h c) (hw : r.wtd c ≠ 0) :
    ∃ d level z, d < H.n ∧ d ≠ 0 ∧ InDep s.label H.dep d c ∧ (H.dep d).outElev = some z ∧ level ≤ z ∧
      ∀ c', InGrid w h c' → InDep s.label H.dep d c' →
        r.wtd c' = max 0 (level - dem c') ∨ (r.wtd c' = 0 ∧ level ≤ dem c' + 2 * eps) := by
  obtain ⟨r', lost, h1, G, K, h2, h3, h4, P, h5, I⟩ := fsm_run q pq pq' w h dem lab s hs os O h32 H hH parts hp m hm v hv vol
    hvol hvol0 hq eps heps wtd0 hsat h00 f hf
  rw [hr] at h1; cases h1
  have : ∃ d, d ∈ P ∧ TopWet H.n H.dep r.water d ∧ InDep s.label H.dep d c := by
    by_contra hno
    push Not at hno
    exact hw (I.dry c hc hno)
  obtain ⟨d, d1, d2, d3⟩ := this
  obtain ⟨level, z, k1, k2, k3, _⟩ := I.wet d d1 d2
  exact ⟨d, level, z, d2.1, d2.2.1, d3, k1, k2, fun c' g1 g2 => k3 c' (mem_depCells.2 ⟨g1, g2⟩)⟩

/-- C71: no water table is left below the ground, and water stands only in depressions, not above their spill elevation. -/
theorem C71_in_depressions_partial (c : Cell) (hc : InGrid w h c) :
    0 ≤ r.wtd c ∧ (0 < r.wtd c → ∃ d z, d < H.n ∧ d ≠ 0 ∧ InDep s.label H.dep d c ∧ (H.dep d).outElev = some z ∧
      dem c + r.wtd c ≤ z) := by
  by_cases hw : r.wtd c = 0
  · rw [hw]; exact ⟨le_rfl, fun h => absurd h (lt_irrefl _)⟩
  · obtain ⟨d, level, z, k1, k2, k3, k4, k5, k6⟩ := fsm_lakes q pq pq' w h dem lab s hs os O h32 H hH parts hp m hm v hv vol
      hvol hvol0 hq eps heps wtd0 hsat h00 f hf r hr c hc hw
    have e := (k6 c hc k3).resolve_right fun h => hw h.1
    refine ⟨by rw [e]; exact le_max_left _ _, fun hlt => ⟨d, z, k1, k2, k3, k4, ?_⟩⟩
    rw [e] at hlt ⊢
    rcases lt_max_iff.1 hlt with h | h
    · exact absurd h (lt_irrefl _)
    · rw [max_eq_right h.le]; linarith

/-- C71: afterwards the water stands still, up to twice the tolerance of `fp_eq`. -/
theorem C71_still_partial : StandsStill w h dem r.wtd (2 * eps) := by
  have L := fsm_lakes q pq pq' w h dem lab s hs os O h32 H hH parts hp m hm v hv vol
      hvol hvol0 hq eps heps wtd0 hsat h00 f hf r hr
  have nn := fun c hc => (C71_in_depressions_partial q pq pq' w h dem lab s hs os O h32 H hH parts hp m hm v hv vol
      hvol hvol0 hq eps heps wtd0 hsat h00 f hf r hr c hc).1
  have G := geo_of_run pq lab s hs os O h32 H hH parts hp m hm v hv vol hvol
  -- a wet cell and its neighbour
  have key : ∀ a b, InGrid w h a → InGrid w h b → Adj .D8 a b → 0 < r.wtd a →
      ∃ level, dem a + r.wtd a = level ∧
        (level ≤ dem b ∨ (r.wtd b = max 0 (level - dem b) ∨ (r.wtd b = 0 ∧ level ≤ dem b + 2 * eps))) := by
    intro a b ha hb hab hw
    obtain ⟨d, level, z, k1, k2, k3, k4, k5, k6⟩ := L a ha hw.ne'
    have e := (k6 a ha k3).resolve_right fun h => hw.ne' h.1
    have hlt : dem a < level := by
      rw [e] at hw
      rcases lt_max_iff.1 hw with h | h
      · exact absurd h (lt_irrefl _)
      · linarith
    refine ⟨level, by rw [e, max_eq_right (by linarith)]; ring, ?_⟩
    by_cases hin : InDep s.label H.dep d b
    · exact Or.inr (k6 b hb hin)
    · left
      have := (G.spill d z k1 k2 k4).1 a b hab ha hb k3 hin
      rcases le_max_iff.1 this with h | h
      · linarith
      · linarith
  intro a b ha hb hab hw
  obtain ⟨level, h1, h2⟩ := key a b ha hb hab hw
  have hsa : surfaceOf dem r.wtd a = level := by
    unfold surfaceOf; rw [max_eq_right hw.le]; exact h1
  have hsb : surfaceOf dem r.wtd b = dem b + r.wtd b := by
    unfold surfaceOf; rw [max_eq_right (nn b hb)]
  have hbn := nn b hb
  rw [hsa, hsb]
  constructor
  · rcases h2 with h | h | h
    · linarith
    · have := le_max_right 0 (level - dem b)
      rw [h]; linarith
    · rw [h.1]; linarith [h.2]
  · intro hwb
    rcases h2 with h | h | h
    · -- the neighbour's lake would be lower than its own ground
      obtain ⟨level', g1, g2⟩ := key b a hb ha hab.symm hwb
      rcases g2 with g | g | g
      · linarith
      · rw [g] at h1
        rcases le_total 0 (level' - dem a) with k | k
        · rw [max_eq_right k] at h1; linarith
        · rw [max_eq_left k] at h1
          rw [g, max_eq_left k] at hw
          exact absurd hw (lt_irrefl _)
      · rw [g.1] at hw; exact absurd hw (lt_irrefl _)
    · rw [h] at hwb
      rw [h]
      rcases lt_max_iff.1 hwb with k | k
      · exact absurd k (lt_irrefl _)
      · rw [max_eq_right k.le]; ring
    · rw [h.1] at hwb; exact absurd hwb (lt_irrefl _)

end

/-! ### Concrete runs and the limits of the theorems -/

/-- Hierarchy, volumes and `FillSpillMerge` on a one-row raster: the water table and the water booked on the depressions;
`none` if an assertion fails. -/
def fsmRow (pq : PQ (ℚ × Cell) zLt) (n : Nat) (dem : List ℚ) (oc : List Nat) (wtd : List ℚ) : Option (List ℚ × List ℚ) :=
  (getDHFlood pq n 1 .D8 (pitRow dem) (fun c => if oc.contains c.1.toNat then some 0 else none)).bind fun s =>
  (depHierarchy s (outletVec s)).bind fun H =>
  (calcMarginal H.n H.dep (pitRow dem) s.label [allCells n 1]).bind fun m =>
  (calcTotal H.n H.dep m).bind fun v =>
  match fillSpillMerge (fifo Cell) zPQ n 1 (pitRow dem) s.label s.fd H.n H.dep (fun d => (v.vol d).getD 0) (1/1000000)
      (2 * H.n) (pitRow wtd) with
  | .ok r => some ((List.range n).map (fun i : Nat => r.wtd ((i : Int), 0)), (List.range H.n).map r.water)
  | _ => none

/-- Sixteen units in one of two joined basins fill both and two units of the pass between them. -/
example : fsmRow lifoPQ 7 [0, 10, 0, 5, 0, 20, 0] [0] [0, 0, 16, 0, 0, 0, 3] = some ([0, 0, 7, 2, 7, 0, 3], [0, 3, 5, 5, 16]) := by
  decide +kernel

/-- More than fits: the rest is in the ocean. -/
example : fsmRow lifoPQ 7 [0, 10, 0, 5, 0, 20, 0] [0] [0, 0, 3, 0, 1, 0, 100] =
    some ([0, 0, 10, 5, 10, 0, 20], [59, 20, 5, 5, 25]) := by decide +kernel

/-- Ground that is not saturated: an assertion fails (the two basins are full by volume, but ten of the twelve units
disappear into the ground). -/
theorem C71_unsaturated_refuted : fsmRow lifoPQ 7 [0, 10, 0, 5, 0, 20, 0] [0] [0, 0, -10, 0, 12, 0, 0] = none := by
  decide +kernel

/-- Ground that is not saturated: fifteen of the forty units go into the ocean although the basin does not fill up: the lake
ends at 20/3, below the outlet at 10. -/
theorem C71_unsaturated_overflow_refuted : fsmRow lifoPQ 7 [0, 10, 0, 5, 0, 20, 0] [0] [0, 0, -10, 0, 40, 0, 0] =
    some ([0, 0, 20 / 3, 5 / 3, 20 / 3, 0, 0], [15, 0, 5, 5, 25]) := by decide +kernel

/-- A pit at (0,0) with water of its own: the water stays where it was, three units above the spill elevation 3, ... -/
theorem C71_corner_refuted : fsmRow lifoPQ 4 [1, 3, 2, 0] [3] [5, 0, 0, 0] = some ([5, 0, 0, 0], [0, 0]) := by decide +kernel

/-- ... or, if other water arrives, an assertion fails. -/
theorem C71_corner_assert_refuted : fsmRow lifoPQ 4 [1, 3, 2, 0] [3] [5, 1, 0, 0] = none := by decide +kernel

/-- The raster of the first example: two basins, and a third behind a high wall. -/
def fsDem : Cell → ℚ := pitRow [0, 10, 0, 5, 0, 20, 0]
def fsLab : Cell → Option Nat := fun c => if c = (0, 0) then some 0 else none
def fsS : DHS ℚ := dhFlood lifoPQ 7 1 .D8 fsDem (fun c => fsLab c == some 0)
def fsH : Option (Hier ℚ) := depHierarchy fsS (outletVec fsS)
def fsM (H : Hier ℚ) : Option (Tally ℚ) := calcMarginal H.n H.dep fsDem fsS.label [allCells 7 1]
def fsV (H : Hier ℚ) (m : Tally ℚ) : Option (Vols ℚ) := calcTotal H.n H.dep m

/-- The hypotheses of the C71 theorems are met by this raster with sixteen units in a basin: their conclusions, obtained from the
theorems. -/
example : ∃ (H : Hier ℚ) (vol : Nat → ℚ) (r : FSMOut ℚ), fsH = some H ∧
    fillSpillMerge (fifo Cell) zPQ 7 1 fsDem fsS.label fsS.fd H.n H.dep vol (1/1000000) (2 * H.n)
      (pitRow [0, 0, 16, 0, 0, 0, 3]) = .ok r ∧ StandsStill 7 1 fsDem r.wtd (2 * (1/1000000)) := by
  have hs : getDHFlood lifoPQ 7 1 .D8 fsDem fsLab = some fsS := by
    unfold getDHFlood
    rw [if_neg (by decide +kernel), if_neg (by decide +kernel)]
    rfl
  have O : IsOutletVec fsS (outletVec fsS) := by
    obtain ⟨⟨D, I⟩, _⟩ := dhFlood_final lifoPQ 7 1 .D8 fsDem (fun c => fsLab c == some 0)
    exact outletVec_spec I
  have hall : (fsH.bind fun H => (fsM H).bind fun m => (fsV H m).map fun v =>
      (List.range H.n).all fun d => d == 0 || (v.vol d).isSome) = some true := by decide +kernel
  simp only [Option.bind_eq_some_iff, Option.map_eq_some_iff] at hall
  obtain ⟨H, hH, m, hm, v, hv, hvol⟩ := hall
  rw [List.all_eq_true] at hvol
  have hwat : ∀ c, InGrid 7 1 c → (0 : ℚ) ≤ pitRow [0, 0, 16, 0, 0, 0, 3] c := by
    rintro ⟨x, y⟩ ⟨h1, h2, _, _⟩
    simp only at h1 h2
    have hx : x = 0 ∨ x = 1 ∨ x = 2 ∨ x = 3 ∨ x = 4 ∨ x = 5 ∨ x = 6 := by omega
    rcases hx with rfl | rfl | rfl | rfl | rfl | rfl | rfl <;> simp [pitRow]
  have key := fun d (h1 : d < H.n) (h2 : d ≠ 0) => hvol d (List.mem_range.2 h1)
  have hvol' : ∀ d, d < H.n → d ≠ 0 → v.vol d = some ((v.vol d).getD 0) := by
    intro d h1 h2
    have := key d h1 h2
    rw [Bool.or_eq_true, beq_iff_eq] at this
    obtain ⟨x, hx⟩ := Option.isSome_iff_exists.1 (this.resolve_left h2)
    rw [hx]; rfl
  have h00 : (¬ ∃ p, InGrid 7 1 p ∧ fsS.fd p ≠ 0 ∧ nbr .D8 p (fsS.fd p) = (0, 0)) ∨
      (fsS.fd (0, 0) = 0 ∧ pitRow [0, 0, 16, 0, 0, 0, 3] (0, 0) = 0) := Or.inr ⟨by decide +kernel, by decide +kernel⟩
  have hvol0 : (0 : ℚ) ≤ (if (0 : Nat) = 0 then 0 else (v.vol 0).getD 0) := by simp
  have hvol'' : ∀ d, d < H.n → d ≠ 0 → v.vol d = some (if d = 0 then 0 else (v.vol d).getD 0) := by
    intro d h1 h2; rw [if_neg h2]; exact hvol' d h1 h2
  have h32 : 2 * fsS.ndep < 2 ^ 32 := by decide +kernel
  have hp : ([allCells 7 1] : List (List Cell)).flatten.Perm (allCells 7 1) := by simp
  obtain ⟨r, hr⟩ := C71_returns_partial (fifo Cell) lifoPQ zPQ 7 1 fsDem fsLab fsS hs (outletVec fsS) O h32 H hH [allCells 7 1] hp
    m hm v hv (fun d => if d = 0 then 0 else (v.vol d).getD 0) hvol'' hvol0 lifoPQ_lifo (1/1000000) (by norm_num)
    (pitRow [0, 0, 16, 0, 0, 0, 3]) hwat h00 (2 * H.n) le_rfl
  exact ⟨H, _, r, hH, hr, C71_still_partial (fifo Cell) lifoPQ zPQ 7 1 fsDem fsLab fsS hs (outletVec fsS) O h32 H hH
    [allCells 7 1] hp m hm v hv _ hvol'' hvol0 lifoPQ_lifo (1/1000000) (by norm_num)
    (pitRow [0, 0, 16, 0, 0, 0, 3]) hwat h00 (2 * H.n) le_rfl r hr⟩

end RichDEM
