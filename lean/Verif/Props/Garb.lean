/-
Property theorem C78 (Garbrecht and Martz' flat resolution).
-/
import Verif.Garb.Thm
import Verif.Props.FlowDir
import Verif.Examples

namespace RichDEM

/-- Specification: a flat cell is a data cell off the raster's edge without a lower neighbour. -/
def GFlat {E : Type*} [LinearOrder E] (w h : Nat) (dem : Cell → E) (nd : E) (c : Cell) : Prop :=
  InGrid w h c ∧ ¬OnEdge w h c ∧ dem c ≠ nd ∧ ∀ b, Adj .D8 c b → dem c ≤ dem b

/-- Specification: `k` is the number of steps over adjacent cells of equal elevation from `c` to the nearest cell that is not flat. -/
def DistToExit {E : Type*} [LinearOrder E] (w h : Nat) (dem : Cell → E) (nd : E) (k : Nat) (c : Cell) : Prop :=
  StepDist (LevelStep dem) (fun b => ¬GFlat w h dem nd b) k c

/-- Specification: `k` is the number of steps over adjacent flat cells from `c` to the nearest cell beside higher terrain. -/
def DistToHigher {E : Type*} [LinearOrder E] (w h : Nat) (dem : Cell → E) (nd : E) (k : Nat) (c : Cell) : Prop :=
  StepDist (fun a b => Adj .D8 a b ∧ GFlat w h dem nd b) (BesideHigher dem) k c

section
variable {E : Type*} [LinearOrder E] {w h : Nat} {dem : Cell → E} {nd : E}

theorem gflat_iff {c : Cell} : GFlat w h dem nd c ↔ InGrid w h c ∧ d8FlowDirections w h dem nd c = 0 := by
  unfold GFlat d8FlowDirections
  refine and_congr_right fun hc => ?_
  by_cases g : dem c = nd
  · simp [g, FLOWDIR_NO_DATA]
  · simp only [g, ne_eq, not_false_eq_true, true_and, if_false]
    by_cases e : OnEdge w h c
    · have he := (isEdgeCell_iff hc).2 e
      simp only [e, not_true_eq_false, false_and, d8FlowDir, he, if_true, false_iff]
      unfold edgeDir
      split_ifs <;> decide
    · simp only [e, not_false_eq_true, true_and]
      exact (C16_interior w h dem c hc e).1.symm

theorem mem_garb {c : Cell} : c ∈ garbFlats w h (d8FlowDirections w h dem nd) ↔ GFlat w h dem nd c := by
  rw [mem_garbFlats, gflat_iff]

theorem stepsTo_congr {r r' : Cell → Cell → Prop} {Z Z' : Cell → Prop} (hr : ∀ a b, r a b ↔ r' a b) (hz : ∀ a, Z a ↔ Z' a) {k : Nat}
    {c : Cell} : StepsTo r Z k c ↔ StepsTo r' Z' k c := by
  have e1 : r = r' := by funext a b; exact propext (hr a b)
  have e2 : Z = Z' := by funext a; exact propext (hz a)
  rw [e1, e2]

theorem garb_exit {c : Cell} : GarbExit w h dem (d8FlowDirections w h dem nd) FLOWDIR_NO_DATA c ↔ ¬GFlat w h dem nd c := by
  unfold GarbExit
  constructor
  · rintro (g | ⟨b, h1, h2, -⟩) hf
    · exact g hf.1 (gflat_iff.1 hf).2
    · exact absurd h2 (not_lt.2 (hf.2.2.2 b h1))
  · intro g
    exact Or.inl fun hc h0 => g (gflat_iff.2 ⟨hc, h0⟩)

theorem garb_steps1 {k : Nat} {c : Cell} :
    StepsTo (LevelStep dem) (GarbExit w h dem (d8FlowDirections w h dem nd) FLOWDIR_NO_DATA) k c ↔
      StepsTo (LevelStep dem) (fun b => ¬GFlat w h dem nd b) k c :=
  stepsTo_congr (fun _ _ => Iff.rfl) (fun _ => garb_exit)

theorem garb_steps2 {k : Nat} {c : Cell} :
    StepsTo (GFlatStep w h (d8FlowDirections w h dem nd)) (BesideHigher dem) k c ↔
      StepsTo (fun a b => Adj .D8 a b ∧ GFlat w h dem nd b) (BesideHigher dem) k c :=
  stepsTo_congr (fun a b => and_congr_right fun _ => gflat_iff.symm) (fun _ => Iff.rfl)

/-- C78: the flat cells are those without a direction, and all cells the algorithm reads are in the raster. -/
theorem C78_reads (c : Cell) : c ∈ garbFlats w h (d8FlowDirections w h dem nd) ↔ GFlat w h dem nd c := mem_garb

theorem C78_reads_inside (c : Cell) (hc : GFlat w h dem nd c) (b : Cell) (hb : Adj .D8 c b) : InGrid w h b := by
  obtain ⟨n, hn, rfl⟩ := adj_iff_nbr.1 hb
  refine nbr_interior_inGrid hc.1 ?_ hn
  rw [← Bool.not_eq_true, isEdgeCell_iff hc.1]
  exact hc.2.1

/-- C78: the first gradient is the number of level steps to the nearest cell that drains; cells that are not flat get none. -/
theorem C78_towards_lower (fuel : Nat) (inc : Cell → Nat)
    (hr : gradientTowardsLower w h dem (d8FlowDirections w h dem nd) FLOWDIR_NO_DATA fuel = some inc) (c : Cell) :
    (GFlat w h dem nd c → DistToExit w h dem nd (inc c) c) ∧ (¬GFlat w h dem nd c → inc c = 0) := by
  obtain ⟨r1, r2⟩ := g1_result fuel 0 _ inc g1_init hr
  refine ⟨fun hc => ?_, fun hc => r2 c (fun x => hc (mem_garb.1 x))⟩
  obtain ⟨h1, h2⟩ := r1 c (mem_garb.2 hc)
  exact ⟨garb_steps1.1 h1, fun j hj hs => h2 j hj (garb_steps1.2 hs)⟩

/-- C78: the first gradient is computed in finite time exactly if every flat cell can drain over level terrain. -/
theorem C78_towards_lower_ends :
    (∃ fuel inc, gradientTowardsLower w h dem (d8FlowDirections w h dem nd) FLOWDIR_NO_DATA fuel = some inc) ↔
      ∀ c, GFlat w h dem nd c → ∃ k, DistToExit w h dem nd k c := by
  constructor
  · rintro ⟨fuel, inc, hr⟩ c hc
    exact ⟨_, (C78_towards_lower fuel inc hr c).1 hc⟩
  · intro hall
    obtain ⟨K, hK⟩ := list_bound (l := garbFlats w h (d8FlowDirections w h dem nd))
      (P := StepsTo (LevelStep dem) (GarbExit w h dem (d8FlowDirections w h dem nd) FLOWDIR_NO_DATA)) (fun c hc => by
        obtain ⟨k, hk⟩ := hall c (mem_garb.1 hc)
        exact ⟨k, garb_steps1.2 hk.1⟩)
    obtain ⟨r, hr⟩ := g1_ends hK K 0 _ (by omega) g1_init
    exact ⟨K + 1, r, hr⟩

theorem garb_low : ∀ c ∈ garbFlats w h (d8FlowDirections w h dem nd), ∀ b, Adj .D8 c b → dem c ≤ dem b :=
  fun _ hc => (mem_garb.1 hc).2.2.2

/-- C78: the second gradient falls by one with each step away from higher terrain, down to one in the flat cell farthest from it of all
flat cells of the raster; cells that are not flat get none. -/
theorem C78_away_from_higher (fuel : Nat) (inc : Cell → Nat)
    (hr : gradientAwayFromHigher w h dem (d8FlowDirections w h dem nd) fuel = some inc) :
    ∃ R, (∀ c, GFlat w h dem nd c → 0 < inc c ∧ inc c ≤ R ∧ DistToHigher w h dem nd (R - inc c) c) ∧
      (∀ c, ¬GFlat w h dem nd c → inc c = 0) ∧ ((∃ c, GFlat w h dem nd c) → ∃ c, GFlat w h dem nd c ∧ inc c = 1) := by
  obtain ⟨R, r1, r2, r3⟩ := g2_result garb_low fuel 0 _ inc g2_init (Or.inl rfl) hr
  refine ⟨R, fun c hc => ?_, fun c hc => r2 c (fun x => hc (mem_garb.1 x)), ?_⟩
  · obtain ⟨h1, h2, h3, h4⟩ := r1 c (mem_garb.2 hc)
    exact ⟨h1, h2, garb_steps2.1 h3, fun j hj hs => h4 j hj (garb_steps2.2 hs)⟩
  · rintro ⟨c, hc⟩
    rcases r3 with rfl | ⟨b, hb, h1⟩
    · have := r1 c (mem_garb.2 hc); omega
    · exact ⟨b, mem_garb.1 hb, h1⟩

/-- C78: the second gradient is computed in finite time exactly if from every flat cell higher terrain can be reached over flat cells. -/
theorem C78_away_from_higher_ends :
    (∃ fuel inc, gradientAwayFromHigher w h dem (d8FlowDirections w h dem nd) fuel = some inc) ↔
      ∀ c, GFlat w h dem nd c → ∃ k, DistToHigher w h dem nd k c := by
  constructor
  · rintro ⟨fuel, inc, hr⟩ c hc
    obtain ⟨R, h1, -⟩ := C78_away_from_higher fuel inc hr
    exact ⟨_, (h1 c hc).2.2⟩
  · intro hall
    obtain ⟨K, hK⟩ := list_bound (l := garbFlats w h (d8FlowDirections w h dem nd))
      (P := StepsTo (GFlatStep w h (d8FlowDirections w h dem nd)) (BesideHigher dem)) (fun c hc => by
        obtain ⟨k, hk⟩ := hall c (mem_garb.1 hc)
        exact ⟨k, garb_steps2.2 hk.1⟩)
    obtain ⟨r, hr⟩ := g2_ends garb_low hK (K + 1) 0 _ (by omega) g2_init
    exact ⟨K + 1, r, hr⟩

/-- C78: a depression's flat bottom keeps the first loop running for ever. -/
theorem C78_depression_hangs (S : Cell → Prop) (c : Cell) (hc : S c) (hS : ∀ a, S a → GFlat w h dem nd a)
    (hcl : ∀ a b, S a → Adj .D8 a b → dem b = dem a → S b) (fuel : Nat) :
    gradientTowardsLower w h dem (d8FlowDirections w h dem nd) FLOWDIR_NO_DATA fuel = none := by
  cases hr : gradientTowardsLower w h dem (d8FlowDirections w h dem nd) FLOWDIR_NO_DATA fuel with
  | none => rfl
  | some inc =>
    exfalso
    obtain ⟨k, hk, -⟩ := C78_towards_lower_ends.1 ⟨fuel, inc, hr⟩ c (hS c hc)
    have : ∀ k c, S c → ¬StepsTo (LevelStep dem) (fun b => ¬GFlat w h dem nd b) k c := by
      intro k
      induction k with
      | zero => intro c hc hs; exact stepsTo_zero.1 hs (hS c hc)
      | succ k ih =>
        intro c hc hs
        obtain ⟨b, hb, hs⟩ := stepsTo_succ.1 hs
        exact ih b (hcl c b hc hb.1 hb.2) hs
    exact this k c hc hk

/-- C78: flat cells from which no higher terrain can be reached keep the second loop running for ever. -/
theorem C78_plateau_hangs (c : Cell) (hc : GFlat w h dem nd c) (hS : ∀ b, dem b ≤ dem c) (fuel : Nat) :
    gradientAwayFromHigher w h dem (d8FlowDirections w h dem nd) fuel = none := by
  cases hr : gradientAwayFromHigher w h dem (d8FlowDirections w h dem nd) fuel with
  | none => rfl
  | some inc =>
    exfalso
    obtain ⟨k, hk, -⟩ := C78_away_from_higher_ends.1 ⟨fuel, inc, hr⟩ c hc
    have : ∀ k b, GFlat w h dem nd b → dem b = dem c → ¬StepsTo (fun a b => Adj .D8 a b ∧ GFlat w h dem nd b) (BesideHigher dem) k b := by
      intro k
      induction k with
      | zero =>
        intro b hb he hs
        obtain ⟨a, -, ha⟩ := stepsTo_zero.1 hs
        rw [he] at ha
        exact absurd ha (not_lt.2 (hS a))
      | succ k ih =>
        intro b hb he hs
        obtain ⟨a, ⟨ha, hf⟩, hs⟩ := stepsTo_succ.1 hs
        refine ih a hf ?_ hs
        have h1 := hb.2.2.2 a ha
        have h2 := hf.2.2.2 b ha.symm
        rw [← he]
        exact le_antisymm h2 h1
    exact this k c hc rfl hk

end

section
variable {E : Type*} [LinearOrder E] [AddCommGroup E] [IsOrderedAddMonoid E] {w h : Nat} {dem : Cell → E} {nd eps : E}

theorem garb_split {fuel : Nat} {out : Cell → E} (hr : garbrechtDem w h dem (d8FlowDirections w h dem nd) eps fuel = some out) :
    ∃ i1 i2, gradientTowardsLower w h dem (d8FlowDirections w h dem nd) FLOWDIR_NO_DATA fuel = some i1 ∧
      gradientAwayFromHigher w h dem (d8FlowDirections w h dem nd) fuel = some i2 ∧ out = combineGradients dem i1 i2 eps := by
  unfold garbrechtDem at hr
  cases h1 : gradientTowardsLower w h dem (d8FlowDirections w h dem nd) FLOWDIR_NO_DATA fuel with
  | none => rw [h1] at hr; simp at hr
  | some i1 =>
    cases h2 : gradientAwayFromHigher w h dem (d8FlowDirections w h dem nd) fuel with
    | none => rw [h1, h2] at hr; simp at hr
    | some i2 =>
      rw [h1, h2] at hr
      simp only [Option.bind_some, Option.some.injEq] at hr
      exact ⟨i1, i2, rfl, rfl, hr.symm⟩

/-- C78: only flat cells are raised, each by at least twice the increment. -/
theorem C78_raised (heps : 0 < eps) (fuel : Nat) (out : Cell → E)
    (hr : garbrechtDem w h dem (d8FlowDirections w h dem nd) eps fuel = some out) (c : Cell) :
    (¬GFlat w h dem nd c → out c = dem c) ∧ (GFlat w h dem nd c → dem c + 2 • eps ≤ out c) := by
  obtain ⟨i1, i2, h1, h2, rfl⟩ := garb_split hr
  obtain ⟨R, q1, q2, -⟩ := C78_away_from_higher fuel i2 h2
  refine ⟨fun hc => ?_, fun hc => ?_⟩
  · simp only [combineGradients, (C78_towards_lower fuel i1 h1 c).2 hc, q2 c hc, Nat.add_zero, zero_nsmul, add_zero]
  · have hd := (C78_towards_lower fuel i1 h1 c).1 hc
    have h0 : i1 c ≠ 0 := by
      intro e
      rw [e] at hd
      exact stepsTo_zero.1 hd.1 hc
    have := (q1 c hc).1
    unfold combineGradients
    have : 2 • eps ≤ (i1 c + i2 c) • eps := nsmul_le_nsmul_left heps.le (by omega)
    gcongr

/-- C78, the part that holds: a flat cell gets a lower neighbour, and so a flow direction, if it is beside a cell of its elevation that is not
flat, or if every flat cell is beside higher terrain. -/
theorem C78_resolves_partial (heps : 0 < eps) (fuel : Nat) (out : Cell → E)
    (hr : garbrechtDem w h dem (d8FlowDirections w h dem nd) eps fuel = some out) (c : Cell) (hc : GFlat w h dem nd c)
    (hgood : (∃ b, Adj .D8 c b ∧ dem b = dem c ∧ ¬GFlat w h dem nd b) ∨ ∀ b, GFlat w h dem nd b → BesideHigher dem b) :
    ∃ b, Adj .D8 c b ∧ dem b = dem c ∧ out b < out c := by
  have hraise := C78_raised heps fuel out hr
  by_cases hx : ∃ b, Adj .D8 c b ∧ dem b = dem c ∧ ¬GFlat w h dem nd b
  · obtain ⟨b, h1, h2, h3⟩ := hx
    refine ⟨b, h1, h2, ?_⟩
    rw [(hraise b).1 h3, h2]
    refine lt_of_lt_of_le ?_ ((hraise c).2 hc)
    exact lt_add_of_pos_right _ (nsmul_pos heps (by decide))
  · have hall := hgood.resolve_left hx
    obtain ⟨i1, i2, h1, h2, rfl⟩ := garb_split hr
    obtain ⟨R, q1, q2, -⟩ := C78_away_from_higher fuel i2 h2
    have hR : ∀ b, GFlat w h dem nd b → i2 b = R := by
      intro b hb
      obtain ⟨a1, a2, a3⟩ := q1 b hb
      by_contra hne
      exact a3.2 0 (by omega) (.zero (hall b hb))
    have hd := (C78_towards_lower fuel i1 h1 c).1 hc
    cases hk : i1 c with
    | zero =>
      rw [hk] at hd
      exact absurd hc (stepsTo_zero.1 hd.1)
    | succ k =>
      rw [hk] at hd
      obtain ⟨b, hb, hs⟩ := stepsTo_succ.1 hd.1
      have hbf : GFlat w h dem nd b := by
        by_contra hbf
        exact hx ⟨b, hb.1, hb.2, hbf⟩
      refine ⟨b, hb.1, hb.2, ?_⟩
      have hdb := (C78_towards_lower fuel i1 h1 b).1 hbf
      have hle : i1 b ≤ k := by
        by_contra hlt
        exact hdb.2 k (by omega) hs
      unfold combineGradients
      rw [hb.2, hR b hbf, hR c hc, hk]
      have : (i1 b + R) • eps < (k + 1 + R) • eps := nsmul_lt_nsmul_left heps (by omega)
      gcongr

theorem C78_direction_partial (heps : 0 < eps) (fuel : Nat) (fd : Cell → Nat) (hr : garbrechtAlg w h dem nd eps fuel = some fd) (c : Cell)
    (hc : GFlat w h dem nd c)
    (hgood : (∃ b, Adj .D8 c b ∧ dem b = dem c ∧ ¬GFlat w h dem nd b) ∨ ∀ b, GFlat w h dem nd b → BesideHigher dem b) : fd c ≠ 0 := by
  unfold garbrechtAlg at hr
  rw [Option.map_eq_some_iff] at hr
  obtain ⟨out, hr, rfl⟩ := hr
  obtain ⟨b, h1, -, h3⟩ := C78_resolves_partial heps fuel out hr c hc hgood
  intro h0
  exact absurd h3 (not_lt.2 ((gflat_iff.2 ⟨hc.1, h0⟩).2.2.2 b h1))

end

/-- A 6 by 6 raster with one flat, which drains at the top. -/
def garbDem : Cell → Int := fun c => 100 * ofRows 0 [[2, 2, 0, 2, 2, 2], [2, 2, 1, 2, 1, 2], [2, 1, 1, 1, 1, 2], [2, 1, 1, 1, 1, 2],
  [2, 1, 1, 1, 2, 2], [2, 2, 2, 2, 2, 2]] c

/-- C78: the flat's cell (2,3) still has no lower neighbour after the algorithm, since the two gradients cancel there. -/
theorem C78_resolves_refuted :
    (gradientTowardsLower 6 6 garbDem (d8FlowDirections 6 6 garbDem (-9)) FLOWDIR_NO_DATA 9).map (toRows 6 6) =
      some [[0, 0, 0, 0, 0, 0], [0, 0, 0, 0, 2, 0], [0, 1, 1, 1, 2, 0], [0, 2, 2, 2, 2, 0], [0, 3, 3, 3, 0, 0], [0, 0, 0, 0, 0, 0]] ∧
    (gradientAwayFromHigher 6 6 garbDem (d8FlowDirections 6 6 garbDem (-9)) 9).map (toRows 6 6) =
      some [[0, 0, 0, 0, 0, 0], [0, 0, 0, 0, 2, 0], [0, 2, 2, 2, 2, 0], [0, 2, 1, 2, 2, 0], [0, 2, 2, 2, 0, 0], [0, 0, 0, 0, 0, 0]] ∧
    (garbrechtAlg 6 6 garbDem (-9) 1 9).map (fun fd => fd (2, 3)) = some 0 := by
  refine ⟨by decide +kernel, by decide +kernel, by decide +kernel⟩

/-- C78: on a level raster the algorithm never ends. -/
theorem C78_ends_refuted (fuel : Nat) : garbrechtAlg 3 3 (fun _ => (5 : Int)) (-9) 1 fuel = none := by
  have : gradientAwayFromHigher 3 3 (fun _ => (5 : Int)) (d8FlowDirections 3 3 (fun _ => (5 : Int)) (-9)) fuel = none :=
    C78_plateau_hangs (1, 1) ⟨by decide, by decide, by decide, fun _ _ => le_refl _⟩ (fun _ => le_refl _) fuel
  unfold garbrechtAlg garbrechtDem
  rw [this]
  cases gradientTowardsLower 3 3 (fun _ => (5 : Int)) (d8FlowDirections 3 3 (fun _ => (5 : Int)) (-9)) FLOWDIR_NO_DATA fuel <;> rfl

/-- A flat beside a cell that is only one increment higher and drains through the flat. -/
def garbDem2 : Cell → Int := ofRows 0 [[99, 99, 99, 99, 99], [99, 51, 50, 50, 99], [99, 99, 99, 50, 0], [99, 99, 99, 99, 99]]

/-- C78: a cell that had a lower neighbour loses it when the flat below it is raised. -/
theorem C78_new_pit_refuted :
    d8FlowDirections 5 4 garbDem2 (-9) (1, 1) = 5 ∧ (garbrechtAlg 5 4 garbDem2 (-9) 1 9).map (fun fd => fd (1, 1)) = some 0 := by
  refine ⟨by decide +kernel, by decide +kernel⟩

/-- Non-vacuity: a flat two cells wide where the algorithm ends and the flat is resolved. -/
def garbDem3 : Cell → Int := fun c => 100 * ofRows 0 [[2, 2, 2, 2, 2, 2], [2, 1, 1, 1, 1, 0], [2, 1, 1, 1, 1, 2], [2, 2, 2, 2, 2, 2]] c

example : (garbrechtAlg 6 4 garbDem3 (-9) 1 9).isSome = true := by decide +kernel

example : ∃ c, GFlat 6 4 garbDem3 (-9) c := ⟨(1, 1), gflat_iff.2 (by decide +kernel)⟩

example : ∀ b, GFlat 6 4 garbDem3 (-9) b → BesideHigher garbDem3 b := by
  intro b hb
  have : ∀ b ∈ garbFlats 6 4 (d8FlowDirections 6 4 garbDem3 (-9)), ∃ n ∈ dirs .D8, garbDem3 b < garbDem3 (nbr .D8 b n) := by decide +kernel
  obtain ⟨n, hn, hx⟩ := this b (mem_garb.2 hb)
  exact ⟨_, nbr_adj hn, hx⟩

example : (garbrechtAlg 6 4 garbDem3 (-9) 1 9).map (toRows 6 4) =
    some [[2, 3, 3, 3, 3, 4], [1, 5, 5, 5, 5, 5], [1, 5, 5, 5, 4, 5], [8, 7, 7, 7, 7, 6]] := by decide +kernel

end RichDEM
