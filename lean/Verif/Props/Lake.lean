/-
Property theorems C45 and C65: the lake-level equation, and spreading the water of a depression over its
cells.
-/
import Verif.DepHier.LakeTotal
import Verif.Props.Fill
import Mathlib.Algebra.Order.Ring.Rat

namespace RichDEM

variable {E : Type} [Field E] [LinearOrder E] [IsStrictOrderedRing E]

/-- C45: the level that `DetermineWaterLevel` returns for the flooded cells `cells`, the volume `v`
and the next cell (elevation `sill`, water table `sw`) is not above the next cell, and stores the
volume: the depths below the level, plus what went into the ground of the next cell, add up to
`v` within the tolerance of `fp_eq` times the number of cells.  The next cell's water table is never
lifted above the ground. -/
theorem C45_level (eps sw v sill lv sw' : E) (dem : Cell → E) (cells : List Cell) (he : 0 < eps)
    (hv : 0 ≤ v)
    (h : waterLevel eps sw v sill cells.length (cells.map dem).sum = some (lv, sw')) :
    lv ≤ sill ∧ sw ≤ sw' ∧ (sw' = sw ∨ sw' ≤ 0) ∧
    |(cells.map (fun c => lv - dem c)).sum + (sw' - sw) - v| ≤ eps * (cells.length + 1) := by
  obtain ⟨h1, h2, h3, h4, _⟩ := waterLevel_spec he hv (fun h0 => by
    rw [List.length_eq_zero_iff.1 h0]; rfl) h
  refine ⟨h1, h2, h3, ?_⟩
  rw [sum_map_sub]
  exact h4

/-- C45: away from the tolerances the stored volume is exactly the given one. -/
theorem C45_level_exact (eps sw v sill lv sw' : E) (dem : Cell → E) (cells : List Cell) (he : 0 < eps)
    (hv : 0 ≤ v)
    (h : waterLevel eps sw v sill cells.length (cells.map dem).sum = some (lv, sw')) (hl : lv ≠ sill) :
    sw' = sw ∧ (cells.map (fun c => lv - dem c)).sum = v := by
  obtain ⟨_, _, _, _, _, h5⟩ := waterLevel_spec he hv (fun h0 => by
    rw [List.length_eq_zero_iff.1 h0]; rfl) h
  rcases h5 with h5 | ⟨h5, h6⟩
  · exact absurd h5 hl
  · refine ⟨h5, ?_⟩
    rw [sum_map_sub]; linarith

/-- C45: if the volume reaches the highest flooded cell, and the next cell is not below it, then the
level lies between the two. -/
theorem C45_level_between (eps sw v sill lv sw' : E) (dem : Cell → E) (cells : List Cell) (he : 0 < eps)
    (hv : 0 ≤ v) (m : E) (hs : m ≤ sill)
    (hm : (cells.map (fun c => m - dem c)).sum ≤ v)
    (h : waterLevel eps sw v sill cells.length (cells.map dem).sum = some (lv, sw')) :
    m ≤ lv ∧ lv ≤ sill := by
  obtain ⟨h1, _, _, _, h4, h5⟩ := waterLevel_spec he hv (fun h0 => by
    rw [List.length_eq_zero_iff.1 h0]; rfl) h
  refine ⟨?_, h1⟩
  rcases h5 with h5 | ⟨_, h6⟩
  · rw [h5]; exact hs
  · rw [sum_map_sub] at hm
    rcases Nat.eq_zero_or_pos cells.length with h0 | h0
    · rw [h4 h0]; exact hs
    · have hp : (0 : E) < cells.length := by exact_mod_cast h0
      by_contra hcon
      push Not at hcon
      nlinarith

/-- Non-vacuity: three cells at 1, 2, 3, seven units of water, the next cell at 10. -/
example : waterLevel (1/1000000 : ℚ) 0 7 10 3 6 = some (13/3, 0) := by decide +kernel
/-- The next cell's ground takes up what the flooded cells cannot hold. -/
example : waterLevel (1/1000000 : ℚ) (-5) 7 4 3 6 = some (4, -4) := by decide +kernel

/-- The assertion `fill_amount<=-sill_wtd` is exact although the condition under which
`DetermineWaterLevel` is called is not: with a volume exceeding the room by less than the tolerance
(the caller's condition `fp_le(water_vol,current_volume-wtd)` holds) the assertion fails. -/
theorem C45_assert_refuted : ∃ (eps sw v sill tot : ℚ) (n : Nat), 0 < eps ∧ sw < 0 ∧
    nearLe eps v (depVol sill n tot - sw) = true ∧ waterLevel eps sw v sill n tot = none :=
  ⟨1/1000000, -1/1000, 10 + 1/1000 + 1/10000000, 4, 2, 3, by decide +kernel⟩

/-! ### Spreading the water of a depression -/

/-- The total of a quantity over the raster. -/
def rasterSum (w h : Nat) (f : Cell → E) : E := (gridCells w h).sum f

omit [LinearOrder E] [IsStrictOrderedRing E] in
theorem rasterSum_list {w h : Nat} {f g : Cell → E} {l : List Cell} (hn : l.Nodup)
    (hin : ∀ c ∈ l, InGrid w h c) (hf : ∀ c, c ∉ l → f c = g c) :
    rasterSum w h f - rasterSum w h g = (l.map f).sum - (l.map g).sum := by
  classical
  unfold rasterSum
  rw [← Finset.sum_sub_distrib, ← List.sum_toFinset _ hn, ← List.sum_toFinset _ hn, ← Finset.sum_sub_distrib]
  symm
  apply Finset.sum_subset
  · intro c hc
    rw [← toFinset_allCells, List.mem_toFinset, mem_allCells]
    exact hin c (List.mem_toFinset.1 hc)
  · intro c _ hc
    rw [hf c (by simpa using hc), sub_self]

section
variable (pq : PQ (E × Cell) zLt) (w h : Nat) (dem : Cell → E) (label : Cell → Option Nat)
  (labs : Nat → Bool) (eps : E) (pit out : Cell)

omit [IsStrictOrderedRing E] in
theorem fillDep_start {v : E} {wtd : Cell → E}
    (hpit : InGrid w h pit ∧ inLabs label labs pit = true ∧ dem pit ≤ dem out) :
    LakeInv w h dem label labs out wtd v
      ⟨pq.push (dem pit, pit) [], Function.update (fun _ => false) pit true, [], 0, v, wtd⟩ ∧
    (∀ e : Cell, Function.update (fun _ => false) pit true e = false →
      e ∉ (pq.push (dem pit, pit) ([] : List (E × Cell))).map Prod.snd) := by
  have hq : ∀ e ∈ pq.push (dem pit, pit) ([] : List (E × Cell)), e = (dem pit, pit) := by
    intro e he
    rcases pq.mem_push.1 he with h | h
    · exact h
    · simp at h
  refine ⟨⟨List.nodup_nil, by simp, rfl, by simp, fun _ _ => rfl, ?_, ?_⟩, ?_⟩
  · have := ((pq.push_perm (dem pit, pit) ([] : List (E × Cell))).map Prod.snd).nodup_iff
    rw [this]; simp
  · intro e he
    have := hq e he; subst this
    refine ⟨rfl, by simp, by simp, ?_⟩
    by_cases hc : pit = out
    · exact Or.inr hc
    · exact Or.inl ⟨hpit.1, hpit.2.1, hpit.2.2, hc⟩
  · intro e he hm
    obtain ⟨x, hx, hxe⟩ := List.mem_map.1 hm
    rw [hq x hx] at hxe
    simp only at hxe
    subst hxe
    simp at he

/-- C65: whatever the terrain, the labels and the water tables, if `FillDepressions` returns then the
water has been spread: there is a lake, consisting of cells of the depression not above its outlet,
whose surface is flat and not above the outlet; besides the lake at most one more cell (the last one looked at, in the
depression or its outlet) has changed, and its water table has not been lifted above the ground;
and the water over the raster has grown by the given volume, within the tolerance of `fp_eq` times
three per cell looked at. -/
theorem C65_spread (he : 0 < eps) (f : Nat) (v : E) (w0 w1 : Cell → E)
    (hpit : InGrid w h pit ∧ inLabs label labs pit = true ∧ dem pit ≤ dem out) (hout : InGrid w h out)
    (hr : fillDep pq w h dem label labs eps f pit out v w0 = .ok w1) :
    ∃ (lake : List Cell) (sill : Cell) (level : E), lake.Nodup ∧ level ≤ dem out ∧
      (∀ a ∈ lake, InGrid w h a ∧ inLabs label labs a = true ∧ dem a ≤ dem out ∧ a ≠ out ∧
        w0 a ≤ 0 ∧ w1 a = max 0 (level - dem a)) ∧
      (w0 sill ≤ w1 sill ∧ (w1 sill = w0 sill ∨ w1 sill ≤ 0) ∧
        ((InGrid w h sill ∧ inLabs label labs sill = true ∧ dem sill ≤ dem out) ∨ sill = out)) ∧
      (∀ q, q ∉ lake → q ≠ sill → w1 q = w0 q) ∧
      |rasterSum w h w1 - rasterSum w h w0 - v| ≤ 3 * eps * (lake.length + 1) := by
  unfold fillDep at hr
  by_cases hv0 : v = 0
  · rw [if_pos hv0] at hr
    cases hr
    refine ⟨[], out, dem out, List.nodup_nil, le_rfl, by simp, ⟨le_rfl, Or.inl rfl, Or.inr rfl⟩, fun _ _ _ => rfl, ?_⟩
    rw [hv0]; simp; positivity
  · rw [if_neg hv0] at hr
    obtain ⟨I, N⟩ := fillDep_start pq w h dem label labs pit out (v := v) (wtd := w0) hpit
    obtain ⟨lake, sill, level, S⟩ := lakeRun_ok he f _ w1 I N hr
    refine ⟨lake, sill, level, S.nd, S.levelOut, ?_, ?_, S.frame, ?_⟩
    · intro a ha
      obtain ⟨⟨r1, r2, r3, r4⟩, r5⟩ := S.inside a ha
      exact ⟨r1, r2, r3, r4, r5, (S.flat a ha).2⟩
    · obtain ⟨_, s2, s3, s4⟩ := S.sillOk
      refine ⟨s3, s4, ?_⟩
      rcases s2 with s2 | s2
      · exact Or.inl ⟨s2.1, s2.2.1, s2.2.2.1⟩
      · exact Or.inr s2
    · have hn : (sill :: lake).Nodup := List.nodup_cons.2 ⟨S.sillOk.1, S.nd⟩
      rw [rasterSum_list hn ?_ ?_]
      · exact S.water
      · intro c hc
        rcases List.mem_cons.1 hc with rfl | hc
        · rcases S.sillOk.2.1 with h | h
          · exact h.1
          · rw [h]; exact hout
        · exact (S.inside c hc).1.1
      · intro c hc
        rw [List.mem_cons, not_or] at hc
        exact S.frame c hc.2 hc.1

theorem fillDep_total (he : 0 < eps) (R : Finset Cell) (full v : E) (w0 : Cell → E)
    (P : LakePre w h dem label labs out pit R full v w0) (f : Nat) (hf : R.card + 1 < f) :
    ∃ w1, fillDep pq w h dem label labs eps f pit out v w0 = .ok w1 ∧
      ∃ lake sill level, Spread w h dem label labs eps out v w0 w1 lake sill level ∧
        ∀ q, Reg w h dem label labs out q → q ∉ lake → level ≤ dem q + 2 * eps := by
  unfold fillDep
  rw [if_neg P.pos.ne']
  have hq : ∀ e, e ∈ pq.push (dem pit, pit) ([] : List (E × Cell)) ↔ e = (dem pit, pit) := by
    intro e
    rw [pq.mem_push]; simp
  have hI : LakeInv w h dem label labs out w0 v
      ⟨pq.push (dem pit, pit) [], Function.update (fun _ => false) pit true, [], 0, v, w0⟩ := by
    refine ⟨List.nodup_nil, by simp, rfl, by simp, fun _ _ => rfl, ?_, ?_⟩
    · have := ((pq.push_perm (dem pit, pit) ([] : List (E × Cell))).map Prod.snd).nodup_iff
      rw [this]; simp
    · intro e he
      have := (hq e).1 he; subst this
      exact ⟨rfl, by simp, by simp, P.pitOk⟩
  refine lakeRun_total he P f _ false hI ?_ ?_ ?_ ?_ (by simpa using hf)
  · intro e he hm
    obtain ⟨x, hx, hxe⟩ := List.mem_map.1 hm
    rw [(hq x).1 hx] at hxe
    simp only at hxe
    subst hxe
    simp at he
  · refine ⟨by simp, by simp, ?_, ?_⟩
    · intro x hx
      right
      have : x = pit := by
        by_contra hne
        have hx' : Function.update (fun _ => false) pit true x = true := hx
        rw [Function.update_of_ne hne] at hx'; cases hx'
      subst this
      exact (hq _).2 rfl
    · rintro a (ha | ha)
      · simp at ha
      · exact absurd ha.2 (by simp)
  · exact ⟨by simp, by simp, by simp⟩
  · intro hc
    have := (hq (dem pit, pit)).2 rfl
    rw [show pq.push (dem pit, pit) ([] : List (E × Cell)) = [] from hc] at this
    simp at this

/-- C65: on saturated ground, with an amount of water between the capacity of the part of the
depression already full (everything up to the elevation `full`) and the capacity of the depression,
`FillDepressions` fails no assertion, throws no exception and returns, having looked at no cell of
the depression twice; and then the whole depression is level: there is one level, not above the outlet,
such that every cell carries exactly the depth below it, or nothing although it lies below it by at most
twice the tolerance of `fp_eq`.  Nothing outside
the depression changes, and the depression's water has grown by the given volume. -/
theorem C65_returns_partial (he : 0 < eps) (R : Finset Cell) (full v : E) (w0 : Cell → E)
    (P : LakePre w h dem label labs out pit R full v w0) (f : Nat) (hf : R.card + 1 < f) :
    ∃ w1, fillDep pq w h dem label labs eps f pit out v w0 = .ok w1 ∧
      (∃ level, level ≤ dem out ∧ ∀ q ∈ R, w1 q = max 0 (level - dem q) ∨
        (w1 q = 0 ∧ level ≤ dem q + 2 * eps)) ∧
      (∀ q, q ∉ R → w1 q = w0 q) ∧ |R.sum w1 - v| ≤ 3 * eps * (R.card + 1) := by
  have key : ∃ w1, fillDep pq w h dem label labs eps f pit out v w0 = .ok w1 ∧
      ∃ lake sill level, Spread w h dem label labs eps out v w0 w1 lake sill level ∧
        ∀ q, Reg w h dem label labs out q → q ∉ lake → level ≤ dem q + 2 * eps := by
    exact fillDep_total pq w h dem label labs eps pit out he R full v w0 P f hf
  obtain ⟨w1, hr, lake, sill, level, S, hcov⟩ := key
  have hsill : w1 sill = w0 sill := by
    have h0 : w0 sill = 0 := by
      rcases S.sillOk.2.1 with h | h
      · exact P.sat _ h
      · rw [h]; exact P.satOut
    rcases S.sillOk.2.2.2 with h | h
    · exact h
    · exact le_antisymm (by rw [h0]; exact h) S.sillOk.2.2.1
  have hfr : ∀ q, q ∉ lake → w1 q = w0 q := by
    intro q hq
    by_cases hs : q = sill
    · rw [hs]; exact hsill
    · exact S.frame q hq hs
  refine ⟨w1, hr, ⟨level, S.levelOut, ?_⟩, ?_, ?_⟩
  · intro q hq
    have hq' := (P.mem q).1 hq
    by_cases hl : q ∈ lake
    · exact Or.inl (S.flat q hl).2
    · right
      rw [hfr q hl]
      exact ⟨P.sat q hq', hcov q hq' hl⟩
  · intro q hq
    refine hfr q fun hl => hq ((P.mem q).2 (S.inside q hl).1)
  · have hsub : lake.toFinset ⊆ R := fun a ha =>
      (P.mem a).2 (S.inside a (List.mem_toFinset.1 ha)).1
    have hlen : lake.length ≤ R.card := by
      rw [← List.toFinset_card_of_nodup S.nd]; exact Finset.card_le_card hsub
    have h1 : R.sum w1 = (lake.map w1).sum := by
      rw [← List.sum_toFinset _ S.nd]
      symm
      apply Finset.sum_subset hsub
      intro q hq hl
      rw [hfr q (by simpa using hl)]
      exact P.sat q ((P.mem q).1 hq)
    have h2 : (lake.map w0).sum = 0 := by
      apply List.sum_eq_zero
      intro x hx
      obtain ⟨a, ha, rfl⟩ := List.mem_map.1 hx
      exact P.sat a (S.inside a ha).1
    have h3 := S.water
    simp only [List.map_cons, List.sum_cons] at h3
    rw [hsill, h2] at h3
    rw [h1]
    have e : w0 sill + (lake.map w1).sum - (w0 sill + 0) - v = (lake.map w1).sum - v := by ring
    rw [e] at h3
    refine h3.trans ?_
    have : (lake.length : E) ≤ R.card := by exact_mod_cast hlen
    nlinarith

end

/-! ### Concrete runs -/

/-- Two basins in a row: ocean, outlet at 10, pit, saddle at 5, pit, wall. -/
def lakeDem : Cell → ℚ := fun c => [0, 10, 0, 5, 0, 20].getD c.1.toNat 0
def lakeLab : Cell → Option Nat := fun c => [some 0, some 1, some 1, some 1, some 2, some 2].getD c.1.toNat none
def lakeRes (r : FRes (Cell → ℚ)) : Option (List ℚ) :=
  match r with
  | .ok wtd => some ((List.range 6).map fun i => wtd ((i : Int), 0))
  | _ => none
def lakeRowOf (l : List ℚ) : Cell → ℚ := fun c => l.getD c.1.toNat 0

/-- Sixteen units in the metadepression: the lake stands at 7. -/
example : lakeRes (fillDep zPQ 6 1 lakeDem lakeLab (fun l => [1, 2, 3].contains l) (1/1000000) 20 (2, 0) (1, 0) 16
    (fun _ => 0)) = some [0, 0, 7, 2, 7, 0] := by decide +kernel
/-- Three units in the left basin. -/
example : lakeRes (fillDep zPQ 6 1 lakeDem lakeLab (fun l => [1].contains l) (1/1000000) 20 (2, 0) (3, 0) 3
    (fun _ => 0)) = some [0, 0, 3, 0, 0, 0] := by decide +kernel
/-- The ground of the left basin takes up four of ten units. -/
example : lakeRes (fillDep zPQ 6 1 lakeDem lakeLab (fun l => [1, 2, 3].contains l) (1/1000000) 20 (2, 0) (1, 0) 20
    (lakeRowOf [0, 0, -4, 0, 0, 0])) = some [0, 0, 7, 2, 7, 0] := by decide +kernel

/-- The hypotheses of `C65_returns_partial` are met by the row above with sixteen units of water, the two
basins being full up to the saddle. -/
example : LakePre 6 1 lakeDem lakeLab (fun l => [1, 2, 3].contains l) (1, 0) (2, 0)
    {(2, 0), (3, 0), (4, 0)} 5 16 (fun _ => 0) := by
  have key : ∀ q : Cell, Reg 6 1 lakeDem lakeLab (fun l => [1, 2, 3].contains l) (1, 0) q ↔
      q = (2, 0) ∨ q = (3, 0) ∨ q = (4, 0) := by
    rintro ⟨x, y⟩
    constructor
    · rintro ⟨⟨h1, h2, h3, h4⟩, h5, h6, h7⟩
      simp only at h1 h2 h3 h4
      have hy : y = 0 := by omega
      subst hy
      have hx : x = 0 ∨ x = 1 ∨ x = 2 ∨ x = 3 ∨ x = 4 ∨ x = 5 := by omega
      rcases hx with rfl | rfl | rfl | rfl | rfl | rfl
      · exact absurd h5 (by decide)
      · exact absurd rfl h7
      · exact Or.inl rfl
      · exact Or.inr (Or.inl rfl)
      · exact Or.inr (Or.inr rfl)
      · exact absurd h6 (by decide +kernel)
    · rintro (h | h | h) <;> cases h <;>
        exact ⟨by decide, by decide, by decide +kernel, by decide⟩
  refine ⟨?_, fun _ _ => rfl, rfl, by norm_num, by decide +kernel, by decide +kernel, ?_, ?_⟩
  · intro q; rw [key]; simp
  · exact Or.inl ((key _).2 (Or.inl rfl))
  · intro q hq
    have p2 : LakePath 6 1 lakeDem lakeLab (fun l => [1, 2, 3].contains l) (1, 0) (2, 0) 5 (2, 0) := .pit
    have p3 := LakePath.step (b := (3, 0)) p2 (by decide) (by decide) (Or.inl ((key _).2 (by simp))) (by decide +kernel)
    have p4 := LakePath.step (b := (4, 0)) p3 (by decide) (by decide) (Or.inl ((key _).2 (by simp))) (by decide +kernel)
    have m : ∀ q : Cell, lakeDem q ≤ 5 → max (5 : ℚ) (lakeDem q) = 5 := fun q h => max_eq_left h
    rcases (key q).1 hq with h | h | h <;> subst h <;> rw [m _ (by decide +kernel)]
    · exact ⟨by decide +kernel, p2⟩
    · exact ⟨by decide +kernel, p3⟩
    · exact ⟨by decide +kernel, p4⟩

/-- Unsaturated ground can make `FillDepressions` fail although the depression has room for the
water: here it is given twelve units, less than the 25 units above its ground; having taken all the
water of the first basin across the saddle, it finds a pit whose ground can take up more than is
left, and the assertion `water_vol>=0` fails. -/
theorem C65_unsaturated_refuted :
    fillDep zPQ 6 1 lakeDem lakeLab (fun l => [1, 2, 3].contains l) (1/1000000) 20 (2, 0) (1, 0) 12
      (lakeRowOf [0, 0, -4, 0, -10, 0]) = FRes.fail := by
  have h : (match fillDep zPQ 6 1 lakeDem lakeLab (fun l => [1, 2, 3].contains l) (1/1000000) 20 (2, 0) (1, 0) 12
      (lakeRowOf [0, 0, -4, 0, -10, 0]) with | .fail => true | _ => false) = true := by decide +kernel
  revert h
  cases fillDep zPQ 6 1 lakeDem lakeLab (fun l => [1, 2, 3].contains l) (1/1000000) 20 (2, 0) (1, 0) 12
      (lakeRowOf [0, 0, -4, 0, -10, 0]) with
  | fail => intro _; rfl
  | ok _ => intro h; cases h
  | deep => intro h; cases h

end RichDEM
