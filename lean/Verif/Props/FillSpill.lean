/-
Property theorems C89: the tool `rd_fill_spill_merge` as a whole.
-/
import Verif.Apps.FillSpill
import Verif.Props.FSM
import Verif.Props.Fill
import Verif.Props.DepHier
import Verif.Props.Volume

namespace RichDEM

variable {E : Type} [Field E] [LinearOrder E] [IsStrictOrderedRing E]

/-! ### Specification -/

/-- The cells the tool is documented to treat as ocean: NoData cells, and cells at exactly the ocean level
that are joined to the edge of the raster by such cells. -/
def AtSea (w h : Nat) (topo : Cell → E) (nd lvl : E) (c : Cell) : Prop :=
  topo c = nd ∨ ∃ e, OnEdge w h e ∧ topo e = lvl ∧
    Relation.ReflTransGen (fun a b => Adj .D8 a b ∧ InGrid w h b ∧ topo b = lvl) e c

/-- The water the user put on land. -/
noncomputable def landWater (w h : Nat) (topo : Cell → E) (nd lvl : E) (wtd : Cell → E) : E :=
  letI := Classical.decPred (AtSea w h topo nd lvl)
  ((gridCells w h).filter fun c => ¬ AtSea w h topo nd lvl c).sum wtd

/-! ### Labels -/

theorem toolLabels_iff (bq : AnyQ Cell) (w h : Nat) (topo : Cell → E) (nd lvl : E) (c : Cell) (hc : InGrid w h c) :
    (AtSea w h topo nd lvl c → toolLabels bq w h topo nd lvl c = some 0) ∧
    (¬ AtSea w h topo nd lvl c → toolLabels bq w h topo nd lvl c = none) := by
  have hw : 0 < w := by obtain ⟨a, b, _, _⟩ := hc; omega
  have hh : 0 < h := by obtain ⟨_, _, a, b⟩ := hc; omega
  have K := (C42_from_edges bq w h hw hh .D8 topo lvl (fun _ => (none : Option Nat)) (some 0)).2 c
  have hR : PaintRegion w h .D8 topo lvl (fun _ => (none : Option Nat)) (some 0) (OnEdge w h) c ↔
      ∃ e, OnEdge w h e ∧ topo e = lvl ∧
        Relation.ReflTransGen (fun a b => Adj .D8 a b ∧ InGrid w h b ∧ topo b = lvl) e c := by
    unfold PaintRegion
    have : PaintStep w h .D8 topo lvl (fun _ => (none : Option Nat)) (some 0) =
        fun a b => Adj .D8 a b ∧ InGrid w h b ∧ topo b = lvl := by
      funext a b; simp [PaintStep]
    rw [this]
    simp
  rw [hR] at K
  unfold toolLabels AtSea
  constructor
  · rintro (h1 | h1)
    · rw [if_pos (Or.inl h1)]
    · rw [if_pos (Or.inr (show toolSea bq w h topo lvl c = some 0 from K.1 h1))]
  · intro h1
    push Not at h1
    have : toolSea bq w h topo lvl c = none := K.2 (by rintro ⟨e, a, b, d⟩; exact h1.2 e a b d)
    rw [if_neg, this]
    rw [this]
    rintro (h2 | h2)
    · exact h1.1 h2
    · cases h2

theorem toolWater_eq (bq : AnyQ Cell) (w h : Nat) (topo : Cell → E) (nd lvl : E) (wtd : Cell → E) (c : Cell)
    (hc : InGrid w h c) :
    (AtSea w h topo nd lvl c → toolWater bq w h topo nd lvl wtd c = 0) ∧
    (¬ AtSea w h topo nd lvl c → toolWater bq w h topo nd lvl wtd c = wtd c) := by
  have K := toolLabels_iff bq w h topo nd lvl c hc
  unfold toolLabels at K
  unfold toolWater
  by_cases hb : topo c = nd ∨ toolSea bq w h topo lvl c = some 0
  · rw [if_pos hb] at K ⊢
    exact ⟨fun _ => rfl, fun h1 => by have := K.2 h1; cases this⟩
  · rw [if_neg hb] at K ⊢
    refine ⟨fun h1 => ?_, fun _ => rfl⟩
    exact absurd (Or.inr (K.1 h1)) hb

theorem labels_iff (bq : AnyQ Cell) (w h : Nat) (topo : Cell → E) (nd lvl : E) (c : Cell) (hc : InGrid w h c) :
    toolLabels bq w h topo nd lvl c = some 0 ↔ AtSea w h topo nd lvl c := by
  have K := toolLabels_iff bq w h topo nd lvl c hc
  constructor
  · intro h1
    by_contra h2
    rw [K.2 h2] at h1; cases h1
  · exact K.1

/-- There are at most as many labels as cells. -/
theorem ndep_le (pq : PQ (E × Cell) zLt) (w h : Nat) (t : Topo) (dem : Cell → E) (lab : Cell → Option Nat) (s : DHS E)
    (hs : getDHFlood pq w h t dem lab = some s) : s.ndep ≤ w * h := by
  classical
  have hs0 := hs
  obtain ⟨rfl, c0, hc0, ho0, _⟩ := getDHFlood_some hs
  obtain ⟨⟨D, I⟩, _⟩ := dhFlood_final pq w h t dem (fun c => lab c == some 0)
  set s := dhFlood pq w h t dem (fun c => lab c == some 0)
  have h0 : s.label c0 = some 0 := I.lab0 c0 hc0 (by simp [ho0])
  have hcard : (gridCells w h).card = w * h := by
    unfold gridCells
    rw [Finset.card_product]; simp
  have hmap : (Finset.range s.ndep).card ≤ (gridCells w h).card := by
    refine Finset.card_le_card_of_injOn (fun l => if l = 0 then c0 else s.pit l) ?_ ?_
    · intro l hl
      rw [Finset.mem_coe, Finset.mem_range] at hl
      rw [Finset.mem_coe, mem_gridCells]
      by_cases hz : l = 0
      · simp only [hz, if_true]; exact hc0
      · simp only [hz, if_false]
        exact (I.pits l (by omega) hl).1.1
    · intro a ha b hb hab
      rw [Finset.mem_coe, Finset.mem_range] at ha hb
      have hl : ∀ l, l < s.ndep → s.label (if l = 0 then c0 else s.pit l) = some l := by
        intro l hl
        by_cases hz : l = 0
        · rw [if_pos hz, hz]; exact h0
        · rw [if_neg hz]; exact (I.pits l (by omega) hl).2
      have h1 := hl a ha
      have h2 := hl b hb
      simp only at hab
      rw [hab, h2] at h1
      exact (Option.some.inj h1).symm
  rw [Finset.card_range, hcard] at hmap
  exact hmap

/-- Ocean cells keep `NO_FLOW`. -/
theorem dh_ocean_fd (pq : PQ (E × Cell) zLt) (w h : Nat) (t : Topo) (dem : Cell → E) (lab : Cell → Option Nat) (s : DHS E)
    (hs : getDHFlood pq w h t dem lab = some s) (c : Cell) (hc : InGrid w h c) (ho : lab c = some 0) : s.fd c = 0 := by
  obtain ⟨rfl, _⟩ := getDHFlood_some hs
  have key : ∀ x : DHS E, x.label c ≠ none ∧ x.fd c = 0 →
      ∀ y, dhStep pq w h t dem x = some y → y.label c ≠ none ∧ y.fd c = 0 := by
    intro x hx y hy
    unfold dhStep at hy
    split at hy
    · cases hy
    · rename_i e rest _
      rw [Option.some.injEq] at hy
      rw [← hy]
      apply foldl_inv' (fun s : DHS E => s.label c ≠ none ∧ s.fd c = 0)
      · intro u n _ hu
        unfold dhNbr
        simp only
        split
        · exact hu
        · split
          · rename_i hnone
            have hne : c ≠ nbr t e.2 n := fun k => hu.1 (by rw [k]; exact hnone)
            simp only
            rw [Function.update_of_ne hne, Function.update_of_ne hne]
            exact hu
          · split
            · exact hu
            · exact hu
      · unfold dhOpen
        split
        · exact hx
        · rename_i hnone
          have hne : c ≠ e.2 := fun k => hx.1 (by rw [k]; exact hnone)
          simp only
          rw [Function.update_of_ne hne]
          exact hx
  unfold dhFlood
  refine (loop_inv (fun s : DHS E => s.label c ≠ none ∧ s.fd c = 0) (fun x y hx hy => key x hx y hy) _ _ ?_).2
  unfold dhInit
  simp only
  rw [if_pos (by simp [inGrid_iff.2 hc, ho])]
  simp

/-! ### C89 -/

section
variable (bq q : AnyQ Cell) (pq pq' : PQ (E × Cell) zLt) (os : DHS E → List (Outlet E)) (parts : List (List Cell))
  (eps : E) (w h : Nat) (topo : Cell → E) (nd lvl : E) (wtd0 : Cell → E)

/-- C89: the tool ends with the uncaught exception of `GetDepressionHierarchy` exactly when no ocean cell
has a land neighbour. -/
theorem C89_error_iff :
    rdFillSpillMerge bq q pq pq' os parts eps w h topo nd lvl wtd0 = .threw ↔
      ¬ ∃ a b, InGrid w h a ∧ InGrid w h b ∧ Adj .D8 a b ∧ AtSea w h topo nd lvl a ∧ ¬ AtSea w h topo nd lvl b := by
  have K := C59_error_iff pq w h .D8 topo (toolLabels bq w h topo nd lvl)
  have e1 : rdFillSpillMerge bq q pq pq' os parts eps w h topo nd lvl wtd0 = .threw ↔
      getDHFlood pq w h .D8 topo (toolLabels bq w h topo nd lvl) = none := by
    unfold rdFillSpillMerge
    cases getDHFlood pq w h .D8 topo (toolLabels bq w h topo nd lvl) with
    | none => simp
    | some s =>
      simp only [reduceCtorEq, iff_false]
      unfold toolRest
      split
      · simp
      · split <;> simp
  rw [e1, K]
  constructor
  · rintro (⟨c, c1, c2, c3⟩ | k)
    · exfalso
      by_cases hc : AtSea w h topo nd lvl c
      · exact c2 ((toolLabels_iff bq w h topo nd lvl c c1).1 hc)
      · exact c3 ((toolLabels_iff bq w h topo nd lvl c c1).2 hc)
    · rintro ⟨a, b, a1, a2, a3, a4, a5⟩
      exact k ⟨a, b, a1, a2, a3, (labels_iff bq w h topo nd lvl a a1).2 a4,
        fun h1 => a5 ((labels_iff bq w h topo nd lvl b a2).1 h1)⟩
  · intro k
    right
    rintro ⟨a, b, a1, a2, a3, a4, a5⟩
    exact k ⟨a, b, a1, a2, a3, (labels_iff bq w h topo nd lvl a a1).1 a4,
      fun h1 => a5 ((labels_iff bq w h topo nd lvl b a2).2 h1)⟩

variable
  (hq : pq.Lifo)
  (hos : ∀ s, getDHFlood pq w h .D8 topo (toolLabels bq w h topo nd lvl) = some s → IsOutletVec s (os s))
  (hp : parts.flatten.Perm (allCells w h)) (heps : 0 < eps) (h32 : 2 * (w * h) < 2 ^ 32)
  (hwet : ∀ c, InGrid w h c → ¬ AtSea w h topo nd lvl c → 0 ≤ wtd0 c)
  (h00 : AtSea w h topo nd lvl (0, 0) ∨ ∀ p, InGrid w h p → Adj .D8 p (0, 0) → topo p < topo (0, 0))
  (hland : ∃ a b, InGrid w h a ∧ InGrid w h b ∧ Adj .D8 a b ∧ AtSea w h topo nd lvl a ∧ ¬ AtSea w h topo nd lvl b)

include hq hos hp heps h32 hwet h00 hland

/-- Everything known about a run of the tool. -/
theorem tool_run : ∃ f, rdFillSpillMerge bq q pq pq' os parts eps w h topo nd lvl wtd0 = .saved f ∧
    f.surface = toolSurface topo nd f.wtd ∧ 0 ≤ f.sea ∧
    |rasterSum w h f.wtd + f.sea - landWater w h topo nd lvl wtd0| ≤ 11 * eps * (w * h) ∧
    StandsStill w h topo f.wtd (2 * eps) ∧
    ∀ c, InGrid w h c → 0 ≤ f.wtd c ∧ (AtSea w h topo nd lvl c → f.wtd c = 0) ∧
      (0 < f.wtd c → ∀ (p : List Cell) (e : Cell), p.head? = some c → p.IsChain (Adj .D8) → (∀ x ∈ p, InGrid w h x) →
        p.getLast? = some e → AtSea w h topo nd lvl e → ∃ x ∈ p, topo c + f.wtd c ≤ topo x) := by
  classical
  have hgrid0 : InGrid w h (0, 0) := by
    obtain ⟨a, _, ⟨a1, a2, a3, a4⟩, _⟩ := hland
    exact ⟨le_refl _, by show (0 : Int) < w; omega, le_refl _, by show (0 : Int) < h; omega⟩
  set lab := toolLabels bq w h topo nd lvl with hlab
  cases hs : getDHFlood pq w h .D8 topo lab with
  | none =>
    have : rdFillSpillMerge bq q pq pq' os parts eps w h topo nd lvl wtd0 = .threw := by
      unfold rdFillSpillMerge; rw [← hlab, hs]
    exact absurd hland ((C89_error_iff bq q pq pq' os parts eps w h topo nd lvl wtd0).1 this)
  | some s =>
    have hn := ndep_le pq w h .D8 topo lab s hs
    have h32' : 2 * s.ndep < 2 ^ 32 := by omega
    have O := hos s hs
    obtain ⟨H, hH, hn1, hn2⟩ := C61_succeeds pq w h .D8 topo lab s hs (os s) O h32'
    obtain ⟨m, v, hm, hv, _, _, hvol⟩ := C43_volumes pq w h .D8 topo lab s hs (os s) O h32' H hH parts hp
    have hvol' : ∀ d, d < H.n → d ≠ 0 → v.vol d = some (if d = 0 then 0 else (v.vol d).getD 0) := by
      intro d h1 h2
      obtain ⟨z, S, _, _, _, _, k, _⟩ := hvol d h1 h2
      rw [if_neg h2, k]; rfl
    set water := toolWater bq w h topo nd lvl wtd0 with hwater
    have hsat : ∀ c, InGrid w h c → 0 ≤ water c := by
      intro c hc
      by_cases hsea : AtSea w h topo nd lvl c
      · rw [hwater, (toolWater_eq bq w h topo nd lvl wtd0 c hc).1 hsea]
      · rw [hwater, (toolWater_eq bq w h topo nd lvl wtd0 c hc).2 hsea]; exact hwet c hc hsea
    have hpath : ∀ c l, s.label c = some l → DHPath w h .D8 topo (fun c => lab c == some 0) s.label s.fd s.pit l c := by
      obtain ⟨e, _⟩ := getDHFlood_some hs
      obtain ⟨⟨D, I⟩, _⟩ := dhFlood_final pq w h .D8 topo (fun c => lab c == some 0)
      rw [e]; exact I.path
    have hlab0 : ∀ c, InGrid w h c → AtSea w h topo nd lvl c → s.label c = some 0 := by
      obtain ⟨e, _⟩ := getDHFlood_some hs
      obtain ⟨⟨D, I⟩, _⟩ := dhFlood_final pq w h .D8 topo (fun c => lab c == some 0)
      intro c hc hsea
      rw [e]
      exact I.lab0 c hc (by simp [hlab, (labels_iff bq w h topo nd lvl c hc).2 hsea])
    have hlabel : ∀ c, InGrid w h c → ∃ l, s.label c = some l := by
      obtain ⟨e, _⟩ := getDHFlood_some hs
      obtain ⟨hL, _⟩ := dhFlood_complete pq w h .D8 topo (fun c => lab c == some 0)
      intro c hc
      rw [e]
      exact Option.ne_none_iff_exists'.1 (hL c hc)
    have hz : (¬ ∃ p, InGrid w h p ∧ s.fd p ≠ 0 ∧ nbr .D8 p (s.fd p) = (0, 0)) ∨ (s.fd (0, 0) = 0 ∧ water (0, 0) = 0) := by
      rcases h00 with k | k
      · right
        refine ⟨?_, by rw [hwater]; exact (toolWater_eq bq w h topo nd lvl wtd0 _ hgrid0).1 k⟩
        -- an ocean cell keeps NO_FLOW
        exact dh_ocean_fd pq w h .D8 topo lab s hs (0, 0) hgrid0 ((labels_iff bq w h topo nd lvl _ hgrid0).2 k)
      · left
        rintro ⟨p, p1, p2, p3⟩
        obtain ⟨l, hl⟩ := hlabel p p1
        cases hpath p l hl with
        | ocean _ _ _ _ k5 => exact p2 k5
        | pit _ _ _ _ k5 => exact p2 k5
        | step _ _ k3 k4 _ =>
          rw [p3] at k4
          have := k p p1 (by rw [← p3]; exact nbr_adj k3)
          exact absurd k4 (not_le.2 this)
    have args := fun (r : FSMOut E) (hr : fillSpillMerge q pq' w h topo s.label s.fd H.n H.dep
        (fun d => if d = 0 then 0 else (v.vol d).getD 0) eps (2 * H.n) water = .ok r) => And.intro
      (C71_conserved_partial q pq pq' w h topo lab s hs (os s) O h32' H hH parts hp m hm v hv _ hvol' (by simp) hq eps heps
        water hsat hz (2 * H.n) le_rfl r hr)
      (And.intro (C71_in_depressions_partial q pq pq' w h topo lab s hs (os s) O h32' H hH parts hp m hm v hv _ hvol' (by simp)
        hq eps heps water hsat hz (2 * H.n) le_rfl r hr)
      (C71_still_partial q pq pq' w h topo lab s hs (os s) O h32' H hH parts hp m hm v hv _ hvol' (by simp) hq eps heps
        water hsat hz (2 * H.n) le_rfl r hr))
    obtain ⟨r, hr⟩ := C71_returns_partial q pq pq' w h topo lab s hs (os s) O h32' H hH parts hp m hm v hv
      (fun d => if d = 0 then 0 else (v.vol d).getD 0) hvol' (by simp) hq eps heps water hsat hz (2 * H.n) le_rfl
    obtain ⟨⟨r1, r2⟩, r3, r4⟩ := args r hr
    refine ⟨⟨r.wtd, toolSurface topo nd r.wtd, r.water 0⟩, ?_, rfl, r1, ?_, r4, ?_⟩
    · unfold rdFillSpillMerge
      rw [← hlab, hs]
      show toolRest q pq' os parts eps w h topo nd (toolWater bq w h topo nd lvl wtd0) s = _
      unfold toolRest
      rw [hH, Option.bind_some, hm, Option.bind_some, hv, Option.map_some]
      simp only
      rw [← hwater, hr]
    · have e : landWater w h topo nd lvl wtd0 = rasterSum w h water := by
        unfold landWater rasterSum
        rw [Finset.sum_filter]
        apply Finset.sum_congr rfl
        intro c hc
        rw [mem_gridCells] at hc
        by_cases hsea : AtSea w h topo nd lvl c
        · rw [if_neg (not_not.2 hsea), hwater, (toolWater_eq bq w h topo nd lvl wtd0 c hc).1 hsea]
        · rw [if_pos hsea, hwater, (toolWater_eq bq w h topo nd lvl wtd0 c hc).2 hsea]
      rw [e]
      refine le_trans r2 ?_
      have hN : (H.n : E) ≤ 2 * (w * h : E) - 1 := by
        have h1 : H.n + 1 ≤ 2 * (w * h) := by
          have : 1 ≤ s.ndep := by
            obtain ⟨e, _⟩ := getDHFlood_some hs
            obtain ⟨⟨D, I⟩, _⟩ := dhFlood_final pq w h .D8 topo (fun c => lab c == some 0)
            rw [e]; exact I.pos
          omega
        have h2 : ((H.n + 1 : Nat) : E) ≤ ((2 * (w * h) : Nat) : E) := by exact_mod_cast h1
        push_cast at h2
        linarith
      nlinarith [heps]
    · intro c hc
      obtain ⟨i1, i2⟩ := r3 c hc
      refine ⟨i1, ?_, ?_⟩
      · intro hsea
        by_contra hne
        obtain ⟨d, z, d1, d2, ⟨l, l1, l2⟩, _⟩ := i2 (lt_of_le_of_ne i1 (Ne.symm hne))
        rw [hlab0 c hc hsea] at l1; cases l1
        obtain ⟨H', rep, k1, J, _⟩ := dh_run pq w h .D8 topo lab s hs (os s) O h32'
        rw [hH] at k1; cases k1
        exact d2 (anc_zero J l2)
      · intro hpos p e P1 P2 P3 e1 e2
        obtain ⟨d, z', d1, d2, d3, d4, d5⟩ := i2 hpos
        have hend : ¬ InDep s.label H.dep d e := by
          rintro ⟨l, l1, l2⟩
          have hg : InGrid w h e := P3 e (List.mem_of_getLast? e1)
          rw [hlab0 e hg e2] at l1; cases l1
          obtain ⟨H', rep, k1, J, _⟩ := dh_run pq w h .D8 topo lab s hs (os s) O h32'
          rw [hH] at k1; cases k1
          exact d2 (anc_zero J l2)
        obtain ⟨u, u', u1, u2, u3, u4, u5⟩ := path_leaves (S := InDep s.label H.dep d) p c e P1 e1 P2 d3 hend
        obtain ⟨z2, y1, y2, _⟩ := C62_spill_elevation pq w h .D8 topo lab s hs (os s) O h32' H hH d d1 d2
        rw [d4] at y1; cases y1
        rcases le_max_iff.1 (le_trans d5 (y2 u u' u3 (P3 _ u1) (P3 _ u2) u4 u5)) with k | k
        · exact ⟨u, u1, k⟩
        · exact ⟨u', u2, k⟩

/-- C89: on saturated ground (no negative water on land), when the top-left cell is ocean or higher than its
neighbours, and some ocean cell has a land neighbour, the tool saves its rasters: no assertion fails, nothing is thrown,
the recursions end. -/
theorem C89_saves_partial : ∃ f, rdFillSpillMerge bq q pq pq' os parts eps w h topo nd lvl wtd0 = .saved f := by
  obtain ⟨f, h1, _⟩ := tool_run bq q pq pq' os parts eps w h topo nd lvl wtd0 hq hos hp heps h32 hwet h00 hland
  exact ⟨f, h1⟩

variable (f : ToolFiles E) (hf : rdFillSpillMerge bq q pq pq' os parts eps w h topo nd lvl wtd0 = .saved f)
include hf

/-- C89: the water on the raster and the water that went into the ocean make up the water put on land, up to eleven
times the tolerance of `fp_eq` per cell. -/
theorem C89_conserved_partial : 0 ≤ f.sea ∧
    |rasterSum w h f.wtd + f.sea - landWater w h topo nd lvl wtd0| ≤ 11 * eps * (w * h) := by
  obtain ⟨f', h1, _, h3, h4, _⟩ := tool_run bq q pq pq' os parts eps w h topo nd lvl wtd0 hq hos hp heps h32 hwet h00 hland
  rw [hf] at h1; cases h1
  exact ⟨h3, h4⟩

/-- C89: no more water stands on the raster than was put on land (up to the tolerance). -/
theorem C89_no_new_water_partial :
    rasterSum w h f.wtd ≤ landWater w h topo nd lvl wtd0 + 11 * eps * (w * h) := by
  have K := C89_conserved_partial bq q pq pq' os parts eps w h topo nd lvl wtd0 hq hos hp heps h32 hwet h00 hland f hf
  have := (abs_le.1 K.2).2
  linarith [K.1]

/-- C89: the saved water never lies below the ground, the ocean (and NoData) carries none, and no water stands higher
than every way to the ocean allows: each path from a wet cell to an ocean cell has a cell at least as high as the water. -/
theorem C89_water_partial (c : Cell) (hc : InGrid w h c) : 0 ≤ f.wtd c ∧ (AtSea w h topo nd lvl c → f.wtd c = 0) ∧
    (0 < f.wtd c → ∀ (p : List Cell) (e : Cell), p.head? = some c → p.IsChain (Adj .D8) → (∀ x ∈ p, InGrid w h x) →
      p.getLast? = some e → AtSea w h topo nd lvl e → ∃ x ∈ p, topo c + f.wtd c ≤ topo x) := by
  obtain ⟨f', h1, _, _, _, _, h6⟩ := tool_run bq q pq pq' os parts eps w h topo nd lvl wtd0 hq hos hp heps h32 hwet h00 hland
  rw [hf] at h1; cases h1
  exact h6 c hc

/-- C89: the saved water stands still, up to twice the tolerance. -/
theorem C89_still_partial : StandsStill w h topo f.wtd (2 * eps) := by
  obtain ⟨f', h1, _, _, _, h5, _⟩ := tool_run bq q pq pq' os parts eps w h topo nd lvl wtd0 hq hos hp heps h32 hwet h00 hland
  rw [hf] at h1; cases h1
  exact h5

/-- C89: on data cells the second raster is the ground plus the water on it, never below the ground; a NoData cell is 0 in
both rasters, whatever the NoData value is. -/
theorem C89_surface_partial (c : Cell) (hc : InGrid w h c) :
    (topo c ≠ nd → f.surface c = topo c + f.wtd c ∧ topo c ≤ f.surface c) ∧
    (topo c = nd → f.wtd c = 0 ∧ f.surface c = 0) := by
  obtain ⟨f', h1, h2, _, _, _, h6⟩ := tool_run bq q pq pq' os parts eps w h topo nd lvl wtd0 hq hos hp heps h32 hwet h00 hland
  rw [hf] at h1; cases h1
  obtain ⟨k1, k2, _⟩ := h6 c hc
  rw [h2]
  unfold toolSurface
  constructor
  · intro hne
    rw [if_neg hne]
    exact ⟨add_comm _ _, by linarith⟩
  · intro he
    rw [if_pos he]
    have := k2 (Or.inl he)
    exact ⟨this, this⟩

/-- C89: where the NoData value does not lie above the terrain, NoData cells drain their neighbours. -/
theorem C89_nodata_drains_partial (c e : Cell) (hc : InGrid w h c) (he : InGrid w h e) (hce : Adj .D8 c e)
    (hn : topo e = nd) (hle : nd ≤ topo c) : f.wtd c = 0 := by
  obtain ⟨k1, _, k3⟩ := C89_water_partial bq q pq pq' os parts eps w h topo nd lvl wtd0 hq hos hp heps h32 hwet h00 hland
    f hf c hc
  by_contra hne
  have hpos := lt_of_le_of_ne k1 (Ne.symm hne)
  obtain ⟨x, hx, hle'⟩ := k3 hpos [c, e] e rfl (by simpa using hce) (by simp [hc, he]) rfl (Or.inl hn)
  simp only [List.mem_cons, List.not_mem_nil, or_false] at hx
  rcases hx with rfl | rfl
  · linarith
  · linarith

/-- C89 (refuted): NoData cells do not stay NoData: the output keeps the NoData value of the topography but a
NoData cell is saved as 0. -/
theorem C89_nodata_lost_refuted (hnd : nd ≠ 0) (c : Cell) (hc : InGrid w h c) (hn : topo c = nd) :
    f.wtd c ≠ nd ∧ f.surface c ≠ nd := by
  obtain ⟨k1, k2⟩ := (C89_surface_partial bq q pq pq' os parts eps w h topo nd lvl wtd0 hq hos hp heps h32 hwet h00 hland
    f hf c hc).2 hn
  rw [k1, k2]
  exact ⟨hnd.symm, hnd.symm⟩

end

/-! ### Concrete runs -/

/-- The tool on a one-row raster: the two rasters and the water in the ocean; `none` if it does not save. -/
def toolRow (n : Nat) (topo : List ℚ) (nd lvl : ℚ) (wtd : List ℚ) : Option (List ℚ × List ℚ × ℚ) :=
  match rdFillSpillMerge (lifo Cell) (fifo Cell) lifoPQ zPQ outletVec [allCells n 1] (1/1000000) n 1 (pitRow topo) nd lvl
      (pitRow wtd) with
  | .saved f => some ((List.range n).map (fun i : Nat => f.wtd ((i : Int), 0)),
      (List.range n).map (fun i : Nat => f.surface ((i : Int), 0)), f.sea)
  | _ => none

/-- A sea at level 0, two joined basins, a wall and a third basin at the right edge. -/
example : toolRow 7 [0, 10, 1, 5, 1, 20, 1] (-9999) 0 [4, 0, 16, 0, 0, 0, 3] =
    some ([0, 0, 20/3, 8/3, 20/3, 0, 3], [0, 10, 23/3, 23/3, 23/3, 20, 4], 0) := by decide +kernel

/-- A NoData value below the terrain: the basin next to a NoData cell empties into it. -/
example : toolRow 4 [0, 7, 2, -9999] (-9999) 0 [0, 0, 9, 0] = some ([0, 0, 0, 0], [0, 7, 2, 0], 9) := by decide +kernel

/-- C89 (refuted): NoData cells are ocean, but one whose NoData value lies above the terrain is a wall: the water stands five
units deep beside it. -/
theorem C89_nodata_wall_refuted :
    toolRow 4 [0, 7, 2, 9999] 9999 0 [0, 0, 9, 0] = some ([0, 0, 5, 0], [0, 7, 7, 0], 4) := by decide +kernel

/-- C89 (refuted): a top-left land pit keeps its five units of water, two above its outlet. -/
theorem C89_corner_refuted : toolRow 4 [1, 3, 2, 0] (-9999) 0 [5, 0, 0, 0] = some ([5, 0, 0, 0], [6, 3, 2, 0], 0) := by
  decide +kernel

/-- C89 (refuted): with ground that is not saturated the tool can fail. -/
theorem C89_unsaturated_refuted : toolRow 7 [0, 10, 1, 5, 1, 20, 1] (-9999) 0 [0, 0, -10, 0, 12, 0, 0] = none := by
  decide +kernel

/-- The hypotheses of the theorems are met by the first raster. -/
example : ∃ f, rdFillSpillMerge (lifo Cell) (fifo Cell) lifoPQ zPQ outletVec [allCells 7 1] (1/1000000) 7 1
      (pitRow [0, 10, 1, 5, 1, 20, 1]) (-9999) 0 (pitRow [4, 0, 16, 0, 0, 0, 3]) = .saved f ∧
    StandsStill 7 1 (pitRow [0, 10, 1, 5, 1, 20, 1]) f.wtd (2 * (1/1000000)) := by
  have hx : ∀ c, InGrid 7 1 c → c = (0, 0) ∨ c = (1, 0) ∨ c = (2, 0) ∨ c = (3, 0) ∨ c = (4, 0) ∨ c = (5, 0) ∨ c = (6, 0) := by
    rintro ⟨x, y⟩ ⟨h1, h2, h3, h4⟩
    simp only at h1 h2 h3 h4
    have : y = 0 := by omega
    subst this
    have : x = 0 ∨ x = 1 ∨ x = 2 ∨ x = 3 ∨ x = 4 ∨ x = 5 ∨ x = 6 := by omega
    rcases this with rfl | rfl | rfl | rfl | rfl | rfl | rfl <;> simp
  have hsea : AtSea 7 1 (pitRow [0, 10, 1, 5, 1, 20, 1]) (-9999) 0 (0, 0) :=
    Or.inr ⟨(0, 0), by decide +kernel, by decide +kernel, .refl⟩
  have hland : ¬ AtSea 7 1 (pitRow [0, 10, 1, 5, 1, 20, 1]) (-9999) 0 (1, 0) := by
    rintro (k | ⟨e, _, he, k⟩)
    · revert k; decide +kernel
    · rcases Relation.ReflTransGen.cases_tail k with k | ⟨b, _, _, _, k⟩
      · rw [← k] at he; revert he; decide +kernel
      · revert k; decide +kernel
  have hyp := And.intro hsea hland
  have hwet : ∀ c, InGrid 7 1 c → ¬ AtSea 7 1 (pitRow [0, 10, 1, 5, 1, 20, 1]) (-9999) 0 c →
      (0 : ℚ) ≤ pitRow [4, 0, 16, 0, 0, 0, 3] c := by
    intro c hc _
    rcases hx c hc with rfl | rfl | rfl | rfl | rfl | rfl | rfl <;> decide +kernel
  have hos : ∀ s, getDHFlood lifoPQ 7 1 .D8 (pitRow [0, 10, 1, 5, 1, 20, 1])
      (toolLabels (lifo Cell) 7 1 (pitRow [0, 10, 1, 5, 1, 20, 1]) (-9999) 0) = some s → IsOutletVec s (outletVec s) :=
    fun s hs => C61_outlets_exist _ _ _ _ _ _ s hs
  have hl : ∃ a b, InGrid 7 1 a ∧ InGrid 7 1 b ∧ Adj .D8 a b ∧ AtSea 7 1 (pitRow [0, 10, 1, 5, 1, 20, 1]) (-9999) 0 a ∧
      ¬ AtSea 7 1 (pitRow [0, 10, 1, 5, 1, 20, 1]) (-9999) 0 b :=
    ⟨(0, 0), (1, 0), by decide +kernel, by decide +kernel, by decide +kernel, hsea, hland⟩
  obtain ⟨f, hf⟩ := C89_saves_partial (lifo Cell) (fifo Cell) lifoPQ zPQ outletVec [allCells 7 1] (1/1000000) 7 1
    (pitRow [0, 10, 1, 5, 1, 20, 1]) (-9999) 0 (pitRow [4, 0, 16, 0, 0, 0, 3]) lifoPQ_lifo hos (by simp) (by norm_num)
    (by norm_num) hwet (Or.inl hsea) hl
  exact ⟨f, hf, C89_still_partial (lifo Cell) (fifo Cell) lifoPQ zPQ outletVec [allCells 7 1] (1/1000000) 7 1
    (pitRow [0, 10, 1, 5, 1, 20, 1]) (-9999) 0 (pitRow [4, 0, 16, 0, 0, 0, 3]) lifoPQ_lifo hos (by simp) (by norm_num)
    (by norm_num) hwet (Or.inl hsea) hl f hf⟩

end RichDEM
