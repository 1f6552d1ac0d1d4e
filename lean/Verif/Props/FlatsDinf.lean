/-
Property theorems C85 (resolve_flats_barnes_dinf: flat resolution on D-infinity angles).
-/
import Verif.Flats.FlowFlatsDinf
import Verif.Props.Dinf
import Verif.Props.FlowFlats

namespace RichDEM

open Real Relation

/-! ### Specification -/

/-- At angle `f` (in eighths of a turn, anticlockwise from east), cell `p` sends a share of its flow
to the neighbouring position `b`. -/
def DinfGives (f : ℝ) (p b : Cell) : Prop := ∃ k < 8, dinfShare f k ≠ 0 ∧ nbr .D8 p (octDir k) = b

section
variable (w h : Nat) (dem : Cell → ℝ) (nd : ℝ)

/-- A data cell to which `dinf_flow_directions` gives angle 0, which the flat resolution takes for
a cell without flow. -/
def ZeroAngle (c : Cell) : Prop :=
  InGrid w h c ∧ dem c ≠ nd ∧ dinfFlowDirections w h dem nd c = 0

/-- A data cell with another angle. -/
def HasAngle (c : Cell) : Prop :=
  InGrid w h c ∧ dem c ≠ nd ∧ dinfFlowDirections w h dem nd c ≠ 0

/-- A cell of angle 0 in the same region of constant elevation as a cell with another angle. -/
def DinfDrainable (c : Cell) : Prop :=
  ZeroAngle w h dem nd c ∧ ∃ o, HasAngle w h dem nd o ∧ SameRegion w h dem c o

/-! ### Lemmas -/

/-- The receivers of an angle within facet `n`. -/
theorem facet_receivers (P : Cell → Prop) (p : Cell) (n : Nat) (hn : n < 8) (t : ℝ)
    (ht : (t = 0 ∧ P (dinfE1 p n)) ∨ (t = 1 ∧ P (dinfE2 p n)) ∨
      (0 < t ∧ t < 1 ∧ P (dinfE1 p n) ∧ P (dinfE2 p n))) (b : Cell)
    (hb : DinfGives (2 * (dinfAc n : ℝ) + (dinfAf n : ℝ) * t) p b) : P b := by
  obtain ⟨k, hk8, hsh, hnb⟩ := hb
  have nat : ∀ i : Int, i % 8 = (k : Int) → (i % 8).toNat = k := by intro i hi; omega
  obtain ⟨k1, k2, k3, k4, k5⟩ := dinf_facet_consts n hn
  rcases ht with ⟨rfl, hlow⟩ | ⟨rfl, hlow⟩ | ⟨t0, t1, hl1, hl2⟩
  · have := dinfShare_int (2 * dinfAc n) k (by push_cast; simpa using hsh)
    have hcn := dinf_corner1 p n hn
    rw [nat _ this, hnb] at hcn
    rw [hcn]; exact hlow
  · have := dinfShare_int (2 * dinfAc n + dinfAf n) k (by push_cast; simpa using hsh)
    have hcn := dinf_corner2 p n hn
    rw [nat _ this, hnb] at hcn
    rw [hcn]; exact hlow
  · have hor : (2 * dinfAc n) % 8 = (k : Int) ∨ (2 * dinfAc n + dinfAf n) % 8 = (k : Int) := by
      rcases k5 with k5 | k5
      · rw [k5] at hsh k4 ⊢
        exact dinfShare_mid (2 * dinfAc n) _ (by push_cast; linarith) (by push_cast; linarith)
          k1 (by omega) k hsh
      · rw [k5] at hsh k3 ⊢
        have := dinfShare_mid (2 * dinfAc n + -1) _ (by push_cast; linarith) (by push_cast; linarith)
          k3 (by omega) k hsh
        rcases this with e | e
        · exact .inr e
        · left; rw [show 2 * dinfAc n + -1 + 1 = 2 * dinfAc n by ring] at e; exact e
    rcases hor with e | e
    · have hcn := dinf_corner1 p n hn
      rw [nat _ e, hnb] at hcn
      rw [hcn]; exact hl1
    · have hcn := dinf_corner2 p n hn
      rw [nat _ e, hnb] at hcn
      rw [hcn]; exact hl2

theorem dinfE1_adj (c : Cell) : ∀ n < 8, Adj .D8 c (dinfE1 c n) := by
  intro n hn
  rw [← dinf_corner1 c n hn]
  have key : ∀ n < 8, octDir ((2 * dinfAc n) % 8).toNat ∈ dirs .D8 := by decide
  exact adj_iff_nbr.2 ⟨_, key n hn, rfl⟩

theorem dinfE2_adj (c : Cell) : ∀ n < 8, Adj .D8 c (dinfE2 c n) := by
  intro n hn
  rw [← dinf_corner2 c n hn]
  have key : ∀ n < 8, octDir ((2 * dinfAc n + dinfAf n) % 8).toNat ∈ dirs .D8 := by decide
  exact adj_iff_nbr.2 ⟨_, key n hn, rfl⟩

theorem maskedBest_spec (mask labels : Cell → Int) (c : Cell) :
    (maskedBest mask labels c).n = none ∨ ∃ n < 8, (maskedBest mask labels c).n = some n ∧
      labels (dinfE1 c n) = labels c ∧ labels (dinfE2 c n) = labels c ∧
      ∃ t : ℝ, (maskedBest mask labels c).r / (π / 4) = t ∧
      ((t = 0 ∧ mask (dinfE1 c n) < mask c) ∨ (t = 1 ∧ mask (dinfE2 c n) < mask c) ∨
       (0 < t ∧ t < 1 ∧ mask (dinfE1 c n) < mask c ∧ mask (dinfE2 c n) < mask c)) := by
  have hpi := pi_big
  have h1 : 0 ≤ (maskedBest mask labels c).s ∧ ((maskedBest mask labels c).n = none ∨
      ∃ n < 8, (maskedBest mask labels c).n = some n ∧
      labels (dinfE1 c n) = labels c ∧ labels (dinfE2 c n) = labels c ∧
      0 < (maskedBest mask labels c).s ∧
      ((maskedBest mask labels c).r, (maskedBest mask labels c).s) =
        dinfRS (mask c : ℝ) (mask (dinfE1 c n) : ℝ) (mask (dinfE2 c n) : ℝ)) := by
    unfold maskedBest
    refine foldl_inv' (P := fun b : DFacet => 0 ≤ b.s ∧ (b.n = none ∨ ∃ n < 8, b.n = some n ∧
      labels (dinfE1 c n) = labels c ∧ labels (dinfE2 c n) = labels c ∧ 0 < b.s ∧
      (b.r, b.s) = dinfRS (mask c : ℝ) (mask (dinfE1 c n) : ℝ) (mask (dinfE2 c n) : ℝ))) _ _ ?_
      ⟨le_refl _, .inl rfl⟩
    intro b n hn hb
    simp only [maskedFacets, List.mem_filter, List.mem_range, Bool.and_eq_true, decide_eq_true_eq] at hn
    unfold dinfFacetStep
    simp only
    split
    · rename_i hlt
      have := lt_of_le_of_lt hb.1 hlt
      exact ⟨this.le, .inr ⟨n, hn.1, rfl, hn.2.1, hn.2.2, this, rfl⟩⟩
    · exact hb
  rcases h1.2 with h2 | ⟨n, hn8, hn, hl1, hl2, hs, hrs⟩
  · exact .inl h2
  · right
    refine ⟨n, hn8, hn, hl1, hl2, _, rfl, ?_⟩
    have hr : (maskedBest mask labels c).r =
      (dinfRS (mask c : ℝ) (mask (dinfE1 c n) : ℝ) (mask (dinfE2 c n) : ℝ)).1 := by rw [← hrs]
    have hs' : (maskedBest mask labels c).s =
      (dinfRS (mask c : ℝ) (mask (dinfE1 c n) : ℝ) (mask (dinfE2 c n) : ℝ)).2 := by rw [← hrs]
    rw [hs'] at hs
    have hp4 : (0 : ℝ) < π / 4 := by linarith
    rcases dinfRS_spec _ _ _ hs with ⟨h1, h2⟩ | ⟨h1, h2⟩ | ⟨h1, h2, h3, h4⟩
    · left; rw [hr, h1]; exact ⟨by simp, by exact_mod_cast h2⟩
    · right; left; rw [hr, h1]; exact ⟨div_self hp4.ne', by exact_mod_cast h2⟩
    · right; right; rw [hr]
      exact ⟨div_pos h1 hp4, by rw [div_lt_one hp4]; exact h2, by exact_mod_cast h3, by exact_mod_cast h4⟩

/-- Where `dinf_masked_FlowDir` points, if it finds a facet or a neighbour. -/
theorem dinfMasked_receivers (mask labels : Cell → Int) (c : Cell) (hn : ∃ b, Adj .D8 c b ∧
    labels b = labels c ∧ mask b < mask c) (b : Cell)
    (hb : DinfGives (dinfMaskedFlowDir mask labels c) c b) :
    Adj .D8 c b ∧ labels b = labels c ∧ mask b < mask c := by
  have hpi := pi_big
  unfold dinfMaskedFlowDir at hb
  rcases maskedBest_spec mask labels c with h1 | ⟨n, hn8, h1, hl1, hl2, t, ht, hc⟩
  · rw [h1] at hb
    simp only at hb
    obtain ⟨b', hb', hl, hm⟩ := hn
    obtain ⟨n', hn', rfl⟩ := adj_iff_nbr.1 hb'
    cases hf : maskedFallback mask labels c with
    | none =>
      have := List.find?_eq_none.1 hf n' hn'
      simp [hl, hm] at this
    | some n =>
      rw [hf] at hb
      simp only at hb
      have hp := List.find?_some hf
      have hm' := List.mem_of_find?_eq_some hf
      simp only [Bool.and_eq_true, decide_eq_true_eq] at hp
      obtain ⟨k, hk8, hsh, rfl⟩ := hb
      have e := dinfShare_int _ k hsh
      have key : ∀ n ∈ dirs .D8, ∀ k < 8, d8ToDinf n % 8 = ((k : Nat) : Int) → octDir k = n := by decide
      rw [key n hm' k hk8 e]
      exact ⟨adj_iff_nbr.2 ⟨n, hm', rfl⟩, hp.1, hp.2⟩
  · rw [h1] at hb
    simp only at hb
    have e : ((dinfAf n : ℝ) * (maskedBest mask labels c).r + (dinfAc n : ℝ) * π / 2) / (π / 4) =
        2 * (dinfAc n : ℝ) + (dinfAf n : ℝ) * t := by
      rw [← ht]; field_simp; ring
    rw [e] at hb
    refine facet_receivers (fun b => Adj .D8 c b ∧ labels b = labels c ∧ mask b < mask c) c n hn8 t ?_ b hb
    rcases hc with ⟨h2, h3⟩ | ⟨h2, h3⟩ | ⟨h2, h3, h4, h5⟩
    · exact .inl ⟨h2, dinfE1_adj c n hn8, hl1, h3⟩
    · exact .inr (.inl ⟨h2, dinfE2_adj c n hn8, hl2, h3⟩)
    · exact .inr (.inr ⟨h2, h3, ⟨dinfE1_adj c n hn8, hl1, h4⟩, ⟨dinfE2_adj c n hn8, hl2, h5⟩⟩)

/-- A cell with no such neighbour keeps angle 0. -/
theorem dinfMasked_none (mask labels : Cell → Int) (c : Cell)
    (hn : ∀ b, Adj .D8 c b → labels b = labels c → ¬ mask b < mask c) :
    dinfMaskedFlowDir mask labels c = 0 := by
  unfold dinfMaskedFlowDir
  rcases maskedBest_spec mask labels c with h1 | ⟨n, hn8, h1, hl1, hl2, t, ht, hc⟩
  · rw [h1]
    have : maskedFallback mask labels c = none := by
      unfold maskedFallback
      rw [List.find?_eq_none]
      intro n hn'
      simp only [Bool.and_eq_true, decide_eq_true_eq, not_and]
      exact hn _ (adj_iff_nbr.2 ⟨n, hn', rfl⟩)
    rw [this]
  · exfalso
    rcases hc with ⟨_, h3⟩ | ⟨_, h3⟩ | ⟨_, _, h4, _⟩
    · exact hn _ (dinfE1_adj c n hn8) hl1 h3
    · exact hn _ (dinfE2_adj c n hn8) hl2 h3
    · exact hn _ (dinfE1_adj c n hn8) hl1 h4

theorem dinfCode_zero (a : ℝ) : dinfCode a = 0 ↔ a = 0 := by
  unfold dinfCode FLOWDIR_NO_DATA
  split
  · rename_i e; rw [e]; norm_num
  split
  · simpa
  · simpa

theorem dinfCode_nd (a : ℝ) : dinfCode a = FLOWDIR_NO_DATA ↔ a = -1 := by
  unfold dinfCode FLOWDIR_NO_DATA
  split
  · simpa
  split
  · rename_i e; rw [e]; norm_num
  · rename_i e _; simpa using e

/-- The system the mask is built from. -/
theorem dinfSys : FlatSys w h dem (ZeroAngle w h dem nd) (HasAngle w h dem nd)
    (FdHigh w h dem (fun c => dinfCode (dinfFlowDirections w h dem nd c)))
    (fun c => dinfCode (dinfFlowDirections w h dem nd c) == 0)
    (fdLow w h dem (fun c => dinfCode (dinfFlowDirections w h dem nd c)))
    (fdHigh w h dem (fun c => dinfCode (dinfFlowDirections w h dem nd c))) := by
  have e1 : FdFlat w h (fun c => dinfCode (dinfFlowDirections w h dem nd c)) = ZeroAngle w h dem nd := by
    funext c
    apply propext
    unfold FdFlat ZeroAngle
    constructor
    · rintro ⟨h1, h2⟩
      rw [dinfCode_zero] at h2
      refine ⟨h1, fun hd => ?_, h2⟩
      have := (dinfDirs_nd w h dem nd c h1).2 hd
      rw [h2] at this; norm_num at this
    · rintro ⟨h1, _, h2⟩
      exact ⟨h1, (dinfCode_zero _).2 h2⟩
  have e2 : FdOut w h (fun c => dinfCode (dinfFlowDirections w h dem nd c)) = HasAngle w h dem nd := by
    funext c
    apply propext
    unfold FdOut HasAngle
    constructor
    · rintro ⟨h1, h2, h3⟩
      exact ⟨h1, fun hd => h3 ((dinfCode_nd _).2 ((dinfDirs_nd w h dem nd c h1).2 hd)),
        fun e => h2 ((dinfCode_zero _).2 e)⟩
    · rintro ⟨h1, h2, h3⟩
      exact ⟨h1, fun e => h3 ((dinfCode_zero _).1 e),
        fun e => h2 ((dinfDirs_nd w h dem nd c h1).1 ((dinfCode_nd _).1 e))⟩
  rw [← e1, ← e2]
  apply fdSys
  intro a b ha hb hab hz hn
  rw [dinfCode_zero] at hz
  rw [dinfCode_nd, dinfDirs_nd w h dem nd b hb, hab] at hn
  rw [(dinfDirs_nd w h dem nd a ha).2 hn] at hz
  norm_num at hz

/-- The mask and the labels. -/
noncomputable def dinfMask : (Cell → Int) × (Cell → Int) :=
  resolveFlatsBarnes w h dem (fun c => dinfCode (dinfFlowDirections w h dem nd c))

variable {w h dem nd}

theorem dinf_interior {c : Cell} (hc : InGrid w h c) :
    (1 ≤ c.1 ∧ c.1 < (w : Int) - 1 ∧ 1 ≤ c.2 ∧ c.2 < (h : Int) - 1) ↔ ¬ OnEdge w h c := by
  have := isEdgeCell_iff hc
  obtain ⟨h1, h2, h3, h4⟩ := hc
  unfold OnEdge InGrid
  constructor
  · rintro ⟨a, b, c', d⟩ ⟨_, e⟩; omega
  · intro hn
    have : ¬ (c.1 = 0 ∨ c.2 = 0 ∨ c.1 = (w : Int) - 1 ∨ c.2 = (h : Int) - 1) := fun e =>
      hn ⟨⟨h1, h2, h3, h4⟩, by omega⟩
    omega

theorem dinf_resolved_eq {c : Cell} (hc : InGrid w h c) (he : ¬ OnEdge w h c)
    (hz : dinfFlowDirections w h dem nd c = 0) :
    resolveFlatsBarnesDinf w h dem nd c =
      dinfMaskedFlowDir (dinfMask w h dem nd).1 (dinfMask w h dem nd).2 c := by
  have hm : 0 ≤ (dinfMask w h dem nd).1 c := (core_zero_elsewhere (dinfSys w h dem nd) c).1
  show dinfFlowFlats w h (dinfMask w h dem nd).1 (dinfMask w h dem nd).2 _ c = _
  unfold dinfFlowFlats
  rw [if_pos ((dinf_interior hc).2 he), if_neg (by omega), if_pos hz]

/-! ### C85 -/

/-- C85: NoData cells, cells that had a non-zero angle and the cells of the raster's edge keep
their angle. -/
theorem C85_keeps (c : Cell) (hc : InGrid w h c)
    (hk : dem c = nd ∨ dinfFlowDirections w h dem nd c ≠ 0 ∨ OnEdge w h c) :
    resolveFlatsBarnesDinf w h dem nd c = dinfFlowDirections w h dem nd c := by
  have hcases : dinfFlowDirections w h dem nd c ≠ 0 ∨ OnEdge w h c := by
    rcases hk with e | e
    · left; rw [(dinfDirs_nd w h dem nd c hc).2 e]; norm_num
    · exact e
  show dinfFlowFlats w h (dinfMask w h dem nd).1 (dinfMask w h dem nd).2 _ c = _
  unfold dinfFlowFlats
  rcases hcases with e | e
  · rw [if_neg e]; split <;> simp
  · rw [if_neg (fun hi => (dinf_interior hc).1 hi e)]

/-- What the mask does for an interior cell of angle 0 that can be drained. -/
theorem dinf_step {c b : Cell} (hd : DinfDrainable w h dem nd c) (he : ¬ OnEdge w h c)
    (hb : DinfGives (resolveFlatsBarnesDinf w h dem nd c) c b) :
    EqStep w h dem c b ∧ (dinfMask w h dem nd).1 b < (dinfMask w h dem nd).1 c := by
  have hs := dinfSys w h dem nd
  rw [dinf_resolved_eq hd.1.1 he hd.1.2.2] at hb
  have hlab : 0 < (dinfMask w h dem nd).2 c := (core_drainable hs c hd.1).2 hd
  obtain ⟨b', h1, h2, h3, h4, h5, _⟩ := core_descends hs c hd
  obtain ⟨k1, k2, k3⟩ := dinfMasked_receivers _ _ c ⟨b', h1, h4, h5⟩ b hb
  have hsr := (core_same_label hs c b hlab).1 k2.symm
  exact ⟨⟨hd.1.1, hsr.inGrid hd.1.1, k1, hsr.elev⟩, k3⟩

/-- C85: an interior cell of angle 0 in a region of constant elevation that contains a cell with
another angle is given an angle all of whose receivers are neighbours of the raster in that
region. -/
theorem C85_receivers (c b : Cell) (hd : DinfDrainable w h dem nd c) (he : ¬ OnEdge w h c)
    (hb : DinfGives (resolveFlatsBarnesDinf w h dem nd c) c b) : EqStep w h dem c b :=
  (dinf_step hd he hb).1

theorem dinfMasked_range (mask labels : Cell → Int) (c : Cell) :
    0 ≤ dinfMaskedFlowDir mask labels c ∧ dinfMaskedFlowDir mask labels c ≤ 8 := by
  have hpi := pi_big
  unfold dinfMaskedFlowDir
  rcases maskedBest_spec mask labels c with h1 | ⟨n, hn8, h1, hl1, hl2, t, ht, hc⟩
  · rw [h1]
    simp only
    cases hf : maskedFallback mask labels c with
    | none => norm_num
    | some n =>
      have hm := List.mem_of_find?_eq_some hf
      have key : ∀ n ∈ dirs .D8, 0 ≤ d8ToDinf n ∧ d8ToDinf n ≤ 8 := by decide
      obtain ⟨a, b⟩ := key n hm
      simp only
      exact ⟨by exact_mod_cast a, by exact_mod_cast b⟩
  · rw [h1]
    simp only
    have e : ((dinfAf n : ℝ) * (maskedBest mask labels c).r + (dinfAc n : ℝ) * π / 2) / (π / 4) =
        2 * (dinfAc n : ℝ) + (dinfAf n : ℝ) * t := by
      rw [← ht]; field_simp; ring
    rw [e]
    obtain ⟨k1, k2, k3, k4, k5⟩ := dinf_facet_consts n hn8
    have c1 : (0 : ℝ) ≤ 2 * (dinfAc n : ℝ) := by exact_mod_cast k1
    have c2 : 2 * (dinfAc n : ℝ) ≤ 8 := by exact_mod_cast k2
    have c3 : (0 : ℝ) ≤ 2 * (dinfAc n : ℝ) + (dinfAf n : ℝ) := by exact_mod_cast k3
    have c4 : 2 * (dinfAc n : ℝ) + (dinfAf n : ℝ) ≤ 8 := by exact_mod_cast k4
    have ht01 : 0 ≤ t ∧ t ≤ 1 := by
      rcases hc with ⟨rfl, _⟩ | ⟨rfl, _⟩ | ⟨h1, h2, _⟩
      · norm_num
      · norm_num
      · exact ⟨h1.le, h2.le⟩
    obtain ⟨t0, t1⟩ := ht01
    rcases k5 with k5 | k5
    · have k5' : (dinfAf n : ℝ) = 1 := by rw [k5]; norm_num
      rw [k5'] at c3 c4 ⊢
      exact ⟨by linarith, by linarith⟩
    · have k5' : (dinfAf n : ℝ) = -1 := by rw [k5]; norm_num
      rw [k5'] at c3 c4 ⊢
      exact ⟨by linarith, by linarith⟩

/-- C85: the result is -1 on NoData cells and an angle between 0 and a full turn elsewhere. -/
theorem C85_range (c : Cell) (hc : InGrid w h c) :
    (dem c = nd → resolveFlatsBarnesDinf w h dem nd c = -1) ∧
    (dem c ≠ nd → 0 ≤ resolveFlatsBarnesDinf w h dem nd c ∧ resolveFlatsBarnesDinf w h dem nd c ≤ 8) := by
  constructor
  · intro hd
    rw [C85_keeps c hc (.inl hd)]
    exact (dinfDirs_nd w h dem nd c hc).2 hd
  · intro hd
    by_cases hz : dinfFlowDirections w h dem nd c = 0
    · by_cases he : OnEdge w h c
      · rw [C85_keeps c hc (.inr (.inr he)), hz]; norm_num
      · rw [dinf_resolved_eq hc he hz]; exact dinfMasked_range _ _ c
    · rw [C85_keeps c hc (.inr (.inl hz))]
      exact C58_angle_range w h dem nd c hc hd

theorem dinfGives_exists (f : ℝ) (h0 : 0 ≤ f) (h8 : f ≤ 8) (p : Cell) : ∃ b, DinfGives f p b := by
  have hfl : 0 ≤ ⌊f⌋ := Int.floor_nonneg.2 h0
  by_cases hf : Int.fract f < 1 / 1000000
  · refine ⟨_, (⌊f⌋ % 8).toNat, by omega, ?_, rfl⟩
    unfold dinfShare
    rw [if_pos hf, if_pos (by omega)]; norm_num
  · have h7 : ⌊f⌋ < 8 := by
      by_contra hge
      have h1 : (8 : ℝ) ≤ ⌊f⌋ := by exact_mod_cast not_lt.1 hge
      have h2 : f = ((8 : Int) : ℝ) := by
        have := Int.floor_le f; push_cast; linarith
      rw [h2, Int.fract_intCast] at hf
      norm_num at hf
    refine ⟨_, ⌊f⌋.toNat, by omega, ?_, rfl⟩
    unfold dinfShare
    rw [if_neg hf, if_pos (by omega)]
    intro e
    rw [e] at hf
    norm_num at hf

/-- C85: every resolved cell has a receiver in its flat. -/
theorem C85_has_receiver (c : Cell) (hd : DinfDrainable w h dem nd c) (he : ¬ OnEdge w h c) :
    ∃ b, DinfGives (resolveFlatsBarnesDinf w h dem nd c) c b ∧ EqStep w h dem c b := by
  obtain ⟨h0, h8⟩ := (C85_range (dem := dem) c hd.1.1).2 hd.1.2.1
  obtain ⟨b, hb⟩ := dinfGives_exists _ h0 h8 c
  exact ⟨b, hb, C85_receivers c b hd he hb⟩

/-- C85: an interior cell of angle 0 whose region contains no cell with another angle keeps
angle 0. -/
theorem C85_unresolved (c : Cell) (hz : ZeroAngle w h dem nd c) (hn : ¬ DinfDrainable w h dem nd c) :
    resolveFlatsBarnesDinf w h dem nd c = 0 := by
  have hs := dinfSys w h dem nd
  by_cases he : OnEdge w h c
  · rw [C85_keeps c hz.1 (.inr (.inr he))]; exact hz.2.2
  · rw [dinf_resolved_eq hz.1 he hz.2.2]
    apply dinfMasked_none
    intro b _ _ hlt
    have h0 := (core_zero_elsewhere hs b).1
    have h1 := (core_zero_elsewhere hs c).2.1 (by
      show (dinfMask w h dem nd).1 c ≠ 0
      have : 0 ≤ (dinfMask w h dem nd).1 b := h0
      omega)
    rcases h1 with h1 | h1
    · exact hs.disj c hz h1.1
    · exact hn h1

/-- A step of the resolved flow: `p` has an angle, given or resolved, and sends a share to `b`. -/
def ResolvedFlow (w h : Nat) (dem : Cell → ℝ) (nd : ℝ) (p b : Cell) : Prop :=
  (HasAngle w h dem nd p ∨ DinfDrainable w h dem nd p) ∧ InGrid w h b ∧
    DinfGives (resolveFlatsBarnesDinf w h dem nd p) p b

theorem hasAngle_down {p b : Cell} (hp : HasAngle w h dem nd p) (hb : InGrid w h b)
    (hg : DinfGives (dinfFlowDirections w h dem nd p) p b) : dem b < dem p := by
  by_cases hn : dinfFlowDirections w h dem nd b = -1
  · -- the same argument as for data receivers
    obtain ⟨h1, h2, h3⟩ := hp
    unfold dinfFlowDirections at hg h3
    rw [if_neg h2] at hg h3
    rcases dinf_angle w h dem p h1 with ⟨_, j, hj, e, hout⟩ | ⟨_, e⟩ | ⟨hne, n, hn, t, e, ht⟩
    · exfalso
      obtain ⟨k, hk8, hsh, rfl⟩ := hg
      rw [e] at hsh
      have := dinfShare_int (j : Int) k (by push_cast; exact hsh)
      have : j = k := by omega
      subst this
      exact hout hb
    · rw [e] at h3; simp at h3
    · rw [e] at hg
      exact facet_receivers (fun b => dem b < dem p) p n hn t ht b hg
  · obtain ⟨k, hk8, hsh, hnb⟩ := hg
    exact (C58_downhill w h dem nd p b ⟨⟨hp.1, fun e => hp.2.1 ((dinfDirs_nd w h dem nd p hp.1).1 e)⟩,
      ⟨hb, hn⟩, hp.2.2, k, by simpa using hk8, hsh, hnb⟩).2

/-- One step of the resolved flow goes downhill, or stays level and descends the mask. -/
theorem resolved_step {p b : Cell} (hr : ResolvedFlow w h dem nd p b) :
    dem b < dem p ∨ (EqStep w h dem p b ∧ DinfDrainable w h dem nd p ∧
      (dinfMask w h dem nd).1 b < (dinfMask w h dem nd).1 p) := by
  obtain ⟨h1 | h1, h2, h3⟩ := hr
  · left
    rw [C85_keeps p h1.1 (.inr (.inl h1.2.2))] at h3
    exact hasAngle_down h1 h2 h3
  · by_cases he : OnEdge w h p
    · exfalso
      rw [C85_keeps p h1.1.1 (.inr (.inr he)), h1.1.2.2] at h3
      obtain ⟨k, hk8, hsh, rfl⟩ := h3
      have := dinfShare_int (0 : Int) k (by simpa using hsh)
      have hk0 : k = 0 := by omega
      subst hk0
      rcases dinf_angle w h dem p h1.1.1 with ⟨_, j, hj, e, hout⟩ | ⟨hne, _⟩ | ⟨hne, _⟩
      · have hz := h1.1.2.2
        unfold dinfFlowDirections at hz
        rw [if_neg h1.1.2.1, e] at hz
        have : j = 0 := by exact_mod_cast hz
        subst this
        exact hout h2
      · exact hne he
      · exact hne he
    · obtain ⟨k1, k2⟩ := dinf_step h1 he h3
      exact .inr ⟨k1, h1, k2⟩

/-- C85: the resolved flow has no cycle, even if a resolved angle 0 is read as due east. -/
theorem C85_acyclic (c : Cell) : ¬ TransGen (ResolvedFlow w h dem nd) c c := by
  have key : ∀ a b, TransGen (ResolvedFlow w h dem nd) a b →
      dem b < dem a ∨ (dem b = dem a ∧ (dinfMask w h dem nd).1 b < (dinfMask w h dem nd).1 a) := by
    intro a b hab
    induction hab with
    | single h1 =>
      rcases resolved_step h1 with e | ⟨e1, _, e2⟩
      · exact .inl e
      · exact .inr ⟨e1.2.2.2, e2⟩
    | tail _ h1 ih =>
      rcases resolved_step h1 with e | ⟨e1, _, e2⟩
      · left
        rcases ih with i | ⟨i, _⟩
        · exact e.trans i
        · rw [← i]; exact e
      · rcases ih with i | ⟨i, j⟩
        · left; rw [e1.2.2.2]; exact i
        · right; exact ⟨e1.2.2.2.trans i, e2.trans j⟩
  intro hc
  rcases key c c hc with e | ⟨_, e⟩
  · exact lt_irrefl _ e
  · exact lt_irrefl _ e

/-- C85: so the raster that `dinf_upslope_area` receives has no cycle. -/
theorem C85_upslope_acyclic (c : Cell) :
    ¬ TransGen (DinfEdge w h (resolveFlatsBarnesDinf w h dem nd) (-1)) c c := by
  have key : ∀ a b, DinfEdge w h (resolveFlatsBarnesDinf w h dem nd) (-1) a b →
      ResolvedFlow w h dem nd a b := by
    rintro a b ⟨⟨h1, h2⟩, ⟨h3, _⟩, h4, k, hk, h5, h6⟩
    refine ⟨?_, h3, k, by simpa using hk, h5, h6⟩
    by_cases hd : dem a = nd
    · exfalso; apply h2
      rw [C85_keeps a h1 (.inl hd)]
      exact (dinfDirs_nd w h dem nd a h1).2 hd
    by_cases hz : dinfFlowDirections w h dem nd a = 0
    · right
      by_contra hn
      exact h4 (C85_unresolved a ⟨h1, hd, hz⟩ hn)
    · exact .inl ⟨h1, hd, hz⟩
  intro hc
  exact C85_acyclic c (TransGen.mono key c c hc)

/-- C85: no path of the resolved flow goes on for ever. -/
theorem C85_terminates (s : Nat → Cell) (hs : ∀ i, ResolvedFlow w h dem nd (s i) (s (i + 1))) : False := by
  have hin : ∀ i, InGrid w h (s i) := by
    intro i
    rcases (hs i).1 with e | e
    · exact e.1
    · exact e.1.1
  have htr : ∀ i j, i < j → TransGen (ResolvedFlow w h dem nd) (s i) (s j) := by
    intro i j hij
    induction j with
    | zero => omega
    | succ j ih =>
      rcases Nat.lt_succ_iff_lt_or_eq.1 hij with e | e
      · exact (ih e).tail (hs j)
      · subst e; exact .single (hs i)
  have hinj : Function.Injective s := by
    intro i j e
    by_contra hne
    rcases Nat.lt_or_gt_of_ne hne with g | g
    · have := htr i j g; rw [e] at this; exact C85_acyclic _ this
    · have := htr j i g; rw [e] at this; exact C85_acyclic _ this
  have hfin : Set.Finite (Set.range s) := by
    refine Set.Finite.subset (allCells w h).finite_toSet ?_
    rintro _ ⟨i, rfl⟩
    exact mem_allCells.2 (hin i)
  exact Set.infinite_range_of_injective hinj hfin

/-- C85: the flow of a drainable flat stays in that flat up to its first cell that had an angle
before (or that is on the right edge, where angle 0 leads off the raster). -/
theorem C85_leaves_flat (c b : Cell) (hd : DinfDrainable w h dem nd c) (he : ¬ OnEdge w h c)
    (hb : DinfGives (resolveFlatsBarnesDinf w h dem nd c) c b) :
    HasAngle w h dem nd b ∨ DinfDrainable w h dem nd b := by
  have hst := C85_receivers c b hd he hb
  have hs := dinfSys w h dem nd
  rcases hs.step c b hd.1 hst with k | k
  · obtain ⟨o, h1, h2⟩ := hd.2
    exact .inr ⟨k, o, h1, ReflTransGen.head hst.symm h2⟩
  · exact .inl k


/-- An interior cell without a lower neighbour has angle 0. -/
theorem zeroAngle_of_flat {c : Cell} (hc : InGrid w h c) (he : ¬ OnEdge w h c) (hd : dem c ≠ nd)
    (hn : ∀ b, Adj .D8 c b → ¬ dem b < dem c) : ZeroAngle w h dem nd c := by
  refine ⟨hc, hd, ?_⟩
  unfold dinfFlowDirections
  rw [if_neg hd]
  rcases dinf_angle w h dem c hc with ⟨e, _⟩ | ⟨_, e⟩ | ⟨_, n, hn8, t, _, e⟩
  · exact absurd e he
  · rw [e]; simp
  · exfalso
    rcases e with ⟨_, e⟩ | ⟨_, e⟩ | ⟨_, _, e, _⟩
    · exact hn _ (dinfE1_adj c n hn8) e
    · exact hn _ (dinfE2_adj c n hn8) e
    · exact hn _ (dinfE1_adj c n hn8) e

/-- The cells of the right edge, corners excepted, have angle 0. -/
theorem zeroAngle_right {c : Cell} (hc : InGrid w h c) (hd : dem c ≠ nd) (hw : 1 < w)
    (hx : c.1 = (w : Int) - 1) (hy : c.2 ≠ 0) (hy' : c.2 ≠ (h : Int) - 1) : ZeroAngle w h dem nd c := by
  refine ⟨hc, hd, ?_⟩
  unfold dinfFlowDirections dinfFlowDir
  have he : isEdgeCell w h c = true := (isEdgeCell_iff hc).2 ⟨hc, by omega⟩
  rw [if_neg hd, if_pos he, if_neg (by omega), if_neg (by omega), if_neg (by omega), if_neg (by omega),
    if_neg (by omega), if_pos hx]
  simp

end

/-! ### Where it fails -/

/-- A valley of two cells that drains over the right edge only. -/
def exEast : Cell → ℝ := fun c => if c = (1, 1) ∨ c = (1, 2) ∨ c = (2, 2) then 5 else 9

/-- C85 fails for flats that drain over the right edge: its cells carry angle 0 = NO_FLOW, so the
flat counts as closed.  Here cell (1,1) keeps angle 0, which read as an angle sends all its water
due east, 4 units uphill. -/
theorem C85_right_edge_refuted :
    ¬ OnEdge 3 4 (1, 1) ∧ SameRegion 3 4 exEast (1, 1) (2, 2) ∧ OnEdge 3 4 (2, 2) ∧
    resolveFlatsBarnesDinf 3 4 exEast (-1) (1, 1) = 0 ∧
    DinfGives (resolveFlatsBarnesDinf 3 4 exEast (-1) (1, 1)) (1, 1) (2, 1) ∧
    exEast (1, 1) < exEast (2, 1) := by
  have v : ∀ c, exEast c = 5 ∨ exEast c = 9 := by
    intro c; unfold exEast; split
    · exact .inl rfl
    · exact .inr rfl
  have nd : ∀ c, exEast c ≠ -1 := by
    intro c; rcases v c with e | e <;> rw [e] <;> norm_num
  have e11 : exEast (1, 1) = 5 := by unfold exEast; rw [if_pos (by decide)]
  have e12 : exEast (1, 2) = 5 := by unfold exEast; rw [if_pos (by decide)]
  have e22 : exEast (2, 2) = 5 := by unfold exEast; rw [if_pos (by decide)]
  have e21 : exEast (2, 1) = 9 := by unfold exEast; rw [if_neg (by decide)]
  have low : ∀ c b, exEast c = 5 → ¬ exEast b < exEast c := by
    intro c b e; rw [e]; rcases v b with e | e <;> rw [e] <;> norm_num
  have z11 : ZeroAngle 3 4 exEast (-1) (1, 1) :=
    zeroAngle_of_flat (by decide) (by decide) (nd _) (fun b _ => low _ b e11)
  have z12 : ZeroAngle 3 4 exEast (-1) (1, 2) :=
    zeroAngle_of_flat (by decide) (by decide) (nd _) (fun b _ => low _ b e12)
  have z22 : ZeroAngle 3 4 exEast (-1) (2, 2) :=
    zeroAngle_right (by decide) (nd _) (by decide) (by decide) (by decide) (by decide)
  have five : ∀ c, exEast c = 5 → ZeroAngle 3 4 exEast (-1) c := by
    intro c hc
    unfold exEast at hc
    split at hc
    · rename_i hh
      rcases hh with rfl | rfl | rfl
      · exact z11
      · exact z12
      · exact z22
    · norm_num at hc
  have hno : ¬ DinfDrainable 3 4 exEast (-1) (1, 1) := by
    rintro ⟨_, o, h1, h2⟩
    have := h2.elev
    rw [e11] at this
    exact h1.2.2 (five o this).2.2
  have hz := C85_unresolved (1, 1) z11 hno
  refine ⟨by decide, ?_, by decide, hz, ?_, ?_⟩
  · refine ReflTransGen.trans (.single (b := (1, 2)) ⟨by decide, by decide, by decide, ?_⟩)
      (.single ⟨by decide, by decide, by decide, ?_⟩)
    · rw [e11, e12]
    · rw [e12, e22]
  · rw [hz]
    refine ⟨0, by decide, ?_, by decide⟩
    unfold dinfShare
    simp
  · rw [e11, e21]; norm_num

/-- A step: two columns of height 5, then one of height 1. -/
def exStep : Cell → ℝ := fun c => if c.1 ≤ 1 then 5 else 1

theorem exStep_facets (n : Nat) (hn : n < 8) :
    (dinfRS (exStep (1, 1)) (exStep (dinfE1 (1, 1) n)) (exStep (dinfE2 (1, 1) n))).2 ≤ 4 := by
  have key : ∀ n < 8, ((dinfE1 (1, 1) n).1 ≤ 1 ∨ ¬ (dinfE2 (1, 1) n).1 ≤ 1) := by decide
  have hv := key n hn
  have e11 : exStep (1, 1) = 5 := by unfold exStep; rw [if_pos (by decide)]
  have h2 : (1 : ℝ) ≤ Real.sqrt 2 := Real.one_le_sqrt.2 (by norm_num)
  have sq : ∀ a : ℝ, a ≤ 16 → Real.sqrt a ≤ 4 := by
    intro a ha; rw [Real.sqrt_le_left (by norm_num)]; nlinarith
  rw [e11]
  unfold dinfRS exStep
  simp only
  by_cases k1 : (dinfE1 (1, 1) n).1 ≤ 1 <;> by_cases k2 : (dinfE2 (1, 1) n).1 ≤ 1
  · rw [if_pos k1, if_pos k2]; split
    · norm_num
    split
    · norm_num
    · exact sq _ (by norm_num)
  · rw [if_pos k1, if_neg k2]; split
    · norm_num
    split
    · show (5 - 1 : ℝ) / Real.sqrt 2 ≤ 4
      rw [div_le_iff₀ (by positivity)]; linarith
    · exact sq _ (by norm_num)
  · exact absurd hv (by tauto)
  · rw [if_neg k1, if_neg k2]; split
    · norm_num
    split
    · show (5 - 1 : ℝ) / Real.sqrt 2 ≤ 4
      rw [div_le_iff₀ (by positivity)]; linarith
    · exact sq _ (by norm_num)

theorem exStep_zero : ZeroAngle 3 3 exStep (-1) (1, 1) := by
  have hpi := pi_big
  have e11 : exStep (1, 1) = 5 := by unfold exStep; rw [if_pos (by decide)]
  refine ⟨by decide, by rw [e11]; norm_num, ?_⟩
  have first : dinfRS (exStep (1, 1)) (exStep (dinfE1 (1, 1) 0)) (exStep (dinfE2 (1, 1) 0)) = (0, 4) := by
    have a1 : exStep (dinfE1 (1, 1) 0) = 1 := by unfold exStep; rw [if_neg (by decide)]
    have a2 : exStep (dinfE2 (1, 1) 0) = 1 := by unfold exStep; rw [if_neg (by decide)]
    rw [e11, a1, a2]
    unfold dinfRS
    simp only
    have hat : atan2 (1 - 1) (5 - 1) = 0 := by
      unfold atan2; exact Complex.arg_eq_zero_iff.2 ⟨by norm_num, by norm_num⟩
    rw [hat, if_neg (lt_irrefl _), if_neg (by linarith)]
    congr 1
    rw [show ((5 : ℝ) - 1) * (5 - 1) + (1 - 1) * (1 - 1) = 4 * 4 by norm_num, Real.sqrt_mul_self (by norm_num)]
  have hbest : dinfBest exStep (1, 1) = { n := some 0, s := 4, r := 0 } := by
    unfold dinfBest
    rw [show List.range 8 = 0 :: [1, 2, 3, 4, 5, 6, 7] from rfl, List.foldl_cons]
    have h0 : dinfFacetStep exStep (1, 1) { n := none, s := 0, r := 0 } 0 =
        { n := some 0, s := 4, r := 0 } := by
      unfold dinfFacetStep
      simp only [first]
      rw [if_pos (by norm_num)]
    rw [h0]
    refine foldl_inv' (P := fun b : DFacet => b = { n := some 0, s := 4, r := 0 }) _ _ ?_ rfl
    rintro b n hn rfl
    unfold dinfFacetStep
    simp only
    rw [if_neg (not_lt.2 (exStep_facets n ?_))]
    simp only [List.mem_cons, List.not_mem_nil, or_false] at hn
    omega
  unfold dinfFlowDirections dinfFlowDir
  rw [if_neg (by rw [e11]; norm_num), if_neg (by decide), hbest]
  simp [dinfAf, dinfAc]

theorem exStep_drainable : DinfDrainable 3 3 exStep (-1) (1, 1) := by
  have e11 : exStep (1, 1) = 5 := by unfold exStep; rw [if_pos (by decide)]
  have e01 : exStep (0, 1) = 5 := by unfold exStep; rw [if_pos (by decide)]
  refine ⟨exStep_zero, (0, 1), ⟨by decide, by rw [e01]; norm_num, ?_⟩,
    .single ⟨by decide, by decide, by decide, by rw [e01, e11]⟩⟩
  unfold dinfFlowDirections dinfFlowDir
  have hpi := pi_big
  rw [if_neg (by rw [e01]; norm_num), if_pos (by decide), if_neg (by decide), if_neg (by decide),
    if_neg (by decide), if_neg (by decide), if_pos (by decide)]
  have : 4 * π / 4 / (π / 4) = 4 := by field_simp
  rw [this]; norm_num

/-- C85 fails for cells whose steepest descent is due east: their angle is 0 = NO_FLOW, so the flat
resolution overwrites it.  Here the east neighbour of (1,1) is 4 units lower and was its only
receiver; afterwards all receivers are level with (1,1). -/
theorem C85_east_overwritten_refuted :
    ¬ OnEdge 3 3 (1, 1) ∧ exStep (2, 1) < exStep (1, 1) ∧
    (∀ b, DinfGives (dinfFlowDirections 3 3 exStep (-1) (1, 1)) (1, 1) b ↔ b = (2, 1)) ∧
    ∀ b, DinfGives (resolveFlatsBarnesDinf 3 3 exStep (-1) (1, 1)) (1, 1) b →
      exStep b = exStep (1, 1) := by
  refine ⟨by decide, ?_, ?_, ?_⟩
  · unfold exStep; rw [if_neg (by decide), if_pos (by decide)]; norm_num
  · intro b
    rw [exStep_zero.2.2]
    constructor
    · rintro ⟨k, hk, h1, rfl⟩
      have := dinfShare_int (0 : Int) k (by simpa using h1)
      have hk0 : k = 0 := by omega
      subst hk0
      decide
    · rintro rfl
      refine ⟨0, by decide, ?_, by decide⟩
      unfold dinfShare
      simp
  · intro b hb
    exact (C85_receivers (1, 1) b exStep_drainable (by decide) hb).2.2.2

/-- The hypotheses of `C85_receivers` are met. -/
example : DinfDrainable 3 3 exStep (-1) (1, 1) ∧ ¬ OnEdge 3 3 (1, 1) := ⟨exStep_drainable, by decide⟩

end RichDEM
