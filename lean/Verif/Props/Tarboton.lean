/-
Property theorems C19: D-infinity.
-/
import Verif.Flow.Tarboton
import Verif.Props.MultiFlow
import Mathlib.Analysis.SpecialFunctions.Complex.Arg
import Mathlib.Analysis.Real.Pi.Bounds

namespace RichDEM

open Real

/-! ### Facets -/

theorem pi_big : (3 : ℝ) < π := Real.pi_gt_three

theorem atan2_quadrant {y x : ℝ} (h0 : 0 < atan2 y x) (h1 : atan2 y x < π / 2) : 0 < x ∧ 0 < y := by
  unfold atan2 at *
  have hz : (⟨x, y⟩ : ℂ) ≠ 0 := by
    intro e; rw [e, Complex.arg_zero] at h0; exact lt_irrefl _ h0
  have hre : 0 < x := by
    have := Complex.abs_arg_lt_pi_div_two_iff.1 (abs_lt.2 ⟨by linarith, h1⟩ : |Complex.arg ⟨x, y⟩| < π / 2)
    rcases this with h | h
    · exact h
    · exact absurd h hz
  have him : 0 ≤ y := Complex.arg_nonneg_iff.1 h0.le
  refine ⟨hre, him.lt_of_ne ?_⟩
  intro e
  have : Complex.arg ⟨x, y⟩ = 0 := Complex.arg_eq_zero_iff.2 ⟨hre.le, e.symm⟩
  rw [this] at h0; exact lt_irrefl _ h0

/-- What the slope and angle of a facet say about its two lower corners. -/
theorem facetRS_spec (e0 e1 e2 : ℝ) (hs : 0 < (facetRS e0 e1 e2).2) :
    ((facetRS e0 e1 e2).1 = 0 ∧ e1 < e0) ∨ ((facetRS e0 e1 e2).1 = π / 4 ∧ e2 < e0) ∨
    (0 < (facetRS e0 e1 e2).1 ∧ (facetRS e0 e1 e2).1 < π / 4 ∧ e1 < e0 ∧ e2 < e0) := by
  have hpi := pi_big
  unfold facetRS at *
  simp only at *
  by_cases h1 : atan2 (e1 - e2) (e0 - e1) < 1e-7
  · rw [if_pos h1] at hs ⊢; left; exact ⟨rfl, by linarith⟩
  · rw [if_neg h1] at hs ⊢
    by_cases h2 : π / 4 - 1e-7 < atan2 (e1 - e2) (e0 - e1)
    · rw [if_pos h2] at hs ⊢
      right; left
      refine ⟨rfl, ?_⟩
      have hsq : 0 < Real.sqrt 2 := by positivity
      have := (div_pos_iff_of_pos_right hsq).1 hs
      linarith
    · rw [if_neg h2] at hs ⊢
      right; right
      have ha : 0 < atan2 (e1 - e2) (e0 - e1) := by
        have : (1e-7 : ℝ) ≤ atan2 (e1 - e2) (e0 - e1) := not_lt.1 h1
        have h7 : (0 : ℝ) < 1e-7 := by norm_num
        linarith
      have hb : atan2 (e1 - e2) (e0 - e1) < π / 4 := by
        have := not_lt.1 h2
        have h7 : (0 : ℝ) < 1e-7 := by norm_num
        linarith
      have := atan2_quadrant ha (by linarith)
      exact ⟨ha, hb, by linarith, by linarith⟩

/-- A facet slopes down exactly if one of its lower corners is below the centre. -/
theorem facetRS_pos_iff (e0 e1 e2 : ℝ) : 0 < (facetRS e0 e1 e2).2 ↔ e1 < e0 ∨ e2 < e0 := by
  constructor
  · intro hs
    rcases facetRS_spec e0 e1 e2 hs with ⟨_, h⟩ | ⟨_, h⟩ | ⟨_, _, h, _⟩
    · exact .inl h
    · exact .inr h
    · exact .inl h
  · intro hor
    have hpi := pi_big
    have h7 : (0 : ℝ) < 1e-7 := by norm_num
    have h71 : (1e-7 : ℝ) < 1 / 2 := by norm_num
    have hsq : 0 < Real.sqrt 2 := by positivity
    unfold facetRS
    simp only
    by_cases h1 : atan2 (e1 - e2) (e0 - e1) < 1e-7
    · rw [if_pos h1]
      rcases hor with h | h
      · show 0 < e0 - e1; linarith
      · show 0 < e0 - e1
        by_contra hle
        -- `e1 ≥ e0 > e2`: the angle is at least a right angle
        have hy : 0 < e1 - e2 := by linarith
        have h0 : 0 ≤ atan2 (e1 - e2) (e0 - e1) := Complex.arg_nonneg_iff.2 hy.le
        have habs : |atan2 (e1 - e2) (e0 - e1)| < π / 2 := by rw [abs_of_nonneg h0]; linarith
        rcases Complex.abs_arg_lt_pi_div_two_iff.1 habs with h2 | h2
        · exact hle h2
        · have := congrArg Complex.im h2; simp at this; linarith
    · rw [if_neg h1]
      by_cases h2 : π / 4 - 1e-7 < atan2 (e1 - e2) (e0 - e1)
      · rw [if_pos h2]
        refine div_pos ?_ hsq
        rcases hor with h | h
        · have h3 : 0 ≤ e1 - e2 := Complex.arg_nonneg_iff.1
            (show 0 ≤ Complex.arg ⟨e0 - e1, e1 - e2⟩ from by
              have : (1e-7 : ℝ) ≤ atan2 (e1 - e2) (e0 - e1) := not_lt.1 h1
              unfold atan2 at this; linarith)
          linarith
        · linarith
      · rw [if_neg h2]
        have ha : 0 < atan2 (e1 - e2) (e0 - e1) := by
          have : (1e-7 : ℝ) ≤ atan2 (e1 - e2) (e0 - e1) := not_lt.1 h1
          linarith
        have hb : atan2 (e1 - e2) (e0 - e1) < π / 2 := by
          have := not_lt.1 h2; linarith
        have := atan2_quadrant ha hb
        exact Real.sqrt_pos.2 (by nlinarith)

/-! ### The steepest facet -/

/-- Both corners are data cells of the raster. -/
def FacetData (w h : Nat) (dem : Cell → ℝ) (nd : ℝ) (c : Cell) (n : Nat) : Prop :=
  (InGrid w h (corner1 c n) ∧ dem (corner1 c n) ≠ nd) ∧
  (InGrid w h (corner2 c n) ∧ dem (corner2 c n) ≠ nd)

section
variable (w h : Nat) (dem : Cell → ℝ) (nd : ℝ) (c : Cell)

theorem tarbStep_eq (b : Facet) (n : Nat) :
    (FacetData w h dem nd c n ∧ tarbStep w h dem nd c b n =
      if b.s < (facetRS (dem c) (dem (corner1 c n)) (dem (corner2 c n))).2 then
        { n := n, s := (facetRS (dem c) (dem (corner1 c n)) (dem (corner2 c n))).2,
          r := (facetRS (dem c) (dem (corner1 c n)) (dem (corner2 c n))).1 } else b) ∨
    (¬ FacetData w h dem nd c n ∧ tarbStep w h dem nd c b n = b) := by
  unfold tarbStep FacetData
  simp only
  by_cases h1 : inGrid w h (corner1 c n) = false
  · right
    refine ⟨fun hh => ?_, if_pos h1⟩
    rw [inGrid_iff.2 hh.1.1] at h1; cases h1
  have h1' : InGrid w h (corner1 c n) := inGrid_iff.1 (by simpa using h1)
  by_cases h2 : dem (corner1 c n) = nd
  · right
    refine ⟨fun hh => hh.1.2 h2, ?_⟩
    rw [if_neg h1]; exact if_pos h2
  by_cases h3 : inGrid w h (corner2 c n) = false
  · right
    refine ⟨fun hh => ?_, ?_⟩
    · rw [inGrid_iff.2 hh.2.1] at h3; cases h3
    · rw [if_neg h1, if_neg (show ¬ dem _ = nd from h2)]; exact if_pos h3
  have h3' : InGrid w h (corner2 c n) := inGrid_iff.1 (by simpa using h3)
  by_cases h4 : dem (corner2 c n) = nd
  · right
    refine ⟨fun hh => hh.2.2 h4, ?_⟩
    rw [if_neg h1, if_neg (show ¬ dem _ = nd from h2), if_neg h3]; exact if_pos h4
  · left
    refine ⟨⟨⟨h1', h2⟩, h3', h4⟩, ?_⟩
    rw [if_neg h1, if_neg (show ¬ dem _ = nd from h2), if_neg h3, if_neg (show ¬ dem _ = nd from h4)]

/-- The facet returned is a data facet that slopes down at least as much as every other. -/
theorem tarbBest_spec :
    ((tarbBest w h dem nd c).n = 0 ∧ ∀ n ∈ dirs .D8, FacetData w h dem nd c n →
      (facetRS (dem c) (dem (corner1 c n)) (dem (corner2 c n))).2 ≤ 0) ∨
    ((tarbBest w h dem nd c).n ∈ dirs .D8 ∧ FacetData w h dem nd c (tarbBest w h dem nd c).n ∧
      0 < (tarbBest w h dem nd c).s ∧
      ((tarbBest w h dem nd c).r, (tarbBest w h dem nd c).s) =
        facetRS (dem c) (dem (corner1 c (tarbBest w h dem nd c).n))
          (dem (corner2 c (tarbBest w h dem nd c).n)) ∧
      ∀ n ∈ dirs .D8, FacetData w h dem nd c n →
        (facetRS (dem c) (dem (corner1 c n)) (dem (corner2 c n))).2 ≤ (tarbBest w h dem nd c).s) := by
  unfold tarbBest
  have key : ∀ (l P : List Nat) (b : Facet),
      ((b.n = 0 ∧ b.s = 0 ∧ ∀ n ∈ P, FacetData w h dem nd c n →
        (facetRS (dem c) (dem (corner1 c n)) (dem (corner2 c n))).2 ≤ 0) ∨
      (b.n ∈ P ∧ FacetData w h dem nd c b.n ∧ 0 < b.s ∧
        (b.r, b.s) = facetRS (dem c) (dem (corner1 c b.n)) (dem (corner2 c b.n)) ∧
        ∀ n ∈ P, FacetData w h dem nd c n →
          (facetRS (dem c) (dem (corner1 c n)) (dem (corner2 c n))).2 ≤ b.s)) →
      let r := l.foldl (tarbStep w h dem nd c) b
      ((r.n = 0 ∧ r.s = 0 ∧ ∀ n ∈ P ++ l, FacetData w h dem nd c n →
        (facetRS (dem c) (dem (corner1 c n)) (dem (corner2 c n))).2 ≤ 0) ∨
      (r.n ∈ P ++ l ∧ FacetData w h dem nd c r.n ∧ 0 < r.s ∧
        (r.r, r.s) = facetRS (dem c) (dem (corner1 c r.n)) (dem (corner2 c r.n)) ∧
        ∀ n ∈ P ++ l, FacetData w h dem nd c n →
          (facetRS (dem c) (dem (corner1 c n)) (dem (corner2 c n))).2 ≤ r.s)) := by
    intro l
    induction l with
    | nil => intro P b hb; simpa using hb
    | cons a l ih =>
      intro P b hb
      rw [show P ++ a :: l = (P ++ [a]) ++ l by simp, List.foldl_cons]
      apply ih
      rcases tarbStep_eq w h dem nd c b a with ⟨hfd, e⟩ | ⟨hfd, e⟩
      · rw [e]
        by_cases hlt : b.s < (facetRS (dem c) (dem (corner1 c a)) (dem (corner2 c a))).2
        · rw [if_pos hlt]
          right
          have hb0 : 0 ≤ b.s := by
            rcases hb with ⟨_, h0, _⟩ | ⟨_, _, h0, _⟩
            · rw [h0]
            · exact h0.le
          refine ⟨by simp, hfd, lt_of_le_of_lt hb0 hlt, rfl, ?_⟩
          intro n hn hn'
          rcases List.mem_append.1 hn with hn | hn
          · refine le_trans ?_ hlt.le
            rcases hb with ⟨_, h0, hz⟩ | ⟨_, _, _, _, hz⟩
            · rw [h0]; exact hz n hn hn'
            · exact hz n hn hn'
          · rw [List.mem_singleton.1 hn]
        · rw [if_neg hlt]
          rcases hb with ⟨h1, h0, hz⟩ | ⟨h1, h2, h3, h4, hz⟩
          · left
            refine ⟨h1, h0, ?_⟩
            intro n hn hn'
            rcases List.mem_append.1 hn with hn | hn
            · exact hz n hn hn'
            · rw [List.mem_singleton.1 hn, ← h0]; exact not_lt.1 hlt
          · right
            refine ⟨by simp [h1], h2, h3, h4, ?_⟩
            intro n hn hn'
            rcases List.mem_append.1 hn with hn | hn
            · exact hz n hn hn'
            · rw [List.mem_singleton.1 hn]; exact not_lt.1 hlt
      · rw [e]
        rcases hb with ⟨h1, h0, hz⟩ | ⟨h1, h2, h3, h4, hz⟩
        · left
          refine ⟨h1, h0, ?_⟩
          intro n hn hn'
          rcases List.mem_append.1 hn with hn | hn
          · exact hz n hn hn'
          · rw [List.mem_singleton.1 hn] at hn'; exact absurd hn' hfd
        · right
          refine ⟨by simp [h1], h2, h3, h4, ?_⟩
          intro n hn hn'
          rcases List.mem_append.1 hn with hn | hn
          · exact hz n hn hn'
          · rw [List.mem_singleton.1 hn] at hn'; exact absurd hn' hfd
  have := key (dirs .D8) [] { n := 0, s := 0, r := 0 } (.inl ⟨rfl, rfl, by simp⟩)
  simp only [List.nil_append] at this
  rcases this with ⟨h1, _, h3⟩ | hh
  · exact .inl ⟨h1, h3⟩
  · exact .inr hh

end

/-! ### The slots -/

/-- The direction after `n`, counterclockwise-to-clockwise, wrapping from 8 to 1. -/
def nextDir (n : Nat) : Nat := if n = 8 then 1 else n + 1

theorem nwrap_succ (n : Nat) : nwrap (n + 1) = nextDir n := by
  unfold nwrap nextDir
  by_cases h : n = 8 <;> simp [h]

theorem tarbTurn_eq (b : Facet) (hb : b.n ∈ dirs .D8) :
    tarbTurn b = if b.n % 2 = 1 then b.r else π / 4 - b.r := by
  obtain ⟨n, s, r⟩ := b
  have hn : 1 ≤ n ∧ n ≤ 8 := mem_dirs.1 hb
  have haf : tarbAf n = if n % 2 = 1 then -1 else 1 := by
    have key : ∀ n < 9, 1 ≤ n → tarbAf n = if n % 2 = 1 then -1 else 1 := by decide
    exact key n (by omega) hn.1
  unfold tarbTurn
  simp only [haf]
  by_cases h1 : n % 2 = 1
  · simp [h1]
  · simp only [if_neg h1, true_and]
    by_cases h2 : r = 0
    · simp [h2]
    · rw [if_neg h2]
      by_cases h3 : r = π / 4
      · simp [h3]
      · simp [h3]

/-- Which neighbours the corners of facet `n` are. -/
theorem corner_nbr (c : Cell) (n : Nat) (hn : n ∈ dirs .D8) :
    (n % 2 = 1 → corner1 c n = nbr .D8 c n ∧ corner2 c n = nbr .D8 c (nextDir n)) ∧
    (n % 2 = 0 → corner2 c n = nbr .D8 c n ∧ corner1 c n = nbr .D8 c (nextDir n)) := by
  have hn : 1 ≤ n ∧ n ≤ 8 := mem_dirs.1 hn
  have key1 : ∀ n < 9, 1 ≤ n → n % 2 = 1 → (tarbE1 n = (dx .D8 n, dy .D8 n) ∧
        tarbE2 n = (dx .D8 (nextDir n), dy .D8 (nextDir n))) := by decide
  have key2 : ∀ n < 9, 1 ≤ n → n % 2 = 0 → (tarbE2 n = (dx .D8 n, dy .D8 n) ∧
        tarbE1 n = (dx .D8 (nextDir n), dy .D8 (nextDir n))) := by decide
  have k1 := key1 n (by omega) hn.1
  have k2 := key2 n (by omega) hn.1
  constructor
  · intro h1
    obtain ⟨a, b⟩ := k1 h1
    simp only [corner1, corner2, nbr, a, b, and_self]
  · intro h1
    obtain ⟨a, b⟩ := k2 h1
    simp only [corner1, corner2, nbr, a, b, and_self]

theorem nextDir_mem {n : Nat} (hn : n ∈ dirs .D8) : nextDir n ∈ dirs .D8 ∧ nextDir n ≠ n := by
  have hn : 1 ≤ n ∧ n ≤ 8 := mem_dirs.1 hn
  have h2 : 1 ≤ nextDir n ∧ nextDir n ≤ 8 := by unfold nextDir; split <;> omega
  refine ⟨mem_dirs.2 h2, ?_⟩
  unfold nextDir; split <;> omega

/-- The slots of the steepest facet: `t` is the angle from direction `n`. -/
theorem tarbSlots_spec (b : Facet) (hb : b.n ∈ dirs .D8) :
    tarbSlots b 0 = 0 ∧ (∀ k ∈ dirs .D8, k ≠ b.n → k ≠ nextDir b.n → tarbSlots b k = -1) ∧
    ((tarbTurn b = 0 ∧ tarbSlots b b.n = 1 ∧ tarbSlots b (nextDir b.n) = -1) ∨
     (tarbTurn b = π / 4 ∧ tarbSlots b b.n = -1 ∧ tarbSlots b (nextDir b.n) = 1) ∨
     (tarbTurn b ≠ 0 ∧ tarbTurn b ≠ π / 4 ∧ tarbSlots b b.n = tarbTurn b / (π / 4) ∧
       tarbSlots b (nextDir b.n) = 1 - tarbTurn b / (π / 4))) := by
  have hn : 1 ≤ b.n ∧ b.n ≤ 8 := mem_dirs.1 hb
  obtain ⟨hm, hne⟩ := nextDir_mem hb
  have hm' : 1 ≤ nextDir b.n ∧ nextDir b.n ≤ 8 := mem_dirs.1 hm
  have e1 : (0 : Nat) ≠ b.n := by omega
  have e2 : (0 : Nat) ≠ nextDir b.n := by omega
  have hpi := pi_big
  unfold tarbSlots
  simp only [nwrap_succ]
  by_cases h1 : tarbTurn b = 0
  · simp only [h1, if_true]
    refine ⟨by simp [e1], ?_, .inl ⟨trivial, by simp, by simp [hne, e2.symm]⟩⟩
    intro k hk hk1 _
    have : 1 ≤ k ∧ k ≤ 8 := mem_dirs.1 hk
    simp [hk1, show k ≠ 0 by omega]
  · simp only [h1, if_false]
    by_cases h2 : tarbTurn b = π / 4
    · simp only [h2, if_true]
      refine ⟨by simp [e2], ?_, .inr (.inl ⟨trivial, by simp [hne.symm, e1.symm], by simp⟩)⟩
      intro k hk _ hk2
      have : 1 ≤ k ∧ k ≤ 8 := mem_dirs.1 hk
      simp [hk2, show k ≠ 0 by omega]
    · simp only [h2, if_false]
      refine ⟨by simp [e1, e2], ?_, .inr (.inr ⟨h1, h2, by simp [hne.symm], by simp⟩)⟩
      intro k hk hk1 hk2
      have : 1 ≤ k ∧ k ≤ 8 := mem_dirs.1 hk
      simp [hk1, hk2, show k ≠ 0 by omega]

/-! ### C19 -/

section
variable (w h : Nat) (dem : Cell → ℝ) (nd : ℝ)

/-- Everything about the slots of an interior data cell. -/
theorem tarb_cell (c : Cell) (hc : InGrid w h c) (hd : dem c ≠ nd) (he : ¬ OnEdge w h c) :
    ((∀ n, fmTarboton w h dem nd c n = -1) ∧
      ∀ n ∈ dirs .D8, FacetData w h dem nd c n →
        dem c ≤ dem (corner1 c n) ∧ dem c ≤ dem (corner2 c n)) ∨
    (fmTarboton w h dem nd c 0 = 0 ∧ ∃ n ∈ dirs .D8, ∃ a b : ℝ,
      FacetData w h dem nd c n ∧
      (dem (corner1 c n) < dem c ∨ dem (corner2 c n) < dem c) ∧
      0 ≤ a ∧ 0 ≤ b ∧ a + b = 1 ∧
      (∀ k ∈ dirs .D8, k ≠ n → k ≠ nextDir n → fmTarboton w h dem nd c k = -1) ∧
      (fmTarboton w h dem nd c n = if a = 0 then -1 else a) ∧
      (fmTarboton w h dem nd c (nextDir n) = if b = 0 then -1 else b) ∧
      (0 < a → dem (nbr .D8 c n) < dem c) ∧ (0 < b → dem (nbr .D8 c (nextDir n)) < dem c)) := by
  have hpi := pi_big
  have he' : isEdgeCell w h c = false := by
    rw [← Bool.not_eq_true, isEdgeCell_iff hc]; exact he
  have hfm : fmTarboton w h dem nd c =
      if (tarbBest w h dem nd c).n = 0 then fun _ => -1 else tarbSlots (tarbBest w h dem nd c) := by
    unfold fmTarboton; rw [if_neg hd, he']; simp
  rcases tarbBest_spec w h dem nd c with ⟨h0, hz⟩ | ⟨hn, hfd, hs, hrs, _⟩
  · left
    refine ⟨fun n => by rw [hfm, if_pos h0], ?_⟩
    intro n hn hf
    have := hz n hn hf
    have h2 := mt (facetRS_pos_iff (dem c) (dem (corner1 c n)) (dem (corner2 c n))).2 (not_lt.2 this)
    push Not at h2
    exact h2
  · right
    set b := tarbBest w h dem nd c with hb
    have hn' : 1 ≤ b.n ∧ b.n ≤ 8 := mem_dirs.1 hn
    rw [hfm, if_neg (by omega)]
    obtain ⟨z0, zk, zc⟩ := tarbSlots_spec b hn
    have hr1 : (facetRS (dem c) (dem (corner1 c b.n)) (dem (corner2 c b.n))).1 = b.r := by rw [← hrs]
    have hr2 : (facetRS (dem c) (dem (corner1 c b.n)) (dem (corner2 c b.n))).2 = b.s := by rw [← hrs]
    have F := facetRS_spec (dem c) (dem (corner1 c b.n)) (dem (corner2 c b.n)) (by rw [hr2]; exact hs)
    rw [hr1] at F
    have hlow := (facetRS_pos_iff (dem c) (dem (corner1 c b.n)) (dem (corner2 c b.n))).1
      (by rw [hr2]; exact hs)
    obtain ⟨o1, o2⟩ := corner_nbr c b.n hn
    -- where the flow goes, by angle from `n`
    have T : (tarbTurn b = 0 ∧ dem (nbr .D8 c b.n) < dem c) ∨
        (tarbTurn b = π / 4 ∧ dem (nbr .D8 c (nextDir b.n)) < dem c) ∨
        (0 < tarbTurn b ∧ tarbTurn b < π / 4 ∧ dem (nbr .D8 c b.n) < dem c ∧
          dem (nbr .D8 c (nextDir b.n)) < dem c) := by
      rw [tarbTurn_eq b hn]
      by_cases hodd : b.n % 2 = 1
      · rw [if_pos hodd]
        obtain ⟨c1, c2⟩ := o1 hodd
        rw [c1, c2] at F
        exact F
      · rw [if_neg hodd]
        obtain ⟨c2, c1⟩ := o2 (by omega)
        rw [c1, c2] at F
        rcases F with ⟨f1, f2⟩ | ⟨f1, f2⟩ | ⟨f1, f2, f3, f4⟩
        · right; left; exact ⟨by rw [f1]; ring, f2⟩
        · left; exact ⟨by rw [f1]; ring, f2⟩
        · right; right; exact ⟨by linarith, by linarith, f4, f3⟩
    have hq : 0 < π / 4 := by linarith
    refine ⟨z0, b.n, hn, ?_⟩
    rcases T with ⟨t, t1⟩ | ⟨t, t1⟩ | ⟨t, t', t1, t2⟩
    · refine ⟨1, 0, hfd, hlow, by norm_num, by norm_num, by norm_num, zk, ?_, ?_, fun _ => t1,
        fun hh => absurd hh (lt_irrefl _)⟩
      · rcases zc with ⟨_, z1, z2⟩ | ⟨z, _⟩ | ⟨z, _⟩
        · rw [z1]; norm_num
        · rw [z] at t; linarith
        · exact absurd t z
      · rcases zc with ⟨_, z1, z2⟩ | ⟨z, _⟩ | ⟨z, _⟩
        · rw [z2]; norm_num
        · rw [z] at t; linarith
        · exact absurd t z
    · refine ⟨0, 1, hfd, hlow, by norm_num, by norm_num, by norm_num, zk, ?_, ?_,
        fun hh => absurd hh (lt_irrefl _), fun _ => t1⟩
      · rcases zc with ⟨z, _⟩ | ⟨_, z1, z2⟩ | ⟨_, z, _⟩
        · rw [z] at t; linarith
        · rw [z1]; norm_num
        · exact absurd t z
      · rcases zc with ⟨z, _⟩ | ⟨_, z1, z2⟩ | ⟨_, z, _⟩
        · rw [z] at t; linarith
        · rw [z2]; norm_num
        · exact absurd t z
    · have hA : 0 < tarbTurn b / (π / 4) := div_pos t hq
      have hB : tarbTurn b / (π / 4) < 1 := (div_lt_one hq).2 t'
      refine ⟨tarbTurn b / (π / 4), 1 - tarbTurn b / (π / 4), hfd, hlow, hA.le, by linarith,
        by ring, zk, ?_, ?_, fun _ => t1, fun _ => t2⟩
      · rcases zc with ⟨z, _⟩ | ⟨z, _⟩ | ⟨_, _, z1, z2⟩
        · rw [z] at t; exact absurd t (lt_irrefl _)
        · rw [z] at t'; exact absurd t' (lt_irrefl _)
        · rw [z1, if_neg hA.ne']
      · rcases zc with ⟨z, _⟩ | ⟨z, _⟩ | ⟨_, _, z1, z2⟩
        · rw [z] at t; exact absurd t (lt_irrefl _)
        · rw [z] at t'; exact absurd t' (lt_irrefl _)
        · rw [z2, if_neg (by linarith)]

/-- C19: an interior data cell either has no flow (all nine slots -1), or sends flow to two
circularly adjacent directions at most, with shares in [0,1] that sum to one (a slot that receives
nothing holds -1). -/
theorem C19_two_adjacent (c : Cell) (hc : InGrid w h c) (hd : dem c ≠ nd) (he : ¬ OnEdge w h c) :
    (∀ n ∈ List.range' 0 9, fmTarboton w h dem nd c n = -1) ∨
    (fmTarboton w h dem nd c 0 = 0 ∧ ∃ n ∈ List.range' 1 8,
      max (fmTarboton w h dem nd c n) 0 + max (fmTarboton w h dem nd c (nextDir n)) 0 = 1 ∧
      fmTarboton w h dem nd c n ≤ 1 ∧ fmTarboton w h dem nd c (nextDir n) ≤ 1 ∧
      ∀ k ∈ List.range' 1 8, k ≠ n → k ≠ nextDir n → fmTarboton w h dem nd c k = -1) := by
  rcases tarb_cell w h dem nd c hc hd he with ⟨h1, _⟩ | ⟨h0, n, hn, a, b, _, _, ha, hb, hab, hk, e1, e2, _, _⟩
  · exact .inl (fun n _ => h1 n)
  · right
    refine ⟨h0, n, hn, ?_, ?_, ?_, hk⟩
    · rw [e1, e2]
      have m1 : max (if a = 0 then (-1 : ℝ) else a) 0 = a := by
        split
        · rename_i h; rw [h]; simp
        · exact max_eq_left ha
      have m2 : max (if b = 0 then (-1 : ℝ) else b) 0 = b := by
        split
        · rename_i h; rw [h]; simp
        · exact max_eq_left hb
      rw [m1, m2, hab]
    · rw [e1]; split <;> linarith
    · rw [e2]; split <;> linarith

/-- C19: a cell is left without flow exactly if no facet between two data neighbours has a corner
below the cell. -/
theorem C19_noFlow_iff (c : Cell) (hc : InGrid w h c) (hd : dem c ≠ nd) (he : ¬ OnEdge w h c) :
    fmTarboton w h dem nd c 0 = -1 ↔
      ∀ n ∈ List.range' 1 8,
        (InGrid w h (nbr .D8 c n) ∧ dem (nbr .D8 c n) ≠ nd) →
        (InGrid w h (nbr .D8 c (nextDir n)) ∧ dem (nbr .D8 c (nextDir n)) ≠ nd) →
        dem c ≤ dem (nbr .D8 c n) ∧ dem c ≤ dem (nbr .D8 c (nextDir n)) := by
  have conv : ∀ n ∈ dirs .D8,
      (FacetData w h dem nd c n ↔ (InGrid w h (nbr .D8 c n) ∧ dem (nbr .D8 c n) ≠ nd) ∧
        (InGrid w h (nbr .D8 c (nextDir n)) ∧ dem (nbr .D8 c (nextDir n)) ≠ nd)) ∧
      ((dem c ≤ dem (corner1 c n) ∧ dem c ≤ dem (corner2 c n)) ↔
        (dem c ≤ dem (nbr .D8 c n) ∧ dem c ≤ dem (nbr .D8 c (nextDir n)))) := by
    intro n hn
    obtain ⟨o1, o2⟩ := corner_nbr c n hn
    unfold FacetData
    rcases Nat.mod_two_eq_zero_or_one n with hp | hp
    · obtain ⟨c2, c1⟩ := o2 hp
      rw [c1, c2]; exact ⟨and_comm, and_comm⟩
    · obtain ⟨c1, c2⟩ := o1 hp
      rw [c1, c2]; exact ⟨Iff.rfl, Iff.rfl⟩
  rcases tarb_cell w h dem nd c hc hd he with ⟨h1, h2⟩ | ⟨h0, n, hn, a, b, hfd, hlow, _⟩
  · simp only [h1, true_iff]
    intro n hn a b
    exact (conv n hn).2.1 (h2 n hn ((conv n hn).1.2 ⟨a, b⟩))
  · rw [h0]
    constructor
    · intro hh; norm_num at hh
    · intro hall
      obtain ⟨q1, q2⟩ := (conv n hn).1.1 hfd
      obtain ⟨l1, l2⟩ := (conv n hn).2.2 (hall n hn q1 q2)
      rcases hlow with hl | hl <;> linarith

/-- C57 applies to D-infinity: flow goes only to strictly lower data neighbours, all of it or
none. -/
theorem C57_tarboton : FlowsDown w h dem nd (fmTarboton w h dem nd) := by
  have hedge : ∀ c, dem c ≠ nd → OnEdge w h c → ∀ n, fmTarboton w h dem nd c n = -1 := by
    intro c hd he n
    have : isEdgeCell w h c = true := (isEdgeCell_iff he.1).2 he
    unfold fmTarboton; rw [if_neg hd, this]; simp
  have hr : ∀ n ∈ List.range' 1 8, n ≠ 0 := by decide
  refine ⟨?_, ?_, ?_, ?_⟩
  · intro c hc
    refine ⟨fun h0 => ?_, fun hd => by unfold fmTarboton; rw [if_pos hd]; simp⟩
    by_contra hd
    by_cases he : OnEdge w h c
    · rw [hedge c hd he] at h0; norm_num at h0
    · rcases tarb_cell w h dem nd c hc hd he with ⟨h1, _⟩ | ⟨h1, _⟩
      · rw [h1] at h0; norm_num at h0
      · rw [h1] at h0; norm_num at h0
  · intro c he n hn
    by_cases hd : dem c = nd
    · unfold fmTarboton; rw [if_pos hd]; simp [hr n hn]
    · rw [hedge c hd he]; norm_num
  · intro c hc hd k hk h0
    by_cases he : OnEdge w h c
    · rw [hedge c hd he] at h0; norm_num at h0
    rcases tarb_cell w h dem nd c hc hd he with ⟨h1, _⟩ |
      ⟨_, n, hn, a, b, hfd, _, ha, hb, _, hz, e1, e2, d1, d2⟩
    · rw [h1] at h0; norm_num at h0
    · have hin : (InGrid w h (nbr .D8 c n) ∧ dem (nbr .D8 c n) ≠ nd) ∧
          (InGrid w h (nbr .D8 c (nextDir n)) ∧ dem (nbr .D8 c (nextDir n)) ≠ nd) := by
        obtain ⟨o1, o2⟩ := corner_nbr c n hn
        rcases Nat.mod_two_eq_zero_or_one n with hp | hp
        · obtain ⟨c2, c1⟩ := o2 hp
          unfold FacetData at hfd; rw [c1, c2] at hfd; exact ⟨hfd.2, hfd.1⟩
        · obtain ⟨c1, c2⟩ := o1 hp
          unfold FacetData at hfd; rw [c1, c2] at hfd; exact hfd
      by_cases hkn : k = n
      · rw [hkn] at h0 ⊢
        rw [e1] at h0
        refine ⟨hin.1.1, hin.1.2, d1 ?_⟩
        split at h0
        · norm_num at h0
        · exact h0
      · by_cases hkm : k = nextDir n
        · rw [hkm] at h0 ⊢
          rw [e2] at h0
          refine ⟨hin.2.1, hin.2.2, d2 ?_⟩
          split at h0
          · norm_num at h0
          · exact h0
        · rw [hz k hk hkn hkm] at h0; norm_num at h0
  · intro c hc hd
    by_cases he : OnEdge w h c
    · right; intro n _; rw [hedge c hd he]; norm_num
    rcases tarb_cell w h dem nd c hc hd he with ⟨h1, _⟩ |
      ⟨_, n, hn, a, b, _, _, ha, hb, hab, hz, e1, e2, _, _⟩
    · right; intro n _; rw [h1]; norm_num
    · left
      unfold sentTotal
      have hval : ∀ k ∈ List.range' 1 8, (if 0 < fmTarboton w h dem nd c k then
          fmTarboton w h dem nd c k else 0) = if k = n then a else if k = nextDir n then b else 0 := by
        intro k hk
        by_cases hkn : k = n
        · rw [if_pos hkn, hkn, e1]
          by_cases ha0 : a = 0
          · simp [ha0]
          · rw [if_neg ha0, if_pos (ha.lt_of_ne (Ne.symm ha0))]
        · rw [if_neg hkn]
          by_cases hkm : k = nextDir n
          · rw [if_pos hkm, hkm, e2]
            by_cases hb0 : b = 0
            · simp [hb0]
            · rw [if_neg hb0, if_pos (hb.lt_of_ne (Ne.symm hb0))]
          · rw [if_neg hkm, hz k hk hkn hkm]; norm_num
      rw [List.map_congr_left hval]
      have hn' : 1 ≤ n ∧ n ≤ 8 := mem_dirs.1 hn
      obtain ⟨n1, n2⟩ := hn'
      simp only [List.range', List.map_cons, List.map_nil, List.sum_cons, List.sum_nil]
      interval_cases n <;> simp [nextDir] <;> linarith

end

/-! ### The shares are reversed -/

/-- A cell at height `z` whose only data neighbours are W and NW; its surface falls with slope `ρ`
at an angle `θ` (measured from W towards NW). -/
noncomputable def tiltDem (z ρ θ nd : ℝ) : Cell → ℝ := fun c =>
  if c = (1, 1) then z else if c = (0, 1) then z - ρ * cos θ
  else if c = (0, 0) then z - ρ * cos θ - ρ * sin θ else nd

/-- C19 fails: the method gives the neighbour nearer to the flow direction the larger share
(Tarboton 1997: W receives `1 - θ/(π/4)`), but the code gives W the share `θ/(π/4)`: the closer
the flow direction is to W, the less W receives. -/
theorem C19_shares_reversed (z ρ θ nd : ℝ) (hρ : 0 < ρ) (h0 : 1e-7 ≤ θ) (h1 : θ ≤ π / 4 - 1e-7)
    (hz : z ≠ nd) (hw : z - ρ * cos θ ≠ nd) (hnw : z - ρ * cos θ - ρ * sin θ ≠ nd) :
    fmTarboton 3 3 (tiltDem z ρ θ nd) nd (1, 1) 1 = θ / (π / 4) ∧
    fmTarboton 3 3 (tiltDem z ρ θ nd) nd (1, 1) 2 = 1 - θ / (π / 4) := by
  have hpi := pi_big
  have h7 : (0 : ℝ) < 1e-7 := by norm_num
  have hbest : tarbBest 3 3 (tiltDem z ρ θ nd) nd (1, 1) = { n := 1, s := ρ, r := θ } := by
    have hat : atan2 (ρ * sin θ) (ρ * cos θ) = θ := by
      unfold atan2
      have e : (⟨ρ * cos θ, ρ * sin θ⟩ : ℂ) = (ρ : ℂ) * (Complex.cos θ + Complex.sin θ * Complex.I) := by
        apply Complex.ext
        · simp [Complex.cos_ofReal_re, Complex.sin_ofReal_im, Complex.cos_ofReal_im, Complex.sin_ofReal_re]
        · simp [Complex.cos_ofReal_re, Complex.sin_ofReal_im, Complex.cos_ofReal_im, Complex.sin_ofReal_re]
      rw [e, Complex.arg_mul_cos_add_sin_mul_I hρ ⟨by linarith, by linarith⟩]
    have hrs : facetRS z (z - ρ * cos θ) (z - ρ * cos θ - ρ * sin θ) = (θ, ρ) := by
      unfold facetRS
      simp only [sub_sub_cancel, hat]
      rw [if_neg (by linarith), if_neg (by linarith)]
      congr 1
      have : ρ * cos θ * (ρ * cos θ) + ρ * sin θ * (ρ * sin θ) = ρ ^ 2 := by
        have := Real.sin_sq_add_cos_sq θ
        linear_combination ρ ^ 2 * this
      rw [this, Real.sqrt_sq hρ.le]
    have skip : ∀ n ∈ [2, 3, 4, 5, 6, 7, 8], ∀ b,
        tarbStep 3 3 (tiltDem z ρ θ nd) nd (1, 1) b n = b := by
      intro n hn b
      rcases tarbStep_eq 3 3 (tiltDem z ρ θ nd) nd (1, 1) b n with ⟨⟨⟨_, f1⟩, _, f2⟩, _⟩ | ⟨_, e⟩
      · exfalso
        simp only [List.mem_cons, List.not_mem_nil, or_false] at hn
        rcases hn with rfl | rfl | rfl | rfl | rfl | rfl | rfl
        · exact f1 (by norm_num [tiltDem, corner1, tarbE1])
        · exact f1 (by norm_num [tiltDem, corner1, tarbE1])
        · exact f1 (by norm_num [tiltDem, corner1, tarbE1])
        · exact f1 (by norm_num [tiltDem, corner1, tarbE1])
        · exact f1 (by norm_num [tiltDem, corner1, tarbE1])
        · exact f1 (by norm_num [tiltDem, corner1, tarbE1])
        · exact f2 (by norm_num [tiltDem, corner2, tarbE2])
      · exact e
    have first : tarbStep 3 3 (tiltDem z ρ θ nd) nd (1, 1) { n := 0, s := 0, r := 0 } 1 =
        { n := 1, s := ρ, r := θ } := by
      have v0 : tiltDem z ρ θ nd (1, 1) = z := by simp [tiltDem]
      have v1 : tiltDem z ρ θ nd (corner1 (1, 1) 1) = z - ρ * cos θ := by
        norm_num [tiltDem, corner1, tarbE1]
      have v2 : tiltDem z ρ θ nd (corner2 (1, 1) 1) = z - ρ * cos θ - ρ * sin θ := by
        norm_num [tiltDem, corner2, tarbE2]
      rcases tarbStep_eq 3 3 (tiltDem z ρ θ nd) nd (1, 1) { n := 0, s := 0, r := 0 } 1 with
        ⟨_, e⟩ | ⟨hn, _⟩
      · rw [e, v0, v1, v2, hrs, if_pos hρ]
      · exfalso
        apply hn
        refine ⟨⟨by decide, by rw [v1]; exact hw⟩, by decide, by rw [v2]; exact hnw⟩
    unfold tarbBest
    have : dirs .D8 = [1, 2, 3, 4, 5, 6, 7, 8] := by decide
    rw [this]
    simp only [List.foldl_cons, List.foldl_nil]
    rw [first, skip 2 (by decide), skip 3 (by decide), skip 4 (by decide), skip 5 (by decide),
      skip 6 (by decide), skip 7 (by decide), skip 8 (by decide)]
  have hd : tiltDem z ρ θ nd (1, 1) ≠ nd := by simpa [tiltDem] using hz
  have he : isEdgeCell 3 3 (1, 1) = false := by decide
  have hfm : fmTarboton 3 3 (tiltDem z ρ θ nd) nd (1, 1) = tarbSlots { n := 1, s := ρ, r := θ } := by
    unfold fmTarboton; rw [if_neg hd, he, hbest]; simp
  rw [hfm]
  have ht : tarbTurn { n := 1, s := ρ, r := θ } = θ := by
    rw [tarbTurn_eq _ (show 1 ∈ dirs .D8 by decide)]; simp
  rcases (tarbSlots_spec { n := 1, s := ρ, r := θ } (show 1 ∈ dirs .D8 by decide)).2.2 with
    ⟨z, _⟩ | ⟨z, _⟩ | ⟨_, _, z1, z2⟩
  · rw [ht] at z; linarith
  · rw [ht] at z; linarith
  · rw [ht] at z1 z2
    exact ⟨z1, z2⟩

/-- Concretely: flow 30 degrees from W and 15 degrees from NW gives W two thirds of the water. -/
theorem C19_reversed_example :
    fmTarboton 3 3 (tiltDem 10 2 (π / 6) (-100)) (-100) (1, 1) 1 = 2 / 3 ∧
    fmTarboton 3 3 (tiltDem 10 2 (π / 6) (-100)) (-100) (1, 1) 2 = 1 / 3 := by
  have hpi := pi_big
  have hc := Real.cos_le_one (π / 6)
  have hs := Real.sin_le_one (π / 6)
  have h7 : (1e-7 : ℝ) < 1 / 8 := by norm_num
  have := C19_shares_reversed 10 2 (π / 6) (-100) (by norm_num) (by linarith) (by linarith)
    (by norm_num) (by intro e; linarith) (by intro e; linarith)
  have e : π / 6 / (π / 4) = 2 / 3 := by field_simp; norm_num
  rw [e] at this
  norm_num at this
  exact this

/-! ### Non-vacuity -/

example : InGrid 3 3 (1, 1) ∧ exMF (1, 1) ≠ -9 ∧ ¬ OnEdge 3 3 (1, 1) ∧
    FacetData 3 3 exMF (-9) (1, 1) 1 ∧ exMF (corner1 (1, 1) 1) < exMF (1, 1) := by
  refine ⟨by decide, ?_, by decide, ⟨⟨by decide, ?_⟩, by decide, ?_⟩, ?_⟩ <;>
    norm_num [exMF, corner1, corner2, tarbE1, tarbE2]

end RichDEM
