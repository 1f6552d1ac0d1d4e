/-
Property theorems C18 (multiple-flow proportions), C56 (Rho8/Rho4) and C57 (accumulation over
these metrics).
-/
import Verif.Flow.MultiFlow
import Verif.Props.Accum
import Verif.Props.FlowDir
import Mathlib.Algebra.Order.Field.Rat
import Mathlib.Tactic.IntervalCases
import Mathlib.Tactic.Linarith
import Mathlib.Tactic.FieldSimp
import Mathlib.Tactic.Positivity

namespace RichDEM

open Relation

/-! ### Specification -/

/-- Neighbour `n` (1..8) of `c` is a data cell of the raster and strictly lower than `c`. -/
def LowerNbr {E : Type*} [LinearOrder E] (w h : Nat) (dem : Cell → E) (nd : E) (c : Cell) (n : Nat) :
    Prop :=
  InGrid w h (nbr .D8 c n) ∧ dem (nbr .D8 c n) ≠ nd ∧ dem (nbr .D8 c n) < dem c

instance {E : Type*} [LinearOrder E] (w h : Nat) (dem : Cell → E) (nd : E) (c : Cell) (n : Nat) :
    Decidable (LowerNbr w h dem nd c n) := by unfold LowerNbr; infer_instance

/-- The metric sends all the flow of a data cell, or none, to strictly lower data neighbours; edge
cells send none; slot 0 is -2 on NoData cells only. -/
structure FlowsDown {E K : Type*} [LinearOrder E] [CommRing K] [LinearOrder K] (w h : Nat)
    (dem : Cell → E) (nd : E) (props : Cell → Nat → K) : Prop where
  noData : ∀ c, InGrid w h c → (props c 0 = -2 ↔ dem c = nd)
  edge : EdgesSilent w h props
  down : ∀ c, InGrid w h c → dem c ≠ nd → ∀ n ∈ List.range' 1 8, 0 < props c n →
    LowerNbr w h dem nd c n
  unit : ∀ c, InGrid w h c → dem c ≠ nd →
    sentTotal props c = 1 ∨ ∀ n ∈ List.range' 1 8, props c n ≤ 0

theorem lowerNbr_iff {E : Type*} [LinearOrder E] {w h : Nat} {dem : Cell → E} {nd : E} {c : Cell}
    {n : Nat} : lowerNbr w h dem nd c n = true ↔ LowerNbr w h dem nd c n := by
  simp [lowerNbr, LowerNbr, inGrid_iff, and_assoc]

theorem sum_map_div {K : Type*} [Field K] (l : List Nat) (f : Nat → K) (s : K) :
    (l.map (fun n => f n / s)).sum = (l.map f).sum / s := by
  induction l with
  | nil => simp
  | cons a l ih => simp [ih, add_div]

theorem sum_map_nonneg {K : Type*} [Field K] [LinearOrder K] [IsStrictOrderedRing K] (l : List Nat)
    (f : Nat → K) (hf : ∀ n, 0 ≤ f n) : 0 ≤ (l.map f).sum := by
  induction l with
  | nil => simp
  | cons a l ih => simp only [List.map_cons, List.sum_cons]; exact add_nonneg (hf a) ih

theorem sum_zero_all {K : Type*} [Field K] [LinearOrder K] [IsStrictOrderedRing K] (l : List Nat)
    (f : Nat → K) (hf : ∀ n, 0 ≤ f n) (hz : (l.map f).sum = 0) : ∀ n ∈ l, f n = 0 := by
  induction l with
  | nil => simp
  | cons a l ih =>
    simp only [List.map_cons, List.sum_cons] at hz
    have h1 := sum_map_nonneg l f hf
    have h2 := hf a
    intro n hn
    rcases List.mem_cons.1 hn with rfl | hn
    · linarith
    · exact ih (by linarith) n hn

/-! ### C18 -/

section
variable {E : Type*} [LinearOrder E] {K : Type*} [Field K] [LinearOrder K] [IsStrictOrderedRing K]
variable (w h : Nat) (dem : Cell → E) (nd : E) (wgt : Nat → E → E → K)

/-- C18: NoData cells are marked in slot 0. -/
theorem C18_noData (c : Cell) (hd : dem c = nd) : multiFlow w h dem nd wgt c 0 = -2 := by
  simp [multiFlow, hd]

/-- C18: edge cells are marked as having no flow. -/
theorem C18_edge (c : Cell) (hd : dem c ≠ nd) (he : OnEdge w h c) (n : Nat) :
    multiFlow w h dem nd wgt c n = -1 := by
  have : isEdgeCell w h c = true := (isEdgeCell_iff he.1).2 he
  simp [multiFlow, hd, this]

/-- C18, for every non-negative weight function (including one that underflows to zero): an
interior data cell distributes in proportion to the weights of its lower data neighbours. -/
theorem C18_proportional (hw : ∀ n e ne, ne < e → 0 ≤ wgt n e ne) (c : Cell) (hc : InGrid w h c)
    (hd : dem c ≠ nd) (he : ¬ OnEdge w h c) :
    let W : Nat → K := fun n =>
      if LowerNbr w h dem nd c n then wgt n (dem c) (dem (nbr .D8 c n)) else 0
    let S : K := ((List.range' 1 8).map W).sum
    (0 < S → multiFlow w h dem nd wgt c 0 = 0 ∧
      ∀ n ∈ List.range' 1 8, multiFlow w h dem nd wgt c n = W n / S) ∧
    (S = 0 → multiFlow w h dem nd wgt c 0 = -1 ∧
      ∀ n ∈ List.range' 1 8, multiFlow w h dem nd wgt c n =
        if LowerNbr w h dem nd c n then 0 else -1) := by
  intro W S
  have he' : isEdgeCell w h c = false := by
    rw [← Bool.not_eq_true, isEdgeCell_iff hc]; exact he
  have hW : ∀ n, W n =
      if lowerNbr w h dem nd c n then wgt n (dem c) (dem (nbr .D8 c n)) else 0 := by
    intro n
    by_cases hl : LowerNbr w h dem nd c n
    · simp only [W, if_pos hl, if_pos (lowerNbr_iff.2 hl)]
    · simp only [W, if_neg hl, if_neg (mt lowerNbr_iff.1 hl)]
  have hWnn : ∀ n, 0 ≤ W n := by
    intro n; simp only [W]; split
    · rename_i hl; exact hw _ _ _ hl.2.2
    · exact le_refl _
  obtain ⟨s1, s2⟩ := mfWeights_spec w h dem nd wgt c (dirs .D8) nodup_dirs (fun _ => -1, 0)
  have hS : (mfWeights w h dem nd wgt c (dirs .D8) (fun _ => -1, 0)).2 = S := by
    rw [s2, zero_add]
    congr 1
    exact (List.map_congr_left (fun n _ => hW n)).symm
  have hval : ∀ n ∈ List.range' 1 8,
      (mfWeights w h dem nd wgt c (dirs .D8) (fun _ => -1, 0)).1 n =
        if LowerNbr w h dem nd c n then W n else -1 := by
    intro n hn
    rw [s1]
    by_cases hl : LowerNbr w h dem nd c n
    · rw [if_pos ⟨hn, lowerNbr_iff.2 hl⟩, if_pos hl]; simp [W, hl]
    · rw [if_neg (fun hh => hl (lowerNbr_iff.1 hh.2)), if_neg hl]
  have h0 : ∀ n ∈ List.range' 1 8, n ≠ 0 := by decide
  refine ⟨fun hpos => ?_, fun hz => ?_⟩
  · have hmf : multiFlow w h dem nd wgt c = mfNormalise (1 / S) (dirs .D8)
        (Function.update (mfWeights w h dem nd wgt c (dirs .D8) (fun _ => -1, 0)).1 0 0) := by
      unfold multiFlow
      rw [if_neg hd, he']
      simp only [Bool.false_eq_true, if_false, hS, if_pos hpos]
    rw [hmf]
    refine ⟨?_, ?_⟩
    · rw [mfNormalise_spec _ _ nodup_dirs, if_neg (by decide)]; simp
    · intro n hn
      rw [mfNormalise_spec _ _ nodup_dirs, if_pos (show n ∈ dirs .D8 from hn), Function.update_of_ne (h0 n hn), hval n hn]
      by_cases hl : LowerNbr w h dem nd c n
      · rw [if_pos hl]
        rcases (hWnn n).lt_or_eq with hp | hp
        · rw [if_pos hp]; field_simp
        · rw [if_neg (by rw [← hp]; exact lt_irrefl _), ← hp]; simp
      · rw [if_neg hl]
        have : W n = 0 := by simp [W, hl]
        rw [this, if_neg (by norm_num)]; simp
  · have hmf : multiFlow w h dem nd wgt c =
        (mfWeights w h dem nd wgt c (dirs .D8) (fun _ => -1, 0)).1 := by
      unfold multiFlow
      rw [if_neg hd, he']
      simp only [Bool.false_eq_true, if_false, hS, hz, lt_irrefl]
    rw [hmf]
    refine ⟨?_, ?_⟩
    · rw [s1, if_neg (by intro hh; exact absurd hh.1 (by decide))]
    · intro n hn
      rw [hval n hn]
      by_cases hl : LowerNbr w h dem nd c n
      · rw [if_pos hl, if_pos hl]
        have : ∀ m ∈ List.range' 1 8, W m = 0 :=
          sum_zero_all _ W hWnn hz
        exact this n hn
      · rw [if_neg hl, if_neg hl]

/-- C18: when all weights of lower neighbours are positive, an interior data cell with a lower data
neighbour has non-negative proportions that sum to one, positive exactly on the lower data
neighbours and proportional to the weights; without such a neighbour it is marked as having no
flow in all nine slots. -/
theorem C18_distribution (hw : ∀ n e ne, ne < e → 0 < wgt n e ne) (c : Cell) (hc : InGrid w h c)
    (hd : dem c ≠ nd) (he : ¬ OnEdge w h c) :
    ((∃ n ∈ List.range' 1 8, LowerNbr w h dem nd c n) →
      multiFlow w h dem nd wgt c 0 = 0 ∧
      ((List.range' 1 8).map (multiFlow w h dem nd wgt c)).sum = 1 ∧
      (∀ n ∈ List.range' 1 8, 0 ≤ multiFlow w h dem nd wgt c n ∧
        (0 < multiFlow w h dem nd wgt c n ↔ LowerNbr w h dem nd c n)) ∧
      (∀ n ∈ List.range' 1 8, ∀ m ∈ List.range' 1 8, LowerNbr w h dem nd c n →
        LowerNbr w h dem nd c m →
        multiFlow w h dem nd wgt c n * wgt m (dem c) (dem (nbr .D8 c m)) =
          multiFlow w h dem nd wgt c m * wgt n (dem c) (dem (nbr .D8 c n)))) ∧
    ((¬ ∃ n ∈ List.range' 1 8, LowerNbr w h dem nd c n) →
      ∀ n ∈ List.range' 0 9, multiFlow w h dem nd wgt c n = -1) := by
  obtain ⟨hp, hz⟩ := C18_proportional w h dem nd wgt (fun n e ne hlt => (hw n e ne hlt).le) c hc hd he
  set W : Nat → K := fun n =>
      if LowerNbr w h dem nd c n then wgt n (dem c) (dem (nbr .D8 c n)) else 0 with hWdef
  set S : K := ((List.range' 1 8).map W).sum with hS
  have hWpos : ∀ n, 0 < W n ↔ LowerNbr w h dem nd c n := by
    intro n
    by_cases hl : LowerNbr w h dem nd c n
    · simp only [hWdef, if_pos hl, hl, iff_true]; exact hw _ _ _ hl.2.2
    · simp [hWdef, hl]
  have hWnn : ∀ n, 0 ≤ W n := by
    intro n
    by_cases hl : LowerNbr w h dem nd c n
    · exact ((hWpos n).2 hl).le
    · simp [hWdef, hl]
  have hSnn : 0 ≤ S := sum_map_nonneg _ W hWnn
  refine ⟨?_, ?_⟩
  · rintro ⟨m, hm, hlow⟩
    have hSpos : 0 < S := by
      rcases hSnn.lt_or_eq with h1 | h1
      · exact h1
      · exact absurd (sum_zero_all _ W hWnn h1.symm m hm) ((hWpos m).2 hlow).ne'
    obtain ⟨z0, zn⟩ := hp hSpos
    refine ⟨z0, ?_, ?_, ?_⟩
    · rw [List.map_congr_left zn, sum_map_div, ← hS, div_self hSpos.ne']
    · intro n hn
      rw [zn n hn, ← hWpos]
      exact ⟨div_nonneg (hWnn n) hSnn, div_pos_iff_of_pos_right hSpos⟩
    · intro n hn m hm hln hlm
      have en : W n = wgt n (dem c) (dem (nbr .D8 c n)) := by simp [hWdef, hln]
      have em : W m = wgt m (dem c) (dem (nbr .D8 c m)) := by simp [hWdef, hlm]
      rw [zn n hn, zn m hm, ← en, ← em]
      field_simp
  · intro hno
    have hSz : S = 0 := by
      rw [hS]
      apply List.sum_eq_zero
      intro x hx
      obtain ⟨n, hn, rfl⟩ := List.mem_map.1 hx
      simp [hWdef, show ¬ LowerNbr w h dem nd c n from fun hl => hno ⟨n, hn, hl⟩]
    obtain ⟨z0, zn⟩ := hz hSz
    intro n hn
    rcases Nat.eq_zero_or_pos n with rfl | hpos
    · exact z0
    · have hn' : n ∈ List.range' 1 8 := by
        rw [List.mem_range'] at hn ⊢
        obtain ⟨i, hi, e⟩ := hn
        exact ⟨n - 1, by omega, by omega⟩
      rw [zn n hn', if_neg (fun hl => hno ⟨n, hn', hl⟩)]

/-- Every weighting makes a metric that flows down. -/
theorem multiFlow_flowsDown (hw : ∀ n e ne, ne < e → 0 ≤ wgt n e ne) :
    FlowsDown w h dem nd (fun c => multiFlow w h dem nd wgt c) := by
  have gen : ∀ c, InGrid w h c → dem c ≠ nd → ¬ OnEdge w h c →
      multiFlow w h dem nd wgt c 0 ≠ -2 ∧
      (∀ n ∈ List.range' 1 8, 0 < multiFlow w h dem nd wgt c n → LowerNbr w h dem nd c n) ∧
      (sentTotal (fun c => multiFlow w h dem nd wgt c) c = 1 ∨
        ∀ n ∈ List.range' 1 8, multiFlow w h dem nd wgt c n ≤ 0) := by
    intro c hc hd he
    obtain ⟨hp, hz⟩ := C18_proportional w h dem nd wgt hw c hc hd he
    set W : Nat → K := fun n =>
        if LowerNbr w h dem nd c n then wgt n (dem c) (dem (nbr .D8 c n)) else 0 with hWdef
    set S : K := ((List.range' 1 8).map W).sum with hS
    have hWnn : ∀ n, 0 ≤ W n := by
      intro n
      simp only [hWdef]; split
      · rename_i hl; exact hw _ _ _ hl.2.2
      · exact le_refl _
    have hSnn : 0 ≤ S := sum_map_nonneg _ W hWnn
    rcases hSnn.lt_or_eq with hSpos | hS0
    · obtain ⟨z0, zn⟩ := hp hSpos
      refine ⟨by rw [z0]; norm_num, ?_, .inl ?_⟩
      · intro n hn h0
        by_contra hl
        rw [zn n hn] at h0
        simp [hWdef, hl] at h0
      · unfold sentTotal
        have : ∀ n ∈ List.range' 1 8, (if 0 < multiFlow w h dem nd wgt c n then
            multiFlow w h dem nd wgt c n else 0) = W n / S := by
          intro n hn
          rw [← zn n hn]
          split
          · rfl
          · rename_i h1
            have : 0 ≤ multiFlow w h dem nd wgt c n := by
              rw [zn n hn]; exact div_nonneg (hWnn n) hSnn
            exact le_antisymm this (not_lt.1 h1)
        rw [List.map_congr_left this, sum_map_div, ← hS, div_self hSpos.ne']
    · obtain ⟨z0, zn⟩ := hz hS0.symm
      have hle : ∀ n ∈ List.range' 1 8, multiFlow w h dem nd wgt c n ≤ 0 := by
        intro n hn
        rw [zn n hn]; split <;> norm_num
      exact ⟨by rw [z0]; norm_num, fun n hn h0 => absurd (hle n hn) (not_le.2 h0), .inr hle⟩
  refine ⟨?_, ?_, ?_, ?_⟩
  · intro c hc
    refine ⟨fun h0 => ?_, fun hd => C18_noData w h dem nd wgt c hd⟩
    by_contra hd
    by_cases he : OnEdge w h c
    · simp only [C18_edge w h dem nd wgt c hd he] at h0; norm_num at h0
    · exact (gen c hc hd he).1 h0
  · intro c he n hn
    by_cases hd : dem c = nd
    · have hn0 : n ≠ 0 := by
        rw [List.mem_range'] at hn; obtain ⟨i, _, e⟩ := hn; omega
      simp [multiFlow, hd, hn0]
    · simp [C18_edge w h dem nd wgt c hd he]
  · intro c hc hd n hn h0
    by_cases he : OnEdge w h c
    · simp only [C18_edge w h dem nd wgt c hd he] at h0; norm_num at h0
    · exact (gen c hc hd he).2.1 n hn h0
  · intro c hc hd
    by_cases he : OnEdge w h c
    · right; intro n _; simp [C18_edge w h dem nd wgt c hd he]
    · exact (gen c hc hd he).2.2

end

/-! ### The three metrics -/

theorem drR_pos (n : Nat) : 0 < drR n := by
  unfold drR; split
  · positivity
  · norm_num

theorem freemanWgt_pos (x : ℝ) (n : Nat) (e ne : ℝ) (hlt : ne < e) : 0 < freemanWgt x n e ne :=
  Real.rpow_pos_of_pos (div_pos (by linarith) (drR_pos n)) x

theorem holmgrenWgt_pos (x : ℝ) (n : Nat) (e ne : ℝ) (hlt : ne < e) : 0 < holmgrenWgt x n e ne := by
  refine Real.rpow_pos_of_pos (mul_pos (div_pos (by linarith) (drR_pos n)) ?_) x
  unfold contourL; split <;> norm_num

/-- A probability distribution over the strictly lower data neighbours, in proportion to `g`. -/
def Distributes (w h : Nat) (dem : Cell → ℝ) (nd : ℝ) (p : Nat → ℝ) (g : Nat → ℝ) (c : Cell) : Prop :=
  ((∃ n ∈ List.range' 1 8, LowerNbr w h dem nd c n) →
    p 0 = 0 ∧ ((List.range' 1 8).map p).sum = 1 ∧
    (∀ n ∈ List.range' 1 8, 0 ≤ p n ∧ (0 < p n ↔ LowerNbr w h dem nd c n)) ∧
    (∀ n ∈ List.range' 1 8, ∀ m ∈ List.range' 1 8, LowerNbr w h dem nd c n →
      LowerNbr w h dem nd c m → p n * g m = p m * g n)) ∧
  ((¬ ∃ n ∈ List.range' 1 8, LowerNbr w h dem nd c n) → ∀ n ∈ List.range' 0 9, p n = -1)

/-- The distance between the centres of two cells, in cell widths. -/
noncomputable def centreDist (c d : Cell) : ℝ :=
  Real.sqrt (((d.1 - c.1 : Int) : ℝ) ^ 2 + ((d.2 - c.2 : Int) : ℝ) ^ 2)

/-- The contour length of Quinn et al.: a half across a side, 0.354 across a corner. -/
noncomputable def contourOf (c d : Cell) : ℝ := if c.1 = d.1 ∨ c.2 = d.2 then 1 / 2 else 354 / 1000

theorem drR_dist (c : Cell) (n : Nat) (hn : n ∈ List.range' 1 8) : drR n = centreDist c (nbr .D8 c n) := by
  have e : centreDist c (nbr .D8 c n) = Real.sqrt (((dx .D8 n : Int) : ℝ) ^ 2 + ((dy .D8 n : Int) : ℝ) ^ 2) := by
    unfold centreDist nbr
    simp only [add_sub_cancel_left]
  rw [e]
  have hn' : n = 1 ∨ n = 2 ∨ n = 3 ∨ n = 4 ∨ n = 5 ∨ n = 6 ∨ n = 7 ∨ n = 8 := by
    simp only [List.mem_range'_1] at hn; omega
  unfold drR
  rcases hn' with rfl | rfl | rfl | rfl | rfl | rfl | rfl | rfl <;> norm_num [dx, dy, d8x, d8y]

theorem contourL_eq (c : Cell) (n : Nat) (hn : n ∈ List.range' 1 8) : contourL n = contourOf c (nbr .D8 c n) := by
  have e : contourOf c (nbr .D8 c n) = if dx .D8 n = 0 ∨ dy .D8 n = 0 then 1 / 2 else 354 / 1000 := by
    unfold contourOf nbr
    have h1 : c.1 = c.1 + dx .D8 n ↔ dx .D8 n = 0 := by omega
    have h2 : c.2 = c.2 + dy .D8 n ↔ dy .D8 n = 0 := by omega
    simp only [h1, h2]
  rw [e]
  have hn' : n = 1 ∨ n = 2 ∨ n = 3 ∨ n = 4 ∨ n = 5 ∨ n = 6 ∨ n = 7 ∨ n = 8 := by
    simp only [List.mem_range'_1] at hn; omega
  unfold contourL
  rcases hn' with rfl | rfl | rfl | rfl | rfl | rfl | rfl | rfl <;> norm_num [dx, dy, d8x, d8y]

theorem Distributes.congr {w h : Nat} {dem : Cell → ℝ} {nd : ℝ} {p g g' : Nat → ℝ} {c : Cell}
    (hg : ∀ n ∈ List.range' 1 8, g n = g' n) (k : Distributes w h dem nd p g c) : Distributes w h dem nd p g' c := by
  refine ⟨fun hl => ?_, k.2⟩
  obtain ⟨k1, k2, k3, k4⟩ := k.1 hl
  refine ⟨k1, k2, k3, fun n hn m hm a b => ?_⟩
  rw [← hg n hn, ← hg m hm]
  exact k4 n hn m hm a b

section
variable (w h : Nat) (dem : Cell → ℝ) (nd : ℝ)

/-- C18, Freeman: proportions follow (gradient)^x, for every exponent `x`. -/
theorem C18_freeman (x : ℝ) (c : Cell) (hc : InGrid w h c) (hd : dem c ≠ nd) (he : ¬ OnEdge w h c) :
    Distributes w h dem nd (fmFreeman w h dem nd x c)
      (fun n => ((dem c - dem (nbr .D8 c n)) / centreDist c (nbr .D8 c n)) ^ x) c :=
  Distributes.congr (g := fun n => freemanWgt x n (dem c) (dem (nbr .D8 c n)))
    (k := C18_distribution w h dem nd (freemanWgt x) (freemanWgt_pos x) c hc hd he) fun n hn => by
    unfold freemanWgt; rw [drR_dist c n hn]

/-- C18, Holmgren: proportions follow (gradient * contour length)^x, for every exponent `x`. -/
theorem C18_holmgren (x : ℝ) (c : Cell) (hc : InGrid w h c) (hd : dem c ≠ nd) (he : ¬ OnEdge w h c) :
    Distributes w h dem nd (fmHolmgren w h dem nd x c)
      (fun n => ((dem c - dem (nbr .D8 c n)) / centreDist c (nbr .D8 c n) * contourOf c (nbr .D8 c n)) ^ x) c :=
  Distributes.congr (g := fun n => holmgrenWgt x n (dem c) (dem (nbr .D8 c n)))
    (k := C18_distribution w h dem nd (holmgrenWgt x) (holmgrenWgt_pos x) c hc hd he) fun n hn => by
    unfold holmgrenWgt; rw [drR_dist c n hn, contourL_eq c n hn]

/-- C18, Quinn: proportions follow gradient * contour length. -/
theorem C18_quinn (c : Cell) (hc : InGrid w h c) (hd : dem c ≠ nd) (he : ¬ OnEdge w h c) :
    Distributes w h dem nd (fmQuinn w h dem nd c)
      (fun n => (dem c - dem (nbr .D8 c n)) / centreDist c (nbr .D8 c n) * contourOf c (nbr .D8 c n)) c := by
  have := C18_holmgren w h dem nd 1 c hc hd he
  simp only [Real.rpow_one] at this
  exact this

/-- C18: a single lower neighbour takes everything, whatever the exponent. -/
theorem C18_single (x : ℝ) (c : Cell) (hc : InGrid w h c) (hd : dem c ≠ nd) (he : ¬ OnEdge w h c)
    (n : Nat) (hn : n ∈ List.range' 1 8) (hl : LowerNbr w h dem nd c n)
    (hu : ∀ m ∈ List.range' 1 8, LowerNbr w h dem nd c m → m = n) :
    fmFreeman w h dem nd x c n = 1 := by
  obtain ⟨hA, _⟩ := C18_freeman w h dem nd x c hc hd he
  obtain ⟨_, hsum, hpos, _⟩ := hA ⟨n, hn, hl⟩
  have hz : ∀ m ∈ List.range' 1 8, fmFreeman w h dem nd x c m =
      if m = n then fmFreeman w h dem nd x c n else 0 := by
    intro m hm
    split
    · rename_i e; rw [e]
    · rename_i e
      obtain ⟨h1, h2⟩ := hpos m hm
      exact le_antisymm (not_lt.1 (fun h0 => e (hu m hm (h2.1 h0)))) h1
  rw [List.map_congr_left hz] at hsum
  generalize fmFreeman w h dem nd x c n = v at hsum
  rw [List.mem_range'] at hn
  obtain ⟨i, hi, rfl⟩ := hn
  simp only [List.range', List.map_cons, List.map_nil, List.sum_cons, List.sum_nil] at hsum
  interval_cases i <;> simpa using hsum

end

/-! ### C57: accumulating over a metric that flows down -/

section
variable {E K : Type*} [LinearOrder E] [CommRing K] [LinearOrder K] [IsStrictOrderedRing K]
variable {w h : Nat} {dem : Cell → E} {nd : E} {props : Cell → Nat → K}

/-- Flow goes to strictly lower cells. -/
theorem flowsDown_lower (hm : FlowsDown w h dem nd props) {a b : Cell}
    (hab : TransGen (FlowEdge w h props) a b) : dem b < dem a := by
  have step : ∀ a b, FlowEdge w h props a b → dem b < dem a := by
    rintro a b ⟨ha, _, n, hn, h0, rfl⟩
    exact (hm.down a ha.1 (fun e => ha.2 ((hm.noData a ha.1).2 e)) n hn h0).2.2
  induction hab with
  | single h1 => exact step _ _ h1
  | tail _ h1 ih => exact (step _ _ h1).trans ih

/-- C57: no flow cycles. -/
theorem C57_acyclic (hm : FlowsDown w h dem nd props) (c : Cell) :
    ¬ TransGen (FlowEdge w h props) c c := fun hcc => lt_irrefl _ (flowsDown_lower hm hcc)

/-- C57: every data cell ends with its own input plus its share of the final accumulations of the
cells that flow into it. -/
theorem C57_upstream_sum (hm : FlowsDown w h dem nd props) (q : AnyQ Cell) (init : Cell → K) (c : Cell)
    (hc : InGrid w h c) (hd : dem c ≠ nd) :
    flowAccumulation q w h props init c =
      init c + inflow w h props (flowAccumulation q w h props init) c :=
  C20_upstream_sum q w h props init hm.edge c ⟨hc, fun e => hd ((hm.noData c hc).1 e)⟩
    (fun a _ => C57_acyclic hm a)

/-- C57: nothing is created or lost: the inputs of all data cells add up to the accumulations of
the data cells that send no flow on. -/
theorem C57_conservation (hm : FlowsDown w h dem nd props) (q : AnyQ Cell) (init : Cell → K) :
    ((allCells w h).map (fun c => if dem c ≠ nd then init c else 0)).sum =
    ((allCells w h).map (fun c => if dem c ≠ nd ∧ ∀ n ∈ List.range' 1 8, props c n ≤ 0 then
      flowAccumulation q w h props init c else 0)).sum := by
  have h1 := C20_conservation q w h props init hm.edge (C57_acyclic hm)
    (fun c hc => hm.unit c hc.1 (fun e => hc.2 ((hm.noData c hc.1).2 e)))
  unfold sumData at h1
  have hnd : ∀ c ∈ allCells w h, (props c 0 ≠ -2 ↔ dem c ≠ nd) := fun c hc =>
    not_congr (hm.noData c (mem_allCells.1 hc))
  rw [List.map_congr_left (g := fun c => if props c 0 ≠ -2 then init c else 0)
    (fun c hc => by by_cases hd : dem c = nd <;> simp [hnd c hc, hd]), h1]
  congr 1
  refine List.map_congr_left fun c hc => ?_
  by_cases hd : dem c = nd
  · rw [if_neg (by rw [hnd c hc]; simpa using hd), if_neg (fun hh => hh.1 hd)]
  · rw [if_pos ((hnd c hc).2 hd)]
    beta_reduce
    by_cases hs : ∀ n ∈ List.range' 1 8, props c n ≤ 0
    · rw [if_pos hs, if_pos ⟨hd, hs⟩]
    · rw [if_neg hs, if_neg (fun hh => hs hh.2)]
      have : sentToNoData props c = 0 := by
        unfold sentToNoData
        apply List.sum_eq_zero
        intro x hx
        obtain ⟨n, hn, rfl⟩ := List.mem_map.1 hx
        rw [if_neg]
        rintro ⟨h0, h2⟩
        have hl := hm.down c (mem_allCells.1 hc) hd n hn h0
        exact hl.2.1 ((hm.noData _ hl.1).1 h2)
      rw [this, mul_zero]

end

/-- C57 applies to Freeman, Holmgren and Quinn with every exponent. -/
theorem C57_freeman (w h : Nat) (dem : Cell → ℝ) (nd x : ℝ) :
    FlowsDown w h dem nd (fmFreeman w h dem nd x) :=
  multiFlow_flowsDown w h dem nd (freemanWgt x) (fun n e ne hl => (freemanWgt_pos x n e ne hl).le)

theorem C57_holmgren (w h : Nat) (dem : Cell → ℝ) (nd x : ℝ) :
    FlowsDown w h dem nd (fmHolmgren w h dem nd x) :=
  multiFlow_flowsDown w h dem nd (holmgrenWgt x) (fun n e ne hl => (holmgrenWgt_pos x n e ne hl).le)

theorem C57_quinn (w h : Nat) (dem : Cell → ℝ) (nd : ℝ) :
    FlowsDown w h dem nd (fmQuinn w h dem nd) := C57_holmgren w h dem nd 1

/-- C57 applies to `FM_D8` (`FM_OCallaghan<D8>`). -/
theorem C57_d8 {E : Type*} [LinearOrder E] (w h : Nat) (dem : Cell → E) (nd mx : E)
    (hmx : ∀ c, InGrid w h c → dem c ≤ mx) :
    FlowsDown w h dem nd (fun c n => (fmOCallaghan w h .D8 dem nd mx c).slot n) := by
  have hr : ∀ n ∈ List.range' 1 8, n ≠ 0 := by decide
  refine ⟨?_, ?_, ?_, ?_⟩
  · intro c hc
    rw [← (C17_metric w h .D8 dem nd mx c (hmx c hc) hc).1]
    cases fmOCallaghan w h .D8 dem nd mx c <;> simp [Props1.slot]
    rename_i n; split <;> simp
  · intro c he n hn
    have hm := C17_metric w h .D8 dem nd mx c (hmx c he.1) he.1
    beta_reduce
    by_cases hd : dem c = nd
    · rw [hm.1.2 hd]
      have := hr n hn
      cases n with
      | zero => exact absurd rfl this
      | succ n => simp [Props1.slot]
    · rw [hm.2.1 he hd]; simp [Props1.slot]
  · intro c hc hd n hn h0
    have hm := C17_metric w h .D8 dem nd mx c (hmx c hc) hc
    beta_reduce at h0
    have he : ¬ OnEdge w h c := by
      intro he; rw [hm.2.1 he hd] at h0; simp [Props1.slot] at h0
    cases hf : fmOCallaghan w h .D8 dem nd mx c with
    | noData => exact absurd (hm.1.1 hf) hd
    | noFlow => rw [hf] at h0; simp [Props1.slot] at h0
    | flow m =>
      rw [hf] at h0
      have hnm : n = m := by
        by_contra hne
        simp [Props1.slot, hne, hr n hn] at h0
      subst hnm
      obtain ⟨_, _, h3, _, h5, h6, _⟩ := (hm.2.2 he hd).2 n hf
      exact ⟨h3, h5, h6⟩
  · intro c hc hd
    have hm := C17_metric w h .D8 dem nd mx c (hmx c hc) hc
    cases hf : fmOCallaghan w h .D8 dem nd mx c with
    | noData => exact absurd (hm.1.1 hf) hd
    | noFlow => right; intro n hn; simp [Props1.slot, hf]
    | flow m =>
      left
      have he : ¬ OnEdge w h c := by intro he; rw [hm.2.1 he hd] at hf; cases hf
      obtain ⟨h1, h2, _⟩ := (hm.2.2 he hd).2 m hf
      have h2 : m ≤ 8 := h2
      unfold sentTotal
      beta_reduce
      rw [hf]
      simp only [List.range', List.map_cons, List.map_nil, List.sum_cons, List.sum_nil, Props1.slot]
      interval_cases m <;> simp

/-! ### C56: Rho8 and Rho4 -/

section
variable {K : Type*} [Field K] [LinearOrder K] [IsStrictOrderedRing K]

theorem rhoScan_spec (w h : Nat) (t : Topo) (dem : Cell → K) (nd : K) (f : Nat → K) (c : Cell)
    (l : List Nat) (P : List Nat) (s : Nat × K) (h0 : ∀ n ∈ P ++ l, n ≠ 0)
    (hs : (s = (0, 0) ∧ ∀ m ∈ P, InGrid w h (nbr t c m) → dem (nbr t c m) ≠ nd →
        dem (nbr t c m) < dem c → (dem c - dem (nbr t c m)) * f m ≤ 0) ∨
      (s.1 ∈ P ∧ InGrid w h (nbr t c s.1) ∧ dem (nbr t c s.1) ≠ nd ∧ dem (nbr t c s.1) < dem c ∧
        s.2 = (dem c - dem (nbr t c s.1)) * f s.1 ∧ 0 < s.2 ∧
        ∀ m ∈ P, InGrid w h (nbr t c m) → dem (nbr t c m) ≠ nd → dem (nbr t c m) < dem c →
          (dem c - dem (nbr t c m)) * f m ≤ s.2)) :
    let r := rhoScan w h t dem nd f c l s
    (r = (0, 0) ∧ ∀ m ∈ P ++ l, InGrid w h (nbr t c m) → dem (nbr t c m) ≠ nd →
        dem (nbr t c m) < dem c → (dem c - dem (nbr t c m)) * f m ≤ 0) ∨
      (r.1 ∈ P ++ l ∧ InGrid w h (nbr t c r.1) ∧ dem (nbr t c r.1) ≠ nd ∧
        dem (nbr t c r.1) < dem c ∧ r.2 = (dem c - dem (nbr t c r.1)) * f r.1 ∧ 0 < r.2 ∧
        ∀ m ∈ P ++ l, InGrid w h (nbr t c m) → dem (nbr t c m) ≠ nd → dem (nbr t c m) < dem c →
          (dem c - dem (nbr t c m)) * f m ≤ r.2) := by
  induction l generalizing P s with
  | nil => simpa [rhoScan] using hs
  | cons a l ih =>
    have hassoc : P ++ a :: l = (P ++ [a]) ++ l := by simp
    rw [hassoc] at h0 ⊢
    have hstep : rhoScan w h t dem nd f c (a :: l) s = rhoScan w h t dem nd f c l
      (if inGrid w h (nbr t c a) = false then s
        else if dem (nbr t c a) = nd then s
        else if dem c ≤ dem (nbr t c a) then s
        else if s.2 < (dem c - dem (nbr t c a)) * f a then (a, (dem c - dem (nbr t c a)) * f a)
        else s) := rfl
    intro r
    have hr : r = _ := hstep
    rw [hr]
    -- a skipped direction
    have skip : (InGrid w h (nbr t c a) → dem (nbr t c a) ≠ nd → dem (nbr t c a) < dem c →
        (dem c - dem (nbr t c a)) * f a ≤ s.2) →
        (s = (0, 0) ∧ ∀ m ∈ P ++ [a], InGrid w h (nbr t c m) → dem (nbr t c m) ≠ nd →
        dem (nbr t c m) < dem c → (dem c - dem (nbr t c m)) * f m ≤ 0) ∨
      (s.1 ∈ P ++ [a] ∧ InGrid w h (nbr t c s.1) ∧ dem (nbr t c s.1) ≠ nd ∧
        dem (nbr t c s.1) < dem c ∧ s.2 = (dem c - dem (nbr t c s.1)) * f s.1 ∧ 0 < s.2 ∧
        ∀ m ∈ P ++ [a], InGrid w h (nbr t c m) → dem (nbr t c m) ≠ nd → dem (nbr t c m) < dem c →
          (dem c - dem (nbr t c m)) * f m ≤ s.2) := by
      intro ha
      rcases hs with ⟨e, hz⟩ | ⟨g1, g2, g3, g4, g5, g6, g7⟩
      · left
        refine ⟨e, ?_⟩
        intro m hm
        rcases List.mem_append.1 hm with hm | hm
        · exact hz m hm
        · rw [List.mem_singleton.1 hm]
          intro i1 i2 i3
          have := ha i1 i2 i3
          rw [e] at this; exact this
      · right
        refine ⟨by simp [g1], g2, g3, g4, g5, g6, ?_⟩
        intro m hm
        rcases List.mem_append.1 hm with hm | hm
        · exact g7 m hm
        · rw [List.mem_singleton.1 hm]; exact ha
    by_cases h1 : inGrid w h (nbr t c a) = false
    · rw [if_pos h1]
      refine ih (P ++ [a]) s h0 (skip ?_)
      intro hin; rw [inGrid_iff.2 hin] at h1; cases h1
    rw [if_neg h1]
    have hin : InGrid w h (nbr t c a) := inGrid_iff.1 (by simpa using h1)
    by_cases h2 : dem (nbr t c a) = nd
    · rw [if_pos h2]
      exact ih (P ++ [a]) s h0 (skip (fun _ hh => absurd h2 hh))
    rw [if_neg h2]
    by_cases h3 : dem c ≤ dem (nbr t c a)
    · rw [if_pos h3]
      exact ih (P ++ [a]) s h0 (skip (fun _ _ hh => absurd h3 (not_le.2 hh)))
    rw [if_neg h3]
    by_cases h4 : s.2 < (dem c - dem (nbr t c a)) * f a
    · rw [if_pos h4]
      have hs2 : 0 ≤ s.2 := by
        rcases hs with ⟨e, _⟩ | ⟨_, _, _, _, _, g6, _⟩
        · rw [e]
        · exact g6.le
      refine ih (P ++ [a]) _ h0 (.inr ⟨by simp, hin, h2, not_le.1 h3, rfl, lt_of_le_of_lt hs2 h4, ?_⟩)
      intro m hm i1 i2 i3
      rcases List.mem_append.1 hm with hm | hm
      · refine le_trans ?_ h4.le
        rcases hs with ⟨e, hz⟩ | ⟨_, _, _, _, _, _, g7⟩
        · rw [e]; exact hz m hm i1 i2 i3
        · exact g7 m hm i1 i2 i3
      · rw [List.mem_singleton.1 hm]
    · rw [if_neg h4]
      exact ih (P ++ [a]) s h0 (skip (fun _ _ _ => not_lt.1 h4))

/-- C56: whatever the random numbers, an interior data cell is given at most one neighbour; that
neighbour is a strictly lower data cell and maximises the randomised drop; and if the random
factors are positive, the cell is left without flow only if it has no lower data neighbour. -/
theorem C56_rho (w h : Nat) (t : Topo) (dem : Cell → K) (nd : K) (f : Cell → Nat → K) (c : Cell)
    (hc : InGrid w h c) (hd : dem c ≠ nd) (he : ¬ OnEdge w h c) :
    fmFairfield w h t dem nd f c ≠ .noData ∧
    (∀ n, fmFairfield w h t dem nd f c = .flow n →
      n ∈ dirs t ∧ InGrid w h (nbr t c n) ∧ dem (nbr t c n) ≠ nd ∧ dem (nbr t c n) < dem c ∧
      ∀ m ∈ dirs t, InGrid w h (nbr t c m) → dem (nbr t c m) ≠ nd → dem (nbr t c m) < dem c →
        (dem c - dem (nbr t c m)) * f c m ≤ (dem c - dem (nbr t c n)) * f c n) ∧
    ((∀ m ∈ dirs t, 0 < f c m) →
      (fmFairfield w h t dem nd f c = .noFlow ↔
        ∀ m ∈ dirs t, InGrid w h (nbr t c m) → dem (nbr t c m) ≠ nd → dem c ≤ dem (nbr t c m))) := by
  have he' : isEdgeCell w h c = false := by
    rw [← Bool.not_eq_true, isEdgeCell_iff hc]; exact he
  have hdirs0 : ∀ n ∈ [] ++ dirs t, n ≠ 0 := by
    intro n hn; have := (mem_dirs.1 (by simpa using hn)).1; omega
  have S := rhoScan_spec w h t dem nd (f c) c (dirs t) [] (0, 0) hdirs0 (.inl ⟨rfl, by simp⟩)
  simp only [List.nil_append] at S hdirs0
  have hfm : fmFairfield w h t dem nd f c =
      if (rhoScan w h t dem nd (f c) c (dirs t) (0, 0)).1 = 0 then .noFlow
      else .flow (rhoScan w h t dem nd (f c) c (dirs t) (0, 0)).1 := by
    unfold fmFairfield; rw [if_neg hd, he']; simp
  set r := rhoScan w h t dem nd (f c) c (dirs t) (0, 0) with hr
  rcases S with ⟨e, hz⟩ | ⟨g1, g2, g3, g4, g5, g6, g7⟩
  · have hno : fmFairfield w h t dem nd f c = .noFlow := by rw [hfm, e]; simp
    refine ⟨by rw [hno]; simp, fun n hn => (by rw [hno] at hn; cases hn), fun hpos => ?_⟩
    simp only [hno, true_iff]
    intro m hm i1 i2
    by_contra hlt
    have := hz m hm i1 i2 (not_le.1 hlt)
    have h2 : 0 < (dem c - dem (nbr t c m)) * f c m :=
      mul_pos (sub_pos.2 (not_le.1 hlt)) (hpos m hm)
    exact absurd this (not_le.2 h2)
  · have hfl : fmFairfield w h t dem nd f c = .flow r.1 := by rw [hfm, if_neg (hdirs0 r.1 g1)]
    refine ⟨by rw [hfl]; simp, ?_, fun _ => ?_⟩
    · intro n hn
      rw [hfl] at hn
      injection hn with hn
      rw [← hn]
      exact ⟨g1, g2, g3, g4, by rw [← g5]; exact g7⟩
    · rw [hfl]
      simp only [reduceCtorEq, false_iff, not_forall]
      exact ⟨r.1, g1, g2, g3, not_le.2 g4⟩

/-- C56: the Rho8 factors are positive for every random number in [0,1]. -/
theorem C56_rho8_factor (n : Nat) (u : K) (h0 : 0 ≤ u) (h1 : u ≤ 1) :
    0 < rhoFactor .D8 n u ∧ rhoFactor .D8 n u ≤ 1 ∧ 1 / 2 ≤ rhoFactor .D8 n u := by
  unfold rhoFactor
  simp only
  split
  · have : 0 < 2 - u := by linarith
    refine ⟨by positivity, ?_, ?_⟩
    · rw [div_le_one this]; linarith
    · rw [div_le_div_iff₀ (by norm_num) this]; linarith
  · norm_num

/-- C56: the Rho4 factors are positive for random numbers strictly between 0 and 1. -/
theorem C56_rho4_factor (n : Nat) (u : K) (h0 : 0 < u) (h1 : u < 1) : 0 < rhoFactor .D4 n u := by
  unfold rhoFactor
  simp only [h0.ne', if_false]
  split
  · have : 1 < 1 / u := by rw [lt_div_iff₀ h0]; linarith
    have : 0 < 1 / u - 1 := by linarith
    positivity
  · norm_num

/-- C57 applies to Rho8 for every sequence of random numbers. -/
theorem C57_rho8 (w h : Nat) (dem : Cell → K) (nd : K) (f : Cell → Nat → K) :
    FlowsDown w h dem nd (fun c n => (((fmFairfield w h .D8 dem nd f c).slot n : Int) : K)) := by
  have hr : ∀ n ∈ List.range' 1 8, n ≠ 0 := by decide
  have hnd : ∀ c, dem c = nd → fmFairfield w h .D8 dem nd f c = .noData := by
    intro c hd; simp [fmFairfield, hd]
  have hedge : ∀ c, dem c ≠ nd → OnEdge w h c → fmFairfield w h .D8 dem nd f c = .noFlow := by
    intro c hd he
    have : isEdgeCell w h c = true := (isEdgeCell_iff he.1).2 he
    simp [fmFairfield, hd, this]
  refine ⟨?_, ?_, ?_, ?_⟩
  · intro c hc
    refine ⟨fun h0 => ?_, fun hd => by rw [hnd c hd]; norm_num [Props1.slot]⟩
    by_contra hd
    have h1 : fmFairfield w h .D8 dem nd f c ≠ .noData := by
      by_cases he : OnEdge w h c
      · rw [hedge c hd he]; simp
      · exact (C56_rho w h .D8 dem nd f c hc hd he).1
    have h2 : (fmFairfield w h .D8 dem nd f c).slot 0 = -2 := by exact_mod_cast h0
    cases hf : fmFairfield w h .D8 dem nd f c with
    | noData => exact h1 hf
    | noFlow => rw [hf] at h2; simp [Props1.slot] at h2
    | flow m => rw [hf] at h2; simp only [Props1.slot] at h2; split at h2 <;> simp at h2
  · intro c he n hn
    by_cases hd : dem c = nd
    · simp only [hnd c hd]
      have := hr n hn
      cases n with
      | zero => exact absurd rfl this
      | succ n => simp [Props1.slot]
    · simp [hedge c hd he, Props1.slot]
  · intro c hc hd n hn h0
    have he : ¬ OnEdge w h c := by
      intro he; simp only [hedge c hd he, Props1.slot] at h0; norm_num at h0
    have hm := C56_rho w h .D8 dem nd f c hc hd he
    have h0' : 0 < (fmFairfield w h .D8 dem nd f c).slot n := by exact_mod_cast h0
    cases hf : fmFairfield w h .D8 dem nd f c with
    | noData => exact absurd hf hm.1
    | noFlow => rw [hf] at h0'; simp [Props1.slot] at h0'
    | flow m =>
      rw [hf] at h0'
      have hnm : n = m := by
        by_contra hne
        simp [Props1.slot, hne, hr n hn] at h0'
      subst hnm
      obtain ⟨_, h3, h5, h6, _⟩ := hm.2.1 n hf
      exact ⟨h3, h5, h6⟩
  · intro c hc hd
    by_cases he : OnEdge w h c
    · right; intro n hn; simp [hedge c hd he, Props1.slot]
    have hm := C56_rho w h .D8 dem nd f c hc hd he
    cases hf : fmFairfield w h .D8 dem nd f c with
    | noData => exact absurd hf hm.1
    | noFlow => right; intro n hn; simp [Props1.slot, hf]
    | flow m =>
      left
      obtain ⟨h1, _⟩ := hm.2.1 m hf
      have h2 : 1 ≤ m ∧ m ≤ 8 := mem_dirs.1 h1
      obtain ⟨h2, h3⟩ := h2
      unfold sentTotal
      beta_reduce
      rw [hf]
      simp only [List.range', List.map_cons, List.map_nil, List.sum_cons, List.sum_nil, Props1.slot]
      interval_cases m <;> norm_num

end

/-- C56 fails for Rho4 when the random number is exactly 0, a value the generator can return: the
only lower neighbour (north) is ignored and the cell is left without flow. -/
theorem C56_rho4_zero_partial :
    let dem : Cell → ℚ := ofRows 0 [[9, 1, 9], [9, 5, 9], [9, 9, 9]]
    fmFairfield 3 3 .D4 dem (-1) (fun _ n => rhoFactor .D4 n 0) (1, 1) = .noFlow ∧
    dem (1, 0) < dem (1, 1) ∧ dem (1, 0) ≠ -1 := by decide +kernel

/-! ### Non-vacuity -/

/-- A 3x3 surface with two lower neighbours of the centre. -/
noncomputable def exMF : Cell → ℝ := fun c =>
  if c = (0, 1) then 1 else if c = (0, 0) then 0 else if c = (1, 1) then 2 else 3

example : InGrid 3 3 (1, 1) ∧ exMF (1, 1) ≠ -9 ∧ ¬ OnEdge 3 3 (1, 1) ∧
    LowerNbr 3 3 exMF (-9) (1, 1) 1 ∧ LowerNbr 3 3 exMF (-9) (1, 1) 2 ∧
    ¬ LowerNbr 3 3 exMF (-9) (1, 1) 5 := by
  refine ⟨by decide, ?_, by decide, ⟨by decide, ?_, ?_⟩, ⟨by decide, ?_, ?_⟩, ?_⟩ <;>
    norm_num [LowerNbr, exMF, nbr, dx, dy, d8x, d8y]

/-- Rho8 on a literal raster: the diagonal drop of 4 is worth 2 to 4, the cardinal drop of 3 is
worth 3. -/
example : let dem : Cell → ℚ := ofRows 0 [[1, 9, 9], [2, 5, 9], [9, 9, 9]]
    fmFairfield 3 3 .D8 dem (-1) (fun _ n => rhoFactor .D8 n 0) (1, 1) = .flow 1 ∧
    fmFairfield 3 3 .D8 dem (-1) (fun _ n => rhoFactor .D8 n (9/10)) (1, 1) = .flow 2 := by
  decide +kernel

end RichDEM
