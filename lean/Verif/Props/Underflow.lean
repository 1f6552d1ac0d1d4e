/-
Property theorems C116: multiple-flow metrics whose weights do not fit into a `float`.
-/
import Verif.Flow.Underflow
import Verif.Props.RoundedMetrics

namespace RichDEM

open Relation
open Py (roundBits roundEven)

/-- A number above `2^-150` is stored with an error of at most a factor two. -/
theorem toFloat32_half {q : ℚ} (hq : 1 / 2 ^ 150 < q) : q / 2 ≤ toFloat32 q ∧ toFloat32 q ≤ 2 * q := by
  have hq0 : 0 < q := lt_trans (by positivity) hq
  by_cases hn : 1 / 2 ^ 126 ≤ q
  · rw [toFloat32_normal hn]
    obtain ⟨h1, h2⟩ := roundBits_between 24 q hq0.le
    have a1 : q / 2 ≤ (1 - 1 / 2 ^ 24) * q := by
      have : (1 / 2 : ℚ) * q ≤ (1 - 1 / 2 ^ 24) * q := mul_le_mul_of_nonneg_right (by norm_num) hq0.le
      linarith
    have a2 : (1 + 1 / 2 ^ 24) * q ≤ 2 * q := mul_le_mul_of_nonneg_right (by norm_num) hq0.le
    exact ⟨a1.trans h1, h2.trans a2⟩
  · push Not at hn
    unfold toFloat32
    rw [if_pos (by rw [abs_of_pos hq0]; exact hn)]
    set x := q * 2 ^ 149 with hx
    have hx2 : 1 / 2 < x := by
      have := mul_lt_mul_of_pos_right hq (show (0 : ℚ) < 2 ^ 149 by positivity)
      rw [hx]
      refine lt_of_le_of_lt (by norm_num) this
    have key : x / 2 ≤ roundEven x ∧ (roundEven x : ℚ) ≤ 2 * x := by
      rcases lt_or_ge x 1 with h | h
      · have := Py.roundEven_near x 1
        push_cast at this
        rw [abs_of_nonneg (a := 1 - x) (by linarith), abs_le] at this
        have hpos : (0 : ℚ) < roundEven x := by linarith
        have hge : (1 : ℚ) ≤ roundEven x := by
          have : (0 : Int) < roundEven x := by exact_mod_cast hpos
          exact_mod_cast this
        constructor <;> linarith
      · have h5 : |((round x : Int) : ℚ) - x| ≤ 1 / 2 := by rw [abs_sub_comm]; exact abs_sub_round x
        have := (Py.roundEven_near x (round x)).trans h5
        rw [abs_le] at this
        constructor <;> linarith
    have hq' : q = x / 2 ^ 149 := by rw [hx]; field_simp
    rw [hq']
    obtain ⟨k1, k2⟩ := key
    have hp : (0 : ℚ) < 2 ^ 149 := by positivity
    constructor
    · rw [show x / 2 ^ 149 / 2 = (x / 2) / 2 ^ 149 by ring]
      exact div_le_div_of_nonneg_right k1 hp.le
    · rw [show 2 * (x / 2 ^ 149) = (2 * x) / 2 ^ 149 by ring]
      exact div_le_div_of_nonneg_right k2 hp.le

theorem toFloat32_nonneg {q : ℚ} (hq : 0 ≤ q) : 0 ≤ toFloat32 q ∧ toFloat32 q ≤ 2 * q := by
  rcases le_or_gt q (1 / 2 ^ 150) with h | h
  · rw [toFloat32_tiny hq h]; constructor <;> linarith
  · have := toFloat32_half h
    constructor <;> linarith

/-- Above `2^-150` nothing is stored as zero. -/
theorem toFloat32_pos_iff {q : ℚ} (hq : 0 ≤ q) : 0 < toFloat32 q ↔ 1 / 2 ^ 150 < q := by
  constructor
  · intro h
    by_contra hc
    rw [toFloat32_tiny hq (not_lt.1 hc)] at h
    exact lt_irrefl _ h
  · intro h
    have := (toFloat32_half h).1
    have : 0 < q := lt_trans (by positivity) h
    linarith

section
variable (stored : Bool) (w h : Nat) (dem : Cell → ℚ) (nd : ℚ) (wgt : Nat → ℚ → ℚ → ℚ) (c : Cell)

/-- What a lower neighbour adds to the sum. -/
def addend (n : Nat) : ℚ :=
  if stored then toFloat32 (wgt n (dem c) (dem (nbr .D8 c n))) else wgt n (dem c) (dem (nbr .D8 c n))

theorem total_pos (l : List Nat) (hu : ∀ n ∈ l, lowerNbr w h dem nd c n = true → 0 ≤ addend stored dem wgt c n)
    (s : (Nat → ℚ) × ℚ) (hs : 0 ≤ s.2) :
    0 ≤ (mfWeightsS toFloat32 stored w h dem nd wgt c l s).2 ∧
    ((0 < s.2 ∨ ∃ n ∈ l, lowerNbr w h dem nd c n = true ∧ 0 < addend stored dem wgt c n) →
      0 < (mfWeightsS toFloat32 stored w h dem nd wgt c l s).2) := by
  induction l generalizing s with
  | nil =>
    refine ⟨by simpa [mfWeightsS] using hs, ?_⟩
    rintro (h0 | ⟨n, hn, -⟩)
    · simpa [mfWeightsS] using h0
    · cases hn
  | cons a l ih =>
    rw [mfWeightsS_step]
    by_cases hlow : lowerNbr w h dem nd c a = true
    · rw [if_pos hlow]
      have ha := hu a (List.mem_cons_self ..) hlow
      unfold addend at ha
      have hnn : 0 ≤ roundBits 53 (s.2 + if stored then toFloat32 (wgt a (dem c) (dem (nbr .D8 c a)))
            else wgt a (dem c) (dem (nbr .D8 c a))) := by
        have h1 := (roundBits_between 53 _ (add_nonneg hs ha)).1
        refine le_trans (mul_nonneg (by norm_num) (add_nonneg hs ha)) h1
      obtain ⟨i1, i2⟩ := ih (fun n hn => hu n (List.mem_cons_of_mem _ hn)) (_, _) hnn
      refine ⟨i1, fun hc => i2 ?_⟩
      rcases hc with h0 | ⟨n, hn, hl, hp⟩
      · exact Or.inl (roundBits_pos (by norm_num) (by linarith))
      · rcases List.mem_cons.1 hn with rfl | hn
        · unfold addend at hp
          exact Or.inl (roundBits_pos (by norm_num) (by linarith))
        · exact Or.inr ⟨n, hn, hl, hp⟩
    · rw [if_neg hlow]
      obtain ⟨i1, i2⟩ := ih (fun n hn => hu n (List.mem_cons_of_mem _ hn)) s hs
      refine ⟨i1, fun hc => i2 ?_⟩
      rcases hc with h0 | ⟨n, hn, hl, hp⟩
      · exact Or.inl h0
      · rcases List.mem_cons.1 hn with rfl | hn
        · exact absurd hl hlow
        · exact Or.inr ⟨n, hn, hl, hp⟩

theorem total_le (F : ℚ) (hF : 0 ≤ F) (l : List Nat) (hu : ∀ n ∈ l, lowerNbr w h dem nd c n = true →
      0 ≤ addend stored dem wgt c n ∧ addend stored dem wgt c n ≤ F) (s : (Nat → ℚ) × ℚ) (hs : 0 ≤ s.2) :
    (mfWeightsS toFloat32 stored w h dem nd wgt c l s).2 + 2 * F ≤ 2 ^ l.length * (s.2 + 2 * F) := by
  induction l generalizing s with
  | nil => simp [mfWeightsS]
  | cons a l ih =>
    rw [mfWeightsS_step, List.length_cons, pow_succ]
    have ih' := ih (fun n hn => hu n (List.mem_cons_of_mem _ hn))
    have h2 : (0 : ℚ) < 2 ^ l.length := by positivity
    by_cases hlow : lowerNbr w h dem nd c a = true
    · rw [if_pos hlow]
      obtain ⟨ha, hb⟩ := hu a (List.mem_cons_self ..) hlow
      change 2 ^ l.length * 2 * (s.2 + 2 * F) ≥ _
      have hcore : ∀ u : ℚ, 0 ≤ u → u ≤ F → 0 ≤ roundBits 53 (s.2 + u) ∧ roundBits 53 (s.2 + u) + 2 * F ≤ 2 * (s.2 + 2 * F) := by
        intro u u0 u1
        obtain ⟨r1, r2⟩ := roundBits_between 53 (s.2 + u) (add_nonneg hs u0)
        have h3 : (1 + 1 / 2 ^ 53 : ℚ) * (s.2 + u) ≤ 2 * (s.2 + u) :=
          mul_le_mul_of_nonneg_right (by norm_num) (add_nonneg hs u0)
        exact ⟨le_trans (mul_nonneg (by norm_num) (add_nonneg hs u0)) r1, by linarith⟩
      obtain ⟨k1, k2⟩ := hcore _ ha hb
      refine (ih' (_, _) k1).trans ?_
      rw [mul_assoc]
      exact mul_le_mul_of_nonneg_left k2 h2.le
    · rw [if_neg hlow]
      refine (ih' s hs).trans ?_
      rw [mul_assoc]
      apply mul_le_mul_of_nonneg_left _ h2.le
      linarith

theorem largest (P : Nat → Prop) (f : Nat → ℚ) (l : List Nat) (hex : ∃ n ∈ l, P n) :
    ∃ m ∈ l, P m ∧ ∀ n ∈ l, P n → f n ≤ f m := by
  classical
  obtain ⟨n, hn, hP⟩ := hex
  obtain ⟨m, hm, hmax⟩ := Finset.exists_max_image (l.toFinset.filter P) f ⟨n, by simp [hn, hP]⟩
  simp only [Finset.mem_filter, List.mem_toFinset] at hm hmax
  exact ⟨m, hm.1, hm.2, fun n hn hP => hmax n ⟨hn, hP⟩⟩

/-- An interior data cell sends flow on exactly if the weight of one of its lower neighbours survives as a float. -/
theorem multiFlowS_sends (hc : InGrid w h c) (he : ¬ OnEdge w h c) (hd : dem c ≠ nd)
    (hw : ∀ n ∈ List.range' 1 8, LowerNbr w h dem nd c n → 0 ≤ wgt n (dem c) (dem (nbr .D8 c n))) :
    (∃ n ∈ List.range' 1 8, 0 < multiFlowS toFloat32 stored w h dem nd wgt c n) ↔
      ∃ n ∈ List.range' 1 8, LowerNbr w h dem nd c n ∧ 1 / 2 ^ 150 < wgt n (dem c) (dem (nbr .D8 c n)) := by
  have hr0 : ∀ n ∈ List.range' 1 8, n ≠ 0 := by decide
  have hnd : (dirs .D8).Nodup := by decide
  have hedge : ¬ isEdgeCell w h c = true := fun hh => he ((isEdgeCell_iff hc).1 hh)
  -- the weights that were stored
  have hst : ∀ n ∈ List.range' 1 8, (mfWeightsS toFloat32 stored w h dem nd wgt c (dirs .D8) (fun _ => -1, 0)).1 n =
      if lowerNbr w h dem nd c n = true then toFloat32 (wgt n (dem c) (dem (nbr .D8 c n))) else -1 := by
    intro n hn
    rw [mfWeightsS_stored _ _ _ _ _ _ _ _ _ hnd]
    by_cases hl : lowerNbr w h dem nd c n = true
    · have hb : n ∈ dirs .D8 ∧ lowerNbr w h dem nd c n = true := ⟨hn, hl⟩
      rw [if_pos hb, if_pos hl]
    · have hb : ¬ (n ∈ dirs .D8 ∧ lowerNbr w h dem nd c n = true) := fun x => hl x.2
      rw [if_neg hb, if_neg hl]
  have hstpos : ∀ n ∈ List.range' 1 8,
      0 < (mfWeightsS toFloat32 stored w h dem nd wgt c (dirs .D8) (fun _ => -1, 0)).1 n ↔
        LowerNbr w h dem nd c n ∧ 1 / 2 ^ 150 < wgt n (dem c) (dem (nbr .D8 c n)) := by
    intro n hn
    rw [hst n hn]
    by_cases hl : lowerNbr w h dem nd c n = true
    · rw [if_pos hl, toFloat32_pos_iff (hw n hn (lowerNbr_iff.1 hl))]
      simp [lowerNbr_iff.1 hl]
    · rw [if_neg hl]
      constructor
      · intro h0; norm_num at h0
      · intro h0; exact absurd (lowerNbr_iff.2 h0.1) hl
  constructor
  · rintro ⟨n, hn, hpos⟩
    refine ⟨n, hn, (hstpos n hn).1 ?_⟩
    unfold multiFlowS at hpos
    rw [if_neg hd, if_neg hedge] at hpos
    by_cases ht : 0 < (mfWeightsS toFloat32 stored w h dem nd wgt c (dirs .D8) (fun _ => -1, 0)).2
    · rw [if_pos ht, mfNormaliseS_spec _ _ _ hnd, if_pos (show n ∈ dirs .D8 from hn),
        Function.update_of_ne (hr0 n hn)] at hpos
      by_contra hc'
      rw [if_neg hc'] at hpos
      exact lt_irrefl _ hpos
    · rw [if_neg ht] at hpos
      exact hpos
  · intro hex
    obtain ⟨m, hm, ⟨hml, hmw⟩, hmax⟩ := largest (fun n => LowerNbr w h dem nd c n ∧ 1 / 2 ^ 150 < wgt n (dem c) (dem (nbr .D8 c n)))
      (fun n => wgt n (dem c) (dem (nbr .D8 c n))) (List.range' 1 8) hex
    set W := wgt m (dem c) (dem (nbr .D8 c m)) with hW
    have hW0 : 0 < W := lt_trans (by positivity) hmw
    obtain ⟨f1, f2⟩ := toFloat32_half hmw
    -- the sum: restrict the weights to the eight directions
    have hmaxW : ∀ n ∈ List.range' 1 8, LowerNbr w h dem nd c n → wgt n (dem c) (dem (nbr .D8 c n)) ≤ W := by
      intro n hn hl
      rcases le_or_gt (wgt n (dem c) (dem (nbr .D8 c n))) (1 / 2 ^ 150) with h1 | h1
      · linarith
      · exact hmax n hn ⟨hl, h1⟩
    have hadd : ∀ n ∈ List.range' 1 8, LowerNbr w h dem nd c n →
        0 ≤ addend stored dem wgt c n ∧ addend stored dem wgt c n ≤ 2 * W := by
      intro n hn hl
      have h1 := hw n hn hl
      have h2 := hmaxW n hn hl
      unfold addend
      cases stored
      · simp only [Bool.false_eq_true, if_false]; constructor <;> linarith
      · simp only [if_true]
        have := toFloat32_nonneg h1
        constructor <;> linarith
    have hbound := total_le stored w h dem nd wgt c (2 * W) (by linarith) (dirs .D8)
      (fun n hn hl => hadd n hn (lowerNbr_iff.1 hl)) (fun _ => -1, 0) (le_refl _)
    have hpos := (total_pos stored w h dem nd wgt c (dirs .D8) (fun n hn hl => (hadd n hn (lowerNbr_iff.1 hl)).1)
      (fun _ => -1, 0) (le_refl _)).2 (Or.inr ⟨m, hm, lowerNbr_iff.2 hml, by
        unfold addend
        cases stored
        · simpa using hW0
        · simp only [if_true]; exact (toFloat32_pos_iff hW0.le).2 hmw⟩)
    rw [show (dirs .D8).length = 8 from rfl] at hbound
    set T := (mfWeightsS toFloat32 stored w h dem nd wgt c (dirs .D8) (fun _ => -1, 0)).2 with hT
    refine ⟨m, hm, ?_⟩
    unfold multiFlowS
    rw [if_neg hd, if_neg hedge]
    rw [if_pos hpos, mfNormaliseS_spec _ _ _ hnd, if_pos (show m ∈ dirs .D8 from hm), Function.update_of_ne (hr0 m hm),
      if_pos ((hstpos m hm).2 ⟨hml, hmw⟩), hst m hm, if_pos (lowerNbr_iff.2 hml), ← hW, ← hT]
    have hk := (roundBits_between 53 (1 / T) (by positivity)).1
    have hTle : T ≤ 2048 * W := by norm_num at hbound; linarith
    have hk2 : 1 / (4096 * W) ≤ roundBits 53 (1 / T) := by
      refine le_trans ?_ hk
      have h1 : 1 / (2048 * W) ≤ 1 / T := one_div_le_one_div_of_le hpos hTle
      have h2 : (1 / 2 : ℚ) * (1 / (2048 * W)) ≤ (1 - 1 / 2 ^ 53) * (1 / T) :=
        mul_le_mul (by norm_num) h1 (by positivity) (by norm_num)
      refine le_trans (le_of_eq ?_) h2
      field_simp
      norm_num
    have hprod : 1 / 8192 ≤ toFloat32 W * roundBits 53 (1 / T) := by
      have := mul_le_mul f1 hk2 (by positivity) (by linarith)
      refine le_trans (le_of_eq ?_) this
      field_simp
      norm_num
    have hr := (roundBits_between 53 _ (le_trans (by norm_num) hprod)).1
    rw [toFloat32_pos_iff (le_trans (mul_nonneg (by norm_num) (le_trans (by norm_num) hprod)) hr)]
    refine lt_of_lt_of_le ?_ hr
    have : (1 / 2 : ℚ) * (1 / 8192) ≤ (1 - 1 / 2 ^ 53) * (toFloat32 W * roundBits 53 (1 / T)) :=
      mul_le_mul (by norm_num) hprod (by norm_num) (by norm_num)
    refine lt_of_lt_of_le (by norm_num) this

/-- If all weights of lower neighbours are between `2^-50` and `2^50` the range of `float` plays no role. -/
theorem multiFlowS_normal (hw : ∀ n ∈ List.range' 1 8, LowerNbr w h dem nd c n →
      1 / 2 ^ 50 ≤ wgt n (dem c) (dem (nbr .D8 c n)) ∧ wgt n (dem c) (dem (nbr .D8 c n)) ≤ 2 ^ 50) :
    multiFlowS toFloat32 stored w h dem nd wgt c = multiFlowR stored w h dem nd wgt c := by
  rw [← multiFlowS_roundBits]
  have hnd : (dirs .D8).Nodup := by decide
  have hr0 : ∀ n ∈ List.range' 1 8, n ≠ 0 := by decide
  have hst : ∀ n ∈ dirs .D8, lowerNbr w h dem nd c n = true →
      toFloat32 (wgt n (dem c) (dem (nbr .D8 c n))) = roundBits 24 (wgt n (dem c) (dem (nbr .D8 c n))) := fun n hn hl =>
    toFloat32_normal (le_trans (by norm_num) (hw n hn (lowerNbr_iff.1 hl)).1)
  have e1 := mfWeightsS_congr stored w h dem nd wgt c (dirs .D8) hst (fun _ => -1, 0)
  have hadd : ∀ n ∈ dirs .D8, lowerNbr w h dem nd c n = true →
      0 ≤ addend stored dem wgt c n ∧ addend stored dem wgt c n ≤ 2 ^ 51 := by
    intro n hn hl
    obtain ⟨h1, h2⟩ := hw n hn (lowerNbr_iff.1 hl)
    have h0 : 0 ≤ wgt n (dem c) (dem (nbr .D8 c n)) := le_trans (by norm_num) h1
    unfold addend
    cases stored
    · simp only [Bool.false_eq_true, if_false]; exact ⟨h0, h2.trans (by norm_num)⟩
    · simp only [if_true]
      have := toFloat32_nonneg h0
      refine ⟨this.1, this.2.trans ?_⟩
      have := mul_le_mul_of_nonneg_left h2 (show (0 : ℚ) ≤ 2 by norm_num)
      refine this.trans (by norm_num)
  have hbound := total_le stored w h dem nd wgt c (2 ^ 51) (by positivity) (dirs .D8) hadd (fun _ => -1, 0) (le_refl _)
  rw [show (dirs .D8).length = 8 from rfl] at hbound
  unfold multiFlowS
  by_cases hd : dem c = nd
  · rw [if_pos hd, if_pos hd]
  rw [if_neg hd, if_neg hd]
  by_cases hedge : isEdgeCell w h c = true
  · rw [if_pos hedge, if_pos hedge]
  rw [if_neg hedge, if_neg hedge]
  dsimp only
  rw [← e1]
  set S := mfWeightsS toFloat32 stored w h dem nd wgt c (dirs .D8) (fun _ => -1, 0) with hS
  by_cases ht : 0 < S.2
  swap
  · rw [if_neg ht, if_neg ht]
  rw [if_pos ht, if_pos ht]
  funext n
  rw [mfNormaliseS_spec _ _ _ hnd, mfNormaliseS_spec _ _ _ hnd]
  by_cases hn : n ∈ dirs .D8
  swap
  · rw [if_neg hn, if_neg hn]
  rw [if_pos hn, if_pos hn, Function.update_of_ne (hr0 n hn)]
  by_cases hp : 0 < S.1 n
  swap
  · rw [if_neg hp, if_neg hp]
  rw [if_pos hp, if_pos hp]
  apply toFloat32_normal
  -- the stored weight
  have hv := mfWeightsS_stored toFloat32 stored w h dem nd wgt c (dirs .D8) hnd (fun _ => -1, 0) n
  rw [← hS] at hv
  have hlow : lowerNbr w h dem nd c n = true := by
    by_contra hc
    have hb : ¬ (n ∈ dirs .D8 ∧ lowerNbr w h dem nd c n = true) := fun x => hc x.2
    rw [if_neg hb] at hv
    rw [hv] at hp
    norm_num at hp
  have hb : n ∈ dirs .D8 ∧ lowerNbr w h dem nd c n = true := ⟨hn, hlow⟩
  rw [if_pos hb] at hv
  have hwn := (hw n hn (lowerNbr_iff.1 hlow)).1
  have hp1 : 1 / 2 ^ 51 ≤ S.1 n := by
    rw [hv]
    have h1 := (toFloat32_half (lt_of_lt_of_le (by norm_num) hwn)).1
    refine le_trans ?_ h1
    rw [le_div_iff₀ (by norm_num)]
    refine le_trans (by norm_num) hwn
  have hT : S.2 ≤ 2 ^ 60 := by norm_num at hbound ⊢; linarith
  have hk : 1 / 2 ^ 61 ≤ roundBits 53 (1 / S.2) := by
    refine le_trans ?_ (roundBits_between 53 (1 / S.2) (by positivity)).1
    have h1 : 1 / 2 ^ 60 ≤ 1 / S.2 := one_div_le_one_div_of_le ht hT
    have := mul_le_mul (show (1 / 2 : ℚ) ≤ 1 - 1 / 2 ^ 53 by norm_num) h1 (by positivity) (by norm_num)
    refine le_trans (by norm_num) this
  have hprod : 1 / 2 ^ 112 ≤ S.1 n * roundBits 53 (1 / S.2) := by
    have := mul_le_mul hp1 hk (by positivity) hp.le
    refine le_trans (by norm_num) this
  refine le_trans ?_ (roundBits_between 53 _ (le_trans (by positivity) hprod)).1
  have := mul_le_mul (show (1 / 2 : ℚ) ≤ 1 - 1 / 2 ^ 53 by norm_num) hprod (by positivity) (by norm_num)
  refine le_trans (by norm_num) this

end

section
variable (w h : Nat) (dem : Cell → ℚ) (nd x : ℚ) {t : ℚ} (ht0 : 0 ≤ t) (ht1 : t ≤ 1 / 2) {sub pow : ℚ → ℚ → ℚ}
  (hs : SubErr t sub) (hp : ∀ g, 0 < g → 0 ≤ pow g x)

include ht0 ht1 hs hp in
/-- C116: an interior data cell sends flow on exactly if for one of its lower neighbours the computed power of the
gradient exceeds `2^-150`.  Otherwise its water stays where it is, although there are lower neighbours. -/
theorem C116_freeman_sends (c : Cell) (hc : InGrid w h c) (he : ¬ OnEdge w h c) (hd : dem c ≠ nd) :
    (∃ n ∈ List.range' 1 8, 0 < fmFreeman32 sub pow w h dem nd x c n) ↔
      ∃ n ∈ List.range' 1 8, LowerNbr w h dem nd c n ∧
        1 / 2 ^ 150 < pow (roundBits 53 (sub (dem c) (dem (nbr .D8 c n)) / drD n)) x := by
  refine multiFlowS_sends false w h dem nd _ c hc he hd (fun n _ hl => hp _ ?_)
  exact (base_err ht0 ht1 hs n (dem c) (dem (nbr .D8 c n)) hl.2.2).1.1

include ht0 ht1 hs hp in
/-- C116: the same for `FM_Holmgren`. -/
theorem C116_holmgren_sends (c : Cell) (hc : InGrid w h c) (he : ¬ OnEdge w h c) (hd : dem c ≠ nd) :
    (∃ n ∈ List.range' 1 8, 0 < fmHolmgren32 sub pow w h dem nd x c n) ↔
      ∃ n ∈ List.range' 1 8, LowerNbr w h dem nd c n ∧
        1 / 2 ^ 150 < pow (roundBits 53 (roundBits 53 (sub (dem c) (dem (nbr .D8 c n)) / drD n) * contourD n)) x := by
  refine multiFlowS_sends true w h dem nd _ c hc he hd (fun n _ hl => hp _ ?_)
  exact (base_err ht0 ht1 hs n (dem c) (dem (nbr .D8 c n)) hl.2.2).2.1

end

/-- The weight of `FM_Quinn` compared with the drop. -/
theorem quinn_weight {t : ℚ} (ht0 : 0 ≤ t) (ht1 : t ≤ 1 / 4) {sub : ℚ → ℚ → ℚ} (hs : SubErr t sub) (n : Nat) (e ne : ℚ)
    (hl : ne < e) :
    (e - ne) / 8 ≤ roundBits 53 (roundBits 53 (sub e ne / drD n) * contourD n) ∧
    roundBits 53 (roundBits 53 (sub e ne / drD n) * contourD n) ≤ 2 * (e - ne) := by
  obtain ⟨s1, s2⟩ := hs e ne hl
  have hD : 0 < e - ne := by linarith
  set D := e - ne with hDd
  have hs0 : 3 / 4 * D ≤ sub e ne := le_trans (mul_le_mul_of_nonneg_right (by linarith) hD.le) s1
  have hs1 : sub e ne ≤ 5 / 4 * D := le_trans s2 (mul_le_mul_of_nonneg_right (by linarith) hD.le)
  have hc1 : (353 / 1000 : ℚ) ≤ contourD n ∧ contourD n ≤ 1 / 2 := by
    unfold contourD
    split
    · obtain ⟨h1, h2⟩ := roundBits_between 53 (354 / 1000) (by norm_num)
      exact ⟨le_trans (by norm_num) h1, h2.trans (by norm_num)⟩
    · norm_num
  have hd1 : 1 ≤ drD n ∧ drD n ≤ 1415 / 1000 := by
    unfold drD
    split
    · rw [sqrt2D_val]; norm_num
    · norm_num
  obtain ⟨d1, d2⟩ := hd1
  obtain ⟨c1, c2⟩ := hc1
  have d0 : 0 < drD n := by linarith
  have g0 : 0 ≤ sub e ne / drD n := div_nonneg (by linarith) d0.le
  have gl : 3 / 4 * D / (1415 / 1000) ≤ sub e ne / drD n := by
    apply div_le_div₀ (by linarith) hs0 d0 d2
  have gu : sub e ne / drD n ≤ 5 / 4 * D := by
    rw [div_le_iff₀ d0]
    have := mul_le_mul_of_nonneg_left d1 (show 0 ≤ 5 / 4 * D by linarith)
    linarith
  obtain ⟨r1, r2⟩ := roundBits_between 53 (sub e ne / drD n) g0
  set g := roundBits 53 (sub e ne / drD n) with hg
  have gl' : 1 / 2 * D ≤ g := by
    refine le_trans ?_ r1
    have := mul_le_mul (show (99 / 100 : ℚ) ≤ 1 - 1 / 2 ^ 53 by norm_num) gl (by positivity) (by norm_num)
    refine le_trans ?_ this
    rw [show (99 / 100 : ℚ) * (3 / 4 * D / (1415 / 1000)) = (99 / 100 * (3 / 4) / (1415 / 1000)) * D by ring]
    exact mul_le_mul_of_nonneg_right (by norm_num) hD.le
  have gu' : g ≤ 3 / 2 * D := by
    refine le_trans r2 ?_
    have := mul_le_mul (show (1 + 1 / 2 ^ 53 : ℚ) ≤ 6 / 5 by norm_num) gu g0 (by norm_num)
    linarith
  have hgc0 : 0 ≤ g * contourD n := mul_nonneg (by linarith) (by linarith)
  obtain ⟨q1, q2⟩ := roundBits_between 53 (g * contourD n) hgc0
  have l1 : 1 / 2 * D * (353 / 1000) ≤ g * contourD n := mul_le_mul gl' c1 (by norm_num) (by linarith)
  have u1 : g * contourD n ≤ 3 / 2 * D * (1 / 2) := mul_le_mul gu' c2 (by linarith) (by linarith)
  constructor
  · refine le_trans ?_ q1
    have := mul_le_mul (show (99 / 100 : ℚ) ≤ 1 - 1 / 2 ^ 53 by norm_num) l1 (by positivity) (by norm_num)
    linarith
  · refine le_trans q2 ?_
    have := mul_le_mul (show (1 + 1 / 2 ^ 53 : ℚ) ≤ 6 / 5 by norm_num) u1 hgc0 (by norm_num)
    linarith

section
variable (w h : Nat) (dem : Cell → ℚ) (nd : ℚ) {t : ℚ} (ht0 : 0 ≤ t) (ht1 : t ≤ 1 / 2 ^ 24) {sub pow : ℚ → ℚ → ℚ}
  (hs : SubErr t sub) (hp : ∀ g, pow g 1 = g)

include ht0 ht1 hs hp in
/-- C116 (Quinn): with the range of `float` taken into account, an interior data cell with a neighbour more than `2^-147`
below it sends its flow on. -/
theorem C116_quinn_sends_partial (c : Cell) (hc : InGrid w h c) (he : ¬ OnEdge w h c) (hd : dem c ≠ nd) (n : Nat)
    (hn : n ∈ List.range' 1 8) (hl : LowerNbr w h dem nd c n) (hdrop : 1 / 2 ^ 147 < dem c - dem (nbr .D8 c n)) :
    ∃ n ∈ List.range' 1 8, 0 < fmQuinn32 sub pow w h dem nd c n := by
  have ht : t ≤ 1 / 4 := ht1.trans (by norm_num)
  refine (C116_holmgren_sends w h dem nd 1 ht0 (ht.trans (by norm_num)) hs (fun g hg => by rw [hp]; exact hg.le)
    c hc he hd).2 ⟨n, hn, hl, ?_⟩
  rw [hp]
  refine lt_of_lt_of_le ?_ (quinn_weight ht0 ht hs n _ _ hl.2.2).1
  rw [lt_div_iff₀ (by norm_num)]
  refine lt_of_le_of_lt (by norm_num) hdrop

include ht0 ht1 hs hp in
/-- C116 (Quinn): if all drops between a data cell and its lower data neighbours are between `2^-47` and `2^49`, the
proportions of `FM_Quinn` are those of C115: the right neighbours, relative errors of at most `2^-21`. -/
theorem C116_quinn_partial
    (hdrop : ∀ c, ∀ n ∈ List.range' 1 8, LowerNbr w h dem nd c n →
      1 / 2 ^ 47 ≤ dem c - dem (nbr .D8 c n) ∧ dem c - dem (nbr .D8 c n) ≤ 2 ^ 49) :
    PropsErr (1 / 2 ^ 21) (fmQuinn w h (fun c => (dem c : ℝ)) nd) (fmQuinn32 sub pow w h dem nd) := by
  have ht : t ≤ 1 / 4 := ht1.trans (by norm_num)
  have e : fmQuinn32 sub pow w h dem nd = fmQuinnR sub pow w h dem nd := by
    funext c
    refine multiFlowS_normal true w h dem nd _ c fun n hn hl => ?_
    unfold holmgrenWgtR
    rw [hp]
    obtain ⟨h1, h2⟩ := quinn_weight ht0 ht hs n _ _ hl.2.2
    obtain ⟨d1, d2⟩ := hdrop c n hn hl
    constructor
    · refine le_trans ?_ h1
      rw [le_div_iff₀ (by norm_num)]
      refine le_trans (by norm_num) d1
    · refine h2.trans ?_
      have := mul_le_mul_of_nonneg_left d2 (show (0 : ℚ) ≤ 2 by norm_num)
      refine this.trans (by norm_num)
  rw [e]
  exact C115_quinn ht0 ht1 hs hp w h dem nd

end

section
variable {t d x : ℚ} (ht0 : 0 ≤ t) (ht1 : t ≤ 1 / 2) (hd0 : 0 ≤ d) (hx : 0 ≤ x)
  {sub pow : ℚ → ℚ → ℚ} (hs : SubErr t sub) (w h : Nat) (dem : Cell → ℚ) (nd : ℚ)

include ht0 ht1 hd0 hx hs in
/-- C116 (Freeman): if all computed powers of gradients are between `2^-50` and `2^50`, the error bound of C115 holds
with the range of `float` taken into account. -/
theorem C116_freeman_partial (hp : PowErr d x pow) (hsmall : wgtErr t d x ≤ 1 / 8)
    (hw : ∀ c, ∀ n ∈ List.range' 1 8, LowerNbr w h dem nd c n →
      1 / 2 ^ 50 ≤ pow (roundBits 53 (sub (dem c) (dem (nbr .D8 c n)) / drD n)) x ∧
      pow (roundBits 53 (sub (dem c) (dem (nbr .D8 c n)) / drD n)) x ≤ 2 ^ 50) :
    PropsErr (3 * wgtErr t d x + 1 / 2 ^ 22) (fmFreeman w h (fun c => (dem c : ℝ)) nd x)
      (fmFreeman32 sub pow w h dem nd x) := by
  have e : fmFreeman32 sub pow w h dem nd x = fmFreemanR sub pow w h dem nd x := by
    funext c
    exact multiFlowS_normal false w h dem nd _ c (hw c)
  rw [e]
  exact C115_freeman ht0 ht1 hd0 hx hs w h dem nd hp hsmall

include ht0 ht1 hd0 hx hs in
/-- C116 (Holmgren): the same. -/
theorem C116_holmgren_partial (hp : PowErr d x pow) (hsmall : wgtErr t d x ≤ 1 / 8)
    (hw : ∀ c, ∀ n ∈ List.range' 1 8, LowerNbr w h dem nd c n →
      1 / 2 ^ 50 ≤ pow (roundBits 53 (roundBits 53 (sub (dem c) (dem (nbr .D8 c n)) / drD n) * contourD n)) x ∧
      pow (roundBits 53 (roundBits 53 (sub (dem c) (dem (nbr .D8 c n)) / drD n) * contourD n)) x ≤ 2 ^ 50) :
    PropsErr (3 * wgtErr t d x + 1 / 2 ^ 22) (fmHolmgren w h (fun c => (dem c : ℝ)) nd x)
      (fmHolmgren32 sub pow w h dem nd x) := by
  have e : fmHolmgren32 sub pow w h dem nd x = fmHolmgrenR sub pow w h dem nd x := by
    funext c
    exact multiFlowS_normal true w h dem nd _ c (hw c)
  rw [e]
  exact C115_holmgren ht0 ht1 hd0 hx hs w h dem nd hp hsmall

end

/-- A raster of doubles as `FillDepressionsEpsilon` leaves it: the middle cell is one unit in the last place above its
neighbours. -/
def exTiny : Cell → ℚ := fun c => if c = (1, 1) then 1000 + 1 / 2 ^ 43 else 1000

/-- `std::pow(g, 4)` in double precision. -/
def pow4 : ℚ → ℚ → ℚ := fun g _ => roundBits 53 (g ^ 4)

/-- C116, refuted: on a slope left by epsilon filling, one unit in the last place at elevation 1000, `FM_Holmgren` and
`FM_Freeman` with the exponent 4 send no flow although every neighbour is lower: Holmgren marks the cell as one without
flow, Freeman marks it as one with flow and gives it no receiver.  The water stays in the cell; with exact arithmetic
every neighbour gets some. -/
theorem C116_refuted :
    (∀ n ∈ List.range' 1 8, LowerNbr 3 3 exTiny (-9999) (1, 1) n) ∧
    (∀ n ∈ List.range' 1 8, fmHolmgren32 subDouble pow4 3 3 exTiny (-9999) 4 (1, 1) n = 0 ∧
      fmFreeman32 subDouble pow4 3 3 exTiny (-9999) 4 (1, 1) n = 0) ∧
    fmHolmgren32 subDouble pow4 3 3 exTiny (-9999) 4 (1, 1) 0 = -1 ∧
    fmFreeman32 subDouble pow4 3 3 exTiny (-9999) 4 (1, 1) 0 = 0 ∧
    flowAccumulationR macDouble (fifo Cell) 3 3 (fmHolmgren32 subDouble pow4 3 3 exTiny (-9999) 4) (fun _ => 1) (2, 1) = 1 ∧
    (∀ n ∈ List.range' 1 8, 0 < fmHolmgrenR subDouble pow4 3 3 exTiny (-9999) 4 (1, 1) n) ∧
    1 < flowAccumulationR macDouble (fifo Cell) 3 3 (fmHolmgrenR subDouble pow4 3 3 exTiny (-9999) 4) (fun _ => 1) (2, 1) := by
  refine ⟨by decide +kernel, by decide +kernel, by decide +kernel, by decide +kernel, by decide +kernel,
    by decide +kernel, by decide +kernel⟩

/-- The hypotheses of C116_quinn_partial hold on a raster with drops of 0.1 to 3. -/
example : ∀ c ∈ allCells 3 3, ∀ n ∈ List.range' 1 8,
    LowerNbr 3 3 (fun c => if c = (1, 1) then 31 / 10 else if c = (0, 0) then 1 / 10 else 3) (-9999) c n →
      1 / 2 ^ 47 ≤ (fun c : Cell => if c = (1, 1) then (31 / 10 : ℚ) else if c = (0, 0) then 1 / 10 else 3) c -
        (fun c : Cell => if c = (1, 1) then (31 / 10 : ℚ) else if c = (0, 0) then 1 / 10 else 3) (nbr .D8 c n) := by
  decide +kernel

end RichDEM
