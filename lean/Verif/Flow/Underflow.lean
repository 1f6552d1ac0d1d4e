/-
FM_Freeman, FM_Holmgren and FM_Quinn with the limited range of the `float`s in which the proportions are stored
(common/Array3D.hpp `Array3D<float>`): a weight below 2^-150 is stored as zero.
-/
import Verif.Flow.RoundedMetrics

namespace RichDEM

open Py (roundBits roundEven)

/-- The conversion of a double to a `float` (IEEE 754 binary32, round to nearest, ties to even): numbers below `2^-126`
are multiples of `2^-149`.  Simplified: overflow is not modelled. -/
def toFloat32 (q : ℚ) : ℚ :=
  if |q| < 1 / 2 ^ 126 then roundEven (q * 2 ^ 149) / 2 ^ 149 else roundBits 24 q

/-- Freeman1991.hpp:43-65 and Holmgren1994.hpp:47-67: the loop over the neighbours; `st` is the store into the `float`
array. -/
def mfWeightsS (st : ℚ → ℚ) (stored : Bool) (w h : Nat) (dem : Cell → ℚ) (nd : ℚ) (wgt : Nat → ℚ → ℚ → ℚ) (c : Cell)
    (l : List Nat) (s : (Nat → ℚ) × ℚ) : (Nat → ℚ) × ℚ :=
  l.foldl (fun s n =>
    if inGrid w h (nbr .D8 c n) = false then s
    else if dem (nbr .D8 c n) = nd then s
    else if dem (nbr .D8 c n) < dem c then
      let v := wgt n (dem c) (dem (nbr .D8 c n))
      (Function.update s.1 n (st v), roundBits 53 (s.2 + if stored then st v else v))
    else s) s

/-- Freeman1991.hpp:70-77 and Holmgren1994.hpp:72-77: `*= C`. -/
def mfNormaliseS (st : ℚ → ℚ) (k : ℚ) (l : List Nat) (p : Nat → ℚ) : Nat → ℚ :=
  l.foldl (fun p n => if 0 < p n then Function.update p n (st (roundBits 53 (p n * k))) else Function.update p n 0) p

/-- Freeman1991.hpp:12-80 and Holmgren1994.hpp:12-83 for one cell. -/
def multiFlowS (st : ℚ → ℚ) (stored : Bool) (w h : Nat) (dem : Cell → ℚ) (nd : ℚ) (wgt : Nat → ℚ → ℚ → ℚ) (c : Cell) :
    Nat → ℚ :=
  if dem c = nd then Function.update (fun _ => -1) 0 (-2)
  else if isEdgeCell w h c then fun _ => -1
  else
    let s := mfWeightsS st stored w h dem nd wgt c (dirs .D8) (fun _ => -1, 0)
    if 0 < s.2 then mfNormaliseS st (roundBits 53 (1 / s.2)) (dirs .D8) (Function.update s.1 0 0)
    else s.1

/-- Freeman1991.hpp:12-80 (`FM_Freeman`). -/
def fmFreeman32 (sub pow : ℚ → ℚ → ℚ) (w h : Nat) (dem : Cell → ℚ) (nd x : ℚ) : Cell → Nat → ℚ :=
  fun c => multiFlowS toFloat32 false w h dem nd (freemanWgtR sub pow x) c

/-- Holmgren1994.hpp:12-83 (`FM_Holmgren`). -/
def fmHolmgren32 (sub pow : ℚ → ℚ → ℚ) (w h : Nat) (dem : Cell → ℚ) (nd x : ℚ) : Cell → Nat → ℚ :=
  fun c => multiFlowS toFloat32 true w h dem nd (holmgrenWgtR sub pow x) c

/-- Quinn1991.hpp:11-16 (`FM_Quinn`). -/
def fmQuinn32 (sub pow : ℚ → ℚ → ℚ) (w h : Nat) (dem : Cell → ℚ) (nd : ℚ) : Cell → Nat → ℚ :=
  fmHolmgren32 sub pow w h dem nd 1

/-! ### The loops -/

theorem multiFlowS_roundBits : multiFlowS (roundBits 24) = multiFlowR := rfl

theorem mfWeightsS_step (st : ℚ → ℚ) (stored : Bool) (w h : Nat) (dem : Cell → ℚ) (nd : ℚ) (wgt : Nat → ℚ → ℚ → ℚ)
    (c : Cell) (a : Nat) (l : List Nat) (s : (Nat → ℚ) × ℚ) :
    mfWeightsS st stored w h dem nd wgt c (a :: l) s = mfWeightsS st stored w h dem nd wgt c l
      (if lowerNbr w h dem nd c a = true then
        (Function.update s.1 a (st (wgt a (dem c) (dem (nbr .D8 c a)))),
          roundBits 53 (s.2 + if stored then st (wgt a (dem c) (dem (nbr .D8 c a)))
            else wgt a (dem c) (dem (nbr .D8 c a)))) else s) := by
  simp only [mfWeightsS, List.foldl_cons]
  congr 1
  unfold lowerNbr
  by_cases h1 : inGrid w h (nbr .D8 c a) = false
  · simp [h1]
  · by_cases h2 : dem (nbr .D8 c a) = nd
    · simp [h2]
    · by_cases h3 : dem (nbr .D8 c a) < dem c
      · simp [h1, h2, h3]
      · simp [h2, h3]

theorem mfWeightsS_congr {st st' : ℚ → ℚ} (stored : Bool) (w h : Nat) (dem : Cell → ℚ) (nd : ℚ) (wgt : Nat → ℚ → ℚ → ℚ)
    (c : Cell) (l : List Nat)
    (hst : ∀ n ∈ l, lowerNbr w h dem nd c n = true → st (wgt n (dem c) (dem (nbr .D8 c n))) = st' (wgt n (dem c) (dem (nbr .D8 c n))))
    (s : (Nat → ℚ) × ℚ) :
    mfWeightsS st stored w h dem nd wgt c l s = mfWeightsS st' stored w h dem nd wgt c l s := by
  induction l generalizing s with
  | nil => rfl
  | cons a l ih =>
    rw [mfWeightsS_step, mfWeightsS_step, ih (fun n hn => hst n (List.mem_cons_of_mem _ hn))]
    by_cases hlow : lowerNbr w h dem nd c a = true
    · rw [if_pos hlow, if_pos hlow, hst a (List.mem_cons_self ..) hlow]
    · rw [if_neg hlow, if_neg hlow]

theorem mfWeightsS_stored (st : ℚ → ℚ) (stored : Bool) (w h : Nat) (dem : Cell → ℚ) (nd : ℚ) (wgt : Nat → ℚ → ℚ → ℚ)
    (c : Cell) (l : List Nat) (hl : l.Nodup) (s : (Nat → ℚ) × ℚ) (n : Nat) :
    (mfWeightsS st stored w h dem nd wgt c l s).1 n =
      if n ∈ l ∧ lowerNbr w h dem nd c n = true then st (wgt n (dem c) (dem (nbr .D8 c n))) else s.1 n := by
  induction l generalizing s with
  | nil => simp [mfWeightsS]
  | cons a l ih =>
    rw [List.nodup_cons] at hl
    rw [mfWeightsS_step, ih hl.2]
    by_cases hlow : lowerNbr w h dem nd c a = true
    · rw [if_pos hlow]
      by_cases hna : n = a
      · subst hna; simp [hl.1, hlow]
      · simp [hna]
    · rw [if_neg hlow]
      by_cases hna : n = a
      · subst hna; simp [hlow]
      · simp [hna]

theorem mfNormaliseS_spec (st : ℚ → ℚ) (k : ℚ) (l : List Nat) (hl : l.Nodup) (p : Nat → ℚ) (n : Nat) :
    mfNormaliseS st k l p n = if n ∈ l then (if 0 < p n then st (roundBits 53 (p n * k)) else 0) else p n := by
  induction l generalizing p with
  | nil => simp [mfNormaliseS]
  | cons a l ih =>
    rw [List.nodup_cons] at hl
    have hstep : mfNormaliseS st k (a :: l) p =
        mfNormaliseS st k l (Function.update p a (if 0 < p a then st (roundBits 53 (p a * k)) else 0)) := by
      simp only [mfNormaliseS, List.foldl_cons]
      congr 1
      by_cases h : 0 < p a <;> simp [h]
    rw [hstep, ih hl.2]
    by_cases hna : n = a
    · subst hna; simp [hl.1]
    · simp [hna]

theorem toFloat32_normal {q : ℚ} (hq : 1 / 2 ^ 126 ≤ q) : toFloat32 q = roundBits 24 q := by
  unfold toFloat32
  rw [if_neg (by rw [abs_of_nonneg (le_trans (by positivity) hq)]; exact not_lt.2 hq)]

theorem toFloat32_tiny {q : ℚ} (h0 : 0 ≤ q) (hq : q ≤ 1 / 2 ^ 150) : toFloat32 q = 0 := by
  unfold toFloat32
  have h1 : q * 2 ^ 149 ≤ 1 / 2 := by
    have := mul_le_mul_of_nonneg_right hq (show (0 : ℚ) ≤ 2 ^ 149 by positivity)
    refine this.trans (by norm_num)
  have h2 : 0 ≤ q * 2 ^ 149 := by positivity
  have hf : ⌊q * 2 ^ 149⌋ = 0 := by rw [Int.floor_eq_iff]; constructor <;> push_cast <;> linarith
  have hr : roundEven (q * 2 ^ 149) = 0 := by
    unfold roundEven
    rw [hf]
    push_cast
    rw [sub_zero]
    rcases lt_or_eq_of_le h1 with h | h
    · rw [if_pos h]
    · rw [h]; norm_num
  rw [if_pos, hr]
  · simp
  · rw [abs_of_nonneg h0]
    exact lt_of_le_of_lt hq (by norm_num)

end RichDEM
