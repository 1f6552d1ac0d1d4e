/-
FM_Freeman, FM_Holmgren and FM_Quinn (include/richdem/flowmet/) as the machine runs them: elevations are subtracted in
their own type, gradients and sums are `double`s, proportions are `float`s.  Overflow and underflow are not modelled;
`std::pow` is a parameter.
-/
import Verif.Flow.MultiFlow
import Verif.Py.Rounding

namespace RichDEM

open Py (roundBits)

/-- constants.hpp:34 (`SQRT2`): the literal, as the nearest double. -/
def sqrt2D : ℚ := roundBits 53 (1414213562373095048801688724209698078569671875376948 / 10 ^ 51)

/-- constants.hpp:70 (`dr`). -/
def drD (n : Nat) : ℚ := if n % 2 = 0 then sqrt2D else 1

/-- Holmgren1994.hpp:25-27 (`L`). -/
def contourD (n : Nat) : ℚ := if n % 2 = 0 then roundBits 53 (354 / 1000) else 1 / 2

/-- Freeman1991.hpp:58, Holmgren1994.hpp:61 `e-ne` for a raster of doubles. -/
def subDouble (e ne : ℚ) : ℚ := roundBits 53 (e - ne)

/-- The same for a raster of floats. -/
def subFloat (e ne : ℚ) : ℚ := roundBits 24 (e - ne)

/-- The same for a raster of integers (no overflow). -/
def subInt (e ne : ℚ) : ℚ := e - ne

/-- Freeman1991.hpp:58-61: the weight of neighbour `n`, before it is stored. -/
def freemanWgtR (sub : ℚ → ℚ → ℚ) (pow : ℚ → ℚ → ℚ) (x : ℚ) (n : Nat) (e ne : ℚ) : ℚ :=
  pow (roundBits 53 (sub e ne / drD n)) x

/-- Holmgren1994.hpp:61-64: the same for Holmgren. -/
def holmgrenWgtR (sub : ℚ → ℚ → ℚ) (pow : ℚ → ℚ → ℚ) (x : ℚ) (n : Nat) (e ne : ℚ) : ℚ :=
  pow (roundBits 53 (roundBits 53 (sub e ne / drD n) * contourD n)) x

/-- Freeman1991.hpp:43-65 and Holmgren1994.hpp:47-67: the loop that stores the weights as floats and adds them up in a
double: Freeman adds `cval` itself, Holmgren (`stored`) the float that was stored. -/
def mfWeightsR (stored : Bool) (w h : Nat) (dem : Cell → ℚ) (nd : ℚ) (wgt : Nat → ℚ → ℚ → ℚ) (c : Cell)
    (l : List Nat) (s : (Nat → ℚ) × ℚ) : (Nat → ℚ) × ℚ :=
  l.foldl (fun s n =>
    if inGrid w h (nbr .D8 c n) = false then s
    else if dem (nbr .D8 c n) = nd then s
    else if dem (nbr .D8 c n) < dem c then
      let v := wgt n (dem c) (dem (nbr .D8 c n))
      (Function.update s.1 n (roundBits 24 v), roundBits 53 (s.2 + if stored then roundBits 24 v else v))
    else s) s

/-- Freeman1991.hpp:70-77 and Holmgren1994.hpp:72-77: `*= C` multiplies in double and stores a float. -/
def mfNormaliseR (k : ℚ) (l : List Nat) (p : Nat → ℚ) : Nat → ℚ :=
  l.foldl (fun p n => if 0 < p n then Function.update p n (roundBits 24 (roundBits 53 (p n * k)))
    else Function.update p n 0) p

/-- Freeman1991.hpp:12-80 and Holmgren1994.hpp:12-83 for one cell. -/
def multiFlowR (stored : Bool) (w h : Nat) (dem : Cell → ℚ) (nd : ℚ) (wgt : Nat → ℚ → ℚ → ℚ) (c : Cell) : Nat → ℚ :=
  if dem c = nd then Function.update (fun _ => -1) 0 (-2)
  else if isEdgeCell w h c then fun _ => -1
  else
    let s := mfWeightsR stored w h dem nd wgt c (dirs .D8) (fun _ => -1, 0)
    if 0 < s.2 then mfNormaliseR (roundBits 53 (1 / s.2)) (dirs .D8) (Function.update s.1 0 0)
    else s.1

/-- Freeman1991.hpp:12-80 (`FM_Freeman`). -/
def fmFreemanR (sub pow : ℚ → ℚ → ℚ) (w h : Nat) (dem : Cell → ℚ) (nd x : ℚ) : Cell → Nat → ℚ :=
  fun c => multiFlowR false w h dem nd (freemanWgtR sub pow x) c

/-- Holmgren1994.hpp:12-83 (`FM_Holmgren`). -/
def fmHolmgrenR (sub pow : ℚ → ℚ → ℚ) (w h : Nat) (dem : Cell → ℚ) (nd x : ℚ) : Cell → Nat → ℚ :=
  fun c => multiFlowR true w h dem nd (holmgrenWgtR sub pow x) c

/-- Quinn1991.hpp:11-16 (`FM_Quinn`). -/
def fmQuinnR (sub pow : ℚ → ℚ → ℚ) (w h : Nat) (dem : Cell → ℚ) (nd : ℚ) : Cell → Nat → ℚ :=
  fmHolmgrenR sub pow w h dem nd 1

/-! ### The loops -/

theorem mfWeightsR_step (stored : Bool) (w h : Nat) (dem : Cell → ℚ) (nd : ℚ) (wgt : Nat → ℚ → ℚ → ℚ) (c : Cell)
    (a : Nat) (l : List Nat) (s : (Nat → ℚ) × ℚ) :
    mfWeightsR stored w h dem nd wgt c (a :: l) s = mfWeightsR stored w h dem nd wgt c l
      (if lowerNbr w h dem nd c a = true then
        (Function.update s.1 a (roundBits 24 (wgt a (dem c) (dem (nbr .D8 c a)))),
          roundBits 53 (s.2 + if stored then roundBits 24 (wgt a (dem c) (dem (nbr .D8 c a)))
            else wgt a (dem c) (dem (nbr .D8 c a)))) else s) := by
  simp only [mfWeightsR, List.foldl_cons]
  congr 1
  unfold lowerNbr
  by_cases h1 : inGrid w h (nbr .D8 c a) = false
  · simp [h1]
  · by_cases h2 : dem (nbr .D8 c a) = nd
    · simp [h2]
    · by_cases h3 : dem (nbr .D8 c a) < dem c
      · simp [h1, h2, h3]
      · simp [h2, h3]

theorem mfWeightsR_stored (stored : Bool) (w h : Nat) (dem : Cell → ℚ) (nd : ℚ) (wgt : Nat → ℚ → ℚ → ℚ) (c : Cell)
    (l : List Nat) (hl : l.Nodup) (s : (Nat → ℚ) × ℚ) (n : Nat) :
    (mfWeightsR stored w h dem nd wgt c l s).1 n =
      if n ∈ l ∧ lowerNbr w h dem nd c n = true then roundBits 24 (wgt n (dem c) (dem (nbr .D8 c n))) else s.1 n := by
  induction l generalizing s with
  | nil => simp [mfWeightsR]
  | cons a l ih =>
    rw [List.nodup_cons] at hl
    rw [mfWeightsR_step, ih hl.2]
    by_cases hlow : lowerNbr w h dem nd c a = true
    · rw [if_pos hlow]
      by_cases hna : n = a
      · subst hna; simp [hl.1, hlow]
      · simp [hna]
    · rw [if_neg hlow]
      by_cases hna : n = a
      · subst hna; simp [hlow]
      · simp [hna]

theorem mfNormaliseR_spec (k : ℚ) (l : List Nat) (hl : l.Nodup) (p : Nat → ℚ) (n : Nat) :
    mfNormaliseR k l p n = if n ∈ l then (if 0 < p n then roundBits 24 (roundBits 53 (p n * k)) else 0) else p n := by
  induction l generalizing p with
  | nil => simp [mfNormaliseR]
  | cons a l ih =>
    rw [List.nodup_cons] at hl
    have hstep : mfNormaliseR k (a :: l) p =
        mfNormaliseR k l (Function.update p a (if 0 < p a then roundBits 24 (roundBits 53 (p a * k)) else 0)) := by
      simp only [mfNormaliseR, List.foldl_cons]
      congr 1
      by_cases h : 0 < p a <;> simp [h]
    rw [hstep, ih hl.2]
    by_cases hna : n = a
    · subst hna; simp [hl.1]
    · simp [hna]

end RichDEM
