import Verif.Flow.Accum
import Verif.Flow.FlowDir
import Mathlib.Algebra.Order.Field.Basic
import Mathlib.Algebra.BigOperators.Group.List.Basic
import Mathlib.Analysis.SpecialFunctions.Pow.Real
import Mathlib.Analysis.SpecialFunctions.Sqrt

/-!
Multiple-flow metrics: `FM_Freeman` (include/richdem/flowmet/Freeman1991.hpp), `FM_Holmgren`
(Holmgren1994.hpp), `FM_Quinn` (Quinn1991.hpp), and the randomised single-flow metric
`FM_FairfieldLeymarie` (Fairfield1991.hpp).

Proportions are elements of an ordered field: the rounding of `double` and `float` is not modelled.
The generic part keeps the weight of a neighbour an arbitrary non-negative number, so that it also
covers a `pow` that underflows to zero.
-/

namespace RichDEM

section Generic
variable {E : Type*} [LinearOrder E] {K : Type*} [Field K] [LinearOrder K]

/-- The data neighbour `n` is inside the raster and strictly lower than `c`. -/
def lowerNbr (w h : Nat) (dem : Cell → E) (nd : E) (c : Cell) (n : Nat) : Bool :=
  inGrid w h (nbr .D8 c n) && !decide (dem (nbr .D8 c n) = nd) && decide (dem (nbr .D8 c n) < dem c)

/-- Freeman1991.hpp:43-63 and Holmgren1994.hpp:47-67: the loop that stores the weights and their
sum `C`.  `wgt n e ne` is the weight of neighbour `n`. -/
def mfWeights (w h : Nat) (dem : Cell → E) (nd : E) (wgt : Nat → E → E → K) (c : Cell)
    (l : List Nat) (s : (Nat → K) × K) : (Nat → K) × K :=
  l.foldl (fun s n =>
    if inGrid w h (nbr .D8 c n) = false then s
    else if dem (nbr .D8 c n) = nd then s
    else if dem (nbr .D8 c n) < dem c then
      (Function.update s.1 n (wgt n (dem c) (dem (nbr .D8 c n))),
        s.2 + wgt n (dem c) (dem (nbr .D8 c n)))
    else s) s

/-- Freeman1991.hpp:65-77 and Holmgren1994.hpp:69-80: the loop that divides by the sum. -/
def mfNormalise (k : K) (l : List Nat) (p : Nat → K) : Nat → K :=
  l.foldl (fun p n => if 0 < p n then Function.update p n (p n * k) else Function.update p n 0) p

/-- The nine numbers of cell `c` written by Freeman1991.hpp:12-80 and Holmgren1994.hpp:12-83. -/
def multiFlow (w h : Nat) (dem : Cell → E) (nd : E) (wgt : Nat → E → E → K) (c : Cell) : Nat → K :=
  if dem c = nd then Function.update (fun _ => -1) 0 (-2)
  else if isEdgeCell w h c then fun _ => -1
  else
    let s := mfWeights w h dem nd wgt c (dirs .D8) (fun _ => -1, 0)
    if 0 < s.2 then mfNormalise (1 / s.2) (dirs .D8) (Function.update s.1 0 0)
    else s.1

/-- The sum of the weights of the lower data neighbours. -/
def totalWeight (w h : Nat) (dem : Cell → E) (nd : E) (wgt : Nat → E → E → K) (c : Cell) : K :=
  ((dirs .D8).map (fun n => if lowerNbr w h dem nd c n then wgt n (dem c) (dem (nbr .D8 c n)) else 0)).sum

theorem mfWeights_spec (w h : Nat) (dem : Cell → E) (nd : E) (wgt : Nat → E → E → K) (c : Cell)
    (l : List Nat) (hl : l.Nodup) (s : (Nat → K) × K) :
    (∀ n, (mfWeights w h dem nd wgt c l s).1 n =
      if n ∈ l ∧ lowerNbr w h dem nd c n = true then wgt n (dem c) (dem (nbr .D8 c n)) else s.1 n) ∧
    (mfWeights w h dem nd wgt c l s).2 = s.2 + (l.map (fun n =>
      if lowerNbr w h dem nd c n then wgt n (dem c) (dem (nbr .D8 c n)) else 0)).sum := by
  induction l generalizing s with
  | nil => simp [mfWeights]
  | cons a l ih =>
    rw [List.nodup_cons] at hl
    have hstep : ∀ t, mfWeights w h dem nd wgt c (a :: l) t = mfWeights w h dem nd wgt c l
        (if lowerNbr w h dem nd c a = true then
          (Function.update t.1 a (wgt a (dem c) (dem (nbr .D8 c a))),
            t.2 + wgt a (dem c) (dem (nbr .D8 c a))) else t) := by
      intro t
      simp only [mfWeights, List.foldl_cons]
      congr 1
      unfold lowerNbr
      by_cases h1 : inGrid w h (nbr .D8 c a) = false
      · simp [h1]
      · by_cases h2 : dem (nbr .D8 c a) = nd
        · simp [h2]
        · by_cases h3 : dem (nbr .D8 c a) < dem c
          · simp [h1, h2, h3]
          · simp [h2, h3]
    rw [hstep]
    obtain ⟨i1, i2⟩ := ih hl.2 (if lowerNbr w h dem nd c a = true then
          (Function.update s.1 a (wgt a (dem c) (dem (nbr .D8 c a))),
            s.2 + wgt a (dem c) (dem (nbr .D8 c a))) else s)
    by_cases hlow : lowerNbr w h dem nd c a = true
    · rw [if_pos hlow] at i1 i2 ⊢
      refine ⟨?_, ?_⟩
      · intro n
        rw [i1]
        by_cases hna : n = a
        · subst hna; simp [hl.1, hlow]
        · simp [hna]
      · rw [i2]; simp [hlow, add_assoc]
    · rw [if_neg hlow] at i1 i2 ⊢
      refine ⟨?_, ?_⟩
      · intro n
        rw [i1]
        by_cases hna : n = a
        · subst hna; simp [hlow]
        · simp [hna]
      · rw [i2]; simp [hlow]

theorem mfNormalise_spec (k : K) (l : List Nat) (hl : l.Nodup) (p : Nat → K) (n : Nat) :
    mfNormalise k l p n = if n ∈ l then (if 0 < p n then p n * k else 0) else p n := by
  induction l generalizing p with
  | nil => simp [mfNormalise]
  | cons a l ih =>
    rw [List.nodup_cons] at hl
    have hstep : mfNormalise k (a :: l) p =
        mfNormalise k l (Function.update p a (if 0 < p a then p a * k else 0)) := by
      simp only [mfNormalise, List.foldl_cons]
      congr 1
      by_cases h : 0 < p a <;> simp [h]
    rw [hstep, ih hl.2]
    by_cases hna : n = a
    · subst hna; simp [hl.1]
    · simp [hna]

theorem nodup_dirs : (dirs .D8).Nodup := by decide +kernel

end Generic

section Reals

/-- constants.hpp:70 (`dr`): distance to neighbour `n`; `SQRT2` is modelled by the real √2. -/
noncomputable def drR (n : Nat) : ℝ := if n % 2 = 0 then Real.sqrt 2 else 1

/-- Freeman1991.hpp:56-59: `pow(rise/run, xparam)`. -/
noncomputable def freemanWgt (x : ℝ) (n : Nat) (e ne : ℝ) : ℝ := ((e - ne) / drR n) ^ x

/-- Freeman1991.hpp:12-80 (`FM_Freeman`). -/
noncomputable def fmFreeman (w h : Nat) (dem : Cell → ℝ) (nd x : ℝ) : Cell → Nat → ℝ :=
  fun c => multiFlow w h dem nd (freemanWgt x) c

/-- Holmgren1994.hpp:25-27: the contour lengths `L`. -/
noncomputable def contourL (n : Nat) : ℝ := if n % 2 = 0 then 354 / 1000 else 1 / 2

/-- Holmgren1994.hpp:61-64: `pow(rise/run * L[n], xparam)`. -/
noncomputable def holmgrenWgt (x : ℝ) (n : Nat) (e ne : ℝ) : ℝ := ((e - ne) / drR n * contourL n) ^ x

/-- Holmgren1994.hpp:12-83 (`FM_Holmgren`). -/
noncomputable def fmHolmgren (w h : Nat) (dem : Cell → ℝ) (nd x : ℝ) : Cell → Nat → ℝ :=
  fun c => multiFlow w h dem nd (holmgrenWgt x) c

/-- Quinn1991.hpp:11-16 (`FM_Quinn`). -/
noncomputable def fmQuinn (w h : Nat) (dem : Cell → ℝ) (nd : ℝ) : Cell → Nat → ℝ :=
  fmHolmgren w h dem nd 1

end Reals

/-! ### Fairfield and Leymarie -/

section Rho
variable {K : Type*} [Field K] [LinearOrder K]

/-- Fairfield1991.hpp:43-69: the search for the greatest randomised slope.  `f n` is the random
factor of direction `n`, drawn anew for each cell and direction (lines 60-63). -/
def rhoScan (w h : Nat) (t : Topo) (dem : Cell → K) (nd : K) (f : Nat → K) (c : Cell) (l : List Nat)
    (s : Nat × K) : Nat × K :=
  l.foldl (fun s n =>
    if inGrid w h (nbr t c n) = false then s
    else if dem (nbr t c n) = nd then s
    else if dem c ≤ dem (nbr t c n) then s
    else if s.2 < (dem c - dem (nbr t c n)) * f n then (n, (dem c - dem (nbr t c n)) * f n)
    else s) s

/-- Fairfield1991.hpp:13-80 (`FM_FairfieldLeymarie<topo>`). -/
def fmFairfield (w h : Nat) (t : Topo) (dem : Cell → K) (nd : K) (f : Cell → Nat → K) (c : Cell) :
    Props1 :=
  if dem c = nd then .noData
  else if isEdgeCell w h c then .noFlow
  else
    let r := rhoScan w h t dem nd (f c) c (dirs t) (0, 0)
    if r.1 = 0 then .noFlow else .flow r.1

/-- Fairfield1991.hpp:59-63: the factor of direction `n` when the random number is `u` (a sample of
[0,1)); division by zero gives infinity in C++, so the Rho4 factor for `u = 0` is `1/(∞-1) = 0`. -/
def rhoFactor (t : Topo) (n : Nat) (u : K) : K :=
  match t with
  | .D8 => if n % 2 = 0 then 1 / (2 - u) else 1
  | .D4 => if n % 2 = 0 then (if u = 0 then 0 else 1 / (1 / u - 1)) else 1

end Rho

end RichDEM
