/-
Model of include/richdem/flats/garbrecht.hpp: Garbrecht and Martz' flat resolution.

Simplifications: elevations are a linear order (an ordered group where they are raised), comparisons and sums are exact; increments and loop
counters are unbounded naturals.  The functions read the neighbours of each flat cell without a bounds check; the theorems assume that no
flat cell is on the raster's edge, as after `d8_flow_directions`.
-/
import Verif.Grid
import Verif.Loop
import Verif.Flow.FlowDir
import Mathlib.Algebra.Order.Group.Defs
import Mathlib.Algebra.Group.Basic

namespace RichDEM

section
variable {E : Type*} [LinearOrder E]

/-- garbrecht.hpp:16-24 `FindFlats`: column by column. -/
def garbFlats (w h : Nat) (fd : Cell → Nat) : List Cell :=
  ((List.range w).flatMap (fun x : Nat => (List.range h).map (fun y : Nat => ((x : Int), (y : Int))))).filter (fun c => fd c == 0)

/-- garbrecht.hpp:46-58: a neighbour `b` that keeps cell `c` from being raised in round `L`. -/
def g1Stop (dem : Cell → E) (fd : Cell → Nat) (ndf : Nat) (inc : Cell → Nat) (L : Nat) (c b : Cell) : Bool :=
  (decide (dem b < dem c) && (fd b != 0) && (fd b != ndf)) || (decide (inc b < L) && decide (dem b = dem c))

/-- garbrecht.hpp:42-63: one cell; the second component is `number_incremented`. -/
def g1Cell (dem : Cell → E) (fd : Cell → Nat) (ndf L : Nat) (s : (Cell → Nat) × Nat) (c : Cell) : (Cell → Nat) × Nat :=
  if (dirs .D8).any (fun n => g1Stop dem fd ndf s.1 L c (nbr .D8 c n)) = true then s
  else (Function.update s.1 c (s.1 c + 1), s.2 + 1)

/-- garbrecht.hpp:40-64: one round. -/
def g1Round (dem : Cell → E) (fd : Cell → Nat) (ndf L : Nat) (flats : List Cell) (inc : Cell → Nat) : (Cell → Nat) × Nat :=
  flats.foldl (g1Cell dem fd ndf L) (inc, 0)

/-- garbrecht.hpp:39-66: rounds until one raises nothing; `none`: not yet done after `fuel` rounds. -/
def g1Loop (dem : Cell → E) (fd : Cell → Nat) (ndf : Nat) (flats : List Cell) : Nat → Nat → (Cell → Nat) → Option (Cell → Nat)
  | 0, _, _ => none
  | fuel + 1, L, inc =>
    let r := g1Round dem fd ndf L flats inc
    if r.2 = 0 then some r.1 else g1Loop dem fd ndf flats fuel (L + 1) r.1

/-- garbrecht.hpp:26-67 `GradientTowardsLower`, given at most `fuel` rounds. -/
def gradientTowardsLower (w h : Nat) (dem : Cell → E) (fd : Cell → Nat) (ndf fuel : Nat) : Option (Cell → Nat) :=
  g1Loop dem fd ndf (garbFlats w h fd) fuel 0 (fun _ => 0)

/-- garbrecht.hpp:84-91: cells already raised go up once more. -/
def g2Raise (inc : Cell → Nat) (c : Cell) : Cell → Nat :=
  if 0 < inc c then Function.update inc c (inc c + 1) else inc

/-- garbrecht.hpp:97-108: the flags `has_higher`, `has_lower`. -/
def g2Flag (dem : Cell → E) (inc : Cell → Nat) (c : Cell) (s : Bool × Bool) (n : Nat) : Bool × Bool :=
  let b := nbr .D8 c n
  if s.1 = false ∧ (dem c < dem b ∨ inc b = 2) then (true, s.2)
  else if s.2 = false ∧ dem b < dem c then (s.1, true)
  else s

/-- garbrecht.hpp:92-113: one cell; the second component is `number_incremented`. -/
def g2Cell (dem : Cell → E) (s : (Cell → Nat) × Nat) (c : Cell) : (Cell → Nat) × Nat :=
  if 0 < s.1 c then s
  else if (dirs .D8).foldl (g2Flag dem s.1 c) (false, false) = (true, false) then (Function.update s.1 c (s.1 c + 1), s.2 + 1)
  else s

/-- garbrecht.hpp:83-115: one round. -/
def g2Round (dem : Cell → E) (flats : List Cell) (s : (Cell → Nat) × Nat) : (Cell → Nat) × Nat :=
  flats.foldl (g2Cell dem) (flats.foldl g2Raise s.1, s.2)

/-- garbrecht.hpp:83-116: rounds while `number_incremented<flats.size()`. -/
def g2Loop (dem : Cell → E) (flats : List Cell) : Nat → (Cell → Nat) × Nat → Option (Cell → Nat)
  | 0, s => if s.2 < flats.length then none else some s.1
  | fuel + 1, s => if s.2 < flats.length then g2Loop dem flats fuel (g2Round dem flats s) else some s.1

/-- garbrecht.hpp:69-117 `GradientAwayFromHigher`, given at most `fuel` rounds. -/
def gradientAwayFromHigher (w h : Nat) (dem : Cell → E) (fd : Cell → Nat) (fuel : Nat) : Option (Cell → Nat) :=
  g2Loop dem (garbFlats w h fd) fuel (fun _ => 0, 0)

end

/-- garbrecht.hpp:119-130 `CombineGradients`. -/
def combineGradients {E : Type*} [AddCommMonoid E] (dem : Cell → E) (inc1 inc2 : Cell → Nat) (eps : E) (c : Cell) : E :=
  dem c + (inc1 c + inc2 c) • eps

/-- garbrecht.hpp:134-147: the raised elevations in `GarbrechtAlg`; `epsilon` is 0.001 there. -/
def garbrechtDem {E : Type*} [LinearOrder E] [AddCommMonoid E] (w h : Nat) (dem : Cell → E) (fd : Cell → Nat) (eps : E) (fuel : Nat) :
    Option (Cell → E) :=
  (gradientTowardsLower w h dem fd FLOWDIR_NO_DATA fuel).bind fun inc1 =>
    (gradientAwayFromHigher w h dem fd fuel).bind fun inc2 => some (combineGradients dem inc1 inc2 eps)

/-- garbrecht.hpp:134-152 `GarbrechtAlg` after `d8_flow_directions` (flats/main.cpp:43-47): the new directions. -/
def garbrechtAlg {E : Type*} [LinearOrder E] [AddCommMonoid E] (w h : Nat) (dem : Cell → E) (nd eps : E) (fuel : Nat) : Option (Cell → Nat) :=
  (garbrechtDem w h dem (d8FlowDirections w h dem nd) eps fuel).map fun out => d8FlowDirections w h out nd

end RichDEM
