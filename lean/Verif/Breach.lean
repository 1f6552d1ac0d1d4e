/-
Model of `CompleteBreaching_Lindsay2016` and `Lindsay2016`
(include/richdem/depressions/Lindsay2016.hpp).

The two functions are the same program up to the topology, the carving of a pit and the final
flooding, so one model with parameters covers both:
* `t`: topology (`Lindsay2016` is D8 only);
* `dn`: `std::nextafter(x, lowest)` when `eps_gradients`, the identity otherwise and in
  `CompleteBreaching_Lindsay2016`;
* `breach`: what is done with a pit taken from the queue.

Simplifications: elevations range over a linear order (no NaN); cells are addressed by coordinates;
`NO_BACK_LINK` is `none`; `visited` is a Boolean (nothing distinguishes EDGE from VISITED); the heap
allows every order of equal elevations.  `done` is a ghost: the cells taken from the queue.
-/
import Verif.Flood

namespace RichDEM

variable {E : Type*} [LinearOrder E]

/-- Lindsay2016.hpp:58-70, 227-237: the local variables. -/
structure LS (E : Type*) where
  dem : Cell → E
  back : Cell → Option Cell
  vis : Cell → Bool
  pits : Cell → Bool
  pq : List (E × Cell)
  tot : Nat
  flood : List Cell
  fin : Bool
  done : Cell → Bool

/-- The variables of the carving loops: elevations, `cc`, `target_height`. -/
structure CV (E : Type*) where
  dem : Cell → E
  cc : Option Cell
  tgt : E

/-- Lindsay2016.hpp:91-107, 259-275: `lowest_neighbour` (for a cell none of whose neighbours is
NoData). -/
def lsLow (t : Topo) (top : E) (dem : Cell → E) (c : Cell) : E :=
  (dirs t).foldl (fun m n => min (dem (nbr t c n)) m) top

/-- Lindsay2016.hpp:76-121, 244-294: one cell of the first scan; `top` is
`numeric_limits<elev_t>::max()`. -/
def lsScan (pq : PQ (E × Cell) zLt) (t : Topo) (w h : Nat) (nd top : E) (dn : E → E) (s : LS E) (c : Cell) : LS E :=
  if s.dem c = nd then s                                                  -- :80-81
  else if isEdgeCell w h c then                                           -- :83-87
    { s with pq := pq.push (s.dem c, c) s.pq, vis := Function.update s.vis c true }
  else if (dirs t).any (fun n => decide (s.dem (nbr t c n) = nd)) then    -- :99-103
    { s with pq := pq.push (s.dem c, c) s.pq, vis := Function.update s.vis c true }
  else if s.dem c < lsLow t top s.dem c then                              -- :114, :280-285
    { s with dem := Function.update s.dem c (dn (lsLow t top s.dem c))    -- :115
             pits := Function.update s.pits c true, tot := s.tot + 1 }    -- :116-117
  else if s.dem c ≤ lsLow t top s.dem c then                              -- :114, :289
    { s with pits := Function.update s.pits c true, tot := s.tot + 1 }    -- :116-117, :290-291
  else s

/-- Lindsay2016.hpp:160-174, 358-374: body of the neighbour loop of the second phase. -/
def lsNbr (pq : PQ (E × Cell) zLt) (t : Topo) (w h : Nat) (nd : E) (c : Cell) (s : LS E) (n : Nat) : LS E :=
  let q := nbr t c n
  if inGrid w h q = false then s                                          -- :164-165
  else if s.dem q = nd then s                                             -- :166-167
  else if s.vis q then s                                                  -- :168-169
  else { s with pq := pq.push (s.dem q, q) s.pq                           -- :174
                flood := s.flood ++ [q]                                   -- :370-371 (read only by the last phase)
                vis := Function.update s.vis q true                       -- :175
                back := Function.update s.back q (some c) }               -- :176

/-- Lindsay2016.hpp:131-178, 304-375: one iteration of the second phase.  `fin` is the `break`. -/
def lsStep (breach : (Cell → E) → (Cell → Option Cell) → Cell → CV E) (pq : PQ (E × Cell) zLt) (t : Topo)
    (w h : Nat) (nd : E) (s : LS E) : Option (LS E) :=
  if s.fin then none
  else match pq.pop s.pq with
    | none => none
    | some (e, r) =>
      let s := { s with pq := r, done := Function.update s.done e.2 true }
      if s.pits e.2 then                                                  -- :138
        let s := { s with dem := (breach s.dem s.back e.2).dem, tot := s.tot - 1 }  -- :140-151
        if s.tot = 0 then some { s with fin := true }                     -- :152-153
        else some ((dirs t).foldl (lsNbr pq t w h nd e.2) s)
      else some ((dirs t).foldl (lsNbr pq t w h nd e.2) s)

/-- The variables before the first scan. -/
def lsStart (dem : Cell → E) : LS E :=
  { dem := dem, back := fun _ => none, vis := fun _ => false, pits := fun _ => false, pq := [], tot := 0
    flood := [], fin := false, done := fun _ => false }

/-- The variables after the first scan. -/
def lsInit (pq : PQ (E × Cell) zLt) (t : Topo) (w h : Nat) (nd top : E) (dn : E → E) (dem : Cell → E) : LS E :=
  (allCells w h).foldl (lsScan pq t w h nd top dn) (lsStart dem)

/-- Lindsay2016.hpp:50-181, and 215-377 up to the flooding. -/
def lsRun (breach : (Cell → E) → (Cell → Option Cell) → Cell → CV E) (pq : PQ (E × Cell) zLt) (t : Topo)
    (w h : Nat) (nd top : E) (dn : E → E) (dem : Cell → E) : LS E :=
  loop (lsStep breach pq t w h nd) (floodFuel w h) (lsInit pq t w h nd top dn dem)

/-! ### Carving -/

/-- Lindsay2016.hpp:145-148, 319-324: one iteration of the carving loop. -/
def carveStep (dn : E → E) (back : Cell → Option Cell) (s : CV E) : Option (CV E) :=
  match s.cc with
  | none => none
  | some x => if s.tgt ≤ s.dem x then some ⟨Function.update s.dem x s.tgt, back x, dn s.tgt⟩ else none

/-- Lindsay2016.hpp:140-148, 316-324: carve from the pit `c`. -/
def carve (fuel : Nat) (dn : E → E) (dem : Cell → E) (back : Cell → Option Cell) (c : Cell) : CV E :=
  loop (carveStep dn back) fuel ⟨dem, some c, dem c⟩

/-- Lindsay2016.hpp:50-181 `CompleteBreaching_Lindsay2016`, and `Lindsay2016` in mode
`COMPLETE_BREACHING` (with `dn` the next lower number when `eps_gradients`). -/
def completeBreaching (pq : PQ (E × Cell) zLt) (t : Topo) (w h : Nat) (nd top : E) (dn : E → E) (dem : Cell → E) :
    LS E :=
  lsRun (carve (w * h) dn) pq t w h nd top dn dem

/-- The measuring loop: the deepest cut and the length of the path. -/
structure MS (E : Type*) where
  cc : Option Cell
  tgt : E
  depth : E
  len : Nat

/-- Lindsay2016.hpp:328-334: one iteration of the loop that measures the path. -/
def measStep [Sub E] (dn : E → E) (dem : Cell → E) (back : Cell → Option Cell) (s : MS E) : Option (MS E) :=
  match s.cc with
  | none => none
  | some x =>
    if s.tgt ≤ dem x then some ⟨back x, dn s.tgt, max s.depth (dem x - s.tgt), s.len + 1⟩ else none

/-- Lindsay2016.hpp:349-357: one iteration of the loop of constrained breaching; `tgt` is
`current_height`, `t0` is `target_height`. -/
def consStep [Sub E] (dn : E → E) (back : Cell → Option Cell) (t0 depth : E) (deep : Bool) (s : CV E) : Option (CV E) :=
  match s.cc with
  | none => none
  | some x =>
    if t0 ≤ s.dem x then
      some ⟨Function.update s.dem x (if deep then s.dem x - depth else s.tgt), back x, dn s.tgt⟩
    else none

/-- Lindsay2016.hpp:325-358: selective and constrained breaching; `bot` is
`numeric_limits<elev_t>::lowest()`. -/
def limitedBreach [Sub E] (fuel : Nat) (constrained : Bool) (dn : E → E) (bot : E) (maxlen : Nat) (maxdepth : E)
    (dem : Cell → E) (back : Cell → Option Cell) (c : Cell) : CV E :=
  let m := loop (measStep dn dem back) fuel ⟨some c, dem c, bot, 0⟩
  if m.len ≤ maxlen ∧ m.depth ≤ maxdepth then carve fuel dn dem back c
  else if constrained then
    loop (consStep dn back (dem c) m.depth (decide (¬ m.depth ≤ maxdepth))) fuel ⟨dem, some c, dem c⟩
  else ⟨dem, none, dem c⟩

/-- Lindsay2016.hpp:384-390: body of the flooding loop.  Every entry of `flood_array` has a back-link,
so `backlinks(f)` is never `NO_BACK_LINK` (`lsWF.flood`). -/
def floodCell (up : E → E) (s : LS E) (f : Cell) : LS E :=
  match s.back f with
  | none => s
  | some p => if s.dem f ≤ s.dem p then { s with dem := Function.update s.dem f (up (s.dem p)) } else s

/-- Lindsay2016.hpp:377-393: the flooding. -/
def lsFlood (up : E → E) (s : LS E) : LS E := s.flood.foldl (floodCell up) s

/-- Lindsay2016.hpp:215-395 `Lindsay2016` in the modes `SELECTIVE_BREACHING` and
`CONSTRAINED_BREACHING`. -/
def lindsayLimited [Sub E] (pq : PQ (E × Cell) zLt) (w h : Nat) (nd top bot : E) (dn up : E → E) (constrained fill : Bool)
    (maxlen : Nat) (maxdepth : E) (dem : Cell → E) : LS E :=
  let s := lsRun (limitedBreach (w * h) constrained dn bot maxlen maxdepth) pq .D8 w h nd top dn dem
  if fill then lsFlood up s else s

end RichDEM
