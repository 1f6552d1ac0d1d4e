/-
Model of programs/parallel_d8_accum/main.cpp: flow accumulation of a raster of D8 directions cut into
tiles.

Simplifications: accumulations (`double`, exact up to 2^53) are integers; message passing is
the collection of the first-round results in any order.  Tiles that are stored mirrored are turned round
when read, and the result is turned back when written.  With `@evict` the second round reads and accumulates
the tile again, with the other retentions it gets back what the first round computed: the same in the model.
-/
import Verif.Flow.Accum
import Verif.Par.Main
import Verif.Par.Prep
import Verif.ParD8.Serial

namespace RichDEM

/-- main.cpp:96. -/
def FLOW_NO_DOWNSTREAM : Nat := 65535
/-- main.cpp:101. -/
def FLOW_TERMINATES : Nat := 65534
/-- main.cpp:105. -/
def FLOW_EXTERNAL : Nat := 65533

/-- main.cpp:81: conversion of an `int` to `link_t`, `uint16_t`. -/
def toLink (s : Int) : Nat := (s % 65536).toNat

/-- main.cpp:286-334: the loop of `FollowPath`, started at `c0`; `none`: it throws. -/
def followFrom (w h : Nat) (fd : Cell → Nat) (nd : Nat) (c0 : Cell) : Nat → Cell → Option Nat
  | 0, _ => none
  | k + 1, c =>
    if fd c = nd ∨ fd c = 0 then some FLOW_TERMINATES
    else if inGrid w h (nbr .D8 c (fd c)) = false then
      some (if c = c0 then FLOW_EXTERNAL else toLink (xyToSerial w h c))
    else followFrom w h fd nd c0 k (nbr .D8 c (fd c))

/-- main.cpp:270-335 `FollowPath`: the value written to the link of the starting cell. -/
def followPath (w h : Nat) (fd : Cell → Nat) (nd : Nat) (c0 : Cell) : Option Nat :=
  followFrom w h fd nd c0 (w * h) c0

/-- main.cpp:346-372 `FollowPathAdd`; `none`: it runs for ever (the fuel exceeds the length of any path
without a cycle). -/
def followAdd (w h : Nat) (fd : Cell → Nat) (nd : Nat) (a : Int) : Nat → Cell → (Cell → Int) → Option (Cell → Int)
  | 0, _, _ => none
  | k + 1, c, acc =>
    if inGrid w h c = false then some acc
    else if fd c = nd then some acc
    else if fd c = 0 then some (Function.update acc c (acc c + a))
    else followAdd w h fd nd a k (nbr .D8 c (fd c)) (Function.update acc c (acc c + a))

/-- main.cpp:421-460: one iteration of the main loop of `FlowAccumulation`. -/
def pdLocalStep (w h : Nat) (fd : Cell → Nat) (nd : Nat) (s : KS Cell Int) : Option (KS Cell Int) :=
  match (lifo Cell).pop s.q with
  | none => none
  | some (c, rest) =>
    if fd c = nd then some { s with q := rest }
    else
      let area := Function.update s.acc c (s.acc c + 1)
      let s1 : KS Cell Int := { s with q := rest, acc := area }
      if fd c = 0 then some s1
      else
        let ni := nbr .D8 c (fd c)
        if inGrid w h ni = false then some s1
        else if fd ni = nd then some s1
        else
          let dep := Function.update s.deps ni (s.deps ni - 1)
          some { deps := dep
                 acc := Function.update area ni (area ni + area c)
                 q := if dep ni = 0 then (lifo Cell).push ni rest else rest }

/-- main.cpp:375-460 `FlowAccumulation` of one tile.  The initial state (388-418) is computed as in
`d8_flow_accum`. -/
def pdLocal (w h : Nat) (fd : Cell → Nat) (nd : Nat) : Cell → Int :=
  (loop (pdLocalStep w h fd nd) (w * h) (d8Start (lifo Cell) w h fd nd)).acc

/-- main.cpp:528-547: the perimeter cells whose paths `FirstRound` follows, in order. -/
def pdStarts (w h : Nat) (ed : TileEdges) : List Cell :=
  (if ed.top then [] else (List.range w).map (fun x : Nat => ((x : Int), (0 : Int)))) ++
  (if ed.bottom then [] else (List.range w).map (fun x : Nat => ((x : Int), (h : Int) - 1))) ++
  (if ed.left then [] else (List.range h).map (fun y : Nat => ((0 : Int), (y : Int)))) ++
  (if ed.right then [] else (List.range h).map (fun y : Nat => ((w : Int) - 1, (y : Int))))

/-- main.cpp:515-547: the links; `none` if a path runs in a circle. -/
def pdLinks (w h : Nat) (fd : Cell → Nat) (nd : Nat) (ed : TileEdges) : Option (Nat → Nat) :=
  (pdStarts w h ed).foldlM
    (fun l c => (followPath w h fd nd c).map (fun v => Function.update l (xyToSerial w h c).toNat v))
    (fun _ => FLOW_TERMINATES)

/-- main.cpp:178-208 `Job1`: the vectors as functions of the index, with their common size. -/
structure PDJob where
  size : Nat
  links : Nat → Nat
  accum : Nat → Int
  fd : Nat → Nat

/-- A job that was never filled in (null tiles). -/
def PDJob.empty : PDJob := ⟨0, fun _ => 0, fun _ => 0, fun _ => 0⟩

/-- main.cpp:512-555 `FirstRound`; `none`: exception or undefined behaviour. -/
def pdFirst (w h : Nat) (fd : Cell → Nat) (nd : Nat) (ed : TileEdges) : Option PDJob :=
  (pdLinks w h fd nd ed).bind fun l =>
    (gridPerim w h fd).bind fun f =>
      (gridPerim w h (pdLocal w h fd nd)).map fun a =>
        { size := perimLen w h, links := l, accum := fun s => a.getD s 0, fd := fun s => f.getD s 0 }

/-- Tile (row, column) and serial number of a perimeter cell, main.cpp:784-791 `atype`. -/
abbrev PNode := (Nat × Nat) × Nat

/-- main.cpp:686-695: the step to the neighbouring tile along one axis of length `len`. -/
def gridStep (x : Int) (len : Nat) : Int := if x = len then 1 else if x = -1 then -1 else 0

/-- main.cpp:717-728: the coordinate within the tile that the flow enters, of length `len'`. -/
def enterAt (x : Int) (len len' : Nat) : Int := if x = len then 0 else if x = -1 then (len' : Int) - 1 else x

/-- main.cpp:645-736 `DownstreamCell`, with the test `ns==FLOW_NO_DOWNSTREAM` of its callers. -/
def downCell (T : Tiling) (null : Nat × Nat → Bool) (jobs : Nat × Nat → PDJob) (n : PNode) : Option PNode :=
  let j := jobs n.1
  if j.links n.2 = FLOW_TERMINATES ∨ j.fd n.2 = 0 then none
  else if j.links n.2 = FLOW_EXTERNAL then
    let w := T.tw n.1.2
    let h := T.th n.1.1
    let c := nbr .D8 (serialToXY w h n.2) (j.fd n.2)
    let gnx : Int := n.1.2 + gridStep c.1 w
    let gny : Int := n.1.1 + gridStep c.2 h
    if gnx < 0 ∨ gny < 0 ∨ gnx = T.gw ∨ gny = T.gh then none
    else
      let t := (gny.toNat, gnx.toNat)
      if null t then none
      else
        let w' := T.tw t.2
        let h' := T.th t.1
        let ns := toLink (xyToSerial w' h' (enterAt c.1 w w', enterAt c.2 h h'))
        if ns = FLOW_NO_DOWNSTREAM then none else some (t, ns)
  else if j.links n.2 = FLOW_NO_DOWNSTREAM then none
  else some (n.1, j.links n.2)

/-- All perimeter cells of the tiles that exist, in the order of the loops main.cpp:760-766 and 799-805. -/
def pdNodes (T : Tiling) (null : Nat × Nat → Bool) (jobs : Nat × Nat → PDJob) : List PNode :=
  ((tileList T.gh T.gw).filter (fun t => !null t)).flatMap (fun t => (List.range (jobs t).size).map (fun s => (t, s)))

/-- Value of a `p_dependency_t` (main.cpp:86, `uint16_t`) after arithmetic. -/
def wrap16 (x : Int) : Int := x % 65536

/-- main.cpp:771-777. -/
def bumpDep (d : PNode → Int) : Option PNode → PNode → Int
  | none => d
  | some m => Function.update d m (wrap16 (d m + 1))

/-- main.cpp:759-778: dependencies. -/
def pdDeps (T : Tiling) (null : Nat × Nat → Bool) (jobs : Nat × Nat → PDJob) : PNode → Int :=
  (pdNodes T null jobs).foldl (fun d n => bumpDep d (downCell T null jobs n)) (fun _ => 0)

/-- The producer's working state: `dependencies`, `accum`, the stack, and `accum_in`. -/
structure PDS where
  ks : KS PNode Int
  inn : PNode → Int

/-- main.cpp:747-813. -/
def pdStart (q : AnyQ PNode) (T : Tiling) (null : Nat × Nat → Bool) (jobs : Nat × Nat → PDJob) : PDS :=
  let deps := pdDeps T null jobs
  { ks :=
      { deps := deps
        acc := fun n => if (jobs n.1).links n.2 = FLOW_EXTERNAL then (jobs n.1).accum n.2 else 0
        q := q.pushAll ((pdNodes T null jobs).filter (fun n => deps n == 0)) [] }
    inn := fun _ => 0 }

/-- main.cpp:845-852: passing the accumulation of `n` on to `m`. -/
def pdPass (q : AnyQ PNode) (s : PDS) (rest : List PNode) (n : PNode) : Option PNode → PDS
  | none => { s with ks := { s.ks with q := rest } }
  | some m =>
    { ks :=
        { deps := Function.update s.ks.deps m (wrap16 (s.ks.deps m - 1))
          acc := Function.update s.ks.acc m (s.ks.acc m + s.ks.acc n)
          q := if wrap16 (s.ks.deps m - 1) = 0 then q.push m rest else rest }
      inn := if m.1 ≠ n.1 then Function.update s.inn m (s.inn m + s.ks.acc n) else s.inn }

/-- main.cpp:831-856: one iteration. -/
def pdStep (q : AnyQ PNode) (T : Tiling) (null : Nat × Nat → Bool) (jobs : Nat × Nat → PDJob) (s : PDS) : Option PDS :=
  match q.pop s.ks.q with
  | none => none
  | some (n, rest) => some (pdPass q s rest n (downCell T null jobs n))

/-- main.cpp:739-862 `Calculations`. -/
def pdCalc (q : AnyQ PNode) (T : Tiling) (null : Nat × Nat → Bool) (jobs : Nat × Nat → PDJob) : PDS :=
  loop (pdStep q T null jobs) (pdNodes T null jobs).length (pdStart q T null jobs)

/-- main.cpp:557-575 `SecondRound` of a tile of `w` by `h` cells: the offsets that are not zero are added
along the paths of their cells. -/
def pdSecond (w h : Nat) (fd : Cell → Nat) (nd : Nat) (size : Nat) (off : Nat → Int) : Option (Cell → Int) :=
  (List.range size).foldlM
    (fun acc s => if off s = 0 then some acc else followAdd w h fd nd (off s) (w * h + 1) (serialToXY w h s) acc)
    (pdLocal w h fd nd)

/-- main.cpp:472-497 `LoadFromEvict`: the file of tile `t` (`file`, position in the file), turned the right
way round. -/
def pdLoad (T : Tiling) (file : Nat × Nat → Cell → Nat) (t : Nat × Nat) (c : Cell) : Nat :=
  file t (flipCell (T.fh t) (T.fv t) (T.tw t.2) (T.th t.1) c)

/-- The first-round result of a tile. -/
def pdJob (T : Tiling) (null : Nat × Nat → Bool) (file : Nat × Nat → Cell → Nat) (nd : Nat) (t : Nat × Nat) : Option PDJob :=
  pdFirst (T.tw t.2) (T.th t.1) (pdLoad T file t) nd (nullEdges T.gh T.gw null t)

/-- main.cpp:1013-1021: results are stored as they arrive; `order` lists the tiles in that order. -/
def pdCollect (T : Tiling) (null : Nat × Nat → Bool) (file : Nat × Nat → Cell → Nat) (nd : Nat) (order : List (Nat × Nat)) :
    Option (Nat × Nat → PDJob) :=
  order.foldlM (fun m t => (pdJob T null file nd t).map (fun j => Function.update m t j)) (fun _ => PDJob.empty)

/-- main.cpp:979-1080 `Producer` and `Consumer`: the file written for each tile; `none`: the program
throws, crashes or hangs. -/
def parallelAccum (q : AnyQ PNode) (T : Tiling) (null : Nat × Nat → Bool) (file : Nat × Nat → Cell → Nat) (nd : Nat)
    (order : List (Nat × Nat)) (t : Nat × Nat) : Option (Cell → Int) :=
  (pdCollect T null file nd order).bind fun jobs =>
    (pdSecond (T.tw t.2) (T.th t.1) (pdLoad T file t) nd (jobs t).size
      (fun s => (pdCalc q T null jobs).inn (t, s))).map fun acc =>
        fun c => acc (flipCell (T.fh t) (T.fv t) (T.tw t.2) (T.th t.1) c)

end RichDEM
