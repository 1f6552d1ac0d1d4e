import Verif.Omp.Thm
import Verif.Flow.MultiFlow
import Verif.Flow.Tarboton
import Verif.Flow.DinfDirs
import Verif.Flats.Barnes
import Verif.Flats.FlowFlats
import Verif.Flats.FlowFlatsDinf
import Verif.DepHier.Pits
import Verif.DepHier.LastLayer

/-!
The bodies of the parallel loops of /repo/include/richdem, as programs for Verif/Omp/Model.lean.  Rasters that the loop
only reads are parameters; the raster it writes is the shared memory.  Progress bars and log lines are left out.
-/

namespace RichDEM.Omp

section
variable {E : Type} [LinearOrder E]

/-- d8_flowdirs.hpp:113-121 (`d8_flow_directions`). -/
def d8DirBody (w h : Nat) (dem : Cell → E) (nd : E) (c : Cell) : Prog Cell Nat :=
  if dem c = nd then .store c FLOWDIR_NO_DATA .done else .store c (d8FlowDir w h dem c) .done

/-- OCallaghan1984.hpp:32-74 (`FM_OCallaghan`). -/
def ocBody (w h : Nat) (t : Topo) (dem : Cell → E) (nd mx : E) (c : Cell) : Prog (Cell × Nat) Int :=
  if dem c = nd then .store (c, 0) (-2) .done
  else if isEdgeCell w h c then .done
  else
    let r := scanLowest (dem c)
      (fun n => if dem (nbr t c n) = nd then none else some (dem (nbr t c n))) (dirs t) (mx, 0)
    if r.2 = 0 then .done else .store (c, 0) 0 (.store (c, r.2) 1 .done)

/-- find_flats.hpp:40-66 (`FindFlats`): a cell is first taken for flat, until a neighbour shows it is not. -/
def flatBody (w h : Nat) (dem : Cell → E) (nd : E) (c : Cell) : Prog Cell Int :=
  if dem c = nd then .store c (-1) .done
  else if isEdgeCell w h c then .store c 0 .done
  else .store c 1 (if (dirs .D8).any (fun n => decide (dem (nbr .D8 c n) < dem c) || decide (dem (nbr .D8 c n) = nd))
    then .store c 0 .done else .done)

section
variable {K : Type} [Field K] [LinearOrder K]

/-- Freeman1991.hpp:45-65, Holmgren1994.hpp:48-66: the loop over the neighbours that stores the weights; Holmgren
(`again`) loads the number it has stored to add it up.  `k` is what follows, given the sum. -/
def weightProg (again : Bool) (w h : Nat) (dem : Cell → E) (nd : E) (wgt : Nat → E → E → K) (c : Cell) :
    List Nat → K → (K → Prog (Cell × Nat) K) → Prog (Cell × Nat) K
  | [], C, k => k C
  | n :: l, C, k =>
    if inGrid w h (nbr .D8 c n) = false then weightProg again w h dem nd wgt c l C k
    else if dem (nbr .D8 c n) = nd then weightProg again w h dem nd wgt c l C k
    else if dem (nbr .D8 c n) < dem c then
      .store (c, n) (wgt n (dem c) (dem (nbr .D8 c n)))
        (if again then .load (c, n) fun v => weightProg again w h dem nd wgt c l (C + v) k
         else weightProg again w h dem nd wgt c l (C + wgt n (dem c) (dem (nbr .D8 c n))) k)
    else weightProg again w h dem nd wgt c l C k

/-- Freeman1991.hpp:72-78, Holmgren1994.hpp:73-78: the loop that divides by the sum. -/
def normProg (q : K) (c : Cell) : List Nat → Prog (Cell × Nat) K
  | [] => .done
  | n :: l => .load (c, n) fun v =>
      if 0 < v then .load (c, n) fun v => .store (c, n) (v * q) (normProg q c l)
      else .store (c, n) 0 (normProg q c l)

/-- Freeman1991.hpp:28-81 (`FM_Freeman`), Holmgren1994.hpp:32-82 (`FM_Holmgren`). -/
def mfBody (again : Bool) (w h : Nat) (dem : Cell → E) (nd : E) (wgt : Nat → E → E → K) (c : Cell) :
    Prog (Cell × Nat) K :=
  if dem c = nd then .store (c, 0) (-2) .done
  else if isEdgeCell w h c then .done
  else weightProg again w h dem nd wgt c (dirs .D8) 0 fun C =>
    if 0 < C then .store (c, 0) 0 (normProg (1 / C) c (dirs .D8)) else .done

/-- Fairfield1991.hpp:28-77 (`FM_FairfieldLeymarie`), given the random numbers an iteration draws. -/
def rhoBody (w h : Nat) (t : Topo) (dem : Cell → K) (nd : K) (f : Cell → Nat → K) (c : Cell) : Prog (Cell × Nat) Int :=
  if dem c = nd then .store (c, 0) (-2) .done
  else if isEdgeCell w h c then .done
  else
    let r := rhoScan w h t dem nd (f c) c (dirs t) (0, 0)
    if r.1 = 0 then .done else .store (c, 0) 0 (.store (c, r.1) 1 .done)

end

open Classical in
/-- Tarboton1997.hpp:58-144 (`FM_Tarboton`). -/
noncomputable def tarbBody (w h : Nat) (dem : Cell → ℝ) (nd : ℝ) (c : Cell) : Prog (Cell × Nat) ℝ :=
  if dem c = nd then .store (c, 0) (-2) .done
  else if isEdgeCell w h c then .done
  else
    let b := tarbBest w h dem nd c
    if b.n = 0 then .done
    else .store (c, 0) 0
      (let t := tarbTurn b
       if t = 0 then .store (c, b.n) 1 .done
       else if t = Real.pi / 4 then .store (c, nwrap (b.n + 1)) 1 .done
       else .store (c, b.n) (t / (Real.pi / 4)) (.store (c, nwrap (b.n + 1)) (1 - t / (Real.pi / 4)) .done))

open Classical in
/-- dinf_flowdirs.hpp:142-151 (`dinf_flow_directions`), in units of π/4. -/
noncomputable def dinfDirBody (w h : Nat) (dem : Cell → ℝ) (nd : ℝ) (c : Cell) : Prog Cell ℝ :=
  if dem c = nd then .store c (-1) .done else .store c (dinfFlowDir w h dem c / (Real.pi / 4)) .done

/-- Barnes2014.hpp:169-172, flat_resolution.hpp:259-262: the mask is negated. -/
def negBody (c : Cell) : Prog Cell Int := .load c fun v => .store c (v * -1) .done

/-- flat_resolution.hpp:106-114 (`d8_flow_flats`), for an interior cell. -/
def flowFlatBody (mask labels : Cell → Int) (c : Cell) : Prog Cell Nat :=
  if mask c = -1 then .done
  else .load c fun v => if v = 0 then .store c (maskedFlowDir mask labels c) .done else .done

open Classical in
/-- flat_resolution_dinf.hpp:85-93 (`dinf_flow_flats`), for an interior cell. -/
noncomputable def dinfFlatBody (mask labels : Cell → Int) (c : Cell) : Prog Cell ℝ :=
  if mask c = -1 then .done
  else .load c fun v => if v = 0 then .store c (dinfMaskedFlowDir mask labels c) .done else .done

/-- The memory of the loop that raises flats: the elevations, and the counter of warnings. -/
inductive RaiseAddr where
  | elev (c : Cell)
  | warn
deriving DecidableEq

/-- Barnes2014.hpp:521-524: which neighbours the cell is lower than, before it is raised; they may be raised meanwhile.
A number in memory is a pair of which the elevations use the first and the counter the second. -/
def lowerProg (c : Cell) : List Nat → List Nat → (List Nat → Prog RaiseAddr (E × Int)) → Prog RaiseAddr (E × Int)
  | [], acc, k => k acc
  | n :: l, acc, k => .load (.elev c) fun v => .load (.elev (nbr .D8 c n)) fun u =>
      lowerProg c l (if v.1 < u.1 then acc ++ [n] else acc) k

/-- Barnes2014.hpp:527-528: the cell is raised step by step. -/
def raiseProg (next : E → E) (c : Cell) : Nat → Prog RaiseAddr (E × Int) → Prog RaiseAddr (E × Int)
  | 0, k => k
  | i + 1, k => .load (.elev c) fun v => .store (.elev c) (next v.1, v.2) (raiseProg next c i k)

/-- Barnes2014.hpp:532-546: the check of the neighbours, and the count of the warnings. -/
def checkProg (labels : Cell → Int) (c : Cell) (lower : List Nat) : List Nat → Prog RaiseAddr (E × Int)
  | [] => .done
  | n :: l =>
    if labels (nbr .D8 c n) = labels c then checkProg labels c lower l
    else .load (.elev c) fun v => .load (.elev (nbr .D8 c n)) fun u =>
      if v.1 < u.1 then checkProg labels c lower l
      else if n ∈ lower then
        .load .warn fun x => .store .warn (x.1, x.2 + 1) (checkProg labels c lower l)
      else checkProg labels c lower l

/-- Barnes2014.hpp:510-547 (`ResolveFlatsEpsilon_Barnes2014`), for an interior cell; flat_resolution.hpp:555-577
(`d8_flats_alter_dem`) differs in what it logs only. -/
def raiseBody (next : E → E) (mask labels : Cell → Int) (c : Cell) : Prog RaiseAddr (E × Int) :=
  if labels c = 0 then .done
  else lowerProg c (dirs .D8) [] fun lower =>
    raiseProg next c (mask c).toNat (checkProg labels c lower (dirs .D8))

/-- The interior cells, over which the loops that resolve flats run. -/
def interior (w h : Nat) : List Cell :=
  (allCells w h).filter fun c => decide (1 ≤ c.1 ∧ c.1 < (w : Int) - 1 ∧ 1 ≤ c.2 ∧ c.2 < (h : Int) - 1)

/-- fill_spill_merge.hpp:245-255 (`MoveWaterIntoPits`): the neighbours that flow into the cell are counted. -/
def pitDepProg (w h : Nat) (fd : Cell → Nat) (c : Cell) : List Nat → Prog Cell Int
  | [] => .done
  | n :: l =>
    if inGrid w h (nbr .D8 c n) && (fd (nbr .D8 c n) == dinverse .D8 n) then
      .load c fun v => .store c (v + 1) (pitDepProg w h fd c l)
    else pitDepProg w h fd c l

/-- depression_hierarchy.hpp:906-920 (`LastLayer`); an exception ends the iteration (and in fact the program: it may not
leave the parallel region). -/
def lastLayerBody (inf : Option E) (n : Nat) (dep : Nat → Dep E) (dem : Cell → E) (fuel : Nat) (c : Cell) :
    Prog Cell (Option Nat) :=
  .load c fun v =>
    match v with
    | none => .done
    | some l =>
      match lastLayerCell inf n dep (dem c) fuel l with
      | .label l' => .store c (some l') .done
      | _ => .done

/-- terrain_attributes.hpp:344-352 (`TerrainProcessor`), 49-55 and 101-107 (`TA_SPI`, `TA_CTI`): `isnd` says whether the
cell has no data. -/
def attrBody {R : Type} (isnd : Cell → Bool) (ond : R) (func : Cell → R) (c : Cell) : Prog Cell R :=
  if isnd c then .store c ond .done else .store c (func c) .done

end

/-! ### Local programs -/

section
variable {I A V : Type} [DecidableEq A] [DecidableEq I]

omit [DecidableEq A] [DecidableEq I] in
/-- The program loads and stores only numbers of its own iteration. -/
def Local (own : A → Own I) (i : I) : Prog A V → Prop
  | .done => True
  | .load a k => own a = .mine i ∧ ∀ v, Local own i (k v)
  | .store a _ k => own a = .mine i ∧ Local own i k

theorem leaves_of_local {own : A → Own I} {init fin : A → V} {i : I} : ∀ (p : Prog A V) (m : A → V), Local own i p →
    (∀ a, own a = .mine i → execProg p m a = fin a) → Leaves own init fin i p m := by
  intro p
  induction p with
  | done => intro m _ he a ha; exact he a ha
  | load a k ih =>
    intro m hl he
    simp only [Leaves, if_pos hl.1]
    exact ih _ m (hl.2 _) he
  | store a v k ih =>
    intro m hl he
    exact ⟨.inl hl.1, ih _ hl.2 he⟩

end

theorem leaves_load_any {I A V : Type} [DecidableEq A] [DecidableEq I] {own : A → Own I} {init fin : A → V} {i : I}
    {a : A} {k : V → Prog A V} {m : A → V} (hk : ∀ v, Leaves own init fin i (k v) m) :
    Leaves own init fin i (.load a k) m := by
  rw [Leaves]
  split
  · exact hk _
  · split
    · exact hk _
    · exact hk

/-- Parallel loops over cells that touch only the cell's own numbers: every schedule gives `fin`, which is what the
body leaves when run alone. -/
theorem own_cells {A V : Type} [DecidableEq A] (cell : A → Cell) {iters : List Cell} (hn : iters.Nodup)
    {body : Cell → Prog A V} {init fin : A → V}
    (hl : ∀ c ∈ iters, Local (fun a => Own.mine (cell a)) c (body c))
    (he : ∀ c ∈ iters, ∀ a, cell a = c → execProg (body c) init a = fin a)
    {m : Nat} {work : Nat → List Cell} (hd : Dealt m iters work) (sched : List Nat)
    (hf : Finished (run body (start init work) sched)) (a : A) :
    (run body (start init work) sched).mem a = if cell a ∈ iters then fin a else init a :=
  by
  have := (parallel_for (own := fun a => Own.mine (cell a)) hd hn
    (fun c hc => leaves_of_local _ _ (hl c hc) (fun a ha => he c hc a (by simpa using ha))) sched hf).1 a _ rfl
  rw [this]
  congr 1

/-! ### What the bodies leave when run alone -/

section
variable {E : Type} [LinearOrder E] {K : Type} [Field K] [LinearOrder K]

/-- The numbers of cell `c` replaced by `p`. -/
def put (m : Cell × Nat → K) (c : Cell) (p : Nat → K) : Cell × Nat → K := fun a => if a.1 = c then p a.2 else m a

omit [Field K] [LinearOrder K] in
theorem update_put (m : Cell × Nat → K) (c : Cell) (p : Nat → K) (n : Nat) (v : K) :
    Function.update (put m c p) (c, n) v = put m c (Function.update p n v) := by
  funext a
  obtain ⟨d, j⟩ := a
  unfold put
  by_cases h1 : d = c
  · subst h1
    by_cases h2 : j = n
    · subst h2; simp
    · rw [Function.update_of_ne (by simp [h2])]; simp [Function.update_of_ne h2]
  · rw [Function.update_of_ne (by simp [h1])]; simp [h1]

omit [Field K] [LinearOrder K] in
theorem put_self (m : Cell × Nat → K) (c : Cell) (p : Nat → K) (n : Nat) : put m c p (c, n) = p n := by simp [put]

theorem exec_weight (again : Bool) (w h : Nat) (dem : Cell → E) (nd : E) (wgt : Nat → E → E → K) (c : Cell)
    (k : K → Prog (Cell × Nat) K) (m : Cell × Nat → K) : ∀ (l : List Nat) (p : Nat → K) (C : K),
    execProg (weightProg again w h dem nd wgt c l C k) (put m c p) =
      execProg (k (mfWeights w h dem nd wgt c l (p, C)).2) (put m c (mfWeights w h dem nd wgt c l (p, C)).1) := by
  intro l
  induction l with
  | nil => intro p C; rfl
  | cons n l ih =>
    intro p C
    rw [weightProg]
    have e : mfWeights w h dem nd wgt c (n :: l) (p, C) = mfWeights w h dem nd wgt c l
      (if inGrid w h (nbr .D8 c n) = false then (p, C)
       else if dem (nbr .D8 c n) = nd then (p, C)
       else if dem (nbr .D8 c n) < dem c then
        (Function.update p n (wgt n (dem c) (dem (nbr .D8 c n))), C + wgt n (dem c) (dem (nbr .D8 c n)))
       else (p, C)) := rfl
    rw [e]
    split
    · exact ih p C
    · split
      · exact ih p C
      · split
        · cases again
          · simp only [execProg, update_put, Bool.false_eq_true, if_false]
            exact ih _ _
          · simp only [execProg, update_put, put_self, Function.update_self, if_true]
            exact ih _ _
        · exact ih p C

theorem exec_norm (q : K) (c : Cell) (m : Cell × Nat → K) : ∀ (l : List Nat) (p : Nat → K),
    execProg (normProg q c l) (put m c p) = put m c (mfNormalise q l p) := by
  intro l
  induction l with
  | nil => intro p; rfl
  | cons n l ih =>
    intro p
    have e : mfNormalise q (n :: l) p =
      mfNormalise q l (if 0 < p n then Function.update p n (p n * q) else Function.update p n 0) := rfl
    rw [e, normProg]
    simp only [execProg, put_self]
    split
    · simp only [execProg, put_self, update_put]
      exact ih _
    · simp only [execProg, update_put]
      exact ih _

theorem local_weight (again : Bool) (w h : Nat) (dem : Cell → E) (nd : E) (wgt : Nat → E → E → K) (c : Cell)
    (k : K → Prog (Cell × Nat) K) (hk : ∀ C, Local (fun a : Cell × Nat => Own.mine a.1) c (k C)) :
    ∀ (l : List Nat) (C : K), Local (fun a : Cell × Nat => Own.mine a.1) c (weightProg again w h dem nd wgt c l C k) := by
  intro l
  induction l with
  | nil => intro C; exact hk C
  | cons n l ih =>
    intro C
    rw [weightProg]
    split
    · exact ih C
    · split
      · exact ih C
      · split
        · cases again
          · exact ⟨rfl, ih _⟩
          · exact ⟨rfl, rfl, fun v => ih _⟩
        · exact ih C

theorem local_norm (q : K) (c : Cell) : ∀ l : List Nat,
    Local (fun a : Cell × Nat => Own.mine a.1) c (normProg q c l) := by
  intro l
  induction l with
  | nil => trivial
  | cons n l ih =>
    refine ⟨rfl, fun v => ?_⟩
    dsimp only
    split
    · exact ⟨rfl, fun _ => ⟨rfl, ih⟩⟩
    · exact ⟨rfl, ih⟩

theorem mf_exec (again : Bool) (w h : Nat) (dem : Cell → E) (nd : E) (wgt : Nat → E → E → K) (c : Cell) (n : Nat) :
    execProg (mfBody again w h dem nd wgt c) (fun _ => -1) (c, n) = multiFlow w h dem nd wgt c n := by
  have e0 : (fun _ : Cell × Nat => (-1 : K)) = put (fun _ => -1) c (fun _ => -1) := by
    funext a; simp [put]
  unfold mfBody multiFlow
  rw [e0]
  split
  · simp only [execProg, update_put, put_self]
  · split
    · simp only [execProg, put_self]
    · rw [exec_weight]
      dsimp only
      split
      · simp only [execProg, update_put]
        rw [exec_norm, put_self]
      · simp only [execProg, put_self]

theorem mf_local (again : Bool) (w h : Nat) (dem : Cell → E) (nd : E) (wgt : Nat → E → E → K) (c : Cell) :
    Local (fun a : Cell × Nat => Own.mine a.1) c (mfBody again w h dem nd wgt c) := by
  unfold mfBody
  split
  · exact ⟨rfl, trivial⟩
  · split
    · trivial
    · apply local_weight
      intro C
      split
      · exact ⟨rfl, local_norm _ _ _⟩
      · trivial

/-- A cell's nine numbers written by a single-flow metric. -/
theorem single_exec (c : Cell) (r n : Nat) (hr : r ≠ 0) :
    execProg (.store (c, 0) 0 (.store (c, r) 1 .done) : Prog (Cell × Nat) Int) (fun _ => -1) (c, n) =
      (Props1.flow r).slot n := by
  simp only [execProg, Props1.slot]
  by_cases h1 : n = r
  · subst h1; simp
  · rw [Function.update_of_ne (by simp [h1]), if_neg h1]
    by_cases h2 : n = 0
    · subst h2; simp
    · rw [Function.update_of_ne (by simp [h2]), if_neg h2]

theorem noData_exec (c : Cell) (n : Nat) :
    execProg (.store (c, 0) (-2) .done : Prog (Cell × Nat) Int) (fun _ => -1) (c, n) = Props1.noData.slot n := by
  simp only [execProg]
  by_cases h2 : n = 0
  · subst h2; simp [Props1.slot]
  · rw [Function.update_of_ne (by simp [h2])]
    cases n with
    | zero => exact absurd rfl h2
    | succ n => rfl

theorem oc_exec (w h : Nat) (t : Topo) (dem : Cell → E) (nd mx : E) (c : Cell) (n : Nat) :
    execProg (ocBody w h t dem nd mx c) (fun _ => -1) (c, n) = (fmOCallaghan w h t dem nd mx c).slot n := by
  unfold ocBody fmOCallaghan
  split
  · exact noData_exec c n
  · split
    · rfl
    · dsimp only
      split
      · rfl
      · rename_i hr; exact single_exec c _ n hr

theorem oc_local (w h : Nat) (t : Topo) (dem : Cell → E) (nd mx : E) (c : Cell) :
    Local (fun a : Cell × Nat => Own.mine a.1) c (ocBody w h t dem nd mx c) := by
  unfold ocBody
  split
  · exact ⟨rfl, trivial⟩
  · split
    · trivial
    · dsimp only
      split
      · trivial
      · exact ⟨rfl, rfl, trivial⟩

theorem rho_exec (w h : Nat) (t : Topo) (dem : Cell → K) (nd : K) (f : Cell → Nat → K) (c : Cell) (n : Nat) :
    execProg (rhoBody w h t dem nd f c) (fun _ => -1) (c, n) = (fmFairfield w h t dem nd f c).slot n := by
  unfold rhoBody fmFairfield
  split
  · exact noData_exec c n
  · split
    · rfl
    · dsimp only
      split
      · rfl
      · rename_i hr; exact single_exec c _ n hr

theorem rho_local (w h : Nat) (t : Topo) (dem : Cell → K) (nd : K) (f : Cell → Nat → K) (c : Cell) :
    Local (fun a : Cell × Nat => Own.mine a.1) c (rhoBody w h t dem nd f c) := by
  unfold rhoBody
  split
  · exact ⟨rfl, trivial⟩
  · split
    · trivial
    · dsimp only
      split
      · trivial
      · exact ⟨rfl, rfl, trivial⟩

theorem tarb_exec (w h : Nat) (dem : Cell → ℝ) (nd : ℝ) (c : Cell) (n : Nat) :
    execProg (tarbBody w h dem nd c) (fun _ => -1) (c, n) = fmTarboton w h dem nd c n := by
  have e0 : (fun _ : Cell × Nat => (-1 : ℝ)) = put (fun _ => -1) c (fun _ => -1) := by
    funext a; simp [put]
  unfold tarbBody fmTarboton
  rw [e0]
  split
  · simp only [execProg, update_put, put_self]
  · split
    · simp only [execProg, put_self]
    · dsimp only
      split
      · simp only [execProg, put_self]
      · unfold tarbSlots
        simp only [execProg, update_put]
        split
        · simp only [execProg, update_put, put_self]
        · split
          · simp only [execProg, update_put, put_self]
          · simp only [execProg, update_put, put_self]

theorem tarb_local (w h : Nat) (dem : Cell → ℝ) (nd : ℝ) (c : Cell) :
    Local (fun a : Cell × Nat => Own.mine a.1) c (tarbBody w h dem nd c) := by
  unfold tarbBody
  split
  · exact ⟨rfl, trivial⟩
  · split
    · trivial
    · dsimp only
      split
      · trivial
      · refine ⟨rfl, ?_⟩
        split
        · exact ⟨rfl, trivial⟩
        · split
          · exact ⟨rfl, trivial⟩
          · exact ⟨rfl, rfl, trivial⟩

theorem pit_exec (w h : Nat) (fd : Cell → Nat) (c : Cell) : ∀ (l : List Nat) (m : Cell → Int),
    execProg (pitDepProg w h fd c l) m c = m c + ((l.countP (fun n => inGrid w h (nbr .D8 c n) &&
      (fd (nbr .D8 c n) == dinverse .D8 n)) : Nat) : Int) := by
  intro l
  induction l with
  | nil => intro m; simp [pitDepProg, execProg]
  | cons n l ih =>
    intro m
    rw [pitDepProg, List.countP_cons]
    split
    · simp only [execProg]
      rw [ih]
      simp
      ring
    · rw [ih]; simp

theorem pit_local (w h : Nat) (fd : Cell → Nat) (c : Cell) : ∀ l : List Nat,
    Local (fun a : Cell => Own.mine a) c (pitDepProg w h fd c l) := by
  intro l
  induction l with
  | nil => trivial
  | cons n l ih =>
    rw [pitDepProg]
    split
    · exact ⟨rfl, fun _ => ⟨rfl, ih⟩⟩
    · exact ih

end

/-! ### The loop that raises flats -/

section
variable {E : Type} [LinearOrder E]

/-- The elevations are the iterations' own, the counter is free. -/
def raiseOwn : RaiseAddr → Own Cell
  | .elev c => .mine c
  | .warn => .free

theorem leaves_check {init fin : RaiseAddr → E × Int} {labels : Cell → Int} {c : Cell} {lower : List Nat} :
    ∀ (l : List Nat) (m : RaiseAddr → E × Int), m (.elev c) = fin (.elev c) →
      Leaves raiseOwn init fin c (checkProg labels c lower l) m := by
  intro l
  induction l with
  | nil =>
    intro m hm a ha
    cases a with
    | elev d => obtain rfl : d = c := by simpa [raiseOwn] using ha
                exact hm
    | warn => cases ha
  | cons n l ih =>
    intro m hm
    rw [checkProg]
    split
    · exact ih m hm
    · have key : ∀ u v : E × Int, Leaves raiseOwn init fin c (if v.1 < u.1 then checkProg labels c lower l
          else if n ∈ lower then
            .load .warn fun x => .store .warn (x.1, x.2 + 1) (checkProg labels c lower l)
          else checkProg labels c lower l) m := by
        intro u v
        split
        · exact ih m hm
        · split
          · simp only [Leaves, raiseOwn, reduceCtorEq, if_false]
            intro x
            refine ⟨.inr trivial, ih _ ?_⟩
            rw [Function.update_of_ne (by simp)]; exact hm
          · exact ih m hm
      exact leaves_load_any fun v => leaves_load_any fun u => key u v

theorem leaves_raise {init fin : RaiseAddr → E × Int} {next : E → E} {c : Cell} {k : Prog RaiseAddr (E × Int)}
    (hk : ∀ m : RaiseAddr → E × Int, m (.elev c) = fin (.elev c) → Leaves raiseOwn init fin c k m) :
    ∀ (i : Nat) (m : RaiseAddr → E × Int), (next^[i] (m (.elev c)).1, (m (.elev c)).2) = fin (.elev c) →
      Leaves raiseOwn init fin c (raiseProg next c i k) m := by
  intro i
  induction i with
  | zero => intro m hm; exact hk m hm
  | succ i ih =>
    intro m hm
    rw [raiseProg]
    simp only [Leaves, raiseOwn, if_true]
    refine ⟨.inl trivial, ih _ ?_⟩
    simp only [Function.update_self]
    rw [← hm]
    rfl

theorem leaves_lower {init fin : RaiseAddr → E × Int} {c : Cell} {k : List Nat → Prog RaiseAddr (E × Int)}
    {m : RaiseAddr → E × Int} (hk : ∀ acc, Leaves raiseOwn init fin c (k acc) m) :
    ∀ (l acc : List Nat), Leaves raiseOwn init fin c (lowerProg c l acc k) m := by
  intro l
  induction l with
  | nil => intro acc; exact hk acc
  | cons n l ih =>
    intro acc
    rw [lowerProg]
    exact leaves_load_any fun v => leaves_load_any fun u => ih _

end

end RichDEM.Omp
