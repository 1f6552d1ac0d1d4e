/-
Model of the volume computations of the depression hierarchy
(include/richdem/depressions/depression_hierarchy.hpp:729-900): `CachingOutletChecker`,
`CalculateMarginalVolumes`, `CalculateTotalVolumes`.  Arithmetic is exact (the code uses `double`).
-/
import Verif.DepHier.Main
import Mathlib.Algebra.Order.Ring.Defs
import Mathlib.Algebra.BigOperators.Group.Finset.Basic
import Mathlib.Algebra.BigOperators.Ring.Finset
import Mathlib.Algebra.Order.BigOperators.Group.Finset
import Mathlib.Algebra.Order.Ring.Cast
import Mathlib.Tactic.Linarith
import Mathlib.Tactic.Ring

namespace RichDEM

section Climb
variable {E : Type} [LinearOrder E]

/-- `my_elev <= this_out_elev`, where `none` is infinity (depression_hierarchy.hpp:832). -/
def leTop (e : E) : Option E → Bool
  | none => true
  | some z => decide (e ≤ z)

/-- depression_hierarchy.hpp:729-790 (`CachingOutletChecker`): the previous leaf label (`none` is
`NO_DEP`) and the stack of outlets, last entry first. -/
structure COC (E : Type) where
  prev : Option Nat
  stack : List (Option E × Nat)

/-- depression_hierarchy.hpp:770-789 (`find_start`). -/
def COC.findStart (k : COC E) (leaf : Nat) (e : E) : Nat × COC E :=
  if k.prev ≠ some leaf then (leaf, ⟨some leaf, []⟩)
  else
    match k.stack.dropWhile (fun o => leTop e o.1) with
    | [] => (leaf, ⟨some leaf, []⟩)
    | o :: st => (o.2, ⟨k.prev, o :: st⟩)

/-- depression_hierarchy.hpp:827-847: the climb, recording the outlets passed.  `none`:
`deps.at(NO_PARENT)` throws, or the loop runs more than `fuel` turns. -/
def mvClimb (dep : Nat → Dep E) (e : E) : Nat → Nat → COC E → Option (Nat × COC E)
  | 0, _, _ => none
  | f + 1, l, k =>
    if l = 0 then some (0, k)                                                     -- :827
    else
      let k' : COC E := { k with stack := ((dep l).outElev, l) :: k.stack }       -- :829
      if leTop e (dep l).outElev then some (l, k')                                -- :832
      else if (dep l).oceanParent then some (0, k')                               -- :839
      else match (dep l).parent with                                              -- :846
        | none => none
        | some p => mvClimb dep e f p k'

/-- The climb without the cache. -/
def climb (dep : Nat → Dep E) (e : E) : Nat → Nat → Option Nat
  | 0, _ => none
  | f + 1, l =>
    if l = 0 then some 0
    else if leTop e (dep l).outElev then some l
    else if (dep l).oceanParent then some 0
    else match (dep l).parent with
      | none => none
      | some p => climb dep e f p

/-- What the volume computation needs to know about a hierarchy; `C61` and `C62` show that
`GetDepressionHierarchy` provides it (`HierInv.depTree`). -/
structure DepTree (n0 n : Nat) (dep : Nat → Dep E) : Prop where
  pos : 1 ≤ n0
  le : n0 ≤ n
  ocean : (dep 0).parent = none
  par : ∀ x, x < n → x ≠ 0 → (dep x).parent ≠ none
  elev : ∀ x, x < n → x ≠ 0 → ∃ z, (dep x).outElev = some z
  up : ∀ x p, upOf dep x = some p → x < p ∧ p < n ∧ n0 ≤ p ∧ ((dep p).lchild = some x ∨ (dep p).rchild = some x)
  leaf : ∀ d, d < n0 → (dep d).lchild = none ∧ (dep d).rchild = none
  kids : ∀ d, n0 ≤ d → d < n → ∃ a b, (dep d).lchild = some a ∧ (dep d).rchild = some b ∧ a ≠ b ∧ a < d ∧
    b < d ∧ a ≠ 0 ∧ b ≠ 0 ∧ upOf dep a = some d ∧ upOf dep b = some d ∧ (dep a).outElev = (dep b).outElev
  mono : ∀ x p z z', upOf dep x = some p → (dep x).outElev = some z → (dep p).outElev = some z' → z ≤ z'

theorem HierInv.depTree {n0 : Nat} {os : List (Outlet E)} {rep : Nat → Nat} {H : Hier E}
    (J : HierInv n0 os [] rep H) (hlink : ∀ x, x < H.n → x ≠ 0 → (H.dep x).parent ≠ none) :
    DepTree n0 H.n H.dep where
  pos := J.pos
  le := J.le
  ocean := J.ocean0
  par := hlink
  elev := by
    intro x hx h0
    cases hp : (H.dep x).parent with
    | none => exact absurd hp (hlink x hx h0)
    | some p => exact J.elevs x p hp
  up := fun x p h => by
    obtain ⟨a1, a2, a3, _, a5⟩ := J.up x p h
    exact ⟨a1, a2, a3, a5⟩
  leaf := fun d h => by
    have := (J.leaf d).2 (.inl h)
    exact ⟨this, J.leafr d this⟩
  kids := by
    intro d h1 h2
    cases hl : (H.dep d).lchild with
    | none => have := (J.leaf d).1 hl; omega
    | some a =>
      obtain ⟨b, k1, k2, k3, k4, _, _, k7, k8, k9, k10, k11, k12, _, _, k15, _⟩ := J.kids d a hl
      exact ⟨a, b, rfl, k1, k2, k3, k4, k7, k8, by unfold upOf; simp [k9, k11], by unfold upOf; simp [k10, k12], k15⟩
  mono := J.mono

variable {n0 n : Nat} {dep : Nat → Dep E}

theorem leTop_some {e z : E} : leTop e (some z) = true ↔ e ≤ z := by simp [leTop]

theorem AncU.lt_or_eq {up : Nat → Option Nat} (hup : ∀ x p, up x = some p → x < p) {l x : Nat}
    (h : AncU up l x) : l = x ∨ l < x := by
  induction h with
  | refl => exact .inl rfl
  | step h _ ih => have := hup _ _ h; omega

/-- Ancestors of a node form a chain. -/
theorem AncU.chain {up : Nat → Option Nat} {l x y : Nat} (h1 : AncU up l x) (h2 : AncU up l y) :
    AncU up x y ∨ AncU up y x := by
  induction h1 with
  | refl => exact .inl h2
  | @step l p x h _ ih =>
    cases h2 with
    | refl => exact .inr (.step h ‹_›)
    | @step _ p' _ h' k =>
      rw [h] at h'; cases h'
      exact ih k

theorem AncU.last {up : Nat → Option Nat} {l x : Nat} (h : AncU up l x) :
    l = x ∨ ∃ k, AncU up l k ∧ up k = some x := by
  induction h with
  | refl => exact .inl rfl
  | @step l p x h a ih =>
    rcases ih with rfl | ⟨k, k1, k2⟩
    · exact .inr ⟨l, .refl _, h⟩
    · exact .inr ⟨k, .step h k1, k2⟩

theorem DepTree.anc_lt (T : DepTree n0 n dep) {l x : Nat} (h : Anc dep l x) (hl : l < n) : x < n := by
  rcases AncU.last h with rfl | ⟨k, _, k2⟩
  · exact hl
  · exact (T.up _ _ k2).2.1

theorem DepTree.anc_le (T : DepTree n0 n dep) {l x : Nat} (h : Anc dep l x) : l ≤ x := by
  have := AncU.lt_or_eq (fun x p hp => (T.up x p hp).1) h
  omega

theorem DepTree.anc_zero (T : DepTree n0 n dep) {x : Nat} (h : Anc dep 0 x) : x = 0 := by
  cases h with
  | refl => rfl
  | step h _ => unfold upOf at h; simp [T.ocean] at h

theorem DepTree.anc_mono (T : DepTree n0 n dep) {l x : Nat} {z z' : E} (h : Anc dep l x) (hl : l < n)
    (hz : (dep l).outElev = some z) (hz' : (dep x).outElev = some z') : z ≤ z' := by
  induction h generalizing z with
  | refl => rw [hz] at hz'; cases hz'; exact le_refl _
  | @step l p x h a ih =>
    obtain ⟨h1, h2, h3, _⟩ := T.up l p h
    have hp := T.pos
    obtain ⟨y, hy⟩ := T.elev p h2 (by omega)
    exact (T.mono l p z y h hz hy).trans (ih h2 hy hz')

/-- One turn of the climb at a depression that does not hold the cell. -/
theorem climb_succ (T : DepTree n0 n dep) {e z : E} {f l : Nat} (hl : l < n) (h0 : l ≠ 0)
    (hz : (dep l).outElev = some z) (he : ¬ e ≤ z) :
    (upOf dep l = none → climb dep e (f + 1) l = some 0) ∧
    (∀ p, upOf dep l = some p → climb dep e (f + 1) l = climb dep e f p) := by
  have hb : leTop e (dep l).outElev = false := by rw [hz]; simpa [leTop] using he
  have hc : climb dep e (f + 1) l = if (dep l).oceanParent then some 0
      else match (dep l).parent with
        | none => none
        | some p => climb dep e f p := by
    conv_lhs => rw [climb]
    simp [h0, hb]
  rw [hc]
  unfold upOf
  cases ho : (dep l).oceanParent with
  | true => simp
  | false =>
    cases hp : (dep l).parent with
    | none => exact absurd hp (T.par l hl h0)
    | some p =>
      refine ⟨by simp, ?_⟩
      intro q hq
      have : p = q := by simpa using hq
      subst this
      simp

/-- Enough fuel gives a result that does not depend on the fuel. -/
theorem climb_total (T : DepTree n0 n dep) (e : E) : ∀ (f l : Nat), l < n → n - l < f →
    ∃ r, ∀ g, n - l < g → climb dep e g l = some r := by
  intro f
  induction f with
  | zero => intro l _ h; omega
  | succ f ih =>
    intro l hl hf
    by_cases h0 : l = 0
    · subst h0
      refine ⟨0, fun g hg => ?_⟩
      cases g with
      | zero => omega
      | succ g => simp [climb]
    · obtain ⟨z, hz⟩ := T.elev l hl h0
      by_cases he : e ≤ z
      · refine ⟨l, fun g hg => ?_⟩
        cases g with
        | zero => omega
        | succ g =>
          unfold climb
          simp [h0, hz, leTop, he]
      · cases hu : upOf dep l with
        | none =>
          refine ⟨0, fun g hg => ?_⟩
          cases g with
          | zero => omega
          | succ g => exact (climb_succ T hl h0 hz he).1 hu
        | some p =>
          obtain ⟨h1, h2, _⟩ := T.up l p hu
          obtain ⟨r, hr⟩ := ih p h2 (by omega)
          refine ⟨r, fun g hg => ?_⟩
          cases g with
          | zero => omega
          | succ g =>
            rw [(climb_succ T hl h0 hz he).2 p hu]
            exact hr g (by omega)

/-- The depression that receives a cell with label `l` and elevation `e`; 0 for none. -/
def homeOf (n : Nat) (dep : Nat → Dep E) (e : E) (l : Nat) : Nat := (climb dep e (n + 1) l).getD 0

theorem climb_home (T : DepTree n0 n dep) (e : E) {l f : Nat} (hl : l < n) (hf : n - l < f) :
    climb dep e f l = some (homeOf n dep e l) := by
  obtain ⟨r, hr⟩ := climb_total T e (n + 1) l hl (by omega)
  unfold homeOf
  rw [hr f hf, hr (n + 1) (by omega)]; rfl

theorem home_step (T : DepTree n0 n dep) {e z : E} {l p : Nat} (hl : l < n) (h0 : l ≠ 0)
    (hz : (dep l).outElev = some z) (he : ¬ e ≤ z) (hu : upOf dep l = some p) :
    homeOf n dep e l = homeOf n dep e p := by
  obtain ⟨h1, h2, _⟩ := T.up l p hu
  have e1 := climb_home T e hl (show n - l < n + 1 by omega)
  rw [(climb_succ T hl h0 hz he).2 p hu, climb_home T e h2 (by omega)] at e1
  exact (Option.some.inj e1).symm

theorem home_stop (T : DepTree n0 n dep) {e z : E} {l : Nat} (hl : l < n) (h0 : l ≠ 0)
    (hz : (dep l).outElev = some z) (he : e ≤ z) : homeOf n dep e l = l := by
  have e1 := climb_home T e hl (show n - l < n + 1 by omega)
  unfold climb at e1
  simp only [if_neg h0, hz, leTop, decide_eq_true he, if_true] at e1
  exact (Option.some.inj e1).symm

theorem home_zero (n : Nat) (dep : Nat → Dep E) (e : E) : homeOf n dep e 0 = 0 := by
  unfold homeOf climb; simp

theorem home_top (T : DepTree n0 n dep) {e z : E} {l : Nat} (hl : l < n) (h0 : l ≠ 0)
    (hz : (dep l).outElev = some z) (he : ¬ e ≤ z) (hu : upOf dep l = none) :
    homeOf n dep e l = 0 := by
  have e1 := climb_home T e hl (show n - l < n + 1 by omega)
  rw [(climb_succ T hl h0 hz he).1 hu] at e1
  exact (Option.some.inj e1).symm

/-- A depression the cell does not fit in can be used as the start of the climb. -/
theorem home_skip (T : DepTree n0 n dep) {e z : E} {l y : Nat} (hl : l < n) (h0 : l ≠ 0) (h : Anc dep l y)
    (hz : (dep y).outElev = some z) (he : ¬ e ≤ z) : homeOf n dep e l = homeOf n dep e y := by
  induction h with
  | refl => rfl
  | @step l p x h a ih =>
    obtain ⟨h1, h2, _⟩ := T.up l p h
    obtain ⟨z', hz'⟩ := T.elev l hl h0
    have hle := T.anc_mono (.step h a) hl hz' hz
    rw [home_step T hl h0 hz' (fun k => he (k.trans hle)) h]
    exact ih h2 (by omega) hz

/-- Which cells a depression receives: those inside it, not above its spill elevation, but above
the spill elevation of the child they lie in. -/
theorem home_iff (T : DepTree n0 n dep) {e z : E} {l d : Nat} (hl : l < n) (hd : d < n) (hd0 : d ≠ 0)
    (hz : (dep d).outElev = some z) :
    homeOf n dep e l = d ↔ Anc dep l d ∧ e ≤ z ∧
      ∀ k zk, upOf dep k = some d → Anc dep l k → (dep k).outElev = some zk → zk < e := by
  constructor
  · intro hh
    have key : ∀ (m l : Nat), l < n → n - l = m → homeOf n dep e l = d → Anc dep l d ∧ e ≤ z ∧
        ∀ k zk, upOf dep k = some d → Anc dep l k → (dep k).outElev = some zk → zk < e := by
      intro m
      induction m using Nat.strongRecOn with
      | _ m ih =>
        intro l hl hm hh
        by_cases h0 : l = 0
        · subst h0; rw [home_zero] at hh; exact absurd hh.symm hd0
        · obtain ⟨zl, hzl⟩ := T.elev l hl h0
          by_cases he : e ≤ zl
          · rw [home_stop T hl h0 hzl he] at hh
            subst hh
            rw [hzl] at hz; cases hz
            refine ⟨.refl _, he, ?_⟩
            intro k zk hk hlk _
            have h1 := T.anc_le hlk
            have h2 := (T.up k l hk).1
            omega
          · cases hu : upOf dep l with
            | none => rw [home_top T hl h0 hzl he hu] at hh; exact absurd hh.symm hd0
            | some p =>
              obtain ⟨h1, h2, _⟩ := T.up l p hu
              rw [home_step T hl h0 hzl he hu] at hh
              obtain ⟨k1, k2, k3⟩ := ih (n - p) (by omega) p h2 rfl hh
              refine ⟨.step hu k1, k2, ?_⟩
              intro k zk hk hlk hzk
              cases hlk with
              | refl => rw [hzl] at hzk; cases hzk; exact not_le.1 he
              | @step _ p' _ h' a =>
                rw [hu] at h'; cases h'
                exact k3 k zk hk a hzk
    exact key _ l hl rfl hh
  · rintro ⟨h1, h2, h3⟩
    have h0 : l ≠ 0 := by rintro rfl; exact hd0 (T.anc_zero h1)
    rcases AncU.last h1 with rfl | ⟨k, k1, k2⟩
    · exact home_stop T hl h0 hz h2
    · have hk : k < n := T.anc_lt k1 hl
      have hk0 : k ≠ 0 := by have := T.anc_le k1; omega
      obtain ⟨zk, hzk⟩ := T.elev k hk hk0
      have he := not_le.2 (h3 k zk k2 k1 hzk)
      rw [home_skip T hl h0 k1 hzk he, home_step T hk hk0 hzk he k2, home_stop T hd hd0 hz h2]

/-- The cache describes the chain above the previous leaf. -/
def COC.Ok (n : Nat) (dep : Nat → Dep E) (k : COC E) : Prop :=
  ∀ l, k.prev = some l → ∀ o ∈ k.stack, Anc dep l o.2 ∧ o.1 = (dep o.2).outElev ∧ l ≠ 0 ∧ l < n

/-- The recording climb computes the plain climb and keeps the cache valid. -/
theorem mvClimb_eq (T : DepTree n0 n dep) (e : E) : ∀ (f l : Nat) (k : COC E) (leaf : Nat), l < n →
    leaf < n → (leaf = 0 → l = 0) →
    Anc dep leaf l → k.prev = some leaf → k.Ok n dep → n - l < f →
    ∃ k', mvClimb dep e f l k = some (homeOf n dep e l, k') ∧ k'.prev = some leaf ∧ k'.Ok n dep := by
  intro f
  induction f with
  | zero => intro l _ _ _ _ _ _ _ _ h; omega
  | succ f ih =>
    intro l k leaf hl hlf hlf0 ha hp hok hf
    unfold mvClimb
    by_cases h0 : l = 0
    · subst h0
      exact ⟨k, by simp [home_zero], hp, hok⟩
    · have hleaf0 : leaf ≠ 0 := fun h => h0 (hlf0 h)
      obtain ⟨z, hz⟩ := T.elev l hl h0
      have hok' : COC.Ok n dep { k with stack := ((dep l).outElev, l) :: k.stack } := by
        intro l' hl' o ho
        have : l' = leaf := by
          have : k.prev = some l' := hl'
          rw [hp] at this; cases this; rfl
        subst this
        rcases List.mem_cons.1 ho with rfl | ho
        · exact ⟨ha, rfl, hleaf0, hlf⟩
        · exact hok _ hp o ho
      simp only [if_neg h0]
      by_cases he : e ≤ z
      · have hb : leTop e (dep l).outElev = true := by rw [hz]; simpa [leTop] using he
        simp only [hb, if_true]
        exact ⟨{ k with stack := ((dep l).outElev, l) :: k.stack }, by rw [home_stop T hl h0 hz he], hp, hok'⟩
      · have hb : leTop e (dep l).outElev = false := by rw [hz]; simpa [leTop] using he
        simp only [hb]
        cases ho : (dep l).oceanParent with
        | true =>
          have hu : upOf dep l = none := by unfold upOf; simp [ho]
          exact ⟨{ k with stack := ((dep l).outElev, l) :: k.stack }, by rw [home_top T hl h0 hz he hu]; simp, hp, hok'⟩
        | false =>
          cases hpp : (dep l).parent with
          | none => exact absurd hpp (T.par l hl h0)
          | some p =>
            have hu : upOf dep l = some p := by unfold upOf; simp [ho, hpp]
            obtain ⟨h1, h2, _⟩ := T.up l p hu
            obtain ⟨k', e1, e2, e3⟩ := ih p { k with stack := ((dep l).outElev, l) :: k.stack } leaf h2 hlf (fun h => absurd h hleaf0)
              (AncU.trans ha (.step hu (.refl _))) hp hok' (by omega)
            refine ⟨k', ?_, e2, e3⟩
            rw [home_step T hl h0 hz he hu]
            simpa using e1

/-- Starting where the cache says leads to the same depression. -/
theorem findStart_ok (T : DepTree n0 n dep) (e : E) (k : COC E) (leaf : Nat) (hl : leaf < n)
    (hok : k.Ok n dep) :
    (k.findStart leaf e).1 < n ∧ Anc dep leaf (k.findStart leaf e).1 ∧
    (leaf = 0 → (k.findStart leaf e).1 = 0) ∧
    (k.findStart leaf e).2.prev = some leaf ∧ (k.findStart leaf e).2.Ok n dep ∧
    homeOf n dep e (k.findStart leaf e).1 = homeOf n dep e leaf := by
  have reset : leaf < n ∧ Anc dep leaf leaf ∧ (leaf = 0 → leaf = 0) ∧
      (⟨some leaf, []⟩ : COC E).prev = some leaf ∧ (⟨some leaf, []⟩ : COC E).Ok n dep ∧
      homeOf n dep e leaf = homeOf n dep e leaf :=
    ⟨hl, .refl _, id, rfl, fun _ _ o ho => (by cases ho), rfl⟩
  unfold COC.findStart
  by_cases hp : k.prev ≠ some leaf
  · rw [if_pos hp]; exact reset
  · rw [if_neg hp]
    rw [not_not] at hp
    cases hd : k.stack.dropWhile (fun o => leTop e o.1) with
    | nil => exact reset
    | cons o st =>
      have hsub : ∀ x ∈ o :: st, x ∈ k.stack := by
        intro x hx; rw [← hd] at hx; exact (List.dropWhile_sublist _).subset hx
      obtain ⟨a1, a2, a3, _⟩ := hok leaf hp o (hsub o (by simp))
      have hon : o.2 < n := T.anc_lt a1 hl
      have hnot : leTop e o.1 = false := by
        have := List.head_dropWhile_not (fun o : Option E × Nat => leTop e o.1) (l := k.stack) (by rw [hd]; simp)
        simpa [hd] using this
      refine ⟨hon, a1, fun h => absurd h a3, hp, ?_, ?_⟩
      · intro l' hl' x hx
        exact hok l' hl' x (hsub x hx)
      · have ho0 : o.2 ≠ 0 := by have := T.anc_le a1; omega
        obtain ⟨z, hz⟩ := T.elev o.2 hon ho0
        rw [a2, hz] at hnot
        exact (home_skip T hl a3 a1 hz (by simpa [leTop] using hnot)).symm

end Climb

/-! ## The tallies -/

section Tally
variable {E : Type} [CommRing E] [LinearOrder E]

/-- depression_hierarchy.hpp:805-806: `cell_counts` and `total_elevations` (or the fields of the
same names in the depressions). -/
structure Tally (E : Type) where
  count : Nat → Nat
  tot : Nat → E

def Tally.zero : Tally E := ⟨fun _ => 0, fun _ => 0⟩

/-- depression_hierarchy.hpp:811-858: one turn of a thread's loop.  `none`: an exception. -/
def mvCell (n : Nat) (dep : Nat → Dep E) (dem : Cell → E) (label : Cell → Option Nat)
    (st : Option (COC E × Tally E)) (c : Cell) : Option (COC E × Tally E) :=
  match st, label c with
  | some (k, t), some l =>
    match mvClimb dep (dem c) (n + 1) (k.findStart l (dem c)).1 (k.findStart l (dem c)).2 with
    | none => none
    | some (r, k') =>
      if r = 0 then some (k', t)                                                  -- :852
      else some (k', ⟨upd t.count r (t.count r + 1), upd t.tot r (t.tot r + dem c)⟩)  -- :856-857
  | _, _ => none

/-- depression_hierarchy.hpp:805-858: a thread's loop over the cells it is given. -/
def mvThread (n : Nat) (dep : Nat → Dep E) (dem : Cell → E) (label : Cell → Option Nat)
    (cells : List Cell) : Option (COC E × Tally E) :=
  cells.foldl (mvCell n dep dem label) (some (⟨none, []⟩, Tally.zero))

/-- depression_hierarchy.hpp:860-864: the critical section adds a thread's tally. -/
def mvMerge (n : Nat) (dep : Nat → Dep E) (dem : Cell → E) (label : Cell → Option Nat)
    (acc : Option (Tally E)) (cells : List Cell) : Option (Tally E) :=
  match acc, mvThread n dep dem label cells with
  | some a, some (_, t) => some ⟨fun d => a.count d + t.count d, fun d => a.tot d + t.tot d⟩
  | _, _ => none

/-- depression_hierarchy.hpp:793-868 (`CalculateMarginalVolumes`): `parts` are the cells of each
thread in the order the threads enter the critical section. -/
def calcMarginal (n : Nat) (dep : Nat → Dep E) (dem : Cell → E) (label : Cell → Option Nat)
    (parts : List (List Cell)) : Option (Tally E) :=
  parts.foldl (mvMerge n dep dem label) (some Tally.zero)

/-- The depressions with counts, elevations and volumes; volume `none` is not a number
(`0 * infinity`). -/
structure Vols (E : Type) where
  count : Nat → Nat
  tot : Nat → E
  vol : Nat → Option E

/-- depression_hierarchy.hpp:894: `dep_vol`. -/
def volOf (count : Nat) (z : Option E) (tot : E) : Option E :=
  match z with
  | none => none
  | some z => some ((count : E) * z - tot)

/-- depression_hierarchy.hpp:896: the last assertion, in exact arithmetic (`fp_le` is laxer). -/
def volLe (a b d : Option E) : Bool :=
  match a, b, d with
  | some a, some b, some d => decide (a + b ≤ d)
  | _, _, _ => false

/-- depression_hierarchy.hpp:877-897: one turn of `CalculateTotalVolumes`.  `none`: an assertion
fails. -/
def tvStep (dep : Nat → Dep E) (v : Option (Vols E)) (d : Nat) : Option (Vols E) :=
  match v with
  | none => none
  | some v =>
    match (dep d).lchild with
    | none => some { v with vol := upd v.vol d (volOf (v.count d) (dep d).outElev (v.tot d)) }
    | some a =>
      match (dep d).rchild with
      | none => none                                                              -- :882
      | some b =>
        if ¬ (a < d ∧ b < d) then none                                            -- :883-884
        else
          let cnt := v.count d + v.count a + v.count b
          let tot := v.tot d + v.tot a + v.tot b
          let vol := volOf cnt (dep d).outElev tot
          if volLe (v.vol a) (v.vol b) vol then
            some ⟨upd v.count d cnt, upd v.tot d tot, upd v.vol d vol⟩
          else none

/-- depression_hierarchy.hpp:871-900 (`CalculateTotalVolumes`). -/
def calcTotal (n : Nat) (dep : Nat → Dep E) (t : Tally E) : Option (Vols E) :=
  (List.range n).foldl (tvStep dep) (some ⟨t.count, t.tot, fun _ => none⟩)

end Tally

section Proof
variable {E : Type} [CommRing E] [LinearOrder E]
variable {n0 n : Nat} {dep : Nat → Dep E} {dem : Cell → E} {label : Cell → Option Nat}

/-- The home of a cell. -/
def cellHome (n : Nat) (dep : Nat → Dep E) (dem : Cell → E) (label : Cell → Option Nat) (c : Cell) : Nat :=
  homeOf n dep (dem c) ((label c).getD 0)

theorem mvThread_eq (T : DepTree n0 n dep) (cells : List Cell)
    (hlab : ∀ c ∈ cells, ∃ l, label c = some l ∧ l < n) :
    ∃ k t, mvThread n dep dem label cells = some (k, t) ∧ k.Ok n dep ∧ t.count 0 = 0 ∧ t.tot 0 = 0 ∧
      ∀ d, d ≠ 0 → t.count d = (cells.filter (fun c => cellHome n dep dem label c == d)).length ∧
        t.tot d = ((cells.filter (fun c => cellHome n dep dem label c == d)).map dem).sum := by
  induction cells using List.reverseRecOn with
  | nil =>
    exact ⟨⟨none, []⟩, Tally.zero, rfl, fun l h => (by cases h), rfl, rfl, fun d _ => ⟨rfl, rfl⟩⟩
  | append_singleton cs c ih =>
    obtain ⟨k, t, e1, hok, c0, t0, hd⟩ := ih (fun x hx => hlab x (by simp [hx]))
    obtain ⟨l, hl, hln⟩ := hlab c (by simp)
    obtain ⟨s1, s2, s3, s4, s5, s6⟩ := findStart_ok T (dem c) k l hln hok
    obtain ⟨k', m1, m2, m3⟩ := mvClimb_eq T (dem c) (n + 1) _ _ l s1 hln s3 s2 s4 s5 (by omega)
    rw [s6] at m1
    have hh : cellHome n dep dem label c = homeOf n dep (dem c) l := by unfold cellHome; rw [hl]; rfl
    have estep : mvThread n dep dem label (cs ++ [c]) = mvCell n dep dem label (some (k, t)) c := by
      rw [← e1]; unfold mvThread; rw [List.foldl_append]; rfl
    rw [estep]
    unfold mvCell
    simp only [hl, m1]
    by_cases h0 : homeOf n dep (dem c) l = 0
    · rw [if_pos h0]
      refine ⟨k', t, rfl, m3, c0, t0, ?_⟩
      intro d hd0
      have : (cellHome n dep dem label c == d) = false := by rw [hh, h0]; simpa using Ne.symm hd0
      simp [List.filter_append, this, hd d hd0]
    · rw [if_neg h0]
      refine ⟨k', _, rfl, m3, ?_, ?_, ?_⟩
      · show upd t.count _ _ 0 = 0; rw [upd_ne _ _ _ (Ne.symm h0)]; exact c0
      · show upd t.tot _ _ 0 = 0; rw [upd_ne _ _ _ (Ne.symm h0)]; exact t0
      · intro d hd0
        by_cases he : d = homeOf n dep (dem c) l
        · have : (cellHome n dep dem label c == d) = true := by rw [hh, he]; simp
          subst he
          simp [List.filter_append, this, hd _ hd0, upd_same]
        · have : (cellHome n dep dem label c == d) = false := by rw [hh]; simpa using Ne.symm he
          simp [List.filter_append, this, hd d hd0, upd_ne _ _ _ he]

theorem calcMarginal_eq (T : DepTree n0 n dep) (parts : List (List Cell))
    (hlab : ∀ c ∈ parts.flatten, ∃ l, label c = some l ∧ l < n) :
    ∃ t, calcMarginal n dep dem label parts = some t ∧ t.count 0 = 0 ∧ t.tot 0 = 0 ∧
      ∀ d, d ≠ 0 → t.count d = (parts.flatten.filter (fun c => cellHome n dep dem label c == d)).length ∧
        t.tot d = ((parts.flatten.filter (fun c => cellHome n dep dem label c == d)).map dem).sum := by
  induction parts using List.reverseRecOn with
  | nil => exact ⟨Tally.zero, rfl, rfl, rfl, fun d _ => ⟨rfl, rfl⟩⟩
  | append_singleton ps p ih =>
    obtain ⟨t, e1, c0, t0, hd⟩ := ih (fun x hx => hlab x (by simp [List.flatten_append]; left; simpa using hx))
    obtain ⟨k, t', e2, _, c0', t0', hd'⟩ := mvThread_eq (dem := dem) (label := label) T p
      (fun x hx => hlab x (by simp [List.flatten_append, hx]))
    refine ⟨⟨fun d => t.count d + t'.count d, fun d => t.tot d + t'.tot d⟩, ?_, ?_, ?_, ?_⟩
    · have : calcMarginal n dep dem label (ps ++ [p]) = mvMerge n dep dem label (some t) p := by
        rw [← e1]; unfold calcMarginal; rw [List.foldl_append]; rfl
      rw [this]; unfold mvMerge; rw [e2]
    · show t.count 0 + t'.count 0 = 0; omega
    · show t.tot 0 + t'.tot 0 = 0; rw [t0, t0', add_zero]
    · intro d h0
      simp [List.flatten_append, List.filter_append, hd d h0, hd' d h0]

/-- Cells of a set whose home is `d`. -/
theorem calcMarginal_finset (T : DepTree n0 n dep) (cells : List Cell) (hnd : cells.Nodup)
    (parts : List (List Cell)) (hp : parts.flatten.Perm cells)
    (hlab : ∀ c ∈ cells, ∃ l, label c = some l ∧ l < n) :
    ∃ t, calcMarginal n dep dem label parts = some t ∧ t.count 0 = 0 ∧ t.tot 0 = 0 ∧
      ∀ d, d ≠ 0 → t.count d = (cells.toFinset.filter (fun c => cellHome n dep dem label c = d)).card ∧
        t.tot d = (cells.toFinset.filter (fun c => cellHome n dep dem label c = d)).sum dem := by
  obtain ⟨t, e1, e2, e3, e4⟩ := calcMarginal_eq (dem := dem) (label := label) T parts
    (fun c hc => hlab c (hp.mem_iff.1 hc))
  refine ⟨t, e1, e2, e3, ?_⟩
  intro d h0
  have hf : (cells.toFinset.filter (fun c => cellHome n dep dem label c = d)) =
      (parts.flatten.filter (fun c => cellHome n dep dem label c == d)).toFinset := by
    ext c
    simp only [Finset.mem_filter, List.mem_toFinset, List.mem_filter, beq_iff_eq, hp.mem_iff]
  have hn2 : (parts.flatten.filter (fun c => cellHome n dep dem label c == d)).Nodup :=
    (hp.nodup_iff.2 hnd).filter _
  obtain ⟨a, b⟩ := e4 d h0
  rw [hf, List.toFinset_card_of_nodup hn2, List.sum_toFinset _ hn2]
  exact ⟨a, b⟩

omit [CommRing E] in
/-- The two children of a metadepression share no label. -/
theorem DepTree.sib_disjoint (T : DepTree n0 n dep) {a b d l : Nat} (ha : upOf dep a = some d)
    (hb : upOf dep b = some d) (h1 : Anc dep l a) (h2 : Anc dep l b) : a = b := by
  have key : ∀ a b, upOf dep a = some d → upOf dep b = some d → Anc dep a b → a = b := by
    intro a b ha hb h
    cases h with
    | refl => rfl
    | @step _ p _ h' k =>
      rw [ha] at h'; cases h'
      have := T.anc_le k
      have := (T.up b d hb).1
      omega
  rcases AncU.chain h1 h2 with h | h
  · exact key a b ha hb h
  · exact (key b a hb ha h).symm

variable [IsStrictOrderedRing E]

open Classical in
/-- The cells of a set inside depression `d` and not above its spill elevation. -/
noncomputable def heldCells (cells : List Cell) (dep : Nat → Dep E) (dem : Cell → E) (label : Cell → Option Nat)
    (d : Nat) : Finset Cell :=
  cells.toFinset.filter (fun c => InDep label dep d c ∧ ∃ z, (dep d).outElev = some z ∧ dem c ≤ z)

omit [CommRing E] [IsStrictOrderedRing E] in
theorem mem_held {cells : List Cell} {d : Nat} {c : Cell} :
    c ∈ heldCells cells dep dem label d ↔ c ∈ cells ∧ InDep label dep d c ∧ ∃ z, (dep d).outElev = some z ∧ dem c ≤ z := by
  unfold heldCells; simp

omit [CommRing E] [IsStrictOrderedRing E] in
theorem cellHome_iff (T : DepTree n0 n dep) {c : Cell} {l d : Nat} {z : E} (hc : label c = some l) (hl : l < n)
    (hd : d < n) (hd0 : d ≠ 0) (hz : (dep d).outElev = some z) :
    cellHome n dep dem label c = d ↔ Anc dep l d ∧ dem c ≤ z ∧
      ∀ k zk, upOf dep k = some d → Anc dep l k → (dep k).outElev = some zk → zk < dem c := by
  unfold cellHome; rw [hc]; exact home_iff T hl hd hd0 hz

omit [CommRing E] [IsStrictOrderedRing E] in
theorem indep_iff {c : Cell} {l d : Nat} (hc : label c = some l) : InDep label dep d c ↔ Anc dep l d := by
  unfold InDep
  rw [hc]
  constructor
  · rintro ⟨l', h1, h2⟩; cases h1; exact h2
  · intro h; exact ⟨l, rfl, h⟩

/-- `CalculateTotalVolumes` adds the tallies up the tree. -/
theorem calcTotal_spec (T : DepTree n0 n dep) (cells : List Cell)
    (hlab : ∀ c ∈ cells, ∃ l, label c = some l ∧ l < n0) (t : Tally E)
    (ht : ∀ d, d ≠ 0 → t.count d = (cells.toFinset.filter (fun c => cellHome n dep dem label c = d)).card ∧
        t.tot d = (cells.toFinset.filter (fun c => cellHome n dep dem label c = d)).sum dem) :
    ∃ v, calcTotal n dep t = some v ∧ v.count 0 = t.count 0 ∧ v.tot 0 = t.tot 0 ∧
      ∀ d, d < n → d ≠ 0 → ∃ z, (dep d).outElev = some z ∧
        v.count d = (heldCells cells dep dem label d).card ∧
        v.tot d = (heldCells cells dep dem label d).sum dem ∧
        v.vol d = some ((heldCells cells dep dem label d).sum (fun c => z - dem c)) := by
  have hvol : ∀ (S : Finset Cell) (z : E), (S.card : E) * z - S.sum dem = S.sum (fun c => z - dem c) := by
    intro S z
    rw [Finset.sum_sub_distrib, Finset.sum_const, nsmul_eq_mul]
  have main : ∀ m, m ≤ n → ∃ v, (List.range m).foldl (tvStep dep) (some ⟨t.count, t.tot, fun _ => none⟩) = some v ∧
      v.count 0 = t.count 0 ∧ v.tot 0 = t.tot 0 ∧
      (∀ d, m ≤ d → v.count d = t.count d ∧ v.tot d = t.tot d) ∧
      ∀ d, d < m → d ≠ 0 → ∃ z, (dep d).outElev = some z ∧
        v.count d = (heldCells cells dep dem label d).card ∧
        v.tot d = (heldCells cells dep dem label d).sum dem ∧
        v.vol d = some ((heldCells cells dep dem label d).sum (fun c => z - dem c)) := by
    intro m
    induction m with
    | zero => intro _; exact ⟨_, rfl, rfl, rfl, fun _ _ => ⟨rfl, rfl⟩, fun d h => absurd h (by omega)⟩
    | succ m ih =>
      intro hm
      obtain ⟨v, e1, e2, e3, e4, e5⟩ := ih (by omega)
      rw [List.range_succ, List.foldl_append, e1]
      show ∃ v', tvStep dep (some v) m = some v' ∧ _
      by_cases hleaf : m < n0
      · obtain ⟨l1, _⟩ := T.leaf m hleaf
        refine ⟨{ v with vol := upd v.vol m (volOf (v.count m) (dep m).outElev (v.tot m)) }, ?_, e2, e3,
          fun d hd => e4 d (by omega), ?_⟩
        · unfold tvStep; simp only [l1]
        · intro d hd h0
          by_cases hdm : d = m
          · subst hdm
            obtain ⟨z, hz⟩ := T.elev d (by omega) h0
            have hset : cells.toFinset.filter (fun c => cellHome n dep dem label c = d) =
                heldCells cells dep dem label d := by
              ext c
              rw [mem_held, Finset.mem_filter, List.mem_toFinset]
              refine and_congr_right fun hc => ?_
              obtain ⟨l, hl, hln⟩ := hlab c hc
              have hle := T.le
              rw [cellHome_iff T hl (by omega) (by omega) h0 hz, indep_iff hl]
              constructor
              · rintro ⟨a, b, _⟩; exact ⟨a, z, hz, b⟩
              · rintro ⟨a, z', hz', b⟩
                rw [hz] at hz'; cases hz'
                refine ⟨a, b, ?_⟩
                intro k zk hk
                have := (T.up k d hk).2.2.1
                omega
            have hcd := (e4 d (by omega)).1
            have htd := (e4 d (by omega)).2
            rw [(ht d h0).1, hset] at hcd
            rw [(ht d h0).2, hset] at htd
            refine ⟨z, hz, hcd, htd, ?_⟩
            show upd v.vol d _ d = _
            rw [upd_same, hcd, htd, hz]
            exact congrArg some (hvol _ _)
          · obtain ⟨z, a1, a2, a3, a4⟩ := e5 d (by omega) h0
            refine ⟨z, a1, a2, a3, ?_⟩
            show upd v.vol m _ d = _
            rw [upd_ne _ _ _ hdm]; exact a4
      · obtain ⟨a, b, ka, kb, kab, kal, kbl, ka0, kb0, kua, kub, kz⟩ := T.kids m (by omega) (by omega)
        have hm0 : m ≠ 0 := by omega
        obtain ⟨z, hz⟩ := T.elev m (by omega) hm0
        obtain ⟨za, hza, ca, ta, va⟩ := e5 a kal ka0
        obtain ⟨zb, hzb, cb, tb, vb⟩ := e5 b kbl kb0
        have hla := T.mono a m za z kua hza hz
        have hlb := T.mono b m zb z kub hzb hz
        have hup : ∀ k, upOf dep k = some m → k = a ∨ k = b := by
          intro k hk
          rcases (T.up k m hk).2.2.2 with h | h
          · rw [ka] at h; cases h; exact .inl rfl
          · rw [kb] at h; cases h; exact .inr rfl
        have dab : Disjoint (heldCells cells dep dem label a) (heldCells cells dep dem label b) := by
          rw [Finset.disjoint_left]
          intro c h1 h2
          rw [mem_held] at h1 h2
          obtain ⟨l, hl, _⟩ := hlab c h1.1
          exact kab (T.sib_disjoint kua kub ((indep_iff hl).1 h1.2.1) ((indep_iff hl).1 h2.2.1))
        have dm : Disjoint (cells.toFinset.filter (fun c => cellHome n dep dem label c = m))
            (heldCells cells dep dem label a ∪ heldCells cells dep dem label b) := by
          rw [Finset.disjoint_left]
          intro c h1 h2
          rw [Finset.mem_filter, List.mem_toFinset] at h1
          obtain ⟨l, hl, hln⟩ := hlab c h1.1
          have hle := T.le
          have hh := (cellHome_iff T hl (by omega) (by omega) hm0 hz).1 h1.2
          rcases Finset.mem_union.1 h2 with h | h
          · obtain ⟨_, h3, z', h4, h5⟩ := mem_held.1 h
            exact absurd h5 (not_le.2 (hh.2.2 a z' kua ((indep_iff hl).1 h3) h4))
          · obtain ⟨_, h3, z', h4, h5⟩ := mem_held.1 h
            exact absurd h5 (not_le.2 (hh.2.2 b z' kub ((indep_iff hl).1 h3) h4))
        have hset : heldCells cells dep dem label m =
            cells.toFinset.filter (fun c => cellHome n dep dem label c = m) ∪
              (heldCells cells dep dem label a ∪ heldCells cells dep dem label b) := by
          ext c
          rw [Finset.mem_union, Finset.mem_union, mem_held, mem_held, mem_held, Finset.mem_filter, List.mem_toFinset]
          by_cases hc : c ∈ cells
          · obtain ⟨l, hl, hln⟩ := hlab c hc
            have hle := T.le
            rw [cellHome_iff T hl (by omega) (by omega) hm0 hz, indep_iff hl, indep_iff hl, indep_iff hl]
            simp only [hc, true_and]
            constructor
            · rintro ⟨h1, z', h2, h3⟩
              rw [hz] at h2; cases h2
              rcases AncU.last h1 with rfl | ⟨k, k1, k2⟩
              · omega
              · by_cases hfit : ∃ zk, (dep k).outElev = some zk ∧ dem c ≤ zk
                · rcases hup k k2 with rfl | rfl
                  · exact .inr (.inl ⟨k1, hfit⟩)
                  · exact .inr (.inr ⟨k1, hfit⟩)
                · refine .inl ⟨h1, h3, ?_⟩
                  intro k' zk hk' hl' hzk
                  have := T.sib_disjoint k2 hk' k1 hl'
                  subst this
                  by_contra hcon
                  exact hfit ⟨zk, hzk, not_lt.1 hcon⟩
            · rintro (⟨h1, h2, _⟩ | ⟨h1, z', h2, h3⟩ | ⟨h1, z', h2, h3⟩)
              · exact ⟨h1, z, hz, h2⟩
              · rw [hza] at h2; cases h2
                exact ⟨AncU.trans h1 (.step kua (.refl _)), z, hz, h3.trans hla⟩
              · rw [hzb] at h2; cases h2
                exact ⟨AncU.trans h1 (.step kub (.refl _)), z, hz, h3.trans hlb⟩
          · simp [hc]
        have hcm : v.count m + v.count a + v.count b = (heldCells cells dep dem label m).card := by
          rw [hset, Finset.card_union_of_disjoint dm, Finset.card_union_of_disjoint dab, (e4 m (le_refl _)).1,
            (ht m hm0).1, ca, cb, add_assoc]
        have htm : v.tot m + v.tot a + v.tot b = (heldCells cells dep dem label m).sum dem := by
          rw [hset, Finset.sum_union dm, Finset.sum_union dab, (e4 m (le_refl _)).2, (ht m hm0).2, ta, tb, add_assoc]
        have hle : volLe (v.vol a) (v.vol b) (volOf (v.count m + v.count a + v.count b) (dep m).outElev
            (v.tot m + v.tot a + v.tot b)) = true := by
          rw [hcm, htm, va, vb, hz]
          unfold volOf volLe
          simp only [decide_eq_true_eq]
          rw [hvol, hset, Finset.sum_union dm, Finset.sum_union dab]
          have h1 : (heldCells cells dep dem label a).sum (fun c => za - dem c) ≤
              (heldCells cells dep dem label a).sum (fun c => z - dem c) :=
            Finset.sum_le_sum fun c _ => by linarith
          have h2 : (heldCells cells dep dem label b).sum (fun c => zb - dem c) ≤
              (heldCells cells dep dem label b).sum (fun c => z - dem c) :=
            Finset.sum_le_sum fun c _ => by linarith
          have h3 : 0 ≤ (cells.toFinset.filter (fun c => cellHome n dep dem label c = m)).sum (fun c => z - dem c) := by
            refine Finset.sum_nonneg fun c hc => ?_
            rw [Finset.mem_filter, List.mem_toFinset] at hc
            obtain ⟨l, hl, hln⟩ := hlab c hc.1
            have hle := T.le
            have := ((cellHome_iff T hl (by omega) (by omega) hm0 hz).1 hc.2).2.1
            linarith
          linarith
        refine ⟨⟨upd v.count m (v.count m + v.count a + v.count b), upd v.tot m (v.tot m + v.tot a + v.tot b),
          upd v.vol m (volOf (v.count m + v.count a + v.count b) (dep m).outElev (v.tot m + v.tot a + v.tot b))⟩,
          ?_, ?_, ?_, ?_, ?_⟩
        · unfold tvStep; simp only [ka, kb, kal, kbl, and_self, not_true, if_false, hle, if_true]
        · show upd v.count m _ 0 = _; rw [upd_ne _ _ _ (Ne.symm hm0)]; exact e2
        · show upd v.tot m _ 0 = _; rw [upd_ne _ _ _ (Ne.symm hm0)]; exact e3
        · intro d hd
          show upd v.count m _ d = _ ∧ upd v.tot m _ d = _
          rw [upd_ne _ _ _ (by omega), upd_ne _ _ _ (by omega)]
          exact e4 d (by omega)
        · intro d hd h0
          by_cases hdm : d = m
          · subst hdm
            refine ⟨z, hz, ?_, ?_, ?_⟩
            · show upd v.count d _ d = _; rw [upd_same, hcm]
            · show upd v.tot d _ d = _; rw [upd_same, htm]
            · show upd v.vol d _ d = _
              rw [upd_same, hcm, htm, hz]; exact congrArg some (hvol _ _)
          · obtain ⟨z', a1, a2, a3, a4⟩ := e5 d (by omega) h0
            refine ⟨z', a1, ?_, ?_, ?_⟩
            · show upd v.count m _ d = _; rw [upd_ne _ _ _ hdm]; exact a2
            · show upd v.tot m _ d = _; rw [upd_ne _ _ _ hdm]; exact a3
            · show upd v.vol m _ d = _; rw [upd_ne _ _ _ hdm]; exact a4
  obtain ⟨v, e1, e2, e3, _, e5⟩ := main n (le_refl _)
  exact ⟨v, e1, e2, e3, e5⟩

end Proof

end RichDEM
