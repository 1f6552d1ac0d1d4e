/-
Model of the hierarchy construction of `GetDepressionHierarchy`
(include/richdem/depressions/depression_hierarchy.hpp:537-720): outlets are visited from lowest
to highest and depressions are joined, with the union-find structure of
common/disjoint_dense_int_set.hpp (Verif/DS/Disjoint.lean).
-/
import Verif.DS.Disjoint
import Verif.Spec
import Mathlib.Data.Finset.Card
import Mathlib.Data.Finset.Range
import Mathlib.Data.List.Basic

namespace RichDEM

/-- depression_hierarchy.hpp:113-133 (`Outlet`): `a < b` are the linked labels. -/
structure Outlet (E : Type) where
  a : Nat
  b : Nat
  cell : Cell
  elev : E

/-- depression_hierarchy.hpp:43-96 (`Depression`), without the volume fields (those are in
Verif/DepHier/Volume.lean).  `none` is `NO_VALUE`/`NO_PARENT`, or infinity for `outElev`. -/
structure Dep (E : Type) where
  parent : Option Nat
  odep : Option Nat
  geolink : Option Nat
  outCell : Option Cell
  outElev : Option E
  lchild : Option Nat
  rchild : Option Nat
  oceanParent : Bool
  oceanLinked : List Nat
  pit : Option Cell

/-- depression_hierarchy.hpp:319-323,454-458: a freshly created depression. -/
def Dep.leaf {E : Type} (pit : Option Cell) : Dep E :=
  ⟨none, none, none, none, none, none, none, false, [], pit⟩

/-- `depressions` (a vector of length `n`) and `djset`. -/
structure Hier (E : Type) where
  n : Nat
  dep : Nat → Dep E
  ds : DSU

/-- depression_hierarchy.hpp:597: `DisjointDenseIntSet djset(depressions.size())`. -/
def hierInit {E : Type} (n : Nat) (pit : Nat → Option Cell) : Hier E :=
  ⟨n, fun d => Dep.leaf (pit d), DSU.ofSize n⟩

/-- depression_hierarchy.hpp:617-670: Meta(A) `ra` found the ocean through depression `ob`. -/
def linkOcean {E : Type} (s : Hier E) (ra ob : Nat) (o : Outlet E) : Hier E :=
  let dep1 := upd s.dep ra { s.dep ra with
    parent := some ob, outElev := some o.elev, outCell := some o.cell, odep := none,
    oceanParent := true, geolink := some ob }
  { s with
    dep := upd dep1 ob { dep1 ob with oceanLinked := (dep1 ob).oceanLinked ++ [ra] }
    ds := s.ds.mergeAintoB ra 0 }

/-- depression_hierarchy.hpp:671-711: Meta(A) `ra` and Meta(B) `rb` get a common parent. -/
def mergeDeps {E : Type} (s : Hier E) (ra rb : Nat) (o : Outlet E) : Hier E :=
  let dep1 := upd s.dep ra { s.dep ra with
    parent := some s.n, outCell := some o.cell, outElev := some o.elev, odep := some rb,
    geolink := some o.b }
  let dep2 := upd dep1 rb { dep1 rb with
    parent := some s.n, outCell := some o.cell, outElev := some o.elev, odep := some ra,
    geolink := some o.a }
  { n := s.n + 1
    dep := upd dep2 s.n { Dep.leaf (dep2 ra).pit with lchild := some ra, rchild := some rb }
    ds := (s.ds.mergeAintoB ra s.n).mergeAintoB rb s.n }

/-- depression_hierarchy.hpp:605-712: one outlet.  `none`: `findSet` throws or never returns, or
one of the assertions at :652-653 and :679-680 fails. -/
def hierStep {E : Type} (s : Hier E) (o : Outlet E) : Option (Hier E) :=
  match s.ds.findSet o.a with
  | (.rep ra, d1) =>
    match d1.findSet o.b with
    | (.rep rb, d2) =>
      let s := { s with ds := d2 }
      if ra = rb then some s                                                 -- :612
      else if ra = 0 then                                                    -- :621-624 (swap)
        if (s.dep rb).outCell.isSome || (s.dep rb).odep.isSome then none
        else some (linkOcean s rb o.a o)
      else if rb = 0 then
        if (s.dep ra).outCell.isSome || (s.dep ra).odep.isSome then none
        else some (linkOcean s ra o.b o)
      else if (s.dep ra).odep.isSome || (s.dep rb).odep.isSome then none
      else some (mergeDeps s ra rb o)
    | _ => none
  | _ => none

/-- depression_hierarchy.hpp:603-713: all outlets. -/
def buildHier {E : Type} (n : Nat) (pit : Nat → Option Cell) (os : List (Outlet E)) :
    Option (Hier E) := os.foldlM hierStep (hierInit n pit)

/-! ### Vocabulary -/

/-- The metadepression right above `l`; ocean links are not followed. -/
def upOf {E : Type} (dep : Nat → Dep E) (l : Nat) : Option Nat :=
  if (dep l).oceanParent then none else (dep l).parent

/-- `x` is `l` or above it. -/
inductive AncU (up : Nat → Option Nat) : Nat → Nat → Prop
  | refl (l) : AncU up l l
  | step {l p x} : up l = some p → AncU up p x → AncU up l x

/-- `x` is `l` or a metadepression above it. -/
def Anc {E : Type} (dep : Nat → Dep E) (l x : Nat) : Prop := AncU (upOf dep) l x

/-- The outlet joins a leaf under `x` to a leaf not under `x`. -/
def Crosses {E : Type} (dep : Nat → Dep E) (x : Nat) (o : Outlet E) : Prop :=
  (Anc dep o.a x ∧ ¬ Anc dep o.b x) ∨ (Anc dep o.b x ∧ ¬ Anc dep o.a x)

/-- Labels joined by outlets of the list. -/
inductive Joined {E : Type} (os : List (Outlet E)) : Nat → Nat → Prop
  | refl (l) : Joined os l l
  | symm {a b} : Joined os a b → Joined os b a
  | trans {a b c} : Joined os a b → Joined os b c → Joined os a c
  | out {o} : o ∈ os → Joined os o.a o.b

theorem Joined.mono {E : Type} {os os' : List (Outlet E)} (h : ∀ o ∈ os, o ∈ os') {a b}
    (j : Joined os a b) : Joined os' a b := by
  induction j with
  | refl => exact .refl _
  | symm _ ih => exact ih.symm
  | trans _ _ i1 i2 => exact i1.trans i2
  | out ho => exact .out (h _ ho)

/-- The construction invariant after the outlets `done`, with `rest` still to come. -/
structure HierInv {E : Type} [LinearOrder E] (n0 : Nat) (done rest : List (Outlet E))
    (rep : Nat → Nat) (s : Hier E) : Prop where
  forest : ∃ d, DSU.Forest s.ds rep d
  size : s.ds.size = s.n
  pos : 1 ≤ n0
  le : n0 ≤ s.n
  count : s.n + ((Finset.range s.n).filter (fun x => rep x = x)).card ≤ 2 * n0
  rep0 : rep 0 = 0
  fix : ∀ x, s.n ≤ x → rep x = x
  root : ∀ x, x < s.n → x ≠ 0 → (rep x = x ↔ (s.dep x).parent = none)
  unl : ∀ x, (s.dep x).parent = none → (s.dep x).outCell = none ∧ (s.dep x).odep = none ∧
    (s.dep x).outElev = none ∧ (s.dep x).oceanParent = false
  ocean0 : (s.dep 0).parent = none
  up : ∀ x p, upOf s.dep x = some p →
    x < p ∧ p < s.n ∧ n0 ≤ p ∧ rep x = rep p ∧ ((s.dep p).lchild = some x ∨ (s.dep p).rchild = some x)
  oc : ∀ x p, (s.dep x).parent = some p → (s.dep x).oceanParent = true →
    x < s.n ∧ p < n0 ∧ rep x = 0 ∧ rep p = 0 ∧ x ∈ (s.dep p).oceanLinked ∧
    (s.dep x).geolink = some p ∧ (s.dep x).odep = none
  linked : ∀ p x, x ∈ (s.dep p).oceanLinked → (s.dep x).parent = some p ∧ (s.dep x).oceanParent = true
  kids : ∀ d a, (s.dep d).lchild = some a → ∃ b, (s.dep d).rchild = some b ∧ a ≠ b ∧ a < d ∧ b < d ∧
    d < s.n ∧ n0 ≤ d ∧ a ≠ 0 ∧ b ≠ 0 ∧
    (s.dep a).parent = some d ∧ (s.dep b).parent = some d ∧ (s.dep a).oceanParent = false ∧
    (s.dep b).oceanParent = false ∧ (s.dep a).odep = some b ∧ (s.dep b).odep = some a ∧
    (s.dep a).outElev = (s.dep b).outElev ∧ (s.dep a).outCell = (s.dep b).outCell ∧
    (∃ g, (s.dep a).geolink = some g ∧ g < n0 ∧ Anc s.dep g b) ∧
    (∃ g, (s.dep b).geolink = some g ∧ g < n0 ∧ Anc s.dep g a)
  leaf : ∀ d, (s.dep d).lchild = none ↔ (d < n0 ∨ s.n ≤ d)
  leafr : ∀ d, (s.dep d).lchild = none → (s.dep d).rchild = none
  elevs : ∀ x p, (s.dep x).parent = some p → ∃ z, (s.dep x).outElev = some z
  late : ∀ x z, (s.dep x).outElev = some z → ∀ o ∈ rest, z ≤ o.elev
  mono : ∀ x p z z', upOf s.dep x = some p →
    (s.dep x).outElev = some z → (s.dep p).outElev = some z' → z ≤ z'
  anc : ∀ l x, l < n0 → x < s.n → rep x = x → x ≠ 0 → (Anc s.dep l x ↔ rep l = x)
  labs : ∀ o, o ∈ done ∨ o ∈ rest → o.a < n0 ∧ o.b < n0
  same : ∀ o ∈ done, rep o.a = rep o.b
  ord : ∀ o ∈ done, ∀ o' ∈ rest, o.elev ≤ o'.elev
  cut : ∀ x z, (s.dep x).outElev = some z → (∀ o, o ∈ done ∨ o ∈ rest → Crosses s.dep x o → z ≤ o.elev) ∧
    ∃ o ∈ done, Crosses s.dep x o ∧ o.elev = z ∧ (s.dep x).outCell = some o.cell
  joined : ∀ a b, a < n0 → b < n0 → rep a = rep b → Joined done a b
  ojoin : ∀ x z, (s.dep x).oceanParent = true → (s.dep x).outElev = some z → ∀ l, l < n0 →
    Anc s.dep l x → Joined (done.filter (fun o => decide (o.elev ≤ z))) l 0
  nodup : ∀ p, (s.dep p).oceanLinked.Nodup
  reach : ∀ x, x < s.n → AncU (fun y => (s.dep y).parent) x (rep x)
  pass : ∀ d a b, (s.dep d).lchild = some a → (s.dep d).rchild = some b →
    ∃ o ∈ done, ((Anc s.dep o.a a ∧ Anc s.dep o.b b) ∨ (Anc s.dep o.b a ∧ Anc s.dep o.a b)) ∧
      (s.dep a).outElev = some o.elev

variable {E : Type} [LinearOrder E] {n0 : Nat} {done rest : List (Outlet E)} {rep : Nat → Nat}
  {s : Hier E}

theorem hierInit_inv (n0 : Nat) (hn : 1 ≤ n0) (pit : Nat → Option Cell) (os : List (Outlet E))
    (hos : ∀ o ∈ os, o.a < n0 ∧ o.b < n0) :
    HierInv n0 [] os id (hierInit n0 pit) := by
  have hu : ∀ x, upOf (hierInit (E := E) n0 pit).dep x = none := fun x => rfl
  refine ⟨⟨_, DSU.forest_ofSize n0⟩, rfl, hn, le_refl _, ?_, rfl, fun _ _ => rfl, ?_, ?_, rfl, ?_, ?_,
    ?_, ?_, ?_, ?_, ?_, ?_, ?_, ?_, by simpa using hos, ?_, ?_, ?_, ?_, ?_, ?_, ?_, ?_⟩
  · simp [hierInit]; omega
  · intro x _ _; simp [hierInit, Dep.leaf]
  · intro x _; simp [hierInit, Dep.leaf]
  · intro x p h; rw [hu] at h; cases h
  · intro x p h; simp [hierInit, Dep.leaf] at h
  · intro p x h; simp [hierInit, Dep.leaf] at h
  · intro d a h; simp [hierInit, Dep.leaf] at h
  · intro d; simp [hierInit, Dep.leaf]; omega
  · intro d _; simp [hierInit, Dep.leaf]
  · intro x p h; simp [hierInit, Dep.leaf] at h
  · intro x z h; simp [hierInit, Dep.leaf] at h
  · intro x p z z' h; rw [hu] at h; cases h
  · intro l x hl hx _ _
    constructor
    · intro h
      cases h with
      | refl => rfl
      | step h _ => rw [hu] at h; cases h
    · intro h
      have : l = x := h
      subst this; exact .refl _
  · simp
  · simp
  · intro x z h; simp [hierInit, Dep.leaf] at h
  · intro a b _ _ h
    have : a = b := h
    subst this; exact .refl _
  · intro x z h; simp [hierInit, Dep.leaf] at h
  · intro p; simp [hierInit, Dep.leaf]
  · intro x _; exact .refl _
  · intro d a b h; simp [hierInit, Dep.leaf] at h

theorem AncU.mono {up up' : Nat → Option Nat} (h : ∀ l p, up l = some p → up' l = some p) {l x}
    (a : AncU up l x) : AncU up' l x := by
  induction a with
  | refl => exact .refl _
  | step h1 _ ih => exact .step (h _ _ h1) ih

theorem AncU.trans {up : Nat → Option Nat} {a b c : Nat} (h1 : AncU up a b) (h2 : AncU up b c) :
    AncU up a c := by
  induction h1 with
  | refl => exact h2
  | step h _ ih => exact .step h (ih h2)

theorem AncU.top {up : Nat → Option Nat} {n x : Nat} (hn : up n = none) (a : AncU up n x) : x = n := by
  cases a with
  | refl => rfl
  | step h _ => rw [hn] at h; cases h

theorem ancU_merge {up up' : Nat → Option Nat} {ra rb n : Nat} (hra : up ra = none) (hrb : up rb = none)
    (hn : up' n = none) (hval : ∀ l, up l ≠ some n)
    (hup : ∀ l, l ≠ n → up' l = if l = ra ∨ l = rb then some n else up l)
    (hra' : ra ≠ n) (hrb' : rb ≠ n) {l x : Nat} (hl : l ≠ n) :
    AncU up' l x ↔ AncU up l x ∨ (x = n ∧ (AncU up l ra ∨ AncU up l rb)) := by
  have hmono : ∀ {l x}, l ≠ n → AncU up l x → AncU up' l x := by
    intro l x hl a
    induction a with
    | refl => exact .refl _
    | @step l p x h _ ih =>
      have h1 : l ≠ ra := by rintro rfl; rw [hra] at h; cases h
      have h2 : l ≠ rb := by rintro rfl; rw [hrb] at h; cases h
      have h3 : p ≠ n := by rintro rfl; exact hval _ h
      exact .step (by rw [hup l hl, if_neg (by simp [h1, h2])]; exact h) (ih h3)
  constructor
  · intro a
    induction a with
    | refl => exact .inl (.refl _)
    | @step l p x h a ih =>
      rw [hup l hl] at h
      by_cases hc : l = ra ∨ l = rb
      · rw [if_pos hc] at h
        cases h
        refine .inr ⟨a.top hn, ?_⟩
        rcases hc with rfl | rfl
        · exact .inl (.refl _)
        · exact .inr (.refl _)
      · rw [if_neg hc] at h
        have h3 : p ≠ n := by rintro rfl; exact hval _ h
        rcases ih h3 with k | ⟨k, k2⟩
        · exact .inl (.step h k)
        · exact .inr ⟨k, k2.imp (.step h) (.step h)⟩
  · rintro (a | ⟨rfl, a | a⟩)
    · exact hmono hl a
    · exact (hmono hl a).trans (.step (by rw [hup _ hra', if_pos (.inl rfl)]) (.refl _))
    · exact (hmono hl a).trans (.step (by rw [hup _ hrb', if_pos (.inr rfl)]) (.refl _))

theorem DSU.checkSize_of_lt (s : DSU) {a : Nat} (ha : a < s.size) : s.checkSize a = s := by
  unfold DSU.checkSize; simp [ha]

theorem DSU.mergeAintoB_checkSize (s : DSU) {a b : Nat} (ha : a < s.size) (hb : b + 1 < 2 ^ 32) :
    s.mergeAintoB a b = (s.checkSize b).mergeAintoB a b := by
  have hs : (s.checkSize b).size = max s.size (b + 1) := DSU.checkSize_size s b hb
  have h2 : (s.checkSize b).checkSize a = s.checkSize b := DSU.checkSize_of_lt _ (by rw [hs]; omega)
  have h3 : (s.checkSize b).checkSize b = s.checkSize b := DSU.checkSize_of_lt _ (by rw [hs]; omega)
  unfold DSU.mergeAintoB
  simp only [DSU.checkSize_of_lt s ha, h2, h3]

theorem mem_shift {A : Type} {done rest : List A} {o o' : A} (h : o' ∈ done ++ [o] ∨ o' ∈ rest) :
    o' ∈ done ∨ o' ∈ o :: rest := by
  simp only [List.mem_append, List.mem_cons, List.not_mem_nil, or_false] at h ⊢
  tauto

/-- Linking a root depression to the ocean keeps the invariant. -/
theorem linkOcean_inv {o : Outlet E} (I : HierInv n0 done (o :: rest) rep s)
    (hsort : ∀ o' ∈ rest, o.elev ≤ o'.elev) {ra oa ob : Nat}
    (hab : (oa = o.a ∧ ob = o.b) ∨ (oa = o.b ∧ ob = o.a))
    (hoa : oa < n0) (hob : ob < n0) (hra : rep oa = ra) (hr0 : ra ≠ 0) (hrb : rep ob = 0) :
    HierInv n0 (done ++ [o]) rest (fun x => if rep x = ra then 0 else rep x) (linkOcean s ra ob o) := by
  obtain ⟨d, F⟩ := I.forest
  have hsz := I.size
  have hlt : ra < s.n := by rw [← hra, ← hsz]; exact F.rep_lt oa (by rw [hsz]; have := I.le; omega)
  have hroot : s.ds.parent ra = ra := by rw [← hra]; exact F.rep_root oa (by rw [hsz]; have := I.le; omega)
  have hrr : rep ra = ra := F.rep_self ra (by rw [hsz]; exact hlt) hroot
  have hpar : (s.dep ra).parent = none := (I.root ra hlt hr0).1 hrr
  obtain ⟨u1, u2, u3, u4⟩ := I.unl ra hpar
  have hne : ob ≠ ra := by rintro rfl; rw [hrr] at hrb; exact hr0 hrb
  set s' := linkOcean s ra ob o with hs'
  have hn : s'.n = s.n := rfl
  have dq : ∀ x, s'.dep x = if x = ob then { s.dep ob with oceanLinked := (s.dep ob).oceanLinked ++ [ra] }
      else if x = ra then { s.dep ra with
        parent := some ob, outElev := some o.elev, outCell := some o.cell, odep := none,
        oceanParent := true, geolink := some ob } else s.dep x := by
    intro x
    simp only [hs', linkOcean, upd, if_neg hne]
  have fp : ∀ x, (s'.dep x).parent = if x = ra then some ob else (s.dep x).parent := by
    intro x; rw [dq]
    by_cases h1 : x = ob
    · subst h1; simp [hne]
    · by_cases h2 : x = ra <;> simp [h1, h2, Ne.symm hne]
  have fo : ∀ x, (s'.dep x).oceanParent = if x = ra then true else (s.dep x).oceanParent := by
    intro x; rw [dq]
    by_cases h1 : x = ob
    · subst h1; simp [hne]
    · by_cases h2 : x = ra <;> simp [h1, h2, Ne.symm hne]
  have fe : ∀ x, (s'.dep x).outElev = if x = ra then some o.elev else (s.dep x).outElev := by
    intro x; rw [dq]
    by_cases h1 : x = ob
    · subst h1; simp [hne]
    · by_cases h2 : x = ra <;> simp [h1, h2, Ne.symm hne]
  have fc : ∀ x, (s'.dep x).outCell = if x = ra then some o.cell else (s.dep x).outCell := by
    intro x; rw [dq]
    by_cases h1 : x = ob
    · subst h1; simp [hne]
    · by_cases h2 : x = ra <;> simp [h1, h2, Ne.symm hne]
  have fd : ∀ x, (s'.dep x).odep = if x = ra then none else (s.dep x).odep := by
    intro x; rw [dq]
    by_cases h1 : x = ob
    · subst h1; simp [hne]
    · by_cases h2 : x = ra <;> simp [h1, h2, Ne.symm hne]
  have fg : ∀ x, (s'.dep x).geolink = if x = ra then some ob else (s.dep x).geolink := by
    intro x; rw [dq]
    by_cases h1 : x = ob
    · subst h1; simp [hne]
    · by_cases h2 : x = ra <;> simp [h1, h2, Ne.symm hne]
  have fl : ∀ x, (s'.dep x).oceanLinked =
      if x = ob then (s.dep ob).oceanLinked ++ [ra] else (s.dep x).oceanLinked := by
    intro x; rw [dq]
    by_cases h1 : x = ob
    · subst h1; simp
    · by_cases h2 : x = ra <;> simp [h1, h2, Ne.symm hne]
  have flc : ∀ x, (s'.dep x).lchild = (s.dep x).lchild := by
    intro x; rw [dq]
    by_cases h1 : x = ob
    · subst h1; simp
    · by_cases h2 : x = ra <;> simp [h1, h2, Ne.symm hne]
  have frc : ∀ x, (s'.dep x).rchild = (s.dep x).rchild := by
    intro x; rw [dq]
    by_cases h1 : x = ob
    · subst h1; simp
    · by_cases h2 : x = ra <;> simp [h1, h2, Ne.symm hne]
  have hup : upOf s'.dep = upOf s.dep := by
    funext x
    unfold upOf
    rw [fo, fp]
    by_cases h2 : x = ra
    · subst h2; simp [hpar]
    · simp [h2]
  have hanc : ∀ l x, Anc s'.dep l x ↔ Anc s.dep l x := by
    intro l x; unfold Anc; rw [hup]
  have hcr : ∀ x o', Crosses s'.dep x o' ↔ Crosses s.dep x o' := by
    intro x o'; unfold Crosses; simp only [hanc]
  have hpn : ∀ x p, (s.dep x).parent = some p → x ≠ ra := by
    rintro x p h rfl; rw [hpar] at h; cases h
  have hrep' : ∀ x, rep x = 0 → (if rep x = ra then 0 else rep x) = 0 := by
    intro x h; rw [h]; simp
  have hancra : ∀ l, l < n0 → (Anc s.dep l ra ↔ rep l = ra) := fun l hl => I.anc l ra hl hlt hrr hr0
  have hojn : ∀ l, l < n0 → rep l = ra → Joined (done ++ [o]) l 0 := by
    intro l hl h
    have j1 : Joined (done ++ [o]) l oa :=
      (I.joined l oa hl hoa (by rw [h, hra])).mono (by simp +contextual)
    have j2 : Joined (done ++ [o]) ob 0 :=
      (I.joined ob 0 hob (by have := I.pos; omega) (by rw [hrb, I.rep0])).mono (by simp +contextual)
    have j3 : Joined (done ++ [o]) oa ob := by
      rcases hab with ⟨rfl, rfl⟩ | ⟨rfl, rfl⟩
      · exact .out (by simp)
      · exact .symm (.out (by simp))
    exact (j1.trans j3).trans j2
  refine ⟨?_, ?_, I.pos, I.le, ?_, ?_, ?_, ?_, ?_, ?_, ?_, ?_, ?_, ?_, ?_, ?_, ?_, ?_, ?_, ?_, ?_, ?_, ?_,
    ?_, ?_, ?_, ?_, ?_, ?_⟩
  · have := (F.mergeAintoB (a := ra) (b := 0) (by rw [hsz]; exact hlt) (by rw [hsz]; omega) hroot
      (by rw [I.rep0]; exact Ne.symm hr0)).1
    rw [I.rep0] at this
    exact ⟨_, this⟩
  · exact (F.mergeAintoB (a := ra) (b := 0) (by rw [hsz]; exact hlt) (by rw [hsz]; omega) hroot
      (by rw [I.rep0]; exact Ne.symm hr0)).2.trans hsz
  · have hsub : ((Finset.range s.n).filter (fun x => (if rep x = ra then 0 else rep x) = x)) ⊆
        ((Finset.range s.n).filter (fun x => rep x = x)) := by
      intro x hx
      simp only [Finset.mem_filter] at hx ⊢
      refine ⟨hx.1, ?_⟩
      by_cases h1 : rep x = ra
      · rw [if_pos h1] at hx; rw [← hx.2, I.rep0]
      · rw [if_neg h1] at hx; exact hx.2
    have := Finset.card_le_card hsub
    have := I.count
    rw [hn]; omega
  · exact hrep' 0 I.rep0
  · intro x hx
    simp only [hn] at hx
    have : rep x = x := I.fix x hx
    simp only [this]; rw [if_neg (by omega)]
  · intro x hx h0
    rw [fp]
    by_cases h1 : x = ra
    · subst h1; simp [hrr, Ne.symm h0]
    · simp only [if_neg h1]
      rw [← I.root x hx h0]
      by_cases h2 : rep x = ra
      · simp only [h2, if_true]
        constructor
        · intro e; exact absurd e.symm h0
        · intro e; exact absurd e.symm h1
      · simp only [h2, if_false]
  · intro x hx
    rw [fp] at hx
    have h1 : x ≠ ra := by rintro rfl; simp at hx
    rw [if_neg h1] at hx
    rw [fc, fd, fe, fo]
    simp only [if_neg h1]
    exact I.unl x hx
  · rw [fp, if_neg (Ne.symm hr0)]; exact I.ocean0
  · intro x p h
    rw [hup] at h
    obtain ⟨a1, a2, a3, a4, a5⟩ := I.up x p h
    refine ⟨a1, a2, a3, ?_, by rw [flc, frc]; exact a5⟩
    simp only [a4]
  · intro x p h1 h2
    rw [fp] at h1
    rw [fo] at h2
    by_cases hx : x = ra
    · subst hx
      simp only [if_true, Option.some.injEq] at h1
      subst h1
      refine ⟨hlt, hob, by simp [hrr], hrep' _ hrb, ?_, ?_, ?_⟩
      · rw [fl]; simp
      · rw [fg]; simp
      · rw [fd]; simp
    · rw [if_neg hx] at h1 h2
      obtain ⟨a1, a2, a3, a4, a5, a6, a7⟩ := I.oc x p h1 h2
      refine ⟨a1, a2, hrep' _ a3, hrep' _ a4, ?_, by rw [fg, if_neg hx]; exact a6, by rw [fd, if_neg hx]; exact a7⟩
      rw [fl]
      by_cases hp : p = ob
      · subst hp; simp [a5]
      · rw [if_neg hp]; exact a5
  · intro p x h
    rw [fl] at h
    rw [fp, fo]
    have old : x ∈ (s.dep p).oceanLinked → (if x = ra then some ob else (s.dep x).parent) = some p ∧
        (if x = ra then true else (s.dep x).oceanParent) = true := by
      intro h
      obtain ⟨k1, k2⟩ := I.linked p x h
      have := hpn x p k1
      simp [this, k1, k2]
    by_cases hp : p = ob
    · subst hp
      rw [if_pos rfl] at h
      rcases List.mem_append.1 h with h | h
      · exact old h
      · obtain rfl : x = ra := by simpa using h
        simp
    · rw [if_neg hp] at h; exact old h
  · intro d a h
    rw [flc] at h
    obtain ⟨b, k1, k2, k3, k4, k5, k6, k7, k8, k9, k10, k11, k12, k13, k14, k15, k16, ⟨g, k17, k18, k19⟩,
      ⟨g', k20, k21, k22⟩⟩ := I.kids d a h
    have ha := hpn a d k9
    have hb := hpn b d k10
    refine ⟨b, by rw [frc]; exact k1, k2, k3, k4, k5, k6, k7, k8, ?_, ?_, ?_, ?_, ?_, ?_, ?_, ?_,
      ⟨g, ?_, k18, ?_⟩, ⟨g', ?_, k21, ?_⟩⟩
    · rw [fp, if_neg ha]; exact k9
    · rw [fp, if_neg hb]; exact k10
    · rw [fo, if_neg ha]; exact k11
    · rw [fo, if_neg hb]; exact k12
    · rw [fd, if_neg ha]; exact k13
    · rw [fd, if_neg hb]; exact k14
    · rw [fe, fe, if_neg ha, if_neg hb]; exact k15
    · rw [fc, fc, if_neg ha, if_neg hb]; exact k16
    · rw [fg, if_neg ha]; exact k17
    · exact (hanc _ _).2 k19
    · rw [fg, if_neg hb]; exact k20
    · exact (hanc _ _).2 k22
  · intro d; rw [flc]; exact I.leaf d
  · intro d h; rw [flc] at h; rw [frc]; exact I.leafr d h
  · intro x p h
    rw [fe]
    by_cases hx : x = ra
    · exact ⟨o.elev, by rw [if_pos hx]⟩
    · rw [fp, if_neg hx] at h
      rw [if_neg hx]; exact I.elevs x p h
  · intro x z h o' ho'
    rw [fe] at h
    by_cases hx : x = ra
    · rw [if_pos hx] at h; cases h; exact hsort o' ho'
    · rw [if_neg hx] at h; exact I.late x z h o' (by simp [ho'])
  · intro x p z z' h h1 h2
    rw [hup] at h
    have hx : x ≠ ra := by
      rintro rfl; unfold upOf at h; simp [hpar] at h
    rw [fe, if_neg hx] at h1
    rw [fe] at h2
    by_cases hp : p = ra
    · rw [if_pos hp] at h2; cases h2; exact I.late x z h1 o (by simp)
    · rw [if_neg hp] at h2; exact I.mono x p z z' h h1 h2
  · intro l x hl hx h h0
    change (if rep x = ra then 0 else rep x) = x at h
    have h1 : rep x ≠ ra := by intro e; rw [if_pos e] at h; exact h0 h.symm
    rw [if_neg h1] at h
    rw [hanc, I.anc l x hl hx h h0]
    by_cases h2 : rep l = ra
    · rw [if_pos h2, h2]
      constructor
      · rintro rfl; exact absurd h h1
      · intro e; exact absurd e.symm h0
    · rw [if_neg h2]
  · intro o' ho'
    exact I.labs o' (mem_shift ho')
  · intro o' ho'
    rcases List.mem_append.1 ho' with h | h
    · simp only [I.same o' h]
    · obtain rfl : o' = o := by simpa using h
      rcases hab with ⟨rfl, rfl⟩ | ⟨rfl, rfl⟩
      · simp only [hra, hrb, if_true]; split <;> rfl
      · simp only [hra, hrb, if_true]; split <;> rfl
  · intro o1 h1 o2 h2
    rcases List.mem_append.1 h1 with h | h
    · exact I.ord o1 h o2 (by simp [h2])
    · obtain rfl : o1 = o := by simpa using h
      exact hsort o2 h2
  · intro x z h
    rw [fe] at h
    have hmem : ∀ o', o' ∈ done ++ [o] ∨ o' ∈ rest → o' ∈ done ∨ o' ∈ o :: rest := by
      intro o' h
      exact mem_shift h
    simp only [hcr]
    by_cases hx : x = ra
    · subst hx
      rw [if_pos rfl] at h; cases h
      refine ⟨?_, o, by simp, ?_, rfl, by rw [fc]; simp⟩
      · intro o' ho' hc
        rcases hmem o' ho' with k | k
        · exfalso
          have e := I.same o' k
          obtain ⟨b1, b2⟩ := I.labs o' (.inl k)
          unfold Crosses at hc
          rw [hancra _ b1, hancra _ b2, e] at hc
          rcases hc with ⟨p, q⟩ | ⟨p, q⟩ <;> exact q p
        · rcases List.mem_cons.1 k with rfl | k
          · exact le_refl _
          · exact hsort o' k
      · have p1 : Anc s.dep oa x := (hancra oa hoa).2 hra
        have p2 : ¬ Anc s.dep ob x := by
          rw [hancra ob hob, hrb]; exact Ne.symm hr0
        rcases hab with ⟨rfl, rfl⟩ | ⟨rfl, rfl⟩
        · exact .inl ⟨p1, p2⟩
        · exact .inr ⟨p1, p2⟩
    · rw [if_neg hx] at h
      obtain ⟨k1, o', k2, k3, k4, k5⟩ := I.cut x z h
      exact ⟨fun o' ho' hc => k1 o' (hmem o' ho') hc, o', by simp [k2], k3, k4, by rw [fc, if_neg hx]; exact k5⟩
  · intro a b ha hb h
    change (if rep a = ra then 0 else rep a) = (if rep b = ra then 0 else rep b) at h
    by_cases h1 : rep a = ra
    · rw [if_pos h1] at h
      have ja := hojn a ha h1
      by_cases h2 : rep b = ra
      · exact ja.trans (hojn b hb h2).symm
      · rw [if_neg h2] at h
        exact ja.trans ((I.joined 0 b (by have := I.pos; omega) hb (by rw [I.rep0, h])).mono (by simp +contextual))
    · rw [if_neg h1] at h
      by_cases h2 : rep b = ra
      · rw [if_pos h2] at h
        exact ((I.joined a 0 ha (by have := I.pos; omega) (by rw [I.rep0, h])).mono
          (by simp +contextual)).trans (hojn b hb h2).symm
      · rw [if_neg h2] at h
        exact (I.joined a b ha hb h).mono (by simp +contextual)
  · intro x z h1 h2 l hl ha
    rw [fo] at h1
    rw [fe] at h2
    rw [hanc] at ha
    by_cases hx : x = ra
    · subst hx
      rw [if_pos rfl] at h2; cases h2
      refine (hojn l hl ((hancra l hl).1 ha)).mono ?_
      intro o' ho'
      refine List.mem_filter.2 ⟨ho', ?_⟩
      rcases List.mem_append.1 ho' with k | k
      · simpa using I.ord o' k o (by simp)
      · obtain rfl : o' = o := by simpa using k
        simp
    · rw [if_neg hx] at h1 h2
      refine (I.ojoin x z h1 h2 l hl ha).mono ?_
      intro o' ho'
      obtain ⟨k1, k2⟩ := List.mem_filter.1 ho'
      exact List.mem_filter.2 ⟨by simp [k1], k2⟩
  · intro p
    rw [fl]
    by_cases hp : p = ob
    · rw [if_pos hp]
      refine List.nodup_append.2 ⟨I.nodup ob, by simp, ?_⟩
      intro x hx y hy
      obtain rfl : y = ra := by simpa using hy
      rintro rfl
      exact hpn _ _ (I.linked ob _ hx).1 rfl
    · rw [if_neg hp]; exact I.nodup p
  · have hm : ∀ {x y}, AncU (fun y => (s.dep y).parent) x y → AncU (fun y => (s'.dep y).parent) x y := by
      intro x y h
      refine AncU.mono ?_ h
      intro l p hl
      show (s'.dep l).parent = some p
      rw [fp, if_neg (hpn l p hl)]; exact hl
    intro x hx
    have h1 := hm (I.reach x hx)
    by_cases h2 : rep x = ra
    · simp only [h2, if_true]
      rw [h2] at h1
      have h3 := hm (I.reach ob (lt_of_lt_of_le hob I.le))
      rw [hrb] at h3
      exact h1.trans (.step (p := ob) (by show (s'.dep ra).parent = some ob; rw [fp, if_pos rfl]) h3)
    · simp only [h2, if_false]; exact h1
  · intro d a b ha hb
    rw [flc] at ha
    rw [frc] at hb
    obtain ⟨o', k1, k2, k3⟩ := I.pass d a b ha hb
    obtain ⟨_, _, _, _, _, _, _, _, _, k9, _⟩ := I.kids d a ha
    refine ⟨o', by simp [k1], ?_, ?_⟩
    · simp only [hanc]; exact k2
    · rw [fe, if_neg (hpn a d k9)]; exact k3

set_option maxHeartbeats 1000000 in
/-- Joining two root depressions under a new metadepression keeps the invariant. -/
theorem mergeDeps_inv {o : Outlet E} (h32 : 2 * n0 < 2 ^ 32) (I : HierInv n0 done (o :: rest) rep s)
    (hsort : ∀ o' ∈ rest, o.elev ≤ o'.elev) {ra rb : Nat}
    (hra : rep o.a = ra) (hrb : rep o.b = rb) (hra0 : ra ≠ 0) (hrb0 : rb ≠ 0) (hab : ra ≠ rb) :
    HierInv n0 (done ++ [o]) rest (fun x => if rep x = ra ∨ rep x = rb then s.n else rep x)
      (mergeDeps s ra rb o) := by
  obtain ⟨d, F⟩ := I.forest
  have hsz := I.size
  have hle := I.le
  have hpos := I.pos
  obtain ⟨hoa, hob⟩ := I.labs o (.inr (by simp))
  have hrl : ∀ x, x < s.n → rep x < s.n := fun x hx => by
    have := F.rep_lt x (by rw [hsz]; exact hx); rw [hsz] at this; exact this
  have hrr' : ∀ x, x < s.n → rep (rep x) = rep x := fun x hx =>
    F.rep_self _ (F.rep_lt x (by rw [hsz]; exact hx)) (F.rep_root x (by rw [hsz]; exact hx))
  have hlta : ra < s.n := by rw [← hra]; exact hrl _ (by omega)
  have hltb : rb < s.n := by rw [← hrb]; exact hrl _ (by omega)
  have hroota : s.ds.parent ra = ra := by rw [← hra]; exact F.rep_root o.a (by rw [hsz]; omega)
  have hrra : rep ra = ra := by rw [← hra]; exact hrr' _ (by omega)
  have hrrb : rep rb = rb := by rw [← hrb]; exact hrr' _ (by omega)
  have hpara : (s.dep ra).parent = none := (I.root ra hlta hra0).1 hrra
  have hparb : (s.dep rb).parent = none := (I.root rb hltb hrb0).1 hrrb
  obtain ⟨ua1, ua2, ua3, ua4⟩ := I.unl ra hpara
  obtain ⟨ub1, ub2, ub3, ub4⟩ := I.unl rb hparb
  have hnlt : s.n + 1 < 2 ^ 32 := by
    have h1 : 1 ≤ ((Finset.range s.n).filter (fun x => rep x = x)).card := by
      rw [Nat.one_le_iff_ne_zero, Finset.card_ne_zero]
      exact ⟨0, by simp [I.rep0]; omega⟩
    have := I.count
    omega
  have hnpar : (s.dep s.n).parent = none := by
    cases h : (s.dep s.n).parent with
    | none => rfl
    | some p =>
      cases ho : (s.dep s.n).oceanParent with
      | true => exact absurd (I.oc _ p h ho).1 (lt_irrefl _)
      | false =>
        have := I.up s.n p (by unfold upOf; simp [ho, h])
        omega
  set s' := mergeDeps s ra rb o with hs'
  have hn : s'.n = s.n + 1 := rfl
  have na : ra ≠ s.n := by omega
  have nb : rb ≠ s.n := by omega
  have hba : rb ≠ ra := Ne.symm hab
  have dq : ∀ x, s'.dep x = if x = s.n then { Dep.leaf (s.dep ra).pit with lchild := some ra, rchild := some rb }
      else if x = ra then { s.dep ra with
        parent := some s.n, outCell := some o.cell, outElev := some o.elev, odep := some rb,
        geolink := some o.b }
      else if x = rb then { s.dep rb with
        parent := some s.n, outCell := some o.cell, outElev := some o.elev, odep := some ra,
        geolink := some o.a } else s.dep x := by
    intro x
    simp only [hs', mergeDeps, upd, if_neg hba, if_neg hab, if_true]
    by_cases h1 : x = s.n
    · simp [h1]
    · by_cases h2 : x = ra
      · subst h2; simp [h1, hab]
      · simp [h1, h2]
  have fp : ∀ x, (s'.dep x).parent = if x = s.n then none else if x = ra then some s.n else if x = rb then some s.n
      else (s.dep x).parent := by
    intro x; rw [dq]
    by_cases h1 : x = s.n
    · subst h1; simp [Dep.leaf]
    · by_cases h2 : x = ra
      · subst h2; simp [h1]
      · by_cases h3 : x = rb
        · subst h3; simp [h1, h2]
        · simp [h1, h2, h3]
  have fo : ∀ x, (s'.dep x).oceanParent = if x = s.n then false else if x = ra then false else if x = rb then false
      else (s.dep x).oceanParent := by
    intro x; rw [dq]
    by_cases h1 : x = s.n
    · subst h1; simp [Dep.leaf]
    · by_cases h2 : x = ra
      · subst h2; simp [h1, ua4]
      · by_cases h3 : x = rb
        · subst h3; simp [h1, h2, ub4]
        · simp [h1, h2, h3]
  have fe : ∀ x, (s'.dep x).outElev = if x = s.n then none else if x = ra then some o.elev else if x = rb then some o.elev
      else (s.dep x).outElev := by
    intro x; rw [dq]
    by_cases h1 : x = s.n
    · subst h1; simp [Dep.leaf]
    · by_cases h2 : x = ra
      · subst h2; simp [h1]
      · by_cases h3 : x = rb
        · subst h3; simp [h1, h2]
        · simp [h1, h2, h3]
  have fc : ∀ x, (s'.dep x).outCell = if x = s.n then none else if x = ra then some o.cell else if x = rb then some o.cell
      else (s.dep x).outCell := by
    intro x; rw [dq]
    by_cases h1 : x = s.n
    · subst h1; simp [Dep.leaf]
    · by_cases h2 : x = ra
      · subst h2; simp [h1]
      · by_cases h3 : x = rb
        · subst h3; simp [h1, h2]
        · simp [h1, h2, h3]
  have fd : ∀ x, (s'.dep x).odep = if x = s.n then none else if x = ra then some rb else if x = rb then some ra
      else (s.dep x).odep := by
    intro x; rw [dq]
    by_cases h1 : x = s.n
    · subst h1; simp [Dep.leaf]
    · by_cases h2 : x = ra
      · subst h2; simp [h1]
      · by_cases h3 : x = rb
        · subst h3; simp [h1, h2]
        · simp [h1, h2, h3]
  have fg : ∀ x, (s'.dep x).geolink = if x = s.n then none else if x = ra then some o.b else if x = rb then some o.a
      else (s.dep x).geolink := by
    intro x; rw [dq]
    by_cases h1 : x = s.n
    · subst h1; simp [Dep.leaf]
    · by_cases h2 : x = ra
      · subst h2; simp [h1]
      · by_cases h3 : x = rb
        · subst h3; simp [h1, h2]
        · simp [h1, h2, h3]
  have fll : ∀ x, (s'.dep x).oceanLinked = if x = s.n then [] else if x = ra then (s.dep ra).oceanLinked else if x = rb then (s.dep rb).oceanLinked
      else (s.dep x).oceanLinked := by
    intro x; rw [dq]
    by_cases h1 : x = s.n
    · subst h1; simp [Dep.leaf]
    · by_cases h2 : x = ra
      · subst h2; simp [h1]
      · by_cases h3 : x = rb
        · subst h3; simp [h1, h2]
        · simp [h1, h2, h3]
  have flc : ∀ x, (s'.dep x).lchild = if x = s.n then some ra else if x = ra then (s.dep ra).lchild else if x = rb then (s.dep rb).lchild
      else (s.dep x).lchild := by
    intro x; rw [dq]
    by_cases h1 : x = s.n
    · subst h1; simp [Dep.leaf]
    · by_cases h2 : x = ra
      · subst h2; simp [h1]
      · by_cases h3 : x = rb
        · subst h3; simp [h1, h2]
        · simp [h1, h2, h3]
  have frc : ∀ x, (s'.dep x).rchild = if x = s.n then some rb else if x = ra then (s.dep ra).rchild else if x = rb then (s.dep rb).rchild
      else (s.dep x).rchild := by
    intro x; rw [dq]
    by_cases h1 : x = s.n
    · subst h1; simp [Dep.leaf]
    · by_cases h2 : x = ra
      · subst h2; simp [h1]
      · by_cases h3 : x = rb
        · subst h3; simp [h1, h2]
        · simp [h1, h2, h3]
  have hup : ∀ x, upOf s'.dep x = if x = s.n then none else if x = ra ∨ x = rb then some s.n else upOf s.dep x := by
    intro x
    unfold upOf
    rw [fo, fp]
    by_cases h1 : x = s.n
    · simp [h1]
    · by_cases h2 : x = ra
      · subst h2; simp [h1]
      · by_cases h3 : x = rb
        · subst h3; simp [h1]
        · simp [h1, h2, h3]
  have hupa : upOf s.dep ra = none := by unfold upOf; simp [hpara]
  have hupb : upOf s.dep rb = none := by unfold upOf; simp [hparb]
  have hupn : ∀ l, upOf s.dep l ≠ some s.n := by
    intro l h; have := I.up l _ h; omega
  have hanc : ∀ l x, l ≠ s.n → (Anc s'.dep l x ↔ Anc s.dep l x ∨ (x = s.n ∧ (Anc s.dep l ra ∨ Anc s.dep l rb))) := by
    intro l x hl
    refine ancU_merge hupa hupb (by rw [hup]; simp) hupn ?_ na nb hl
    intro l hl; rw [hup, if_neg hl]
  have hancx : ∀ l x, l ≠ s.n → x ≠ s.n → (Anc s'.dep l x ↔ Anc s.dep l x) := by
    intro l x hl hx; rw [hanc l x hl]; simp [hx]
  have hancn : ∀ l, l ≠ s.n → ¬ Anc s.dep l s.n := by
    intro l hl h
    have : ∀ l x, AncU (upOf s.dep) l x → x = l ∨ ∃ p, upOf s.dep p = some x := by
      intro l x h
      induction h with
      | refl => exact .inl rfl
      | @step l p x h _ ih =>
        rcases ih with rfl | k
        · exact .inr ⟨l, h⟩
        · exact .inr k
    rcases this l _ h with k | ⟨p, k⟩
    · exact hl k.symm
    · exact hupn p k
  have hcr : ∀ x o', o'.a < n0 → o'.b < n0 → x ≠ s.n → (Crosses s'.dep x o' ↔ Crosses s.dep x o') := by
    intro x o' h1 h2 h3
    unfold Crosses
    rw [hancx _ _ (by omega) h3, hancx _ _ (by omega) h3]
  have hpn : ∀ x p, (s.dep x).parent = some p → x ≠ s.n ∧ x ≠ ra ∧ x ≠ rb := by
    intro x p h
    refine ⟨?_, ?_, ?_⟩ <;> rintro rfl
    · rw [hnpar] at h; cases h
    · rw [hpara] at h; cases h
    · rw [hparb] at h; cases h
  have hrep' : ∀ x, rep x = 0 → (if rep x = ra ∨ rep x = rb then s.n else rep x) = 0 := by
    intro x h; rw [h, if_neg]; rintro (h | h)
    · exact hra0 h.symm
    · exact hrb0 h.symm
  have hanca : ∀ l, l < n0 → (Anc s.dep l ra ↔ rep l = ra) := fun l hl => I.anc l ra hl hlta hrra hra0
  have hancb : ∀ l, l < n0 → (Anc s.dep l rb ↔ rep l = rb) := fun l hl => I.anc l rb hl hltb hrrb hrb0
  have hFF : (∃ d, DSU.Forest s'.ds (fun x => if rep x = ra ∨ rep x = rb then s.n else rep x) d) ∧
      s'.ds.size = s.n + 1 := by
    have hcs : (s.ds.checkSize s.n).size = s.n + 1 := by
      rw [DSU.checkSize_size _ _ hnlt, hsz]; omega
    have F1 : DSU.Forest (s.ds.checkSize s.n) rep d := by
      have := F.checkSize s.n hnlt
      rw [hsz] at this
      have e : (fun x => if x < s.n then rep x else x) = rep := by
        funext x
        by_cases hx : x < s.n
        · rw [if_pos hx]
        · rw [if_neg hx, I.fix x (by omega)]
      rwa [e] at this
    have hn' : rep s.n = s.n := I.fix _ (le_refl _)
    have pa : (s.ds.checkSize s.n).parent ra = ra := by
      have := F1.rep_root ra (by rw [hcs]; omega)
      rwa [hrra] at this
    obtain ⟨F2, z2⟩ := F1.mergeAintoB (a := ra) (b := s.n) (by rw [hcs]; omega) (by rw [hcs]; omega) pa
      (by rw [hn']; exact Ne.symm na)
    rw [← DSU.mergeAintoB_checkSize _ (by rw [hsz]; exact hlta) hnlt] at F2 z2
    rw [hcs] at z2
    rw [hn'] at F2
    have pb : (s.ds.mergeAintoB ra s.n).parent rb = rb := by
      have := F2.rep_root rb (by rw [z2]; omega)
      simp only [hrrb, if_neg hba] at this
      exact this
    obtain ⟨d3, rep3, e3, F3, z3⟩ : ∃ d3 rep3, rep3 = (fun x => if rep x = ra ∨ rep x = rb then s.n else rep x) ∧
        DSU.Forest ((s.ds.mergeAintoB ra s.n).mergeAintoB rb s.n) rep3 d3 ∧
        ((s.ds.mergeAintoB ra s.n).mergeAintoB rb s.n).size = (s.ds.mergeAintoB ra s.n).size := by
      refine ⟨_, _, ?_, F2.mergeAintoB (a := rb) (b := s.n) (by rw [z2]; omega) (by rw [z2]; omega) pb
        (by simp only [hn', if_neg (Ne.symm na)]; exact Ne.symm nb)⟩
      funext x
      simp only [hn', if_neg (Ne.symm na)]
      by_cases h1 : rep x = ra
      · simp [h1, Ne.symm nb]
      · simp [h1]
    subst e3
    exact ⟨⟨d3, F3⟩, z3.trans z2⟩
  refine ⟨hFF.1, hFF.2, I.pos, by rw [hn]; omega, ?_, ?_, ?_, ?_, ?_, ?_, ?_, ?_, ?_, ?_, ?_, ?_, ?_, ?_, ?_, ?_, ?_,
    ?_, ?_, ?_, ?_, ?_, ?_, ?_, ?_⟩
  · have hsub : ((Finset.range (s.n + 1)).filter (fun x => (if rep x = ra ∨ rep x = rb then s.n else rep x) = x)) ⊆
        insert s.n ((((Finset.range s.n).filter (fun x => rep x = x)).erase ra).erase rb) := by
      intro x hx
      simp only [Finset.mem_filter, Finset.mem_range, Finset.mem_insert, Finset.mem_erase] at hx ⊢
      by_cases hxn : x = s.n
      · exact .inl hxn
      · right
        obtain ⟨h1, h2⟩ := hx
        by_cases h3 : rep x = ra ∨ rep x = rb
        · rw [if_pos h3] at h2; exact absurd h2.symm hxn
        · rw [if_neg h3] at h2
          rw [h2] at h3
          push Not at h3
          exact ⟨h3.2, h3.1, by omega, h2⟩
    have c1 := Finset.card_le_card hsub
    have c2 := Finset.card_insert_le s.n ((((Finset.range s.n).filter (fun x => rep x = x)).erase ra).erase rb)
    have c3 : ((((Finset.range s.n).filter (fun x => rep x = x)).erase ra).erase rb).card =
        ((Finset.range s.n).filter (fun x => rep x = x)).card - 1 - 1 := by
      rw [Finset.card_erase_of_mem, Finset.card_erase_of_mem]
      · simp [hlta, hrra]
      · simp [hltb, hrrb, hba]
    have c4 : 2 ≤ ((Finset.range s.n).filter (fun x => rep x = x)).card := by
      have : ({ra, rb} : Finset Nat) ⊆ ((Finset.range s.n).filter (fun x => rep x = x)) := by
        intro x hx
        simp only [Finset.mem_insert, Finset.mem_singleton] at hx
        rcases hx with rfl | rfl <;> simp [*]
      have := Finset.card_le_card this
      rwa [Finset.card_pair hab] at this
    have := I.count
    rw [hn]; omega
  · exact hrep' 0 I.rep0
  · intro x hx
    rw [hn] at hx
    have : rep x = x := I.fix x (by omega)
    simp only [this]; rw [if_neg (by omega)]
  · intro x hx h0
    rw [fp]
    rw [hn] at hx
    by_cases h1 : x = s.n
    · subst h1; simp [I.fix s.n (le_refl _)]
    · rw [if_neg h1]
      by_cases h2 : x = ra
      · subst h2; simp [hrra, Ne.symm h1]
      · rw [if_neg h2]
        by_cases h3 : x = rb
        · subst h3; simp [hrrb, Ne.symm h1]
        · rw [if_neg h3, ← I.root x (by omega) h0]
          by_cases h4 : rep x = ra ∨ rep x = rb
          · simp only [h4, if_true]
            constructor
            · intro e; exact absurd e.symm h1
            · intro e; rw [e] at h4; rcases h4 with e | e
              · exact absurd e h2
              · exact absurd e h3
          · simp only [h4, if_false]
  · intro x hx
    rw [fp] at hx
    rw [fc, fd, fe, fo]
    by_cases h1 : x = s.n
    · simp [h1]
    · rw [if_neg h1] at hx
      have h2 : x ≠ ra := by rintro rfl; simp at hx
      rw [if_neg h2] at hx
      have h3 : x ≠ rb := by rintro rfl; simp at hx
      rw [if_neg h3] at hx
      simp only [if_neg h1, if_neg h2, if_neg h3]
      exact I.unl x hx
  · rw [fp, if_neg (by omega), if_neg (Ne.symm hra0), if_neg (Ne.symm hrb0)]; exact I.ocean0
  · intro x p h
    rw [hup] at h
    by_cases h1 : x = s.n
    · rw [if_pos h1] at h; cases h
    · rw [if_neg h1] at h
      have hn' : rep s.n = s.n := I.fix _ (le_refl _)
      by_cases h2 : x = ra ∨ x = rb
      · rw [if_pos h2] at h
        cases h
        refine ⟨by rcases h2 with rfl | rfl <;> assumption, by rw [hn]; omega, hle, ?_, ?_⟩
        · have : rep x = ra ∨ rep x = rb := by rcases h2 with rfl | rfl <;> simp [*]
          simp only [if_pos this, hn']
          split <;> rfl
        · rw [flc, frc]; simp only [if_true]
          rcases h2 with rfl | rfl <;> simp
      · rw [if_neg h2] at h
        obtain ⟨a1, a2, a3, a4, a5⟩ := I.up x p h
        refine ⟨a1, by rw [hn]; omega, a3, by simp only [a4], ?_⟩
        have hpn' : p ≠ s.n := by omega
        rw [flc, frc, if_neg hpn', if_neg hpn']
        by_cases hp : p = ra
        · subst hp; simp only [if_true]; exact a5
        · by_cases hp2 : p = rb
          · subst hp2; simp only [if_neg hp, if_true]; exact a5
          · simp only [if_neg hp, if_neg hp2]; exact a5
  · intro x p h1 h2
    rw [fp] at h1
    rw [fo] at h2
    have k1 : x ≠ s.n := by rintro rfl; simp at h1
    rw [if_neg k1] at h1 h2
    have k2 : x ≠ ra := by rintro rfl; simp at h2
    rw [if_neg k2] at h1 h2
    have k3 : x ≠ rb := by rintro rfl; simp at h2
    rw [if_neg k3] at h1 h2
    obtain ⟨a1, a2, a3, a4, a5, a6, a7⟩ := I.oc x p h1 h2
    refine ⟨by rw [hn]; omega, a2, hrep' _ a3, hrep' _ a4, ?_,
      by rw [fg, if_neg k1, if_neg k2, if_neg k3]; exact a6, by rw [fd, if_neg k1, if_neg k2, if_neg k3]; exact a7⟩
    rw [fll, if_neg (by omega)]
    by_cases hp : p = ra
    · subst hp; simp only [if_true]; exact a5
    · by_cases hp2 : p = rb
      · subst hp2; simp only [if_neg hp, if_true]; exact a5
      · simp only [if_neg hp, if_neg hp2]; exact a5
  · intro p x h
    rw [fll] at h
    have h' : x ∈ (s.dep p).oceanLinked := by
      by_cases h1 : p = s.n
      · rw [if_pos h1] at h; cases h
      · rw [if_neg h1] at h
        by_cases hp : p = ra
        · subst hp; simpa using h
        · rw [if_neg hp] at h
          by_cases hp2 : p = rb
          · subst hp2; simpa using h
          · rw [if_neg hp2] at h; exact h
    obtain ⟨k1, k2⟩ := I.linked p x h'
    obtain ⟨j1, j2, j3⟩ := hpn x p k1
    rw [fp, fo]
    simp only [if_neg j1, if_neg j2, if_neg j3]
    exact ⟨k1, k2⟩
  · intro d a h
    rw [flc] at h
    by_cases hdn : d = s.n
    · subst hdn
      rw [if_pos rfl] at h
      cases h
      refine ⟨rb, by rw [frc]; simp, hab, hlta, hltb, by rw [hn]; omega, hle, hra0, hrb0, ?_, ?_, ?_, ?_, ?_, ?_,
        ?_, ?_, ⟨o.b, ?_, hob, ?_⟩, ⟨o.a, ?_, hoa, ?_⟩⟩
      · rw [fp]; simp [na]
      · rw [fp]; simp [nb]
      · rw [fo]; simp [na]
      · rw [fo]; simp [nb]
      · rw [fd]; simp [na]
      · rw [fd]; simp [nb, hba]
      · rw [fe, fe]; simp [na, nb]
      · rw [fc, fc]; simp [na, nb]
      · rw [fg]; simp [na]
      · exact (hanc _ _ (by omega)).2 (.inl ((hancb _ hob).2 hrb))
      · rw [fg]; simp [nb, hba]
      · exact (hanc _ _ (by omega)).2 (.inl ((hanca _ hoa).2 hra))
    · have h' : (s.dep d).lchild = some a := by
        rw [if_neg hdn] at h
        by_cases hp : d = ra
        · subst hp; simpa using h
        · rw [if_neg hp] at h
          by_cases hp2 : d = rb
          · subst hp2; simpa using h
          · rw [if_neg hp2] at h; exact h
      obtain ⟨b, k1, k2, k3, k4, k5, k6, k7, k8, k9, k10, k11, k12, k13, k14, k15, k16, ⟨g, k17, k18, k19⟩,
        ⟨g', k20, k21, k22⟩⟩ := I.kids d a h'
      obtain ⟨a1, a2, a3⟩ := hpn a d k9
      obtain ⟨b1, b2, b3⟩ := hpn b d k10
      have hrc : (s'.dep d).rchild = some b := by
        rw [frc, if_neg hdn]
        by_cases hp : d = ra
        · subst hp; simpa using k1
        · rw [if_neg hp]
          by_cases hp2 : d = rb
          · subst hp2; simpa using k1
          · rw [if_neg hp2]; exact k1
      refine ⟨b, hrc, k2, k3, k4, by rw [hn]; omega, k6, k7, k8, ?_, ?_, ?_, ?_, ?_, ?_, ?_, ?_,
        ⟨g, ?_, k18, ?_⟩, ⟨g', ?_, k21, ?_⟩⟩
      · rw [fp]; simp only [if_neg a1, if_neg a2, if_neg a3]; exact k9
      · rw [fp]; simp only [if_neg b1, if_neg b2, if_neg b3]; exact k10
      · rw [fo]; simp only [if_neg a1, if_neg a2, if_neg a3]; exact k11
      · rw [fo]; simp only [if_neg b1, if_neg b2, if_neg b3]; exact k12
      · rw [fd]; simp only [if_neg a1, if_neg a2, if_neg a3]; exact k13
      · rw [fd]; simp only [if_neg b1, if_neg b2, if_neg b3]; exact k14
      · rw [fe, fe]; simp only [if_neg a1, if_neg a2, if_neg a3, if_neg b1, if_neg b2, if_neg b3]; exact k15
      · rw [fc, fc]; simp only [if_neg a1, if_neg a2, if_neg a3, if_neg b1, if_neg b2, if_neg b3]; exact k16
      · rw [fg]; simp only [if_neg a1, if_neg a2, if_neg a3]; exact k17
      · exact (hanc _ _ (by omega)).2 (.inl k19)
      · rw [fg]; simp only [if_neg b1, if_neg b2, if_neg b3]; exact k20
      · exact (hanc _ _ (by omega)).2 (.inl k22)
  · intro d
    rw [flc, hn]
    by_cases hdn : d = s.n
    · subst hdn; simp; omega
    · have e : (if d = s.n then some ra else if d = ra then (s.dep ra).lchild else if d = rb then (s.dep rb).lchild
          else (s.dep d).lchild) = (s.dep d).lchild := by
        rw [if_neg hdn]
        by_cases hp : d = ra
        · subst hp; simp
        · rw [if_neg hp]
          by_cases hp2 : d = rb
          · subst hp2; simp
          · rw [if_neg hp2]
      rw [e, I.leaf d]; omega
  · intro d h
    rw [flc] at h
    rw [frc]
    by_cases hdn : d = s.n
    · subst hdn; simp at h
    · rw [if_neg hdn] at h ⊢
      by_cases hp : d = ra
      · subst hp; simp only [if_true] at h ⊢; exact I.leafr _ h
      · rw [if_neg hp] at h ⊢
        by_cases hp2 : d = rb
        · subst hp2; simp only [if_true] at h ⊢; exact I.leafr _ h
        · rw [if_neg hp2] at h ⊢; exact I.leafr _ h
  · intro x p h
    rw [fp] at h
    rw [fe]
    by_cases h1 : x = s.n
    · rw [if_pos h1] at h; cases h
    · rw [if_neg h1] at h ⊢
      by_cases h2 : x = ra
      · exact ⟨o.elev, by rw [if_pos h2]⟩
      · rw [if_neg h2] at h ⊢
        by_cases h3 : x = rb
        · exact ⟨o.elev, by rw [if_pos h3]⟩
        · rw [if_neg h3] at h ⊢
          exact I.elevs x p h
  · intro x z h o' ho'
    rw [fe] at h
    by_cases h1 : x = s.n
    · rw [if_pos h1] at h; cases h
    · rw [if_neg h1] at h
      by_cases h2 : x = ra
      · rw [if_pos h2] at h; cases h; exact hsort o' ho'
      · rw [if_neg h2] at h
        by_cases h3 : x = rb
        · rw [if_pos h3] at h; cases h; exact hsort o' ho'
        · rw [if_neg h3] at h; exact I.late x z h o' (by simp [ho'])
  · intro x p z z' h h1 h2
    rw [hup] at h
    by_cases k1 : x = s.n
    · rw [if_pos k1] at h; cases h
    · rw [if_neg k1] at h
      by_cases k2 : x = ra ∨ x = rb
      · rw [if_pos k2] at h; cases h
        rw [fe] at h2; simp at h2
      · rw [if_neg k2] at h
        push Not at k2
        have hz : z ≤ o.elev ∧ (s.dep x).outElev = some z := by
          rw [fe, if_neg k1, if_neg k2.1, if_neg k2.2] at h1
          exact ⟨I.late x z h1 o (by simp), h1⟩
        rw [fe] at h2
        have := I.up x p h
        rw [if_neg (by omega)] at h2
        by_cases j1 : p = ra
        · rw [if_pos j1] at h2; cases h2; exact hz.1
        · rw [if_neg j1] at h2
          by_cases j2 : p = rb
          · rw [if_pos j2] at h2; cases h2; exact hz.1
          · rw [if_neg j2] at h2; exact I.mono x p z z' h hz.2 h2
  · intro l x hl hx h h0
    change (if rep x = ra ∨ rep x = rb then s.n else rep x) = x at h
    rw [hn] at hx
    by_cases hxn : x = s.n
    · subst hxn
      rw [hanc _ _ (by omega)]
      simp only [true_and]
      rw [hanca l hl, hancb l hl]
      have := hrl l (by omega)
      constructor
      · rintro (k | k)
        · exact absurd k (hancn l (by omega))
        · simp only [if_pos k]
      · intro k
        by_cases h3 : rep l = ra ∨ rep l = rb
        · exact .inr h3
        · simp only [if_neg h3] at k; omega
    · have h3 : ¬ (rep x = ra ∨ rep x = rb) := by
        intro h3; rw [if_pos h3] at h; exact hxn h.symm
      rw [if_neg h3] at h
      rw [hancx _ _ (by omega) hxn, I.anc l x hl (by omega) h h0]
      by_cases h4 : rep l = ra ∨ rep l = rb
      · simp only [if_pos h4]
        constructor
        · intro e; rw [e] at h4; rw [h] at h3; exact absurd h4 h3
        · intro e; exact absurd e.symm hxn
      · simp only [if_neg h4]
  · intro o' ho'
    exact I.labs o' (mem_shift ho')
  · intro o' ho'
    rcases List.mem_append.1 ho' with h | h
    · simp only [I.same o' h]
    · obtain rfl : o' = o := by simpa using h
      simp [hra, hrb]
  · intro o1 h1 o2 h2
    rcases List.mem_append.1 h1 with h | h
    · exact I.ord o1 h o2 (by simp [h2])
    · obtain rfl : o1 = o := by simpa using h
      exact hsort o2 h2
  · intro x z h
    rw [fe] at h
    have hmem : ∀ o', o' ∈ done ++ [o] ∨ o' ∈ rest → o' ∈ done ∨ o' ∈ o :: rest := by
      intro o' h
      exact mem_shift h
    have k1 : x ≠ s.n := by rintro rfl; simp at h
    rw [if_neg k1] at h
    have hcr' : ∀ o', o' ∈ done ++ [o] ∨ o' ∈ rest → (Crosses s'.dep x o' ↔ Crosses s.dep x o') := by
      intro o' ho'
      obtain ⟨b1, b2⟩ := I.labs o' (hmem o' ho')
      exact hcr x o' b1 b2 k1
    have fresh : ∀ (r : Nat) (hr : ∀ l, l < n0 → (Anc s.dep l r ↔ rep l = r)), x = r →
        (r = ra ∨ r = rb) → z = o.elev → (s'.dep x).outCell = some o.cell →
        (∀ o', o' ∈ done ++ [o] ∨ o' ∈ rest → Crosses s'.dep x o' → z ≤ o'.elev) ∧
        ∃ o1 ∈ done ++ [o], Crosses s'.dep x o1 ∧ o1.elev = z ∧ (s'.dep x).outCell = some o1.cell := by
      rintro r hr rfl hrr hz hcell
      refine ⟨?_, o, by simp, ?_, hz.symm, hcell⟩
      · intro o' ho' hc
        rw [hcr' o' ho'] at hc
        rcases hmem o' ho' with k | k
        · exfalso
          have e := I.same o' k
          obtain ⟨b1, b2⟩ := I.labs o' (.inl k)
          unfold Crosses at hc
          rw [hr _ b1, hr _ b2, e] at hc
          rcases hc with ⟨p, q⟩ | ⟨p, q⟩ <;> exact q p
        · rw [hz]
          rcases List.mem_cons.1 k with rfl | k
          · exact le_refl _
          · exact hsort o' k
      · rw [hcr' o (.inl (by simp))]
        unfold Crosses
        rw [hr _ hoa, hr _ hob, hra, hrb]
        rcases hrr with rfl | rfl
        · exact .inl ⟨rfl, hba⟩
        · exact .inr ⟨rfl, hab⟩
    by_cases h2 : x = ra
    · rw [if_pos h2] at h
      exact fresh ra hanca h2 (.inl rfl) (by cases h; rfl) (by rw [fc, if_neg k1, if_pos h2])
    · rw [if_neg h2] at h
      by_cases h3 : x = rb
      · rw [if_pos h3] at h
        exact fresh rb hancb h3 (.inr rfl) (by cases h; rfl) (by rw [fc, if_neg k1, if_neg h2, if_pos h3])
      · rw [if_neg h3] at h
        obtain ⟨k1', o', k2, k3, k4, k5⟩ := I.cut x z h
        have hm : o' ∈ done ++ [o] ∨ o' ∈ rest := .inl (by simp [k2])
        exact ⟨fun o' ho' hc => k1' o' (hmem o' ho') ((hcr' o' ho').1 hc), o', by simp [k2],
          (hcr' o' hm).2 k3, k4, by rw [fc, if_neg k1, if_neg h2, if_neg h3]; exact k5⟩
  · intro a b ha hb h
    change (if rep a = ra ∨ rep a = rb then s.n else rep a) = (if rep b = ra ∨ rep b = rb then s.n else rep b) at h
    have la := hrl a (by omega)
    have lb := hrl b (by omega)
    have old : ∀ {a b}, Joined done a b → Joined (done ++ [o]) a b := fun j => j.mono (by simp +contextual)
    have jo : Joined (done ++ [o]) o.a o.b := .out (by simp)
    have toA : ∀ l, l < n0 → (rep l = ra ∨ rep l = rb) → Joined (done ++ [o]) l o.a := by
      intro l hl hh
      rcases hh with hh | hh
      · exact old (I.joined l o.a hl hoa (by rw [hh, hra]))
      · exact (old (I.joined l o.b hl hob (by rw [hh, hrb]))).trans jo.symm
    by_cases h1 : rep a = ra ∨ rep a = rb
    · rw [if_pos h1] at h
      by_cases h2 : rep b = ra ∨ rep b = rb
      · exact (toA a ha h1).trans (toA b hb h2).symm
      · rw [if_neg h2] at h; omega
    · rw [if_neg h1] at h
      by_cases h2 : rep b = ra ∨ rep b = rb
      · rw [if_pos h2] at h; omega
      · rw [if_neg h2] at h; exact old (I.joined a b ha hb h)
  · intro x z h1 h2 l hl ha
    rw [fo] at h1
    rw [fe] at h2
    have k1 : x ≠ s.n := by rintro rfl; simp at h1
    rw [if_neg k1] at h1 h2
    have k2 : x ≠ ra := by rintro rfl; simp at h1
    rw [if_neg k2] at h1 h2
    have k3 : x ≠ rb := by rintro rfl; simp at h1
    rw [if_neg k3] at h1 h2
    rw [hancx _ _ (by omega) k1] at ha
    refine (I.ojoin x z h1 h2 l hl ha).mono ?_
    intro o' ho'
    obtain ⟨k1, k2⟩ := List.mem_filter.1 ho'
    exact List.mem_filter.2 ⟨by simp [k1], k2⟩
  · intro p
    rw [fll]
    split
    · simp
    · split
      · exact I.nodup ra
      · split
        · exact I.nodup rb
        · exact I.nodup p
  · have hm : ∀ {x y}, AncU (fun y => (s.dep y).parent) x y → AncU (fun y => (s'.dep y).parent) x y := by
      intro x y h
      refine AncU.mono ?_ h
      intro l p hl
      obtain ⟨q1, q2, q3⟩ := hpn l p hl
      show (s'.dep l).parent = some p
      rw [fp, if_neg q1, if_neg q2, if_neg q3]; exact hl
    have pa : (s'.dep ra).parent = some s.n := by rw [fp, if_neg na, if_pos rfl]
    have pb : (s'.dep rb).parent = some s.n := by rw [fp, if_neg nb, if_neg hba, if_pos rfl]
    intro x hx
    by_cases hxn : x = s.n
    · subst hxn
      have e : rep s.n = s.n := I.fix s.n (le_refl _)
      simp only [e, if_neg (show ¬ (s.n = ra ∨ s.n = rb) by omega)]
      exact .refl _
    · have h1 := hm (I.reach x (by rw [hn] at hx; omega))
      by_cases h2 : rep x = ra ∨ rep x = rb
      · simp only [if_pos h2]
        rcases h2 with h2 | h2
        · rw [h2] at h1; exact h1.trans (.step pa (.refl _))
        · rw [h2] at h1; exact h1.trans (.step pb (.refl _))
      · simp only [if_neg h2]; exact h1
  · intro d a b ha hb
    by_cases hd : d = s.n
    · rw [flc, if_pos hd] at ha
      rw [frc, if_pos hd] at hb
      cases ha; cases hb
      refine ⟨o, by simp, .inl ⟨?_, ?_⟩, ?_⟩
      · rw [hancx _ _ (by omega) na]; exact (hanca o.a hoa).2 hra
      · rw [hancx _ _ (by omega) nb]; exact (hancb o.b hob).2 hrb
      · rw [fe, if_neg na, if_pos rfl]
    · have ha' : (s.dep d).lchild = some a := by
        rw [flc, if_neg hd] at ha
        by_cases h1 : d = ra
        · rw [if_pos h1] at ha; rw [h1]; exact ha
        · rw [if_neg h1] at ha
          by_cases h2 : d = rb
          · rw [if_pos h2] at ha; rw [h2]; exact ha
          · rw [if_neg h2] at ha; exact ha
      have hb' : (s.dep d).rchild = some b := by
        rw [frc, if_neg hd] at hb
        by_cases h1 : d = ra
        · rw [if_pos h1] at hb; rw [h1]; exact hb
        · rw [if_neg h1] at hb
          by_cases h2 : d = rb
          · rw [if_pos h2] at hb; rw [h2]; exact hb
          · rw [if_neg h2] at hb; exact hb
      obtain ⟨o', k1, k2, k3⟩ := I.pass d a b ha' hb'
      obtain ⟨b', kb, _, _, _, _, _, _, _, k9, k10, _⟩ := I.kids d a ha'
      rw [hb'] at kb; cases kb
      obtain ⟨q1, q2, q3⟩ := hpn a d k9
      obtain ⟨r1, _, _⟩ := hpn b d k10
      obtain ⟨l1, l2⟩ := I.labs o' (.inl k1)
      refine ⟨o', by simp [k1], ?_, ?_⟩
      · rw [hancx _ _ (by omega) q1, hancx _ _ (by omega) r1, hancx _ _ (by omega) q1, hancx _ _ (by omega) r1]
        exact k2
      · rw [fe, if_neg q1, if_neg q2, if_neg q3]; exact k3

theorem HierInv.setDs {ds : DSU} {d : Nat → Nat} (I : HierInv n0 done rest rep s)
    (F : DSU.Forest ds rep d) (hs : ds.size = s.ds.size) :
    HierInv n0 done rest rep { s with ds := ds } :=
  { I with forest := ⟨d, F⟩, size := hs.trans I.size }

/-- One outlet: no assertion fails and the invariant is kept. -/
theorem hierStep_inv {o : Outlet E} (h32 : 2 * n0 < 2 ^ 32) (I : HierInv n0 done (o :: rest) rep s)
    (hsort : ∀ o' ∈ rest, o.elev ≤ o'.elev) :
    ∃ s' rep', hierStep s o = some s' ∧ HierInv n0 (done ++ [o]) rest rep' s' := by
  obtain ⟨d, F⟩ := I.forest
  obtain ⟨hoa, hob⟩ := I.labs o (.inr (by simp))
  have hle := I.le
  obtain ⟨d1, e1, F1, z1, _⟩ := F.findSet (n := o.a) (by rw [I.size]; omega)
  obtain ⟨d2, e2, F2, z2, _⟩ := F1.findSet (n := o.b) (by rw [z1, I.size]; omega)
  have J : HierInv n0 done (o :: rest) rep { s with ds := d2 } := I.setDs F2 (z2.trans z1)
  have rr : ∀ x, x < s.n → rep (rep x) = rep x ∧ rep x < s.n := by
    intro x hx
    have h1 := F.rep_lt x (by rw [I.size]; exact hx)
    exact ⟨F.rep_self _ h1 (F.rep_root x (by rw [I.size]; exact hx)), by rw [← I.size]; exact h1⟩
  have hunl : ∀ l, l < s.n → rep l ≠ 0 → (s.dep (rep l)).outCell = none ∧ (s.dep (rep l)).odep = none := by
    intro l hl h0
    have h1 := (I.root (rep l) (rr l hl).2 h0).1 (rr l hl).1
    exact ⟨(I.unl _ h1).1, (I.unl _ h1).2.1⟩
  unfold hierStep
  simp only [e1, e2]
  by_cases hab : rep o.a = rep o.b
  · rw [if_pos hab]
    refine ⟨_, rep, rfl, ?_⟩
    exact
      { J with
        late := fun x z h o' ho' => J.late x z h o' (by simp [ho'])
        labs := fun o' ho' => J.labs o' (mem_shift ho')
        same := by
          intro o' ho'
          rcases List.mem_append.1 ho' with h | h
          · exact J.same o' h
          · obtain rfl : o' = o := by simpa using h
            exact hab
        ord := by
          intro o1 h1 o2 h2
          rcases List.mem_append.1 h1 with h | h
          · exact J.ord o1 h o2 (by simp [h2])
          · obtain rfl : o1 = o := by simpa using h
            exact hsort o2 h2
        cut := by
          intro x z h
          obtain ⟨k1, o', k2, k3⟩ := J.cut x z h
          exact ⟨fun o' ho' => k1 o' (mem_shift ho'), o', by simp [k2], k3⟩
        joined := fun a b ha hb h => (J.joined a b ha hb h).mono (by simp +contextual)
        ojoin := by
          intro x z h1 h2 l hl ha
          refine (J.ojoin x z h1 h2 l hl ha).mono ?_
          intro o' ho'
          obtain ⟨k1, k2⟩ := List.mem_filter.1 ho'
          exact List.mem_filter.2 ⟨by simp [k1], k2⟩
        pass := by
          intro d a b h1 h2
          obtain ⟨o', k1, k2⟩ := J.pass d a b h1 h2
          exact ⟨o', by simp [k1], k2⟩ }
  · rw [if_neg hab]
    by_cases ha : rep o.a = 0
    · have hb : rep o.b ≠ 0 := fun h => hab (by rw [ha, h])
      obtain ⟨u1, u2⟩ := hunl o.b (by omega) hb
      rw [if_pos ha, u1, u2]
      refine ⟨_, _, rfl, linkOcean_inv J hsort (.inr ⟨rfl, rfl⟩) hob hoa rfl hb ha⟩
    · rw [if_neg ha]
      obtain ⟨u1, u2⟩ := hunl o.a (by omega) ha
      by_cases hb : rep o.b = 0
      · rw [if_pos hb, u1, u2]
        refine ⟨_, _, rfl, linkOcean_inv J hsort (.inl ⟨rfl, rfl⟩) hoa hob rfl ha hb⟩
      · rw [if_neg hb]
        obtain ⟨v1, v2⟩ := hunl o.b (by omega) hb
        rw [u2, v2]
        exact ⟨_, _, rfl, mergeDeps_inv h32 J hsort rfl rfl ha hb hab⟩

theorem buildFrom_inv (h32 : 2 * n0 < 2 ^ 32) :
    ∀ (os done : List (Outlet E)) (rep : Nat → Nat) (s : Hier E), HierInv n0 done os rep s →
      os.Pairwise (fun a b => a.elev ≤ b.elev) →
      ∃ s' rep', os.foldlM hierStep s = some s' ∧ HierInv n0 (done ++ os) [] rep' s' := by
  intro os
  induction os with
  | nil =>
    intro done rep s I _
    exact ⟨s, rep, rfl, by simpa using I⟩
  | cons o os ih =>
    intro done rep s I hp
    obtain ⟨hp1, hp2⟩ := List.pairwise_cons.1 hp
    obtain ⟨s1, rep1, e1, I1⟩ := hierStep_inv h32 I hp1
    obtain ⟨s2, rep2, e2, I2⟩ := ih _ _ _ I1 hp2
    refine ⟨s2, rep2, ?_, by simpa using I2⟩
    rw [List.foldlM_cons, e1]
    exact e2

/-- The whole construction: it succeeds and ends in a state satisfying the invariant. -/
theorem buildHier_inv (h32 : 2 * n0 < 2 ^ 32) (hn : 1 ≤ n0) (pit : Nat → Option Cell)
    (os : List (Outlet E)) (hos : ∀ o ∈ os, o.a < n0 ∧ o.b < n0)
    (hp : os.Pairwise (fun a b => a.elev ≤ b.elev)) :
    ∃ s rep, buildHier n0 pit os = some s ∧ HierInv n0 os [] rep s := by
  obtain ⟨s, rep, h1, h2⟩ := buildFrom_inv h32 os [] id (hierInit n0 pit) (hierInit_inv n0 hn pit os hos) hp
  exact ⟨s, rep, h1, by simpa using h2⟩

omit [LinearOrder E] in
theorem hierStep_pit {o : Outlet E} {s s' : Hier E} (hs : hierStep s o = some s') (l : Nat) (hl : l < s.n) :
    (s'.dep l).pit = (s.dep l).pit ∧ s.n ≤ s'.n := by
  have hlink : ∀ (s : Hier E) r b, ((linkOcean s r b o).dep l).pit = (s.dep l).pit := by
    intro s r b
    unfold linkOcean
    simp only [upd]
    by_cases h1 : l = b
    · subst h1
      by_cases h2 : l = r
      · subst h2; simp
      · simp [h2]
    · by_cases h2 : l = r
      · subst h2; simp [h1]
      · simp [h1, h2]
  unfold hierStep at hs
  split at hs
  · next ra d1 _ =>
    split at hs
    · next rb d2 _ =>
      simp only at hs
      split at hs
      · cases hs; exact ⟨rfl, le_rfl⟩
      · split at hs
        · split at hs
          · cases hs
          · cases hs; exact ⟨hlink _ _ _, le_rfl⟩
        · split at hs
          · split at hs
            · cases hs
            · cases hs; exact ⟨hlink _ _ _, le_rfl⟩
          · split at hs
            · cases hs
            · cases hs
              refine ⟨?_, Nat.le_succ _⟩
              unfold mergeDeps
              simp only [upd]
              rw [if_neg (by omega)]
              by_cases h1 : l = rb
              · subst h1
                by_cases h2 : l = ra
                · subst h2; simp
                · simp [h2]
              · by_cases h2 : l = ra
                · subst h2; simp [h1]
                · simp [h1, h2]
    · cases hs
  · cases hs

omit [LinearOrder E] in
/-- The construction keeps the pits of the leaves. -/
theorem buildHier_pit {n0 : Nat} {pit : Nat → Option Cell} {os : List (Outlet E)} {H : Hier E}
    (hH : buildHier n0 pit os = some H) (l : Nat) (hl : l < n0) : (H.dep l).pit = pit l := by
  have key : ∀ (os : List (Outlet E)) (s : Hier E), l < s.n → os.foldlM hierStep s = some H →
      (H.dep l).pit = (s.dep l).pit := by
    intro os
    induction os with
    | nil => intro s _ h; cases h; rfl
    | cons o os ih =>
      intro s hl h
      rw [List.foldlM_cons] at h
      cases h1 : hierStep s o with
      | none => rw [h1] at h; cases h
      | some s1 =>
        rw [h1] at h
        obtain ⟨k1, k2⟩ := hierStep_pit h1 l hl
        rw [ih s1 (by omega) h, k1]
  rw [key os (hierInit n0 pit) hl hH]
  simp [hierInit, Dep.leaf]

/-- Every depression contains a leaf. -/
theorem HierInv.exists_leaf (I : HierInv n0 done rest rep s) :
    ∀ x, x < s.n → ∃ l, l < n0 ∧ Anc s.dep l x := by
  intro x
  induction x using Nat.strongRecOn with
  | _ x ih =>
    intro hx
    by_cases h : x < n0
    · exact ⟨x, h, .refl _⟩
    · cases hl : (s.dep x).lchild with
      | none => have := (I.leaf x).1 hl; omega
      | some a =>
        obtain ⟨b, _, _, k3, _, k5, _, _, _, k9, _, k11, _⟩ := I.kids x a hl
        obtain ⟨l, l1, l2⟩ := ih a k3 (by omega)
        refine ⟨l, l1, l2.trans (.step ?_ (.refl _))⟩
        unfold upOf; simp [k9, k11]

theorem HierInv.anc_rep (I : HierInv n0 done rest rep s) {l x : Nat} (h : Anc s.dep l x) :
    rep l = rep x := by
  induction h with
  | refl => rfl
  | @step l p x h _ ih => rw [(I.up l p h).2.2.2.1, ih]

/-- Once every leaf is joined to the ocean, everything else has a parent. -/
theorem HierInv.all_linked (I : HierInv n0 done rest rep s) (hj : ∀ l, l < n0 → Joined done l 0) :
    ∀ x, x < s.n → rep x = 0 ∧ (x ≠ 0 → (s.dep x).parent ≠ none) := by
  have hrep : ∀ a b, Joined done a b → rep a = rep b := by
    intro a b j
    induction j with
    | refl => rfl
    | symm _ ih => exact ih.symm
    | trans _ _ i1 i2 => exact i1.trans i2
    | out ho => exact I.same _ ho
  intro x hx
  obtain ⟨l, hl, ha⟩ := I.exists_leaf x hx
  have h0 : rep x = 0 := by rw [← I.anc_rep ha, hrep l 0 (hj l hl), I.rep0]
  refine ⟨h0, fun hx0 hp => ?_⟩
  have := (I.root x hx hx0).2 hp
  omega

/-- When everything else has a parent, parents lead to the ocean. -/
theorem HierInv.reach_ocean (I : HierInv n0 done rest rep s)
    (hlink : ∀ x, x < s.n → x ≠ 0 → (s.dep x).parent ≠ none) :
    ∀ x, x < s.n → AncU (fun y => (s.dep y).parent) x 0 := by
  intro x hx
  obtain ⟨d, F⟩ := I.forest
  have h1 := I.reach x hx
  have h2 := F.rep_lt x (by rw [I.size]; exact hx)
  have h3 := F.rep_self _ h2 (F.rep_root x (by rw [I.size]; exact hx))
  rw [I.size] at h2
  by_cases h0 : rep x = 0
  · rw [h0] at h1; exact h1
  · exact absurd ((I.root _ h2 h0).1 h3) (hlink _ h2 h0)

end RichDEM
