/-
Property theorems C121: the tool rd_depression_hierarchy.
-/
import Verif.Apps.HierTool
import Verif.DepHier.OceanPass
import Verif.Props.DepTools
import Verif.Props.LastLayer
import Verif.DepHier.Pits

namespace RichDEM
namespace Tools

open Gdal Relation

/-! ### Specification -/

/-- `x` is the depression `l` or was made by joining it to others, according to the table. -/
def Under (rows : List Row) (l x : Nat) : Prop := ReflTransGen (fun a b => ⟨b, a, false⟩ ∈ rows) l x

/-- The cell belongs to depression `x`. -/
def CellUnder (rows : List Row) (lab : Cell → Nat) (x : Nat) (c : Cell) : Prop := ∃ l, lab c = l ∧ Under rows l x

/-- A file is ocean where it has no data or the ocean level. -/
def OceanCell {E : Type} (f : File E) (lvl : E) (c : Cell) : Prop := fileDem f c = f.noData ∨ fileDem f c = lvl

/-- A run of the tool can be done: some ocean cell touches land. -/
def Coast {E : Type} (f : File E) (lvl : E) : Prop :=
  ∃ c d, InGrid f.width.toNat f.height.toNat c ∧ InGrid f.width.toNat f.height.toNat d ∧ Adj .D8 c d ∧
    OceanCell f lvl c ∧ ¬ OceanCell f lvl d

/-! ### Lemmas -/

variable {E : Type} [LinearOrder E]

theorem oceanLabels_zero {a : Arr E} {lvl : E} {c : Cell} :
    oceanLabels a lvl c = some 0 ↔ (demOf a c = a.noData ∨ demOf a c = lvl) := by
  unfold oceanLabels
  split_ifs with hc
  · exact ⟨fun _ => hc, fun _ => rfl⟩
  · exact ⟨fun e => absurd e (by simp), fun e => absurd e hc⟩

theorem oceanLabels_cases (a : Arr E) (lvl : E) (c : Cell) : oceanLabels a lvl c = some 0 ∨ oceanLabels a lvl c = none := by
  unfold oceanLabels
  split_ifs <;> simp

theorem hier_started (pq : PQ (E × Cell) zLt) (f : File E) (lvl : E) :
    (∃ s, getDHFlood pq f.width.toNat f.height.toNat .D8 (demOf (ofFile f)) (oceanLabels (ofFile f) lvl) = some s) ↔ Coast f lvl := by
  have hiff := C59_error_iff pq f.width.toNat f.height.toNat .D8 (demOf (ofFile f)) (oceanLabels (ofFile f) lvl)
  have hbad : ¬ ∃ c, InGrid f.width.toNat f.height.toNat c ∧ oceanLabels (ofFile f) lvl c ≠ some 0 ∧ oceanLabels (ofFile f) lvl c ≠ none := by
    rintro ⟨c, _, h1, h2⟩
    rcases oceanLabels_cases (ofFile f) lvl c with h | h
    · exact h1 h
    · exact h2 h
  have hcoast : (∃ c d, InGrid f.width.toNat f.height.toNat c ∧ InGrid f.width.toNat f.height.toNat d ∧ Adj .D8 c d ∧
      oceanLabels (ofFile f) lvl c = some 0 ∧ oceanLabels (ofFile f) lvl d ≠ some 0) ↔ Coast f lvl := by
    unfold Coast OceanCell
    simp only [ne_eq, oceanLabels_zero]
    exact Iff.rfl
  rw [← hcoast]
  constructor
  · rintro ⟨s, hs⟩
    by_contra hc
    rw [hiff.2 (Or.inr hc)] at hs
    cases hs
  · intro hc
    cases hs : getDHFlood pq f.width.toNat f.height.toNat .D8 (demOf (ofFile f)) (oceanLabels (ofFile f) lvl) with
    | some s => exact ⟨s, rfl⟩
    | none => exact absurd (hiff.1 hs) (by rintro (h | h); exacts [hbad h, h hc])

theorem mem_graphRows {H : Hier E} {r : Row} : r ∈ graphRows H ↔
    1 ≤ r.child ∧ r.child < H.n ∧ r.parent = (H.dep r.child).parent.getD (2 ^ 32 - 1) ∧ r.ocean = oceanLink H r.child := by
  unfold graphRows
  rw [List.mem_map]
  constructor
  · rintro ⟨i, hi, rfl⟩
    rw [List.mem_range'_1] at hi
    exact ⟨hi.1, by dsimp only; omega, rfl, rfl⟩
  · rintro ⟨h1, h2, h3, h4⟩
    refine ⟨r.child, ?_, ?_⟩
    · rw [List.mem_range'_1]; omega
    · cases r; simp_all

/-- The column `oceanlink` tells the links to the ocean from those to a metadepression. -/
theorem oceanLink_eq {n0 : Nat} {os : List (Outlet E)} {rep : Nat → Nat} {H : Hier E} (J : HierInv n0 os [] rep H) {i p : Nat}
    (hp : (H.dep i).parent = some p) : oceanLink H i = (H.dep i).oceanParent := by
  unfold oceanLink
  rw [hp]
  dsimp only
  cases ho : (H.dep i).oceanParent with
  | false =>
    have hu : upOf H.dep i = some p := by unfold upOf; simp [ho, hp]
    obtain ⟨h1, _, h3, _, h5⟩ := J.up i p hu
    have hp0 : (p == 0) = false := beq_eq_false_iff_ne.2 (by omega)
    rw [hp0]
    rcases h5 with h5 | h5 <;> simp [h5]
  | true =>
    obtain ⟨_, h2, _⟩ := J.oc i p hp ho
    have h3 := (J.leaf p).2 (Or.inl h2)
    have h4 := J.leafr p h3
    rw [h3, h4]
    simp

theorem row_false {n0 : Nat} {os : List (Outlet E)} {rep : Nat → Nat} {H : Hier E} (J : HierInv n0 os [] rep H)
    (hlink : ∀ x, x < H.n → x ≠ 0 → (H.dep x).parent ≠ none) {a b : Nat} :
    (⟨b, a, false⟩ : Row) ∈ graphRows H ↔ upOf H.dep a = some b := by
  rw [mem_graphRows]
  dsimp only
  constructor
  · rintro ⟨h1, h2, h3, h4⟩
    cases hp : (H.dep a).parent with
    | none => exact absurd hp (hlink a h2 (by omega))
    | some p =>
      rw [hp] at h3
      rw [oceanLink_eq J hp] at h4
      unfold upOf
      rw [← h4, hp, h3]
      simp
  · intro hu
    obtain ⟨h1, h2, _⟩ := J.up a b hu
    have ho : (H.dep a).oceanParent = false := by
      unfold upOf at hu
      split at hu
      · cases hu
      · rename_i h; simpa using h
    have hp : (H.dep a).parent = some b := by
      unfold upOf at hu
      rw [ho] at hu
      simpa using hu
    have ha0 : a ≠ 0 := by
      rintro rfl; rw [J.ocean0] at hp; cases hp
    refine ⟨by omega, by omega, by rw [hp]; rfl, ?_⟩
    rw [oceanLink_eq J hp, ho]

theorem row_true {n0 : Nat} {os : List (Outlet E)} {rep : Nat → Nat} {H : Hier E} (J : HierInv n0 os [] rep H)
    (hlink : ∀ x, x < H.n → x ≠ 0 → (H.dep x).parent ≠ none) {a b : Nat} :
    (⟨b, a, true⟩ : Row) ∈ graphRows H ↔ (H.dep a).oceanParent = true ∧ (H.dep a).parent = some b := by
  rw [mem_graphRows]
  dsimp only
  constructor
  · rintro ⟨h1, h2, h3, h4⟩
    cases hp : (H.dep a).parent with
    | none => exact absurd hp (hlink a h2 (by omega))
    | some p =>
      rw [hp] at h3
      rw [oceanLink_eq J hp] at h4
      exact ⟨h4.symm, by rw [h3]; rfl⟩
  · rintro ⟨ho, hp⟩
    obtain ⟨h1, _⟩ := J.oc a b hp ho
    have ha0 : a ≠ 0 := by
      rintro rfl; rw [J.ocean0] at hp; cases hp
    exact ⟨by omega, h1, by rw [hp]; rfl, by rw [oceanLink_eq J hp, ho]⟩

theorem under_iff {n0 : Nat} {os : List (Outlet E)} {rep : Nat → Nat} {H : Hier E} (J : HierInv n0 os [] rep H)
    (hlink : ∀ x, x < H.n → x ≠ 0 → (H.dep x).parent ≠ none) {l x : Nat} :
    Under (graphRows H) l x ↔ Anc H.dep l x := by
  unfold Under
  constructor
  · intro h
    induction h using ReflTransGen.head_induction_on with
    | refl => exact .refl _
    | head h1 _ ih => exact .step ((row_false J hlink).1 h1) ih
  · intro h
    unfold Anc at h
    induction h with
    | refl l => exact .refl
    | step h _ ih => exact .head ((row_false J hlink).2 h) ih

theorem anc_total {dep : Nat → Dep E} {l x y : Nat} (h1 : Anc dep l x) (h2 : Anc dep l y) : Anc dep x y ∨ Anc dep y x := by
  unfold Anc at *
  induction h1 with
  | refl => exact Or.inl h2
  | step h hh ih =>
    cases h2 with
    | refl => exact Or.inr (.step h hh)
    | step h' hh' =>
      rw [h] at h'; cases h'
      exact ih hh'

theorem anc_le {n0 : Nat} {os : List (Outlet E)} {rep : Nat → Nat} {H : Hier E} (J : HierInv n0 os [] rep H) {l x : Nat}
    (h1 : Anc H.dep l x) : l ≤ x := by
  unfold Anc at h1
  induction h1 with
  | refl => exact le_refl _
  | step h _ ih => exact ((J.up _ _ h).1.le).trans ih

/-- There are at most as many labels as cells. -/
theorem labels_le (pq : PQ (E × Cell) zLt) (w h : Nat) (t : Topo) (dem : Cell → E) (lab : Cell → Option Nat) (s : DHS E)
    (hs : getDHFlood pq w h t dem lab = some s) : s.ndep ≤ w * h := by
  classical
  have hs0 := hs
  obtain ⟨rfl, c0, hc0, ho0, _⟩ := getDHFlood_some hs
  obtain ⟨⟨D, I⟩, _⟩ := dhFlood_final pq w h t dem (fun c => lab c == some 0)
  set s := dhFlood pq w h t dem (fun c => lab c == some 0)
  have h0 : s.label c0 = some 0 := I.lab0 c0 hc0 (by simp [ho0])
  have hcard : (gridCells w h).card = w * h := by
    unfold gridCells
    rw [Finset.card_product]; simp
  have hmap : (Finset.range s.ndep).card ≤ (gridCells w h).card := by
    refine Finset.card_le_card_of_injOn (fun l => if l = 0 then c0 else s.pit l) ?_ ?_
    · intro l hl
      rw [Finset.mem_coe, Finset.mem_range] at hl
      rw [Finset.mem_coe, mem_gridCells]
      by_cases hz : l = 0
      · simp only [hz, if_true]; exact hc0
      · simp only [hz, if_false]
        exact (I.pits l (by omega) hl).1.1
    · intro a ha b hb hab
      rw [Finset.mem_coe, Finset.mem_range] at ha hb
      have hl : ∀ l, l < s.ndep → s.label (if l = 0 then c0 else s.pit l) = some l := by
        intro l hl
        by_cases hz : l = 0
        · rw [if_pos hz, hz]; exact h0
        · rw [if_neg hz]; exact (I.pits l (by omega) hl).2
      have h1 := hl a ha
      have h2 := hl b hb
      simp only at hab
      rw [hab, h2] at h1
      exact (Option.some.inj h1).symm
  rw [Finset.card_range, hcard] at hmap
  exact hmap

/-- A run that can be done: the model's state, and what is written. -/
theorem hier_run (pq : PQ (E × Cell) zLt) (order : DHS E → List (Outlet E)) (hord : ∀ s, IsOutletVec s (outletVec s) → IsOutletVec s (order s))
    (stof : Str → Res E) (files : Str → Option (File E)) (inp out level time prog : Str) (f : File E) (hf : files inp = some f)
    (gf : GoodFile f) (hsize : f.width.toNat * f.height.toNat < 2 ^ 31) (lvl : E) (hl : stof level = .ok lvl) (hc : Coast f lvl) :
    ∃ s H g, getDHFlood pq f.width.toNat f.height.toNat .D8 (fileDem f) (oceanLabels (ofFile f) lvl) = some s ∧
      depHierarchy s (order s) = some H ∧ IsOutletVec s (order s) ∧ 2 * s.ndep < 2 ^ 32 ∧
      hierTool pq order stof files [inp, out, level] time prog = .ok ⟨some (graphText (graphRows H)), ⟨0, some g⟩⟩ ∧
      g.width = f.width ∧ g.height = f.height ∧ g.projection = f.projection ∧ g.noData = 2 ^ 32 - 1 ∧ g.gt = none ∧
      ∀ c, fileDem g c = (s.label c).getD (2 ^ 32 - 1) := by
  obtain ⟨s, hs⟩ := (hier_started pq f lvl).2 hc
  have O := hord s (C61_outlets_exist pq _ _ _ _ _ s hs)
  have h32 : 2 * s.ndep < 2 ^ 32 := by
    have := labels_le pq _ _ _ _ _ s hs
    omega
  obtain ⟨H, hH, _⟩ := C61_succeeds pq _ _ _ _ _ s hs (order s) O h32
  obtain ⟨g, hg, g1, g2, g3, g4, g5, g6⟩ : ∃ g : File Nat, saveWhole (labelArr (ofFile f) s) time prog [] = .ok ⟨0, some g⟩ ∧
      g.width = f.width ∧ g.height = f.height ∧ g.band = (labelArr (ofFile f) s).cells ∧ g.gt = none ∧
      g.projection = f.projection ∧ g.noData = 2 ^ 32 - 1 := ⟨_, rfl, rfl, rfl, rfl, rfl, rfl, rfl⟩
  refine ⟨s, H, g, hs, hH, O, h32, ?_, g1, g2, g5, g6, g4, ?_⟩
  · unfold hierTool
    dsimp only
    rw [hl]
    simp only [andThen]
    rw [withFile_good hf gf]
    unfold hierArr
    have hs' : getDHFlood pq (ofFile f).width.toNat (ofFile f).height.toNat .D8 (demOf (ofFile f)) (oceanLabels (ofFile f) lvl) = some s := hs
    rw [hs']
    dsimp only
    rw [hH]
    dsimp only
    rw [hg]
    rfl
  · intro c
    unfold fileDem
    rw [g3]
    rfl

/-! ### The theorems -/

/-- **C121 (the table is a tree over the labels).** It has one line for every depression, in order;
from every depression the parents lead to the ocean, 0. A link that is no ocean link leads to a
depression with a larger number, made of exactly two parts. The numbers in the raster of labels are
the ocean and the depressions that are not made of others; the parent of an ocean link is among them.
Ocean cells have label 0. -/
theorem C121_tree (pq : PQ (E × Cell) zLt) (order : DHS E → List (Outlet E)) (hord : ∀ s, IsOutletVec s (outletVec s) → IsOutletVec s (order s))
    (stof : Str → Res E) (files : Str → Option (File E)) (inp out level time prog : Str) (f : File E) (hf : files inp = some f)
    (gf : GoodFile f) (hsize : f.width.toNat * f.height.toNat < 2 ^ 31) (lvl : E) (hl : stof level = .ok lvl) (hc : Coast f lvl) :
    ∃ rows g, hierTool pq order stof files [inp, out, level] time prog = .ok ⟨some (graphText rows), ⟨0, some g⟩⟩ ∧
      g.width = f.width ∧ g.height = f.height ∧
      rows.map Row.child = List.range' 1 rows.length ∧
      (∀ r ∈ rows, TransGen (fun a b => ∃ o, (⟨b, a, o⟩ : Row) ∈ rows) r.child 0) ∧
      (∀ p a, ⟨p, a, false⟩ ∈ rows → a < p ∧ p ≤ rows.length ∧
        ∃ b, b ≠ a ∧ ⟨p, b, false⟩ ∈ rows ∧ ∀ d, ⟨p, d, false⟩ ∈ rows → d = a ∨ d = b) ∧
      (∀ p a, ⟨p, a, true⟩ ∈ rows → ∃ c, InGrid f.width.toNat f.height.toNat c ∧ fileDem g c = p) ∧
      (∀ l, (∃ c, InGrid f.width.toNat f.height.toNat c ∧ fileDem g c = l) ↔
        l ≤ rows.length ∧ ∀ a, (⟨l, a, false⟩ : Row) ∉ rows) ∧
      (∀ c, InGrid f.width.toNat f.height.toNat c → OceanCell f lvl c → fileDem g c = 0) := by
  obtain ⟨s, H, g, hs, hH, O, h32, hrun, gw, gh, _, _, _, glab⟩ :=
    hier_run pq order hord stof files inp out level time prog f hf gf hsize lvl hl hc
  obtain ⟨H', rep, h1, J, hlink⟩ := dh_run pq _ _ _ _ _ s hs _ O h32
  rw [hH] at h1; cases h1
  have hlen : (graphRows H).length = H.n - 1 := by unfold graphRows; simp
  have hn : 1 ≤ H.n := J.pos.trans J.le
  -- which numbers are labels
  have hlabel : ∀ l, (∃ c, InGrid f.width.toNat f.height.toNat c ∧ fileDem g c = l) ↔ l < s.ndep := by
    intro l
    constructor
    · rintro ⟨c, hc1, rfl⟩
      obtain ⟨l, h1, h2, _⟩ := C59_flow_to_pit pq _ _ _ _ _ s hs c hc1
      rw [glab, h1]
      exact h2
    · intro h
      by_cases h0 : l = 0
      · subst h0
        obtain ⟨c, d, hc1, _, _, hc2, _⟩ := hc
        obtain ⟨l, h1, _, h3, _⟩ := C59_flow_to_pit pq _ _ _ _ _ s hs c hc1
        exact ⟨c, hc1, by rw [glab, h1, h3 (oceanLabels_zero.2 hc2)]; rfl⟩
      · obtain ⟨h1, h2, _⟩ := C59_one_pit pq _ _ _ _ _ s hs l (by omega) h
        exact ⟨_, h1, by rw [glab, h2]; rfl⟩
  have hkids : ∀ p a, upOf H.dep a = some p → ∃ b, b ≠ a ∧ upOf H.dep b = some p ∧ ∀ d, upOf H.dep d = some p → d = a ∨ d = b := by
    intro p a hu
    have hups : ∀ x, (H.dep x).parent = some p → (H.dep x).oceanParent = false → upOf H.dep x = some p := by
      intro x h1 h2; unfold upOf; simp [h1, h2]
    have hpar := (J.up a p hu).2.2.1
    cases hlc : (H.dep p).lchild with
    | none =>
      have := (J.leaf p).1 hlc
      have := (J.up a p hu).2.1
      omega
    | some x =>
      obtain ⟨y, hrc, hxy, _, _, _, _, _, _, k1, k2, k3, k4, _⟩ := J.kids p x hlc
      have hone : ∀ d, upOf H.dep d = some p → d = x ∨ d = y := by
        intro d hd
        rcases (J.up d p hd).2.2.2.2 with h | h
        · rw [hlc] at h; cases h; exact Or.inl rfl
        · rw [hrc] at h; cases h; exact Or.inr rfl
      rcases hone a hu with rfl | rfl
      · exact ⟨y, hxy.symm, hups y k2 k4, hone⟩
      · exact ⟨x, hxy, hups x k1 k3, fun d hd => (hone d hd).symm⟩
  refine ⟨graphRows H, g, hrun, gw, gh, ?_, ?_, ?_, ?_, ?_, ?_⟩
  · rw [hlen]
    unfold graphRows
    rw [List.map_map]
    exact List.map_id _
  · intro r hr
    obtain ⟨r1, r2, r3, r4⟩ := mem_graphRows.1 hr
    have hex : ∀ x, x < H.n → AncU (fun y => (H.dep y).parent) x 0 →
        ReflTransGen (fun a b => ∃ o, (⟨b, a, o⟩ : Row) ∈ graphRows H) x 0 := by
      intro x hx ha
      generalize hz : 0 = z at ha
      induction ha with
      | refl => exact .refl
      | @step l p x' h hh ih =>
        subst hz
        have h : (H.dep l).parent = some p := h
        have hl0 : l ≠ 0 := by rintro rfl; rw [J.ocean0] at h; cases h
        refine .head ⟨oceanLink H l, mem_graphRows.2 ⟨by dsimp only; omega, hx, by dsimp only; rw [h]; rfl, rfl⟩⟩ (ih ?_ rfl)
        exact parent_lt J hx (.step (up := fun y => (H.dep y).parent) h (.refl p))
    have := hex r.child r2 (J.reach_ocean hlink _ r2)
    rcases this.cases_head with e | ⟨b, h1, h2⟩
    · omega
    · exact TransGen.head' h1 h2
  · intro p a hr
    have hu := (row_false J hlink).1 hr
    obtain ⟨h1, h2, _⟩ := J.up a p hu
    obtain ⟨b, b1, b2, b3⟩ := hkids p a hu
    exact ⟨h1, by omega, b, b1, (row_false J hlink).2 b2, fun d hd => b3 d ((row_false J hlink).1 hd)⟩
  · intro p a hr
    obtain ⟨h1, h2⟩ := (row_true J hlink).1 hr
    exact (hlabel p).2 (J.oc a p h2 h1).2.1
  · intro l
    rw [hlabel, hlen]
    constructor
    · intro h
      refine ⟨by have := J.le; omega, fun a ha => ?_⟩
      have := (J.up a l ((row_false J hlink).1 ha)).2.2.1
      omega
    · rintro ⟨h1, h2⟩
      by_contra hge
      cases hlc : (H.dep l).lchild with
      | none =>
        have := (J.leaf l).1 hlc
        omega
      | some x =>
        obtain ⟨y, _, _, _, _, _, _, _, _, k1, _, k3, _⟩ := J.kids l x hlc
        exact h2 x ((row_false J hlink).2 (by unfold upOf; simp [k1, k3]))
  · intro c hc1 hc2
    obtain ⟨l, h1, _, h3, _⟩ := C59_flow_to_pit pq _ _ _ _ _ s hs c hc1
    rw [glab, h1, h3 (oceanLabels_zero.2 hc2)]
    rfl

/-- **C121 (the links follow the lowest passes).** Out of every depression of the table, with all the
cells of its parts, the lowest pass leads into the other part of its parent, or, for an ocean link, to
a cell labelled with the parent. -/
theorem C121_spill (pq : PQ (E × Cell) zLt) (order : DHS E → List (Outlet E)) (hord : ∀ s, IsOutletVec s (outletVec s) → IsOutletVec s (order s))
    (stof : Str → Res E) (files : Str → Option (File E)) (inp out level time prog : Str) (f : File E) (hf : files inp = some f)
    (gf : GoodFile f) (hsize : f.width.toNat * f.height.toNat < 2 ^ 31) (lvl : E) (hl : stof level = .ok lvl) (hc : Coast f lvl) :
    ∃ rows g, hierTool pq order stof files [inp, out, level] time prog = .ok ⟨some (graphText rows), ⟨0, some g⟩⟩ ∧
      ∀ r ∈ rows, ∃ u v, Adj .D8 u v ∧ InGrid f.width.toNat f.height.toNat u ∧ InGrid f.width.toNat f.height.toNat v ∧
        CellUnder rows (fileDem g) r.child u ∧ ¬ CellUnder rows (fileDem g) r.child v ∧
        (∀ u' v', Adj .D8 u' v' → InGrid f.width.toNat f.height.toNat u' → InGrid f.width.toNat f.height.toNat v' →
          CellUnder rows (fileDem g) r.child u' → ¬ CellUnder rows (fileDem g) r.child v' →
          max (fileDem f u) (fileDem f v) ≤ max (fileDem f u') (fileDem f v')) ∧
        (r.ocean = true → fileDem g v = r.parent) ∧
        (r.ocean = false → ∃ b, b ≠ r.child ∧ ⟨r.parent, b, false⟩ ∈ rows ∧ CellUnder rows (fileDem g) b v) := by
  obtain ⟨s, H, g, hs, hH, O, h32, hrun, gw, gh, _, _, _, glab⟩ :=
    hier_run pq order hord stof files inp out level time prog f hf gf hsize lvl hl hc
  obtain ⟨H', rep, h1, J, hlink⟩ := dh_run pq _ _ _ _ _ s hs _ O h32
  rw [hH] at h1; cases h1
  have hs0 := hs
  obtain ⟨rfl, _⟩ := getDHFlood_some hs
  obtain ⟨⟨D, I⟩, _⟩ := dhFlood_final pq f.width.toNat f.height.toNat .D8 (fileDem f) (fun c => oceanLabels (ofFile f) lvl c == some 0)
  set s := dhFlood pq f.width.toNat f.height.toNat .D8 (fileDem f) (fun c => oceanLabels (ofFile f) lvl c == some 0) with hsd
  obtain ⟨hL, hC⟩ := dhFlood_complete pq f.width.toNat f.height.toNat .D8 (fileDem f) (fun c => oceanLabels (ofFile f) lvl c == some 0)
  have hcell : ∀ x c, InGrid f.width.toNat f.height.toNat c → (CellUnder (graphRows H) (fileDem g) x c ↔ InDep s.label H.dep x c) := by
    intro x c hc1
    cases hlc : s.label c with
    | none => exact absurd hlc (hL c hc1)
    | some l =>
      have e : fileDem g c = l := by rw [glab, hlc]; rfl
      unfold CellUnder InDep
      constructor
      · rintro ⟨l', h1, h2⟩
        rw [e] at h1; subst h1
        exact ⟨_, hlc, (under_iff J hlink).1 h2⟩
      · rintro ⟨l', h1, h2⟩
        rw [hlc] at h1; cases h1
        exact ⟨_, e, (under_iff J hlink).2 h2⟩
  refine ⟨graphRows H, g, hrun, ?_⟩
  rintro ⟨p, i, b⟩ hr
  dsimp only
  have hpass := depHierarchy_pass h32 I.pos _ _ (outlet_labs I O) O.sorted hH
  -- the outlet the link was made for
  have hcross : ∃ o ∈ order s, (H.dep i).outElev = some o.elev ∧
      ((Anc H.dep o.a i ∧ ¬ Anc H.dep o.b i ∧ (b = true → o.b = p) ∧
          (b = false → ∃ k, k ≠ i ∧ upOf H.dep k = some p ∧ Anc H.dep o.b k)) ∨
        (Anc H.dep o.b i ∧ ¬ Anc H.dep o.a i ∧ (b = true → o.a = p) ∧
          (b = false → ∃ k, k ≠ i ∧ upOf H.dep k = some p ∧ Anc H.dep o.a k))) := by
    cases b with
    | true =>
      obtain ⟨ho, hp⟩ := (row_true J hlink).1 hr
      obtain ⟨o, o1, o2, o3⟩ := hpass i p ho hp
      have hi := (J.oc i p hp ho).1
      have hno : ¬ Anc H.dep p i := fun ha =>
        AncU.no_cycle (up := fun y => (H.dep y).parent) J.ocean0 hp (J.reach_ocean hlink i hi) (anc_parent ha)
      refine ⟨o, o1, o3, ?_⟩
      rcases o2 with ⟨q1, q2⟩ | ⟨q1, q2⟩
      · exact Or.inl ⟨q1, by rw [q2]; exact hno, fun _ => q2, by simp⟩
      · exact Or.inr ⟨q1, by rw [q2]; exact hno, fun _ => q2, by simp⟩
    | false =>
      have hu := (row_false J hlink).1 hr
      obtain ⟨_, hpn, hp0, _, hch⟩ := J.up i p hu
      cases hlc : (H.dep p).lchild with
      | none => have := (J.leaf p).1 hlc; omega
      | some x =>
        obtain ⟨y, hrc, hxy, hxp, hyp, _, _, hx0, hy0, k1, k2, k3, k4, _, _, k7, _⟩ := J.kids p x hlc
        have ux : upOf H.dep x = some p := by unfold upOf; simp [k1, k3]
        have uy : upOf H.dep y = some p := by unfold upOf; simp [k2, k4]
        have hex : ∀ l, Anc H.dep l x → ¬ Anc H.dep l y := by
          intro l hl1 hl2
          have hcmp := anc_total hl1 hl2
          have hno : ∀ a b, upOf H.dep a = some p → upOf H.dep b = some p → a ≠ b → ¬ Anc H.dep a b := by
            intro a b ha hb hab hanc
            cases hanc with
            | refl => exact hab rfl
            | step h hh =>
              rw [ha] at h; cases h
              have hbp := (J.up b p hb).1
              have := anc_le J hh
              omega
          rcases hcmp with hh | hh
          · exact hno x y ux uy hxy hh
          · exact hno y x uy ux hxy.symm hh
        obtain ⟨o, o1, o2, o3⟩ := J.pass p x y hlc hrc
        refine ⟨o, by simpa using o1, ?_, ?_⟩
        · rcases hch with h | h
          · rw [hlc] at h; cases h; exact o3
          · rw [hrc] at h; cases h; rw [← k7]; exact o3
        · rcases hch with h | h
          · rw [hlc] at h; cases h
            rcases o2 with ⟨q1, q2⟩ | ⟨q1, q2⟩
            · exact Or.inl ⟨q1, fun hh => hex _ hh q2, by simp, fun _ => ⟨y, hxy.symm, uy, q2⟩⟩
            · exact Or.inr ⟨q1, fun hh => hex _ hh q2, by simp, fun _ => ⟨y, hxy.symm, uy, q2⟩⟩
          · rw [hrc] at h; cases h
            rcases o2 with ⟨q1, q2⟩ | ⟨q1, q2⟩
            · exact Or.inr ⟨q2, fun hh => hex _ q1 hh, by simp, fun _ => ⟨x, hxy, ux, q1⟩⟩
            · exact Or.inl ⟨q2, fun hh => hex _ q1 hh, by simp, fun _ => ⟨x, hxy, ux, q1⟩⟩
  obtain ⟨o, o1, o2, o3⟩ := hcross
  obtain ⟨_, u, v, a1, a2, a3, a4, a5, a6, _⟩ := outlet_sound I O o1
  have hlow := (spill_cells I hL hC O J o2).1
  have fin : ∀ (u v : Cell) (la lb : Nat), Adj .D8 u v → InGrid f.width.toNat f.height.toNat u → InGrid f.width.toNat f.height.toNat v →
      s.label u = some la → s.label v = some lb → o.elev = max (fileDem f u) (fileDem f v) → Anc H.dep la i → ¬ Anc H.dep lb i →
      (b = true → lb = p) → (b = false → ∃ k, k ≠ i ∧ upOf H.dep k = some p ∧ Anc H.dep lb k) → _ :=
    fun u v la lb b1 b2 b3 b4 b5 b6 b7 b8 b9 b10 =>
      (⟨u, v, b1, b2, b3, (hcell i u b2).2 ⟨la, b4, b7⟩, fun hh => by
          obtain ⟨l', m1, m2⟩ := (hcell i v b3).1 hh
          rw [b5] at m1; cases m1
          exact b8 m2,
        fun u' v' c1 c2 c3 c4 c5 => by
          rw [← b6]
          exact hlow u' v' c1 c2 c3 ((hcell i u' c2).1 c4) (fun hh => c5 ((hcell i v' c3).2 hh)),
        fun hb => by rw [glab, b5]; exact b9 hb,
        fun hb => by
          obtain ⟨k, m1, m2, m3⟩ := b10 hb
          exact ⟨k, m1, (row_false J hlink).2 m2, (hcell k v b3).2 ⟨lb, b5, m3⟩⟩⟩ :
        ∃ u v, Adj .D8 u v ∧ InGrid f.width.toNat f.height.toNat u ∧ InGrid f.width.toNat f.height.toNat v ∧
        CellUnder (graphRows H) (fileDem g) i u ∧ ¬ CellUnder (graphRows H) (fileDem g) i v ∧
        (∀ u' v', Adj .D8 u' v' → InGrid f.width.toNat f.height.toNat u' → InGrid f.width.toNat f.height.toNat v' →
          CellUnder (graphRows H) (fileDem g) i u' → ¬ CellUnder (graphRows H) (fileDem g) i v' →
          max (fileDem f u) (fileDem f v) ≤ max (fileDem f u') (fileDem f v')) ∧
        (b = true → fileDem g v = p) ∧
        (b = false → ∃ b, b ≠ i ∧ ⟨p, b, false⟩ ∈ graphRows H ∧ CellUnder (graphRows H) (fileDem g) b v))
  rcases o3 with ⟨q1, q2, q3, q4⟩ | ⟨q1, q2, q3, q4⟩
  · exact fin u v _ _ a1 a2 a3 a4 a5 a6 q1 q2 q3 q4
  · exact fin v u _ _ a1.symm a3 a2 a5 a4 (by rw [a6, max_comm]) q1 q2 q3 q4

/-- **C121 (labels are catchments).** From every cell a path that never ascends stays in its label and
ends in the ocean, if the label is 0, and otherwise in a cell without lower neighbours, the same for
all cells of the label. -/
theorem C121_labels (pq : PQ (E × Cell) zLt) (order : DHS E → List (Outlet E)) (hord : ∀ s, IsOutletVec s (outletVec s) → IsOutletVec s (order s))
    (stof : Str → Res E) (files : Str → Option (File E)) (inp out level time prog : Str) (f : File E) (hf : files inp = some f)
    (gf : GoodFile f) (hsize : f.width.toNat * f.height.toNat < 2 ^ 31) (lvl : E) (hl : stof level = .ok lvl) (hc : Coast f lvl) :
    ∃ graph g, hierTool pq order stof files [inp, out, level] time prog = .ok ⟨some graph, ⟨0, some g⟩⟩ ∧
      ∃ pit : Nat → Cell, ∀ c, InGrid f.width.toNat f.height.toNat c → ∃ e,
        ReflTransGen (fun a b => Adj .D8 a b ∧ InGrid f.width.toNat f.height.toNat b ∧ fileDem g b = fileDem g c ∧
          fileDem f b ≤ fileDem f a) c e ∧
        (fileDem g c = 0 → OceanCell f lvl e) ∧
        (fileDem g c ≠ 0 → e = pit (fileDem g c) ∧ ¬ OceanCell f lvl e ∧
          ∀ d, Adj .D8 e d → InGrid f.width.toNat f.height.toNat d → fileDem f e ≤ fileDem f d) := by
  obtain ⟨s, H, g, hs, hH, O, h32, hrun, gw, gh, _, _, _, glab⟩ :=
    hier_run pq order hord stof files inp out level time prog f hf gf hsize lvl hl hc
  refine ⟨_, g, hrun, s.pit, ?_⟩
  intro c hc1
  obtain ⟨l, h1, h2, h3, k, k1, k2, k3, k4⟩ := C59_flow_to_pit pq _ _ _ _ _ s hs c hc1
  have hlc : fileDem g c = l := by rw [glab, h1]; rfl
  refine ⟨followT .D8 s.fd c k, ?_, ?_, ?_⟩
  · have hshift : ∀ (c : Cell) (i : Nat), followT .D8 s.fd c (i + 1) =
        nbr .D8 (followT .D8 s.fd c i) (s.fd (followT .D8 s.fd c i)) := by
      intro c i
      induction i generalizing c with
      | zero => rfl
      | succ i ih => exact ih _
    have : ∀ i ≤ k, ReflTransGen (fun a b => Adj .D8 a b ∧ InGrid f.width.toNat f.height.toNat b ∧ fileDem g b = fileDem g c ∧
          fileDem f b ≤ fileDem f a) c (followT .D8 s.fd c i) := by
      intro i
      induction i with
      | zero => intro _; exact .refl
      | succ i ih =>
        intro hi
        obtain ⟨m1, m2⟩ := k1 i (by omega)
        obtain ⟨n1, n2⟩ := k2 (i + 1) hi
        refine (ih (by omega)).tail ⟨?_, n1, ?_, m2⟩
        · rw [hshift]
          exact nbr_adj m1
        · rw [glab, n2, hlc]; rfl
    exact this k (le_refl _)
  · intro h0
    rw [hlc] at h0
    rcases k4 with ⟨_, h⟩ | ⟨h, _⟩
    · exact oceanLabels_zero.1 h
    · omega
  · intro h0
    rw [hlc] at h0 ⊢
    rcases k4 with ⟨h, _⟩ | ⟨_, m1, m2, m3⟩
    · exact absurd h h0
    · rw [m1]
      exact ⟨rfl, fun h => m2 (oceanLabels_zero.2 h), m3⟩

/-- **C121 (usage).** With a wrong number of arguments nothing is written; with a level that is no
number, an input that is not there or no coast the program ends with an exception before it writes. -/
theorem C121_usage (pq : PQ (E × Cell) zLt) (order : DHS E → List (Outlet E)) (stof : Str → Res E) (files : Str → Option (File E))
    (time prog : Str) :
    (∀ rest : List Str, rest.length ≠ 3 → hierTool pq order stof files rest time prog = .ok ⟨none, ⟨-1, none⟩⟩) ∧
    (∀ inp out level, stof level = .throws → hierTool pq order stof files [inp, out, level] time prog = .throws) ∧
    (∀ inp out level lvl, stof level = .ok lvl → files inp = none → hierTool pq order stof files [inp, out, level] time prog = .throws) ∧
    (∀ inp out level lvl f, stof level = .ok lvl → files inp = some f → GoodFile f → ¬ Coast f lvl →
      hierTool pq order stof files [inp, out, level] time prog = .throws) := by
  refine ⟨?_, ?_, ?_, ?_⟩
  · intro rest h3
    match rest, h3 with
    | [], _ => rfl
    | [_], _ => rfl
    | [_, _], _ => rfl
    | [_, _, _], h => exact absurd rfl h
    | _ :: _ :: _ :: _ :: _, _ => rfl
  · intro inp out level h
    unfold hierTool
    dsimp only
    rw [h]
    rfl
  · intro inp out level lvl h hf
    unfold hierTool withFile
    dsimp only
    rw [h, hf]
    rfl
  · intro inp out level lvl f h hf gf hno
    unfold hierTool
    dsimp only
    rw [h]
    simp only [andThen]
    rw [withFile_good hf gf]
    unfold hierArr
    cases hs : getDHFlood pq (ofFile f).width.toNat (ofFile f).height.toNat .D8 (demOf (ofFile f)) (oceanLabels (ofFile f) lvl) with
    | none => rfl
    | some s => exact absurd ((hier_started pq f lvl).1 ⟨s, hs⟩) hno

/-- **C121, refuted (the raster of labels lies where the DEM lies).** It has the projection of the DEM,
but no geotransform. -/
theorem C121_georeference_refuted (pq : PQ (E × Cell) zLt) (order : DHS E → List (Outlet E))
    (hord : ∀ s, IsOutletVec s (outletVec s) → IsOutletVec s (order s)) (stof : Str → Res E) (files : Str → Option (File E))
    (inp out level time prog : Str) (f : File E) (hf : files inp = some f) (gf : GoodFile f)
    (hsize : f.width.toNat * f.height.toNat < 2 ^ 31) (lvl : E) (hl : stof level = .ok lvl) (hc : Coast f lvl)
    (hgt : f.gt ≠ none) :
    ∃ graph g, hierTool pq order stof files [inp, out, level] time prog = .ok ⟨some graph, ⟨0, some g⟩⟩ ∧
      g.projection = f.projection ∧ g.gt ≠ f.gt := by
  obtain ⟨s, H, g, hs, hH, O, h32, hrun, gw, gh, g1, _, g2, _⟩ :=
    hier_run pq order hord stof files inp out level time prog f hf gf hsize lvl hl hc
  exact ⟨_, g, hrun, g1, by rw [g2]; exact fun e => hgt e.symm⟩

/-! ### The text of the table -/

theorem decimal_digits (n : Nat) : ∀ d ∈ Layout.decimal n, d.isDigit = true := by
  obtain ⟨_, _, _, _, h⟩ := decimal_shape n
  exact h

theorem decimal_split {a b : Nat} {x y : Str} (h : Layout.decimal a ++ ',' :: x = Layout.decimal b ++ ',' :: y) : a = b ∧ x = y := by
  have tw : ∀ (n : Nat) (z : Str), (Layout.decimal n ++ ',' :: z).takeWhile Char.isDigit = Layout.decimal n := by
    intro n z
    rw [List.takeWhile_append_of_pos (decimal_digits n), List.takeWhile_cons_of_neg (by decide), List.append_nil]
  have h1 : Layout.decimal a = Layout.decimal b := by
    rw [← tw a x, ← tw b y, h]
  have h2 : a = b := by
    have hv : ∀ n, Nat.ofDigitChars 10 (Layout.decimal n) 0 = n := fun n => Nat.ofDigitChars_ten_toDigits
    rw [← hv a, ← hv b, h1]
  subst h2
  have := List.append_cancel_left h
  exact ⟨rfl, (List.cons.inj this).2⟩

theorem rowText_split {r q : Row} {x y : Str} (h : rowText r ++ x = rowText q ++ y) : r = q ∧ x = y := by
  unfold rowText at h
  simp only [List.append_assoc, List.cons_append] at h
  obtain ⟨h1, h⟩ := decimal_split h
  obtain ⟨h2, h⟩ := decimal_split h
  cases r with
  | mk p c o =>
    cases q with
    | mk p' c' o' =>
      dsimp only at h1 h2
      subst h1 h2
      cases o <;> cases o' <;> simp at h ⊢ <;> exact h

/-- **C121 (the table can be read).** Different tables have different texts. -/
theorem C121_readable (rows rows' : List Row) (h : graphText rows = graphText rows') : rows = rows' := by
  unfold graphText at h
  replace h := List.append_cancel_left h
  induction rows generalizing rows' with
  | nil =>
    cases rows' with
    | nil => rfl
    | cons r rs =>
      exfalso
      rw [List.flatMap_cons] at h
      unfold rowText at h
      simp at h
  | cons r rs ih =>
    cases rows' with
    | nil =>
      exfalso
      rw [List.flatMap_cons] at h
      unfold rowText at h
      simp at h
    | cons r' rs' =>
      rw [List.flatMap_cons, List.flatMap_cons] at h
      obtain ⟨e1, e2⟩ := rowText_split h
      rw [e1, ih rs' e2]

/-- **C121 (the text of the table).** A header, then a line for each depression: the number of its
parent, its own number, and 1 or 0 for whether the link leads to the ocean, with commas between and a
line feed at the end. -/
theorem C121_format (rows : List Row) :
    graphText rows = "parent,child,oceanlink\n".toList ++
      (rows.map fun r => toString r.parent ++ "," ++ toString r.child ++ "," ++ (if r.ocean then "1" else "0") ++ "\n").flatMap
        String.toList := by
  have hd : ∀ n : Nat, (toString n).toList = Layout.decimal n := fun n => by
    show (Nat.repr n).toList = _
    rw [Nat.toList_repr]
    rfl
  unfold graphText
  congr 1
  induction rows with
  | nil => rfl
  | cons r rs ih =>
    rw [List.flatMap_cons, List.map_cons, List.flatMap_cons, ih]
    congr 1
    simp only [String.toList_append, hd]
    unfold rowText
    cases r.ocean <;> simp

/-! ### A concrete run -/

/-- The raster of C59 as a file, its rim being NoData. -/
def exHierFile : File Int := ⟨9, 5, fun x y => dhDem (x, y), some ⟨500, 30, 0, 900, 0, -30⟩, "P".toList, 0, none⟩

def runHier (level : String) : Option (String × Int × List (List Nat)) :=
  match hierTool zPQ outletVec (fun _ => .ok (-1)) (fun s => if s = ['i'] then some exHierFile else none)
    [['i'], ['o'], level.toList] [] [] with
  | .ok ⟨some t, ⟨k, some g⟩⟩ => some (String.ofList t, k, toRows 9 5 fun c => fileDem g c)
  | _ => none

/-- The hypotheses of the theorems are met. -/
example : GoodFile exHierFile ∧ exHierFile.width.toNat * exHierFile.height.toNat < 2 ^ 31 ∧ Coast exHierFile (-1) ∧
    exHierFile.gt ≠ none ∧ ∀ s : DHS Int, IsOutletVec s (outletVec s) → IsOutletVec s (outletVec s) :=
  ⟨⟨by decide, by decide, by decide, by decide, by decide⟩, by decide,
    ⟨(0, 0), (1, 1), by decide, by decide, by decide, Or.inl (by decide), by unfold OceanCell; decide⟩, by decide, fun _ h => h⟩

/-- Three depressions of single cells; the first two overflow into each other, what they become and
the third one overflow into the ocean. -/
example : runHier "-1" = some ("parent,child,oceanlink\n4,1,0\n4,2,0\n0,3,1\n0,4,1\n", 0,
    [[0, 0, 0, 0, 0, 0, 0, 0, 0], [0, 0, 0, 0, 0, 0, 0, 0, 0], [0, 0, 1, 1, 2, 2, 3, 0, 0], [0, 0, 0, 0, 0, 0, 0, 0, 0],
     [0, 0, 0, 0, 0, 0, 0, 0, 0]]) := by decide +kernel

end Tools
end RichDEM
