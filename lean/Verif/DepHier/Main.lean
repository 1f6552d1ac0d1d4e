/-
`GetDepressionHierarchy` as a whole (include/richdem/depressions/depression_hierarchy.hpp:236-713):
flood, outlet vector, hierarchy construction.
-/
import Verif.DepHier.Flood
import Verif.DepHier.Tree
import Mathlib.Data.List.Sort

namespace RichDEM

variable {E : Type} [LinearOrder E]

/-- depression_hierarchy.hpp:560-580: `outlets` holds every entry of `outlet_database` once, in
an unspecified order that is ascending in elevation (`std::unordered_map` iteration followed by the
unstable `std::sort`). -/
structure IsOutletVec (s : DHS E) (os : List (Outlet E)) : Prop where
  sorted : os.Pairwise (fun a b => a.elev ≤ b.elev)
  nodup : (os.map (fun o => (o.a, o.b))).Nodup
  mem : ∀ o, o ∈ os ↔ s.outs (o.a, o.b) = some (o.cell, o.elev)

/-- depression_hierarchy.hpp:597-713: the hierarchy made from the flood result `s`. -/
def depHierarchy (s : DHS E) (os : List (Outlet E)) : Option (Hier E) :=
  buildHier s.ndep (fun d => if d = 0 then none else some (s.pit d)) os

/-- One admissible outlet vector. -/
def outletVec (s : DHS E) : List (Outlet E) :=
  (((List.range s.ndep).flatMap (fun a => (List.range s.ndep).filterMap (fun b =>
    (s.outs (a, b)).map (fun o => (⟨a, b, o.1, o.2⟩ : Outlet E))))).insertionSort
      (fun a b => a.elev ≤ b.elev))

theorem outletVec_spec {w h : Nat} {t : Topo} {dem : Cell → E} {oc : Cell → Bool} {D : Cell → Prop}
    {s : DHS E} (I : DHInv w h t dem oc D none s) : IsOutletVec s (outletVec s) := by
  set l := (List.range s.ndep).flatMap (fun a => (List.range s.ndep).filterMap (fun b =>
    (s.outs (a, b)).map (fun o => (⟨a, b, o.1, o.2⟩ : Outlet E)))) with hl
  have hperm : (outletVec s).Perm l := List.perm_insertionSort _ _
  have hkeys : l.map (fun o => (o.a, o.b)) =
      ((List.range s.ndep).flatMap (fun a => (List.range s.ndep).map (fun b => (a, b)))).filter
        (fun k => (s.outs k).isSome) := by
    rw [hl, List.map_flatMap, List.filter_flatMap]
    congr 1
    funext a
    generalize List.range s.ndep = r
    induction r with
    | nil => rfl
    | cons b r ih =>
      simp only [List.filterMap_cons, List.map_cons, List.filter_cons]
      cases ho : s.outs (a, b) with
      | none => simpa [ho] using ih
      | some o => simpa [ho] using ih
  refine ⟨?_, ?_, ?_⟩
  · exact List.pairwise_insertionSort (r := fun a b : Outlet E => a.elev ≤ b.elev) l
  · rw [(hperm.map _).nodup_iff, hkeys]
    apply List.Nodup.filter
    have : (List.range s.ndep).flatMap (fun a => (List.range s.ndep).map (fun b => (a, b))) =
        List.product (List.range s.ndep) (List.range s.ndep) := rfl
    rw [this]
    exact List.nodup_range.product List.nodup_range
  · intro o
    rw [hperm.mem_iff, hl]
    simp only [List.mem_flatMap, List.mem_filterMap, List.mem_range, Option.map_eq_some_iff]
    constructor
    · rintro ⟨a, _, b, _, x, hx, rfl⟩; exact hx
    · intro ho
      obtain ⟨_, u, v, _, _, _, k1, k2, _⟩ := I.sound _ _ _ _ ho
      exact ⟨o.a, I.lt _ _ k1, o.b, I.lt _ _ k2, _, ho, rfl⟩

/-! ### Specification vocabulary -/

/-- Cell `u` lies in depression or metadepression `x`. -/
def InDep (label : Cell → Option Nat) (dep : Nat → Dep E) (x : Nat) (u : Cell) : Prop :=
  ∃ l, label u = some l ∧ Anc dep l x

/-- A path of adjacent cells inside the raster from `c` to an ocean cell. -/
structure OceanPath (w h : Nat) (t : Topo) (oc : Cell → Bool) (c : Cell) (p : List Cell) : Prop where
  head : p.head? = some c
  chain : p.IsChain (Adj t)
  inGrid : ∀ q ∈ p, InGrid w h q
  last : ∃ e, p.getLast? = some e ∧ oc e = true

/-- `z` is the height water standing on `c` must reach before it can drain to the ocean. -/
structure IsOceanLevel (w h : Nat) (t : Topo) (dem : Cell → E) (oc : Cell → Bool) (c : Cell) (z : E) :
    Prop where
  attained : ∃ p, OceanPath w h t oc c p ∧ ∀ q ∈ p, dem q ≤ z
  least : ∀ p, OceanPath w h t oc c p → ∃ q ∈ p, z ≤ dem q

/-! ### Facts -/

section
variable {w h : Nat} {t : Topo} {dem : Cell → E} {oc : Cell → Bool}

/-- Cells joined by a path not above `z`. -/
inductive Conn (w h : Nat) (t : Topo) (dem : Cell → E) (z : E) : Cell → Cell → Prop
  | refl {c} : InGrid w h c → dem c ≤ z → Conn w h t dem z c c
  | step {a b c} : InGrid w h a → dem a ≤ z → Adj t a b → Conn w h t dem z b c → Conn w h t dem z a c

theorem Conn.left {z : E} {a b : Cell} (h1 : Conn w h t dem z a b) : InGrid w h a ∧ dem a ≤ z := by
  cases h1 with
  | refl h1 h2 => exact ⟨h1, h2⟩
  | step h1 h2 _ _ => exact ⟨h1, h2⟩

theorem Conn.trans {z : E} {a b c : Cell} (h1 : Conn w h t dem z a b) (h2 : Conn w h t dem z b c) :
    Conn w h t dem z a c := by
  induction h1 with
  | refl => exact h2
  | step a1 a2 a3 _ ih => exact .step a1 a2 a3 (ih h2)

theorem Conn.symm {z : E} {a b : Cell} (h1 : Conn w h t dem z a b) : Conn w h t dem z b a := by
  induction h1 with
  | refl h1 h2 => exact .refl h1 h2
  | @step a b c a1 a2 a3 k ih =>
    exact ih.trans (.step k.left.1 k.left.2 a3.symm (.refl a1 a2))

theorem Conn.mono {z z' : E} (hz : z ≤ z') {a b : Cell} (h1 : Conn w h t dem z a b) :
    Conn w h t dem z' a b := by
  induction h1 with
  | refl h1 h2 => exact .refl h1 (h2.trans hz)
  | step a1 a2 a3 _ ih => exact .step a1 (a2.trans hz) a3 ih

theorem Conn.path {z : E} {a b : Cell} (h1 : Conn w h t dem z a b) (hb : oc b = true) :
    ∃ p, OceanPath w h t oc a p ∧ ∀ q ∈ p, dem q ≤ z := by
  induction h1 with
  | @refl c h1 h2 =>
    exact ⟨[c], ⟨rfl, by simp, by simpa using h1, c, rfl, hb⟩, by simpa using h2⟩
  | @step a b c a1 a2 a3 k ih =>
    obtain ⟨p, P, hz⟩ := ih hb
    have hp : p ≠ [] := by rintro rfl; have := P.head; simp at this
    refine ⟨a :: p, ⟨rfl, ?_, ?_, ?_⟩, ?_⟩
    · cases p with
      | nil => exact absurd rfl hp
      | cons x p =>
        have : x = b := by have := P.head; simpa using this
        subst this
        exact List.isChain_cons_cons.2 ⟨a3, P.chain⟩
    · intro q hq
      rcases List.mem_cons.1 hq with rfl | hq
      · exact a1
      · exact P.inGrid q hq
    · obtain ⟨e, h1, h2⟩ := P.last
      refine ⟨e, ?_, h2⟩
      rw [List.getLast?_cons, h1]; rfl
    · intro q hq
      rcases List.mem_cons.1 hq with rfl | hq
      · exact a2
      · exact hz q hq

/-- A cell is connected to its pit (or the ocean) without climbing. -/
theorem DHPath.conn {label : Cell → Option Nat} {fd : Cell → Nat} {pit : Nat → Cell} {l : Nat} {c : Cell}
    (p : DHPath w h t dem oc label fd pit l c) :
    ∃ e, Conn w h t dem (dem c) c e ∧ label e = some l ∧ ((l = 0 ∧ oc e = true) ∨ (0 < l ∧ e = pit l)) := by
  induction p with
  | ocean a b c d e => exact ⟨_, .refl a (le_refl _), d, .inl ⟨c, b⟩⟩
  | pit a b c d e => exact ⟨_, .refl c (le_refl _), d, .inr ⟨a, b⟩⟩
  | @step c a b d e f ih =>
    obtain ⟨x, h1, h2, h3⟩ := ih
    exact ⟨x, .step a (le_refl _) (nbr_adj d) (h1.mono e), h2, h3⟩

variable {D : Cell → Prop} {s : DHS E} {os : List (Outlet E)}

/-- Every outlet joins two adjacent cells of its two labels. -/
theorem outlet_sound (I : DHInv w h t dem oc D none s) (O : IsOutletVec s os) {o : Outlet E} (ho : o ∈ os) :
    o.a < o.b ∧ ∃ u v, Adj t u v ∧ InGrid w h u ∧ InGrid w h v ∧ s.label u = some o.a ∧
      s.label v = some o.b ∧ o.elev = max (dem u) (dem v) ∧ (o.cell = u ∨ o.cell = v) ∧ dem o.cell = o.elev :=
  I.sound _ _ _ _ ((O.mem o).1 ho)

theorem outlet_labs (I : DHInv w h t dem oc D none s) (O : IsOutletVec s os) :
    ∀ o ∈ os, o.a < s.ndep ∧ o.b < s.ndep := by
  intro o ho
  obtain ⟨_, u, v, _, _, _, k1, k2, _⟩ := outlet_sound I O ho
  exact ⟨I.lt _ _ k1, I.lt _ _ k2⟩

/-- Every two adjacent cells of different labels have an outlet not above them. -/
theorem outlet_complete (hC : ∀ u v, InGrid w h u → InGrid w h v → Adj t u v → DHRec dem s.label s.outs u v)
    (O : IsOutletVec s os) {u v : Cell} (hu : InGrid w h u) (hv : InGrid w h v)
    (huv : Adj t u v) {a b : Nat} (ha : s.label u = some a) (hb : s.label v = some b) (hab : a ≠ b) :
    ∃ o ∈ os, ((o.a = a ∧ o.b = b) ∨ (o.a = b ∧ o.b = a)) ∧ o.elev ≤ max (dem u) (dem v) := by
  obtain ⟨x, z, h1, h2⟩ := hC u v hu hv huv a b ha hb hab
  refine ⟨⟨(outLink a b).1, (outLink a b).2, x, z⟩, (O.mem _).2 h1, ?_, h2⟩
  unfold outLink
  by_cases h : a < b
  · left; simp [h]
  · right; simp [h]

/-- Pits of the labels on both sides of an outlet are connected below it; `site l` is the pit of
`l`, or any ocean cell for the ocean. -/
def Site (oc : Cell → Bool) (s : DHS E) (l : Nat) (e : Cell) : Prop :=
  s.label e = some l ∧ ((l = 0 ∧ oc e = true) ∨ (0 < l ∧ e = s.pit l))

theorem site_of_cell (I : DHInv w h t dem oc D none s) {c : Cell} {l : Nat} (hl : s.label c = some l) :
    ∃ e, Conn w h t dem (dem c) c e ∧ Site oc s l e := by
  obtain ⟨e, h1, h2, h3⟩ := (I.path c l hl).conn
  exact ⟨e, h1, h2, h3⟩

/-- From every site of `l` not above `z` the ocean can be reached without exceeding `z`. -/
def Reaches (w h : Nat) (t : Topo) (dem : Cell → E) (oc : Cell → Bool) (s : DHS E) (z : E) (l : Nat) : Prop :=
  ∀ e, Site oc s l e → dem e ≤ z → ∃ f, oc f = true ∧ Conn w h t dem z e f

theorem reaches_step (I : DHInv w h t dem oc D none s) {z : E} {a b : Nat} {u v : Cell}
    (huv : Adj t u v) (hu : s.label u = some a) (hv : s.label v = some b) (hz : max (dem u) (dem v) ≤ z)
    (R : Reaches w h t dem oc s z a) : Reaches w h t dem oc s z b := by
  intro e he hez
  rcases he.2 with ⟨h1, h2⟩ | ⟨h1, h2⟩
  · exact ⟨e, h2, .refl (I.inside e (by rw [he.1]; simp)) hez⟩
  · obtain ⟨x, c1, s1⟩ := site_of_cell I hv
    obtain ⟨y, c2, s2⟩ := site_of_cell I hu
    have hx : x = e := by
      rcases s1.2 with k | k
      · omega
      · rw [k.2, h2]
    subst hx
    have zu : dem u ≤ z := (le_max_left _ _).trans hz
    have zv : dem v ≤ z := (le_max_right _ _).trans hz
    have hy : dem y ≤ z := ((c2.mono zu).symm).left.2
    obtain ⟨f, f1, f2⟩ := R y s2 hy
    refine ⟨f, f1, ((c1.mono zv).symm).trans (.step (c1.left.1) zv huv.symm ((c2.mono zu).trans f2))⟩

theorem joined_reaches (I : DHInv w h t dem oc D none s) (O : IsOutletVec s os) {z : E} {a b : Nat}
    (j : Joined (os.filter (fun o => decide (o.elev ≤ z))) a b) :
    Reaches w h t dem oc s z a ↔ Reaches w h t dem oc s z b := by
  induction j with
  | refl => rfl
  | symm _ ih => exact ih.symm
  | trans _ _ i1 i2 => exact i1.trans i2
  | @out o ho =>
    obtain ⟨h1, h2⟩ := List.mem_filter.1 ho
    obtain ⟨_, u, v, k1, _, _, k4, k5, k6, _⟩ := outlet_sound I O h1
    have hz : max (dem u) (dem v) ≤ z := by rw [← k6]; simpa using h2
    exact ⟨reaches_step I k1 k4 k5 hz, reaches_step I k1.symm k5 k4 (by rw [max_comm]; exact hz)⟩

theorem reaches_zero (I : DHInv w h t dem oc D none s) (z : E) : Reaches w h t dem oc s z 0 := by
  intro e he hez
  rcases he.2 with ⟨_, h2⟩ | ⟨h1, _⟩
  · exact ⟨e, h2, .refl (I.inside e (by rw [he.1]; simp)) hez⟩
  · omega

/-- The raster is connected. -/
theorem grid_conn (t : Topo) {c d : Cell} (hc : InGrid w h c) (hd : InGrid w h d) :
    Relation.ReflTransGen (fun a b => Adj t a b ∧ InGrid w h a ∧ InGrid w h b) c d := by
  have hx : ∀ (k : Nat) (c d : Cell), InGrid w h c → InGrid w h d → (c.1 - d.1).natAbs + (c.2 - d.2).natAbs = k →
      Relation.ReflTransGen (fun a b => Adj t a b ∧ InGrid w h a ∧ InGrid w h b) c d := by
    intro k
    induction k with
    | zero =>
      intro c d hc hd hk
      have : c = d := by ext <;> omega
      subst this; exact .refl
    | succ k ih =>
      intro c d hc hd hk
      obtain ⟨c1, c2⟩ := c
      obtain ⟨d1, d2⟩ := d
      obtain ⟨e, h1, h2, h3⟩ : ∃ e, Adj t (c1, c2) e ∧ InGrid w h e ∧
          (e.1 - d1).natAbs + (e.2 - d2).natAbs = k := by
        simp only [InGrid] at hc hd
        simp only at hk
        have adj : ∀ x y : Int, (x - c1).natAbs + (y - c2).natAbs = 1 → Adj t (c1, c2) (x, y) := by
          intro x y hxy
          cases t
          · refine ⟨?_, ?_, ?_⟩
            · intro e; simp only [Prod.mk.injEq] at e; omega
            · simp only; omega
            · simp only; omega
          · exact hxy
        by_cases h1 : c1 < d1
        · refine ⟨(c1 + 1, c2), adj _ _ (by omega), ⟨by simp only; omega, by simp only; omega, by simp only; omega, by simp only; omega⟩, by simp only; omega⟩
        · by_cases h2 : d1 < c1
          · refine ⟨(c1 - 1, c2), adj _ _ (by omega), ⟨by simp only; omega, by simp only; omega, by simp only; omega, by simp only; omega⟩, by simp only; omega⟩
          · by_cases h3 : c2 < d2
            · refine ⟨(c1, c2 + 1), adj _ _ (by omega), ⟨by simp only; omega, by simp only; omega, by simp only; omega, by simp only; omega⟩, by simp only; omega⟩
            · refine ⟨(c1, c2 - 1), adj _ _ (by omega), ⟨by simp only; omega, by simp only; omega, by simp only; omega, by simp only; omega⟩, by simp only; omega⟩
      exact .head ⟨h1, hc, h2⟩ (ih e (d1, d2) h2 hd h3)
  exact hx _ c d hc hd rfl

/-- Every label is joined to the ocean. -/
theorem all_joined (I : DHInv w h t dem oc D none s)
    (hL : ∀ c, InGrid w h c → s.label c ≠ none)
    (hC : ∀ u v, InGrid w h u → InGrid w h v → Adj t u v → DHRec dem s.label s.outs u v)
    (O : IsOutletVec s os) {c0 : Cell} (hc0 : InGrid w h c0) (ho0 : oc c0 = true) :
    ∀ l, l < s.ndep → Joined os l 0 := by
  have key : ∀ c, Relation.ReflTransGen (fun a b => Adj t a b ∧ InGrid w h a ∧ InGrid w h b) c c0 →
      ∀ l, s.label c = some l → Joined os l 0 := by
    intro c r
    induction r using Relation.ReflTransGen.head_induction_on with
    | refl =>
      intro l hl
      rw [I.lab0 c0 hc0 ho0] at hl
      cases hl; exact .refl _
    | @head a b hab _ ih =>
      intro l hl
      obtain ⟨h1, h2, h3⟩ := hab
      cases hb : s.label b with
      | none => exact absurd hb (hL b h3)
      | some m =>
        by_cases hlm : l = m
        · subst hlm; exact ih l hb
        · obtain ⟨o, k1, k2, _⟩ := outlet_complete hC O h2 h3 h1 hl hb hlm
          refine Joined.trans ?_ (ih m hb)
          rcases k2 with ⟨rfl, rfl⟩ | ⟨rfl, rfl⟩
          · exact .out k1
          · exact .symm (.out k1)
  intro l hl
  by_cases h0 : l = 0
  · subst h0; exact .refl _
  · obtain ⟨k1, k2⟩ := I.pits l (by omega) hl
    exact key (s.pit l) (grid_conn t k1.1 hc0) l k2

variable {n0 : Nat} {rep : Nat → Nat} {H : Hier E}

/-- Above every depression there is one that drains to the ocean. -/
theorem exists_top (J : HierInv n0 os [] rep H) (hlink : ∀ x, x < H.n → x ≠ 0 → (H.dep x).parent ≠ none) :
    ∀ (k x : Nat), x < H.n → x ≠ 0 → H.n - x = k →
      ∃ y, Anc H.dep x y ∧ (H.dep y).oceanParent = true ∧ y < H.n ∧ y ≠ 0 := by
  intro k
  induction k using Nat.strongRecOn with
  | _ k ih =>
    intro x hx h0 hk
    cases ho : (H.dep x).oceanParent with
    | true => exact ⟨x, .refl _, ho, hx, h0⟩
    | false =>
      cases hp : (H.dep x).parent with
      | none => exact absurd hp (hlink x hx h0)
      | some p =>
        have hu : upOf H.dep x = some p := by unfold upOf; simp [ho, hp]
        obtain ⟨a1, a2, _⟩ := J.up x p hu
        obtain ⟨y, y1, y2⟩ := ih (H.n - p) (by omega) p a2 (by omega) rfl
        exact ⟨y, .step hu y1, y2⟩

/-- The spill elevation of a depression seen from its cells. -/
theorem spill_cells (I : DHInv w h t dem oc D none s)
    (hL : ∀ c, InGrid w h c → s.label c ≠ none)
    (hC : ∀ u v, InGrid w h u → InGrid w h v → Adj t u v → DHRec dem s.label s.outs u v)
    (O : IsOutletVec s os) (J : HierInv s.ndep os [] rep H) {x : Nat} {z : E}
    (hz : (H.dep x).outElev = some z) :
    (∀ u v, Adj t u v → InGrid w h u → InGrid w h v → InDep s.label H.dep x u → ¬ InDep s.label H.dep x v →
      z ≤ max (dem u) (dem v)) ∧
    ∃ u v e, Adj t u v ∧ InGrid w h u ∧ InGrid w h v ∧ InDep s.label H.dep x u ∧
      ¬ InDep s.label H.dep x v ∧ z = max (dem u) (dem v) ∧ (H.dep x).outCell = some e ∧
      (e = u ∨ e = v) ∧ dem e = z := by
  obtain ⟨h1, o, h2, h3, h4, h5⟩ := J.cut x z hz
  constructor
  · intro u v huv hu hv ⟨a, ha, haa⟩ hnb
    cases hb : s.label v with
    | none => exact absurd hb (hL v hv)
    | some b =>
      have hnb' : ¬ Anc H.dep b x := fun k => hnb ⟨b, hb, k⟩
      have hab : a ≠ b := by rintro rfl; exact hnb' haa
      obtain ⟨o, k1, k2, k3⟩ := outlet_complete hC O hu hv huv ha hb hab
      refine (h1 o (.inl k1) ?_).trans k3
      rcases k2 with ⟨rfl, rfl⟩ | ⟨rfl, rfl⟩
      · exact .inl ⟨haa, hnb'⟩
      · exact .inr ⟨haa, hnb'⟩
  · obtain ⟨_, u, v, k1, k2, k3, k4, k5, k6, k7, k8⟩ := outlet_sound I O h2
    rcases h3 with ⟨p, q⟩ | ⟨p, q⟩
    · refine ⟨u, v, o.cell, k1, k2, k3, ⟨_, k4, p⟩, ?_, by rw [← h4]; exact k6, h5, k7, by rw [k8, h4]⟩
      rintro ⟨b, hb, hbb⟩
      rw [k5] at hb; cases hb; exact q hbb
    · refine ⟨v, u, o.cell, k1.symm, k3, k2, ⟨_, k5, p⟩, ?_, by rw [← h4, max_comm]; exact k6, h5, k7.symm, by rw [k8, h4]⟩
      rintro ⟨b, hb, hbb⟩
      rw [k4] at hb; cases hb; exact q hbb

/-- Any path leaving a set of cells contains an edge that leaves it. -/
theorem path_leaves {S : Cell → Prop} : ∀ (p : List Cell) (c e : Cell), p.head? = some c → p.getLast? = some e →
    p.IsChain (Adj t) → S c → ¬ S e → ∃ u v, u ∈ p ∧ v ∈ p ∧ Adj t u v ∧ S u ∧ ¬ S v := by
  intro p
  induction p with
  | nil => intro c e h; simp at h
  | cons a p ih =>
    intro c e h1 h2 h3 h4 h5
    obtain rfl : a = c := by simpa using h1
    cases p with
    | nil =>
      obtain rfl : a = e := by simpa using h2
      exact absurd h4 h5
    | cons b p =>
      obtain ⟨k1, k2⟩ := List.isChain_cons_cons.1 h3
      by_cases hb : S b
      · obtain ⟨u, v, m1, m2, m3⟩ := ih b e rfl (by rw [List.getLast?_cons_cons] at h2; exact h2) k2 hb h5
        exact ⟨u, v, List.mem_cons_of_mem _ m1, List.mem_cons_of_mem _ m2, m3⟩
      · exact ⟨a, b, by simp, by simp, k1, h4, hb⟩

theorem anc_zero (J : HierInv n0 os [] rep H) {x : Nat} (h : Anc H.dep 0 x) : x = 0 := by
  cases h with
  | refl => rfl
  | step h _ => unfold upOf at h; simp [J.ocean0] at h

/-- The height at which water on a cell reaches the ocean. -/
theorem level_cells (I : DHInv w h t dem oc D none s)
    (hL : ∀ c, InGrid w h c → s.label c ≠ none)
    (hC : ∀ u v, InGrid w h u → InGrid w h v → Adj t u v → DHRec dem s.label s.outs u v)
    (O : IsOutletVec s os) (J : HierInv s.ndep os [] rep H) {c : Cell} {l x : Nat} {z : E}
    (hl : s.label c = some l) (hx0 : x ≠ 0) (ha : Anc H.dep l x) (hox : (H.dep x).oceanParent = true)
    (hz : (H.dep x).outElev = some z) :
    IsOceanLevel w h t dem oc c (max (dem c) z) := by
  constructor
  · have j := J.ojoin x z hox hz l (I.lt c l hl) ha
    have R := (joined_reaches I O j).2 (reaches_zero I z)
    obtain ⟨e, c1, s1⟩ := site_of_cell I hl
    have hez : dem e ≤ max (dem c) z := (c1.symm.left.2).trans (le_max_left _ _)
    have R' : Reaches w h t dem oc s (max (dem c) z) l := by
      have j' : Joined (os.filter (fun o => decide (o.elev ≤ max (dem c) z))) l 0 := by
        refine j.mono ?_
        intro o ho
        obtain ⟨k1, k2⟩ := List.mem_filter.1 ho
        refine List.mem_filter.2 ⟨k1, ?_⟩
        have : o.elev ≤ z := by simpa using k2
        simpa using Or.inr this
      exact (joined_reaches I O j').2 (reaches_zero I _)
    obtain ⟨f, f1, f2⟩ := R' e s1 hez
    exact ((c1.mono (le_max_left _ _)).trans f2).path f1
  · intro p P
    obtain ⟨e, e1, e2⟩ := P.last
    have hce : c ∈ p := List.mem_of_mem_head? P.head
    have hee : e ∈ p := List.mem_of_getLast? e1
    obtain ⟨u, v, m1, m2, m3, m4, m5⟩ := path_leaves (t := t) (S := InDep s.label H.dep x) p c e P.head e1 P.chain
      ⟨l, hl, ha⟩ (by
        rintro ⟨b, hb, hbb⟩
        rw [I.lab0 e (P.inGrid e hee) e2] at hb
        cases hb
        exact hx0 (anc_zero J hbb))
    have hle := (spill_cells I hL hC O J hz).1 u v m3 (P.inGrid u m1) (P.inGrid v m2) m4 m5
    rcases le_total z (dem c) with k | k
    · exact ⟨c, hce, by rw [max_eq_left k]⟩
    · rw [max_eq_right k]
      rcases le_total (dem u) (dem v) with q | q
      · rw [max_eq_right q] at hle; exact ⟨v, m2, hle⟩
      · rw [max_eq_left q] at hle; exact ⟨u, m1, hle⟩

/-- A cell draining straight to the ocean. -/
theorem level_ocean (I : DHInv w h t dem oc D none s) {c : Cell} (hl : s.label c = some 0) :
    IsOceanLevel w h t dem oc c (dem c) := by
  constructor
  · obtain ⟨e, c1, s1⟩ := site_of_cell I hl
    rcases s1.2 with ⟨_, k⟩ | ⟨k, _⟩
    · exact c1.path k
    · omega
  · intro p P
    exact ⟨c, List.mem_of_mem_head? P.head, le_refl _⟩
end

end RichDEM
