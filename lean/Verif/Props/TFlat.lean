/-
Property theorem C77 (programs/tiled_flat_resolution).
-/
import Verif.TFlat.Thm
import Verif.Props.Accum
import Verif.Props.ParD8

namespace RichDEM

open Relation

/-! ## C77 -/

section
variable {E : Type*} [LinearOrder E] {T : Tiling} {null : Nat × Nat → Bool} {dem : Cell → E} {nd : E}

/-- Only tiles without data are left out, and blocks are not empty. -/
structure TFOk (T : Tiling) (null : Nat × Nat → Bool) (dem : Cell → E) (nd : E) : Prop where
  bw : 0 < T.bw
  bh : 0 < T.bh
  null : ∀ t c, T.InTile t c → null t = true → dem (T.glob t c) = nd

theorem mem_tfOrder {c : Cell} : c ∈ tfOrder T null ↔ ∃ t a, T.InTile t a ∧ null t = false ∧ T.glob t a = c := by
  unfold tfOrder
  simp only [List.mem_flatMap, List.mem_filter, mem_tileList, List.mem_map, mem_allCells]
  constructor
  · rintro ⟨t, ⟨⟨h1, h2⟩, h3⟩, a, h4, h5⟩
    exact ⟨t, a, ⟨h1, h2, h4⟩, by simpa using h3, h5⟩
  · rintro ⟨t, a, ⟨h1, h2, h4⟩, h3, h5⟩
    exact ⟨t, ⟨⟨h1, h2⟩, by simpa using h3⟩, a, h4, h5⟩

theorem tfOrder_grid {c : Cell} (hc : c ∈ tfOrder T null) : InGrid T.W T.H c := by
  obtain ⟨t, a, h1, -, rfl⟩ := mem_tfOrder.1 hc
  exact h1.inGrid

omit [LinearOrder E] in
theorem data_visited (K : TFOk T null dem nd) {c : Cell} (hc : InGrid T.W T.H c) (hd : dem c ≠ nd) : c ∈ tfOrder T null := by
  obtain ⟨t, a, h1, rfl⟩ := Tiling.cover K.bw K.bh hc
  refine mem_tfOrder.2 ⟨t, a, h1, ?_, rfl⟩
  cases hn : null t with
  | false => rfl
  | true => exact absurd (K.null t a h1 hn) hd

theorem tiled_eq (K : TFOk T null dem nd) {c : Cell} (hc : InGrid T.W T.H c) (hd : dem c ≠ nd) :
    tiledFlats T null dem nd c = (tfRun T.W T.H dem nd (tfOrder T null)).fd c := by
  unfold tiledFlats
  rw [if_pos (data_visited K hc hd)]

/-- A cell has a direction if it drains: it has a neighbour outside the raster, a NoData neighbour or a lower one.  C77: a data cell gets a direction
exactly if a cell that drains can be reached from it over cells of the same elevation. -/
theorem C77_resolved_iff (K : TFOk T null dem nd) (c : Cell) (hc : InGrid T.W T.H c) (hd : dem c ≠ nd) :
    tiledFlats T null dem nd c ≠ 0 ↔
      ∃ d, ReflTransGen (fun a b => Adj .D8 a b ∧ InGrid T.W T.H b ∧ dem b ≠ nd ∧ dem b = dem a) c d ∧
        ∃ b, Adj .D8 d b ∧ (¬InGrid T.W T.H b ∨ dem b = nd ∨ dem b < dem d) := by
  obtain ⟨⟨⟨r, k, I⟩, hcl, hq⟩, hR⟩ := tfRun_spec (w := T.W) (h := T.H) (dem := dem) (nd := nd) (order := tfOrder T null) (fun c hc => tfOrder_grid hc)
  rw [tiled_eq K hc hd]
  constructor
  · exact fun hf => I.reach c hf hd
  · rintro ⟨d, h1, h2⟩
    have hgoal : ∀ x, ReflTransGen (TFLevel T.W T.H dem nd) c x → InGrid T.W T.H x ∧ dem x ≠ nd := by
      intro x hx
      induction hx with
      | refl => exact ⟨hc, hd⟩
      | tail _ h3 _ => exact ⟨h3.2.1, h3.2.2.1⟩
    -- back from the cell that drains
    have key : ∀ x, ReflTransGen (TFLevel T.W T.H dem nd) c x → (tfRun T.W T.H dem nd (tfOrder T null)).fd x ≠ 0 →
        (tfRun T.W T.H dem nd (tfOrder T null)).fd c ≠ 0 := by
      intro x hx
      induction hx with
      | refl => exact id
      | @tail y z hy hyz ih =>
        intro hz
        apply ih
        obtain ⟨hyg, hyd⟩ := hgoal y hy
        by_cases he : OnEdge T.W T.H y
        · exact hR y (data_visited K hyg hyd) (Or.inr (drain_of_edge he))
        · by_contra h0
          rcases hcl z y hz hyz.2.2.1 ⟨hyz.1.symm, hyg, hyd, hyz.2.2.2.symm⟩ he h0 with g | g
          · rw [hq] at g; cases g
          · cases g
    obtain ⟨hdg, hdd⟩ := hgoal d h1
    exact key d h1 (hR d (data_visited K hdg hdd) (Or.inr h2))

/-- C77: NoData cells get 255, data cells one of the eight directions or none. -/
theorem C77_codes (K : TFOk T null dem nd) (c : Cell) (hc : InGrid T.W T.H c) :
    (dem c = nd → tiledFlats T null dem nd c = 255) ∧ (dem c ≠ nd → tiledFlats T null dem nd c ≤ 8) := by
  obtain ⟨⟨⟨r, k, I⟩, hcl, hq⟩, hR⟩ := tfRun_spec (w := T.W) (h := T.H) (dem := dem) (nd := nd) (order := tfOrder T null) (fun c hc => tfOrder_grid hc)
  constructor
  · intro hn
    unfold tiledFlats
    by_cases hv : c ∈ tfOrder T null
    · rw [if_pos hv]; exact I.none c (hR c hv (Or.inl hn)) hn
    · rw [if_neg hv]
  · intro hd
    rw [tiled_eq K hc hd]
    by_cases h0 : (tfRun T.W T.H dem nd (tfOrder T null)).fd c = 0
    · rw [h0]; omega
    · have := (mem_dirs.1 (I.dir c h0 hd)).2
      simpa [nmax] using this

/-- C77: flow never goes uphill. -/
theorem C77_never_uphill (K : TFOk T null dem nd) (a b : Cell) (hab : D8FlowsTo T.W T.H (tiledFlats T null dem nd) 255 a b) :
    dem a ≠ nd ∧ dem b ≠ nd ∧ dem b ≤ dem a := by
  obtain ⟨⟨⟨r, k, I⟩, hcl, hq⟩, hR⟩ := tfRun_spec (w := T.W) (h := T.H) (dem := dem) (nd := nd) (order := tfOrder T null) (fun c hc => tfOrder_grid hc)
  obtain ⟨⟨ha, hfa⟩, ⟨hb, hfb⟩, hf0, rfl⟩ := hab
  have hda : dem a ≠ nd := fun e => hfa ((C77_codes K a ha).1 e)
  have hdb : dem _ ≠ nd := fun e => hfb ((C77_codes K _ hb).1 e)
  refine ⟨hda, hdb, ?_⟩
  rw [tiled_eq K ha hda] at hb hf0 hdb ⊢
  rcases I.good a hf0 hda with g | g | g | g
  · exact absurd hb g
  · exact absurd g hdb
  · exact g.le
  · exact g.1.le

/-- Cells that come before `c` in the order of elevation and time. -/
theorem tf_rank (K : TFOk T null dem nd) : ∃ m : Cell → Nat, ∀ a b, D8FlowsTo T.W T.H (tiledFlats T null dem nd) 255 a b → m b < m a := by
  obtain ⟨⟨⟨r, k, I⟩, hcl, hq⟩, hR⟩ := tfRun_spec (w := T.W) (h := T.H) (dem := dem) (nd := nd) (order := tfOrder T null) (fun c hc => tfOrder_grid hc)
  let S : Cell → Finset Cell := fun c => (allCells T.W T.H).toFinset.filter (fun x => dem x < dem c ∨ (dem x = dem c ∧ r x < r c))
  refine ⟨fun c => (S c).card, ?_⟩
  intro a b hab
  obtain ⟨hda, hdb, hle⟩ := C77_never_uphill K a b hab
  obtain ⟨⟨ha, hfa⟩, ⟨hb, hfb⟩, hf0, rfl⟩ := hab
  rw [tiled_eq K ha hda] at hb hf0 hdb hle ⊢
  have hlt : dem (nbr .D8 a ((tfRun T.W T.H dem nd (tfOrder T null)).fd a)) < dem a ∨
      (dem (nbr .D8 a ((tfRun T.W T.H dem nd (tfOrder T null)).fd a)) = dem a ∧ r (nbr .D8 a ((tfRun T.W T.H dem nd (tfOrder T null)).fd a)) < r a) := by
    rcases I.good a hf0 hda with g | g | g | g
    · exact absurd hb g
    · exact absurd g hdb
    · exact Or.inl g
    · exact Or.inr ⟨g.1, g.2.2⟩
  generalize nbr .D8 a ((tfRun T.W T.H dem nd (tfOrder T null)).fd a) = b at *
  apply Finset.card_lt_card
  rw [Finset.ssubset_iff_of_subset]
  · refine ⟨b, ?_, ?_⟩
    · simp only [S, Finset.mem_filter, List.mem_toFinset, mem_allCells]
      exact ⟨hb, hlt⟩
    · simp [S]
  · intro x hx
    simp only [S, Finset.mem_filter, List.mem_toFinset, mem_allCells] at hx ⊢
    refine ⟨hx.1, ?_⟩
    rcases hx.2 with h1 | ⟨h1, h2⟩
    · exact Or.inl (lt_of_lt_of_le h1 hle)
    · rcases hlt with h3 | ⟨h3, h4⟩
      · exact Or.inl (by rw [h1]; exact h3)
      · exact Or.inr ⟨h1.trans h3, h2.trans h4⟩

/-- C77: the directions form no loops. -/
theorem C77_no_loops (K : TFOk T null dem nd) (c : Cell) : ¬TransGen (D8FlowsTo T.W T.H (tiledFlats T null dem nd) 255) c c := by
  obtain ⟨m, hm⟩ := tf_rank K
  have key : ∀ a b, TransGen (D8FlowsTo T.W T.H (tiledFlats T null dem nd) 255) a b → m b < m a := by
    intro a b hab
    induction hab with
    | single h1 => exact hm _ _ h1
    | tail _ h1 ih => exact (hm _ _ h1).trans ih
  intro hc
  exact lt_irrefl _ (key c c hc)

/-- C77: on a raster without depressions, the flow from every data cell leaves the data: following the directions from it leads to a cell that
points out of the raster or at a NoData cell.  (Without depressions: every data cell has a path over data cells that never goes up and ends on the raster's edge
or beside NoData.) -/
theorem C77_drains (K : TFOk T null dem nd)
    (hfill : ∀ c, InGrid T.W T.H c → dem c ≠ nd → ∃ p, DataPath T.W T.H .D8 dem nd c p ∧ p.IsChain (fun a b => dem b ≤ dem a))
    (c : Cell) (hc : InGrid T.W T.H c) (hd : dem c ≠ nd) :
    ∃ b, ReflTransGen (D8FlowsTo T.W T.H (tiledFlats T null dem nd) 255) c b ∧ InGrid T.W T.H b ∧ dem b ≠ nd ∧
      tiledFlats T null dem nd b ∈ dirs .D8 ∧
      (¬InGrid T.W T.H (nbr .D8 b (tiledFlats T null dem nd b)) ∨ dem (nbr .D8 b (tiledFlats T null dem nd b)) = nd) := by
  obtain ⟨m, hm⟩ := tf_rank K
  have hres : ∀ c, InGrid T.W T.H c → dem c ≠ nd → tiledFlats T null dem nd c ≠ 0 := by
    intro c hc hd
    rw [C77_resolved_iff K c hc hd]
    obtain ⟨p, hp, hmon⟩ := hfill c hc hd
    -- walk along the path until it descends
    have key : ∀ (p : List Cell) (c : Cell), DataPath T.W T.H .D8 dem nd c p → p.IsChain (fun a b => dem b ≤ dem a) →
        ∃ d, ReflTransGen (fun a b => Adj .D8 a b ∧ InGrid T.W T.H b ∧ dem b ≠ nd ∧ dem b = dem a) c d ∧
          ∃ b, Adj .D8 d b ∧ (¬InGrid T.W T.H b ∨ dem b = nd ∨ dem b < dem d) := by
      intro p
      induction p with
      | nil => intro c hp _; have := hp.head; simp at this
      | cons x p ih =>
        intro c hp hmon
        have hxc : x = c := by have := hp.head; simpa using this
        subst hxc
        cases p with
        | nil =>
          obtain ⟨e, h1, h2⟩ := hp.last
          simp only [List.getLast?_singleton, Option.some.injEq] at h1
          subst h1
          rcases h2 with h2 | ⟨b, h2, h3, h4⟩
          · exact ⟨x, ReflTransGen.refl, drain_of_edge h2⟩
          · exact ⟨x, ReflTransGen.refl, b, h2, Or.inr (Or.inl h4)⟩
        | cons y p =>
          have h1 := (List.isChain_cons_cons.1 hp.chain).1
          have h2 := (List.isChain_cons_cons.1 hmon).1
          obtain ⟨h3, h4⟩ := hp.data y (by simp)
          rcases lt_or_eq_of_le h2 with h5 | h5
          · exact ⟨x, ReflTransGen.refl, y, h1, Or.inr (Or.inr h5)⟩
          · obtain ⟨d, h6, h7⟩ := ih y ⟨rfl, (List.isChain_cons_cons.1 hp.chain).2, fun q hq => hp.data q (by simp [hq]), by
              obtain ⟨e, h8, h9⟩ := hp.last
              exact ⟨e, by rwa [List.getLast?_cons_cons] at h8, h9⟩⟩ (List.isChain_cons_cons.1 hmon).2
            exact ⟨d, ReflTransGen.head ⟨h1, h3, h4, h5⟩ h6, h7⟩
    exact key p c hp hmon
  generalize hk : m c = k
  induction k using Nat.strong_induction_on generalizing c with
  | _ k ih =>
    have h0 := hres c hc hd
    have h8 := (C77_codes K c hc).2 hd
    have hdir : tiledFlats T null dem nd c ∈ dirs .D8 := mem_dirs.2 ⟨by omega, by simpa [nmax] using h8⟩
    by_cases hin : InGrid T.W T.H (nbr .D8 c (tiledFlats T null dem nd c))
    · by_cases hdn : dem (nbr .D8 c (tiledFlats T null dem nd c)) = nd
      · exact ⟨c, ReflTransGen.refl, hc, hd, hdir, Or.inr hdn⟩
      · have hstep : D8FlowsTo T.W T.H (tiledFlats T null dem nd) 255 c (nbr .D8 c (tiledFlats T null dem nd c)) := by
          refine ⟨⟨hc, by omega⟩, ⟨hin, ?_⟩, h0, rfl⟩
          have := (C77_codes K _ hin).2 hdn
          omega
        obtain ⟨b, h1, h2⟩ := ih _ (by rw [← hk]; exact hm _ _ hstep) _ hin hdn rfl
        exact ⟨b, ReflTransGen.head hstep h1, h2⟩
    · exact ⟨c, ReflTransGen.refl, hc, hd, hdir, Or.inl hin⟩

/-- C77: data cells on the raster's edge point out of the raster. -/
theorem C77_edges (K : TFOk T null dem nd) (c : Cell) (hc : OnEdge T.W T.H c) (hd : dem c ≠ nd) :
    tiledFlats T null dem nd c ∈ dirs .D8 ∧ ¬InGrid T.W T.H (nbr .D8 c (tiledFlats T null dem nd c)) := by
  obtain ⟨⟨⟨r, k, I⟩, hcl, hq⟩, hR⟩ := tfRun_spec (w := T.W) (h := T.H) (dem := dem) (nd := nd) (order := tfOrder T null) (fun c hc => tfOrder_grid hc)
  rw [tiled_eq K hc.1 hd]
  have h0 := hR c (data_visited K hc.1 hd) (Or.inr (drain_of_edge hc))
  exact ⟨I.dir c h0 hd, I.edge c h0 hd hc⟩

/-- C77: a data cell inside the raster that has no neighbour of its own elevation points at a NoData neighbour if there is one, otherwise at the lowest of
its neighbours if that is lower than the cell, and has no direction if it is not. -/
theorem C77_steepest (K : TFOk T null dem nd) (c : Cell) (hc : InGrid T.W T.H c) (hne : ¬OnEdge T.W T.H c) (hd : dem c ≠ nd)
    (hno : ∀ b, Adj .D8 c b → dem b ≠ nd → dem b ≠ dem c) :
    ((∃ b, Adj .D8 c b ∧ (dem b = nd ∨ dem b < dem c)) → tiledFlats T null dem nd c ∈ dirs .D8 ∧
      (dem (nbr .D8 c (tiledFlats T null dem nd c)) = nd ∨
        ∀ b, Adj .D8 c b → dem b ≠ nd ∧ dem (nbr .D8 c (tiledFlats T null dem nd c)) ≤ dem b)) ∧
    ((∀ b, Adj .D8 c b → dem b ≠ nd ∧ dem c ≤ dem b) → tiledFlats T null dem nd c = 0) := by
  obtain ⟨⟨⟨r, k, I⟩, hcl, hq⟩, hR⟩ := tfRun_spec (w := T.W) (h := T.H) (dem := dem) (nd := nd) (order := tfOrder T null) (fun c hc => tfOrder_grid hc)
  have hin : ∀ b, Adj .D8 c b → InGrid T.W T.H b := by
    intro b hb
    obtain ⟨x, y⟩ := c
    obtain ⟨x', y'⟩ := b
    obtain ⟨-, h1, h2⟩ := hb
    obtain ⟨g1, g2, g3, g4⟩ := hc
    have : ¬(x = 0 ∨ y = 0 ∨ x = (T.W : Int) - 1 ∨ y = (T.H : Int) - 1) := fun g => hne ⟨⟨g1, g2, g3, g4⟩, g⟩
    dsimp only at *
    refine ⟨?_, ?_, ?_, ?_⟩ <;> dsimp only <;> omega
  constructor
  · rintro ⟨b, hb, hb2⟩
    rw [tiled_eq K hc hd]
    have h0 := hR c (data_visited K hc hd) (Or.inr ⟨b, hb, Or.inr hb2⟩)
    refine ⟨I.dir c h0 hd, ?_⟩
    rcases I.steep c h0 hd hne (fun b hl => hno b hl.1 hl.2.2.1 hl.2.2.2) with (g | g) | g
    · exact absurd (hin _ (nbr_adj (I.dir c h0 hd))) g
    · exact Or.inl g
    · exact Or.inr (fun b hb => ⟨(g.2 b hb).2.1, (g.2 b hb).2.2⟩)
  · intro hall
    by_contra h0
    obtain ⟨d, h1, b, h2, h3⟩ := (C77_resolved_iff K c hc hd).1 h0
    rcases ReflTransGen.cases_head h1 with rfl | ⟨x, h4, _⟩
    · rcases h3 with h3 | h3 | h3
      · exact h3 (hin b h2)
      · exact (hall b h2).1 h3
      · exact absurd h3 (not_lt.2 (hall b h2).2)
    · exact hno x h4.1 h4.2.2.1 h4.2.2.2

/-- C77: neither of the warnings about loops is ever printed. -/
theorem C77_no_warning (T : Tiling) (null : Nat × Nat → Bool) (dem : Cell → E) (nd : E) :
    (tfRun T.W T.H dem nd (tfOrder T null)).warn = false := by
  obtain ⟨⟨⟨r, k, I⟩, -, -⟩, -⟩ := tfRun_spec (w := T.W) (h := T.H) (dem := dem) (nd := nd) (order := tfOrder T null) (fun c hc => tfOrder_grid hc)
  exact I.warn

end

/-- A 6 by 5 raster with a flat, a depression and NoData, in 4 by 2 blocks of which one holds no data. -/
def tfDem : Cell → Int := ofRows (-1) [[9, 9, 9, 9, 9, 9], [9, 5, 5, 5, 7, 9], [9, 5, 5, 5, 4, 9], [9, 2, 9, 5, 9, 9], [9, 9, 9, 9, -1, -1]]

def tfT : Tiling := { W := 6, H := 5, bw := 4, bh := 2 }

example : TFOk tfT (fun t => decide (t = (2, 1))) tfDem (-1) := by
  refine ⟨by decide, by decide, ?_⟩
  intro t c hc hn
  have e : t = (2, 1) := by simpa using hn
  subst e
  have : ∀ c ∈ allCells (tfT.tw 1) (tfT.th 2), tfDem (tfT.glob (2, 1) c) = -1 := by decide +kernel
  exact this c (mem_allCells.2 hc.2.2)

example : toRows 6 5 (tiledFlats tfT (fun t => decide (t = (2, 1))) tfDem (-1)) =
    [[2, 3, 3, 3, 3, 4], [1, 5, 5, 6, 7, 5], [1, 4, 4, 3, 0, 5], [1, 0, 1, 3, 4, 5], [1, 7, 7, 7, 255, 255]] := by decide +kernel

end RichDEM
