/-
Property theorems C53 (flat resolution on D8 flow directions) and C54 (the D8 pipeline: fill,
directions, flat resolution, accumulation).
-/
import Verif.Flats.FlowFlats
import Verif.Props.FlowDir
import Verif.Props.Accum
import Verif.Props.Flood
import Verif.Props.Flats
import Verif.Props.Fill

namespace RichDEM

open Relation

variable {E : Type*} [LinearOrder E]

/-! ### Specification -/

/-- A data cell with no way down: not on the edge, and no neighbour is lower. -/
def NoDescent (w h : Nat) (dem : Cell → E) (nd : E) (c : Cell) : Prop :=
  InGrid w h c ∧ ¬ OnEdge w h c ∧ dem c ≠ nd ∧ ∀ b, Adj .D8 c b → dem c ≤ dem b

/-- A data cell that drains of itself: on the edge, or with a lower neighbour. -/
def Descends (w h : Nat) (dem : Cell → E) (nd : E) (c : Cell) : Prop :=
  InGrid w h c ∧ dem c ≠ nd ∧ (OnEdge w h c ∨ ∃ b, Adj .D8 c b ∧ dem b < dem c)

/-- The direction of `e` leads out of the data region: off the raster or into a NoData cell. -/
def ExitsAt (w h : Nat) (dem : Cell → E) (nd : E) (fd : Cell → Nat) (e : Cell) : Prop :=
  InGrid w h e ∧ dem e ≠ nd ∧ (1 ≤ fd e ∧ fd e ≤ 8) ∧
    (¬ InGrid w h (nbr .D8 e (fd e)) ∨ dem (nbr .D8 e (fd e)) = nd)

/-! ### The directions before resolution -/

section
variable {w h : Nat} {dem : Cell → E} {nd : E}

theorem fdFlat_iff (c : Cell) : FdFlat w h (d8FlowDirections w h dem nd) c ↔
    NoDescent w h dem nd c := by
  unfold FdFlat NoDescent
  constructor
  · rintro ⟨hc, h0⟩
    have hnd : dem c ≠ nd := by
      intro e; simp [d8FlowDirections, e, FLOWDIR_NO_DATA] at h0
    simp only [d8FlowDirections, if_neg hnd] at h0
    have he : ¬ OnEdge w h c := by
      intro he; have := (C16_edge w h dem c he).1; omega
    exact ⟨hc, he, hnd, (C16_interior w h dem c hc he).1.1 h0⟩
  · rintro ⟨hc, he, hnd, hall⟩
    refine ⟨hc, ?_⟩
    simp only [d8FlowDirections, if_neg hnd]
    exact (C16_interior w h dem c hc he).1.2 hall

theorem fdOut_iff (c : Cell) : FdOut w h (d8FlowDirections w h dem nd) c ↔
    Descends w h dem nd c := by
  unfold FdOut Descends
  constructor
  · rintro ⟨hc, h0, hn⟩
    have hnd : dem c ≠ nd := fun e => hn ((C16_noData w h dem nd c hc).1.2 e)
    refine ⟨hc, hnd, ?_⟩
    by_cases he : OnEdge w h c
    · exact .inl he
    · right
      by_contra hno
      apply h0
      refine ((fdFlat_iff c).2 ⟨hc, he, hnd, fun b hb => ?_⟩).2
      by_contra hlt
      exact hno ⟨b, hb, not_le.1 hlt⟩
  · rintro ⟨hc, hnd, hor⟩
    refine ⟨hc, ?_, fun e => hnd ((C16_noData w h dem nd c hc).1.1 e)⟩
    intro h0
    obtain ⟨_, h2, _, h4⟩ := (fdFlat_iff c).1 ⟨hc, h0⟩
    rcases hor with h5 | ⟨b, hb, hlt⟩
    · exact h2 h5
    · exact absurd hlt (not_lt.2 (h4 b hb))

theorem d8Sys : FlatSys w h dem (NoDescent w h dem nd) (Descends w h dem nd)
    (FdHigh w h dem (d8FlowDirections w h dem nd)) (fun c => d8FlowDirections w h dem nd c == 0)
    (fdLow w h dem (d8FlowDirections w h dem nd))
    (fdHigh w h dem (d8FlowDirections w h dem nd)) := by
  have h1 : FdFlat w h (d8FlowDirections w h dem nd) = NoDescent w h dem nd := by
    funext c; exact propext (fdFlat_iff c)
  have h2 : FdOut w h (d8FlowDirections w h dem nd) = Descends w h dem nd := by
    funext c; exact propext (fdOut_iff c)
  rw [← h1, ← h2]
  refine fdSys ?_
  intro a b ha hb he h0 hn
  have h3 := (C16_noData w h dem nd b hb).1.1 hn
  rw [he] at h3
  rw [(C16_noData w h dem nd a ha).1.2 h3] at h0
  simp [FLOWDIR_NO_DATA] at h0

end

/-! ### C53 -/

section
variable (w h : Nat) (dem : Cell → E) (nd : E)

/-- The mask used by the flat resolution (a witness for the statements below). -/
theorem barnes_cases (c : Cell) (hc : InGrid w h c) :
    (d8FlowDirections w h dem nd c ≠ 0 ∧
      barnesFlatResolutionD8 w h dem nd c = d8FlowDirections w h dem nd c) ∨
    (NoDescent w h dem nd c ∧ barnesFlatResolutionD8 w h dem nd c =
      maskedFlowDir (resolveFlatsBarnes w h dem (d8FlowDirections w h dem nd)).1
        (resolveFlatsBarnes w h dem (d8FlowDirections w h dem nd)).2 c) := by
  by_cases h0 : d8FlowDirections w h dem nd c = 0
  · right
    have hf := (fdFlat_iff c).1 ⟨hc, h0⟩
    refine ⟨hf, ?_⟩
    have h2 : ¬ (c.1 = 0 ∨ c.2 = 0 ∨ c.1 = (w:Int) - 1 ∨ c.2 = (h:Int) - 1) :=
      fun e => hf.2.1 ⟨hc, e⟩
    obtain ⟨h3, h4, h5, h6⟩ := hc
    have hm := (core_zero_elsewhere (d8Sys (w := w) (h := h) (dem := dem) (nd := nd)) c).1
    unfold barnesFlatResolutionD8 d8FlowFlats
    rw [if_pos (by omega), if_neg, if_pos h0]
    intro e
    unfold resolveFlatsBarnes at e
    omega
  · left
    refine ⟨h0, ?_⟩
    unfold barnesFlatResolutionD8 d8FlowFlats
    split
    · split
      · rfl
      · rfl
    · rfl

/-- C53: a cell that already had a flow direction (or is NoData) keeps its direction value. -/
theorem C53_keeps (c : Cell) (hc : InGrid w h c)
    (hf : dem c = nd ∨ OnEdge w h c ∨ ∃ b, Adj .D8 c b ∧ dem b < dem c) :
    barnesFlatResolutionD8 w h dem nd c = d8FlowDirections w h dem nd c := by
  rcases barnes_cases w h dem nd c hc with h1 | ⟨⟨_, h2, h3, h4⟩, _⟩
  · exact h1.2
  · rcases hf with h5 | h5 | ⟨b, hb, hlt⟩
    · exact absurd h5 h3
    · exact absurd h5 h2
    · exact absurd hlt (not_lt.2 (h4 b hb))

/-- C53: a cell without descent gets a direction iff its constant-elevation region contains a cell
that drains of itself; otherwise it stays without direction (0). -/
theorem C53_resolved_iff (c : Cell) (hc : NoDescent w h dem nd c) :
    barnesFlatResolutionD8 w h dem nd c ≠ 0 ↔
      ∃ o, Descends w h dem nd o ∧ SameRegion w h dem c o := by
  have hS := d8Sys (w := w) (h := h) (dem := dem) (nd := nd)
  rcases barnes_cases w h dem nd c hc.1 with h1 | ⟨_, h1⟩
  · exact absurd ((fdFlat_iff c).2 hc).2 h1.1
  rw [h1]
  rcases maskedFlowDir_spec (resolveFlatsBarnes w h dem (d8FlowDirections w h dem nd)).1
      (resolveFlatsBarnes w h dem (d8FlowDirections w h dem nd)).2 c with ⟨h2, h3⟩ | ⟨h2, h3, h4, _⟩
  · rw [h2]
    refine ⟨fun e => absurd rfl e, fun ⟨o, ho, hr⟩ => ?_⟩
    obtain ⟨b, k1, _, _, k4, k5, _⟩ := core_descends hS c ⟨hc, o, ho, hr⟩
    exact absurd k5 (h3 b k1 k4)
  · refine ⟨fun _ => ?_, fun _ => ?_⟩
    · -- the mask of c is positive
      have hz := core_zero_elsewhere hS c
      have hzb := (core_zero_elsewhere hS (nbr .D8 c (maskedFlowDir
        (resolveFlatsBarnes w h dem (d8FlowDirections w h dem nd)).1
        (resolveFlatsBarnes w h dem (d8FlowDirections w h dem nd)).2 c))).1
      have hne : (resolveFlatsBarnes w h dem (d8FlowDirections w h dem nd)).1 c ≠ 0 := by
        unfold resolveFlatsBarnes at h4 hzb ⊢; omega
      rcases hz.2.1 hne with k | k
      · exact absurd k.1 (hS.disj c hc)
      · exact k.2
    · have : 1 ≤ _ := (mem_dirs.1 h2).1
      omega

/-- C53: the direction given to a cell without descent leads to a neighbour in the raster of the
same elevation which has a direction itself. -/
theorem C53_direction (c : Cell) (hc : NoDescent w h dem nd c)
    (hr : barnesFlatResolutionD8 w h dem nd c ≠ 0) :
    let b := nbr .D8 c (barnesFlatResolutionD8 w h dem nd c)
    (1 ≤ barnesFlatResolutionD8 w h dem nd c ∧ barnesFlatResolutionD8 w h dem nd c ≤ 8) ∧
    InGrid w h b ∧ dem b = dem c ∧ barnesFlatResolutionD8 w h dem nd b ≠ 0 ∧
    (resolveFlatsBarnes w h dem (d8FlowDirections w h dem nd)).1 b <
      (resolveFlatsBarnes w h dem (d8FlowDirections w h dem nd)).1 c := by
  have hS := d8Sys (w := w) (h := h) (dem := dem) (nd := nd)
  have hdr : DrainableOf w h dem (NoDescent w h dem nd) (Descends w h dem nd) c :=
    ⟨hc, (C53_resolved_iff w h dem nd c hc).1 hr⟩
  have hlab := (core_drainable hS c hc).2 hdr
  intro b
  rcases barnes_cases w h dem nd c hc.1 with h1 | ⟨_, h1⟩
  · exact absurd ((fdFlat_iff c).2 hc).2 h1.1
  rcases maskedFlowDir_spec (resolveFlatsBarnes w h dem (d8FlowDirections w h dem nd)).1
      (resolveFlatsBarnes w h dem (d8FlowDirections w h dem nd)).2 c with ⟨h2, h3⟩ | ⟨h2, h3, h4, _⟩
  · rw [h1, h2] at hr; exact absurd rfl hr
  · rw [← h1] at h2 h3 h4
    have hbg : InGrid w h b := C23_reads_in_grid w h c b hc.1 hc.2.1 (nbr_adj h2)
    have hreg : SameRegion w h dem c b := (core_same_label hS c b hlab).1 h3.symm
    refine ⟨mem_dirs.1 h2, hbg, hreg.elev, ?_, h4⟩
    have hbd : dem b ≠ nd := by rw [hreg.elev]; exact hc.2.2.1
    by_cases hb0 : d8FlowDirections w h dem nd b = 0
    · have hbf := (fdFlat_iff b).1 ⟨hbg, hb0⟩
      obtain ⟨o, ho, hro⟩ := hdr.2
      exact (C53_resolved_iff w h dem nd b hbf).2 ⟨o, ho, hreg.symm.trans hro⟩
    · rcases barnes_cases w h dem nd b hbg with k | ⟨k, _⟩
      · rw [k.2]; exact hb0
      · exact absurd ((fdFlat_iff b).2 k).2 hb0

/-- C53: values stay in range: 255 exactly on NoData cells, 0..8 elsewhere. -/
theorem C53_values (c : Cell) (hc : InGrid w h c) :
    (barnesFlatResolutionD8 w h dem nd c = FLOWDIR_NO_DATA ↔ dem c = nd) ∧
    (dem c ≠ nd → barnesFlatResolutionD8 w h dem nd c ≤ 8) := by
  rcases barnes_cases w h dem nd c hc with h1 | ⟨hf, h1⟩
  · rw [h1.2]; exact C16_noData w h dem nd c hc
  · have h8 : barnesFlatResolutionD8 w h dem nd c ≤ 8 := by
      by_cases h0 : barnesFlatResolutionD8 w h dem nd c = 0
      · omega
      · exact (C53_direction w h dem nd c hf h0).1.2
    refine ⟨⟨fun e => ?_, fun e => absurd e hf.2.2.1⟩, fun _ => h8⟩
    rw [e] at h8; simp [FLOWDIR_NO_DATA] at h8

/-- Flow goes down in elevation, or stays level and goes down in the mask. -/
theorem flow_decreases (a b : Cell)
    (hab : D8FlowsTo w h (barnesFlatResolutionD8 w h dem nd) FLOWDIR_NO_DATA a b) :
    dem b < dem a ∨ (dem b = dem a ∧
      (resolveFlatsBarnes w h dem (d8FlowDirections w h dem nd)).1 b <
        (resolveFlatsBarnes w h dem (d8FlowDirections w h dem nd)).1 a) := by
  obtain ⟨⟨ha, hna⟩, ⟨hb, hnb⟩, h0, rfl⟩ := hab
  have hda : dem a ≠ nd := fun e => hna ((C53_values w h dem nd a ha).1.2 e)
  rcases barnes_cases w h dem nd a ha with h1 | ⟨hf, h1⟩
  · left
    rw [h1.2] at hb ⊢
    simp only [d8FlowDirections, if_neg hda] at hb ⊢
    by_cases he : OnEdge w h a
    · exact absurd hb (C16_edge w h dem a he).2.2
    · refine ((C16_interior w h dem a ha he).2 ?_).2.2.2.2.1
      have := h1.1
      simpa only [d8FlowDirections, if_neg hda] using this
  · right
    obtain ⟨_, _, h3, _, h5⟩ := C53_direction w h dem nd a hf h0
    exact ⟨h3, h5⟩

/-- C53: the resolved directions contain no cycle. -/
theorem C53_acyclic (c : Cell) :
    NoCycleAbove (D8FlowsTo w h (barnesFlatResolutionD8 w h dem nd) FLOWDIR_NO_DATA) c := by
  intro a _ hcyc
  have key : ∀ x y, TransGen (D8FlowsTo w h (barnesFlatResolutionD8 w h dem nd) FLOWDIR_NO_DATA) x y →
      dem y < dem x ∨ (dem y = dem x ∧
        (resolveFlatsBarnes w h dem (d8FlowDirections w h dem nd)).1 y <
          (resolveFlatsBarnes w h dem (d8FlowDirections w h dem nd)).1 x) := by
    intro x y hxy
    induction hxy with
    | single h1 => exact flow_decreases w h dem nd _ _ h1
    | tail _ h1 ih =>
      rcases flow_decreases w h dem nd _ _ h1 with h2 | ⟨h2, h3⟩ <;> rcases ih with h4 | ⟨h4, h5⟩
      · exact .inl (lt_trans h2 h4)
      · exact .inl (h4 ▸ h2)
      · exact .inl (h2 ▸ h4)
      · exact .inr ⟨h2.trans h4, lt_trans h3 h5⟩
  rcases key a a hcyc with h1 | ⟨_, h1⟩
  · exact lt_irrefl _ h1
  · exact lt_irrefl _ h1

/-- Where there is no cell without descent that cannot be drained, every data cell has a
direction. -/
theorem resolved_all (hall : ∀ c, NoDescent w h dem nd c →
      ∃ o, Descends w h dem nd o ∧ SameRegion w h dem c o) (c : Cell) (hc : InGrid w h c)
    (hd : dem c ≠ nd) :
    1 ≤ barnesFlatResolutionD8 w h dem nd c ∧ barnesFlatResolutionD8 w h dem nd c ≤ 8 := by
  refine ⟨?_, (C53_values w h dem nd c hc).2 hd⟩
  rcases barnes_cases w h dem nd c hc with h1 | ⟨hf, _⟩
  · rw [h1.2]; have := h1.1; omega
  · have := (C53_resolved_iff w h dem nd c hf).2 (hall c hf); omega

theorem flow_wf : WellFounded (fun b a =>
    D8FlowsTo w h (barnesFlatResolutionD8 w h dem nd) FLOWDIR_NO_DATA a b) := by
  set r := D8FlowsTo w h (barnesFlatResolutionD8 w h dem nd) FLOWDIR_NO_DATA with hr
  have : Finite {c // InGrid w h c} := by
    apply Set.Finite.subset (s := ((allCells w h).toFinset : Set Cell)) (Finset.finite_toSet _)
    intro c hc
    have hc' : InGrid w h c := hc
    simp only [List.coe_toFinset, Set.mem_ofPred_eq, mem_allCells]; exact hc'
  -- no infinite descent: transitive and irreflexive on a finite set
  have hirr : ∀ a, ¬ TransGen r a a := fun a => C53_acyclic w h dem nd a a .refl
  have hwf : WellFounded (fun b a : {c // InGrid w h c} => TransGen r a.1 b.1) := by
    have : IsTrans {c // InGrid w h c} (fun b a => TransGen r a.1 b.1) :=
      ⟨fun a b c h1 h2 => h2.trans h1⟩
    have : Std.Irrefl (fun b a : {c // InGrid w h c} => TransGen r a.1 b.1) :=
      ⟨fun a => hirr a.1⟩
    exact Finite.wellFounded_of_trans_of_irrefl _
  constructor
  intro a
  constructor
  intro b hb
  have hbg : InGrid w h b := hb.2.1.1
  suffices H : ∀ x : {c // InGrid w h c}, Acc (fun b a => r a b) x.1 from H ⟨b, hbg⟩
  intro x
  induction x using hwf.induction with
  | _ x ih =>
    constructor
    intro y hy
    exact ih ⟨y, hy.2.1.1⟩ (.single hy)

/-- C53: if every cell without descent can be drained, following the directions leads from every
data cell out of the data region. -/
theorem C53_leads_out (hall : ∀ c, NoDescent w h dem nd c →
      ∃ o, Descends w h dem nd o ∧ SameRegion w h dem c o) (c : Cell) (hc : InGrid w h c)
    (hd : dem c ≠ nd) :
    ∃ e, ExitsAt w h dem nd (barnesFlatResolutionD8 w h dem nd) e ∧
      ReflTransGen (D8FlowsTo w h (barnesFlatResolutionD8 w h dem nd) FLOWDIR_NO_DATA) c e := by
  induction c using (flow_wf w h dem nd).induction with
  | _ c ih =>
    have hr := resolved_all w h dem nd hall c hc hd
    by_cases hx : ¬ InGrid w h (nbr .D8 c (barnesFlatResolutionD8 w h dem nd c)) ∨
        dem (nbr .D8 c (barnesFlatResolutionD8 w h dem nd c)) = nd
    · exact ⟨c, ⟨hc, hd, hr, hx⟩, .refl⟩
    · have hg : InGrid w h (nbr .D8 c (barnesFlatResolutionD8 w h dem nd c)) := by
        by_contra h1; exact hx (.inl h1)
      have hnb : dem (nbr .D8 c (barnesFlatResolutionD8 w h dem nd c)) ≠ nd :=
        fun h1 => hx (.inr h1)
      have hstep : D8FlowsTo w h (barnesFlatResolutionD8 w h dem nd) FLOWDIR_NO_DATA c
          (nbr .D8 c (barnesFlatResolutionD8 w h dem nd c)) :=
        ⟨⟨hc, fun e => hd ((C53_values w h dem nd c hc).1.1 e)⟩,
          ⟨hg, fun e => hnb ((C53_values w h dem nd _ hg).1.1 e)⟩, by omega, rfl⟩
      obtain ⟨e, h1, h2⟩ := ih _ hstep hg hnb
      exact ⟨e, h1, .head hstep h2⟩

/-- A depression-free DEM has no undrainable flats. -/
theorem drained_resolvable (hdr : Drained w h .D8 dem) (c : Cell) (hc : NoDescent w h dem nd c) :
    ∃ o, Descends w h dem nd o ∧ SameRegion w h dem c o := by
  obtain ⟨p, hp, hmono⟩ := hdr c hc.1
  have key : ∀ (p : List Cell) (a : Cell), InGrid w h a → dem a ≠ nd → EscapePath w h .D8 a p →
      p.IsChain (fun a b => dem b ≤ dem a) →
      ∃ o, Descends w h dem nd o ∧ SameRegion w h dem a o := by
    intro p
    induction p with
    | nil => intro a _ _ hp; simpa using hp.head
    | cons x p ih =>
      intro a hag had hp hm
      have hx : x = a := by simpa using hp.head
      subst hx
      cases p with
      | nil =>
        obtain ⟨e, h1, h2⟩ := hp.last
        have : x = e := by simpa using h1
        subst this
        exact ⟨x, ⟨hag, had, .inl h2⟩, .refl⟩
      | cons y p =>
        have hch := hp.chain
        rw [List.isChain_cons_cons] at hch hm
        have hyg : InGrid w h y := hp.inGrid y (by simp)
        rcases lt_or_eq_of_le hm.1 with h1 | h1
        · exact ⟨x, ⟨hag, had, .inr ⟨y, hch.1, h1⟩⟩, .refl⟩
        · have hp' : EscapePath w h .D8 y (y :: p) :=
            ⟨rfl, hch.2, fun q hq => hp.inGrid q (List.mem_cons_of_mem _ hq), by
              obtain ⟨e, k1, k2⟩ := hp.last
              exact ⟨e, by simpa using k1, k2⟩⟩
          obtain ⟨o, h2, h3⟩ := ih y hyg (by rw [h1]; exact had) hp' hm.2
          exact ⟨o, h2, .head ⟨hag, hyg, hch.1, h1⟩ h3⟩
  exact key p c hc.1 hc.2.2.1 hp hmono

/-- C53: on a depression-free DEM every data cell gets a direction and every flow path leaves the
data region. -/
theorem C53_depression_free (hdr : Drained w h .D8 dem) (c : Cell) (hc : InGrid w h c)
    (hd : dem c ≠ nd) :
    (1 ≤ barnesFlatResolutionD8 w h dem nd c ∧ barnesFlatResolutionD8 w h dem nd c ≤ 8) ∧
    ∃ e, ExitsAt w h dem nd (barnesFlatResolutionD8 w h dem nd) e ∧
      ReflTransGen (D8FlowsTo w h (barnesFlatResolutionD8 w h dem nd) FLOWDIR_NO_DATA) c e :=
  ⟨resolved_all w h dem nd (drained_resolvable w h dem nd hdr) c hc hd,
    C53_leads_out w h dem nd (drained_resolvable w h dem nd hdr) c hc hd⟩

/-! ### Altering the DEM instead (`alter == true`) -/

/-- C53 (alter): only cells that had no descent and can be drained, and low edges, are raised; all
other elevations are kept. -/
theorem C53_alter_only (next : E → E) (c : Cell)
    (hne : (barnesFlatResolutionAlter w h next dem nd).1 c ≠ dem c) :
    (InGrid w h c ∧ ¬ OnEdge w h c) ∧
      (LowEdgeOf dem (NoDescent w h dem nd) (Descends w h dem nd) c ∨
        DrainableOf w h dem (NoDescent w h dem nd) (Descends w h dem nd) c) := by
  have hS := d8Sys (w := w) (h := h) (dem := dem) (nd := nd)
  unfold barnesFlatResolutionAlter d8FlatsAlterDem resolveEpsilon at hne
  dsimp only at hne
  split at hne
  · rename_i h1
    split at hne
    · exact absurd rfl hne
    · refine ⟨⟨?_, ?_⟩, ?_⟩
      · obtain ⟨x, y⟩ := c; dsimp only at h1; refine ⟨?_, ?_, ?_, ?_⟩ <;> dsimp only <;> omega
      · obtain ⟨x, y⟩ := c; dsimp only at h1
        rintro ⟨_, h2⟩; dsimp only at h2; omega
      · refine (core_zero_elsewhere hS c).2.1 ?_
        intro h0
        unfold resolveFlatsBarnes at hne
        rw [h0] at hne; exact hne rfl
  · exact absurd rfl hne

theorem alter_amount (next : E → E) (c : Cell) (hc : InGrid w h c) (he : ¬ OnEdge w h c)
    (hd : LowEdgeOf dem (NoDescent w h dem nd) (Descends w h dem nd) c ∨
      DrainableOf w h dem (NoDescent w h dem nd) (Descends w h dem nd) c) :
    (barnesFlatResolutionAlter w h next dem nd).1 c =
      next^[((resolveFlatsBarnes w h dem (d8FlowDirections w h dem nd)).1 c).toNat] (dem c) := by
  have hS := d8Sys (w := w) (h := h) (dem := dem) (nd := nd)
  have hlab : 0 < (resolveFlatsBarnes w h dem (d8FlowDirections w h dem nd)).2 c := by
    rcases hd with h1 | h1
    · exact (core_labelled hS c).2.2 ⟨c, h1, .refl⟩
    · exact (core_drainable hS c h1.1).2 h1
  unfold barnesFlatResolutionAlter d8FlatsAlterDem resolveEpsilon
  have h2 : ¬ (c.1 = 0 ∨ c.2 = 0 ∨ c.1 = (w:Int) - 1 ∨ c.2 = (h:Int) - 1) := fun e => he ⟨hc, e⟩
  obtain ⟨h3, h4, h5, h6⟩ := hc
  dsimp only
  rw [if_pos (by omega), if_neg (by omega)]

/-- C53 (alter): no elevation is lowered. -/
theorem C53_alter_raises (next : E → E) (hn : ∀ x, x < next x) (c : Cell) :
    dem c ≤ (barnesFlatResolutionAlter w h next dem nd).1 c := by
  by_cases hne : (barnesFlatResolutionAlter w h next dem nd).1 c = dem c
  · rw [hne]
  · obtain ⟨⟨h1, h2⟩, h3⟩ := C53_alter_only w h dem nd next c hne
    rw [alter_amount w h dem nd next c h1 h2 h3]
    rcases Nat.eq_zero_or_pos
      ((resolveFlatsBarnes w h dem (d8FlowDirections w h dem nd)).1 c).toNat with h0 | h0
    · rw [h0]; exact le_refl _
    · exact le_of_lt (iterate_lt hn (dem c) (a := 0) h0)

/-- C53 (alter): provided no increment lifts a cell as high as one that was above it or onto the
NoData value, every data cell that drained of itself or lies in a region that does gets a
direction, computed on the altered DEM: off the raster for an edge cell, and to a strictly lower
neighbour otherwise. -/
theorem C53_alter_drains (next : E → E) (hn : ∀ x, x < next x)
    (hgap : ∀ a b, InGrid w h a → InGrid w h b → dem a < dem b →
      (barnesFlatResolutionAlter w h next dem nd).1 a < dem b)
    (hnd : ∀ a, InGrid w h a → dem a ≠ nd → (barnesFlatResolutionAlter w h next dem nd).1 a ≠ nd)
    (c : Cell) (hc : InGrid w h c) (hd : dem c ≠ nd)
    (hex : ∃ o, Descends w h dem nd o ∧ SameRegion w h dem c o) :
    let r := barnesFlatResolutionAlter w h next dem nd
    let b := nbr .D8 c (r.2 c)
    (1 ≤ r.2 c ∧ r.2 c ≤ 8) ∧
      (OnEdge w h c → ¬ InGrid w h b) ∧ (¬ OnEdge w h c → InGrid w h b ∧ r.1 b < r.1 c) := by
  intro r b
  have hS := d8Sys (w := w) (h := h) (dem := dem) (nd := nd)
  have hr2 : r.2 c = d8FlowDir w h r.1 c := by
    have : r.2 c = d8FlowDirections w h r.1 nd c := rfl
    rw [this, d8FlowDirections, if_neg (hnd c hc hd)]
  by_cases he : OnEdge w h c
  · have := C16_edge w h r.1 c he
    rw [← hr2] at this
    exact ⟨⟨this.1, this.2.1⟩, fun _ => this.2.2, fun k => absurd he k⟩
  · -- a lower neighbour exists
    have hlow : ∃ b, Adj .D8 c b ∧ r.1 b < r.1 c := by
      by_cases hdesc : ∃ b, Adj .D8 c b ∧ dem b < dem c
      · obtain ⟨b, h1, h2⟩ := hdesc
        have hbg : InGrid w h b := C23_reads_in_grid w h c b hc he h1
        exact ⟨b, h1, lt_of_lt_of_le (hgap b c hbg hc h2) (C53_alter_raises w h dem nd next hn c)⟩
      · have hflat : NoDescent w h dem nd c :=
          ⟨hc, he, hd, fun b hb => not_lt.1 (fun k => hdesc ⟨b, hb, k⟩)⟩
        have hdr : DrainableOf w h dem (NoDescent w h dem nd) (Descends w h dem nd) c :=
          ⟨hflat, hex⟩
        obtain ⟨b, h1, h2, h3, h4, h5, h6⟩ := core_descends hS c hdr
        have h0b := (core_zero_elsewhere hS b).1
        have h0c := (core_zero_elsewhere hS c).1
        refine ⟨b, h1, ?_⟩
        have ec : r.1 c = _ := alter_amount w h dem nd next c hc he (.inr hdr)
        rw [ec]
        by_cases hbe : OnEdge w h b
        · have : r.1 b = dem b := by
            by_contra hne
            exact (C53_alter_only w h dem nd next b hne).1.2 hbe
          rw [this, h3]
          exact iterate_lt hn (dem c) (a := 0) (by unfold resolveFlatsBarnes; omega)
        · have eb : r.1 b = _ := alter_amount w h dem nd next b h2 hbe h6
          rw [eb, h3]
          exact iterate_lt hn (dem c) (by unfold resolveFlatsBarnes; omega)
    obtain ⟨k1, k2⟩ := C16_interior w h r.1 c hc he
    rw [← hr2] at k1 k2
    have h0 : r.2 c ≠ 0 := by
      intro h0
      obtain ⟨b, hb, hlt⟩ := hlow
      exact absurd hlt (not_lt.2 (k1.1 h0 b hb))
    obtain ⟨m1, m2, m3, _, m5, _⟩ := k2 h0
    exact ⟨⟨m1, m2⟩, fun k => absurd k he, fun _ => ⟨m3, m5⟩⟩

/-- C53 (alter): in particular, on a depression-free DEM every data cell drains. -/
theorem C53_alter_depression_free (next : E → E) (hn : ∀ x, x < next x)
    (hgap : ∀ a b, InGrid w h a → InGrid w h b → dem a < dem b →
      (barnesFlatResolutionAlter w h next dem nd).1 a < dem b)
    (hnd : ∀ a, InGrid w h a → dem a ≠ nd → (barnesFlatResolutionAlter w h next dem nd).1 a ≠ nd)
    (hdr : Drained w h .D8 dem) (c : Cell) (hc : InGrid w h c) (hd : dem c ≠ nd) :
    let r := barnesFlatResolutionAlter w h next dem nd
    let b := nbr .D8 c (r.2 c)
    (1 ≤ r.2 c ∧ r.2 c ≤ 8) ∧
      (OnEdge w h c → ¬ InGrid w h b) ∧ (¬ OnEdge w h c → InGrid w h b ∧ r.1 b < r.1 c) := by
  refine C53_alter_drains w h dem nd next hn hgap hnd c hc hd ?_
  by_cases he : OnEdge w h c
  · exact ⟨c, ⟨hc, hd, .inl he⟩, .refl⟩
  · by_cases hdesc : ∃ b, Adj .D8 c b ∧ dem b < dem c
    · exact ⟨c, ⟨hc, hd, .inr hdesc⟩, .refl⟩
    · exact drained_resolvable w h dem nd hdr c
        ⟨hc, he, hd, fun b hb => not_lt.1 (fun k => hdesc ⟨b, hb, k⟩)⟩

end

/-! ### C54: the pipeline -/

section
variable (pq : PQ (E × Cell) zLt) (q : AnyQ Cell) (w h : Nat) (dem : Cell → E) (nd : E)

/-- C54: after filling depressions and resolving flats, D8 accumulation gives every data cell
exactly the number of data cells whose flow path passes through it, and every flow path leaves the
data region. -/
theorem C54_pipeline (hw : 0 < w) (hh : 0 < h) (c : Cell) (hc : InGrid w h c) :
    let filled := (priorityFloodBarnes pq w h .D8 dem).elev
    let fd := barnesFlatResolutionD8 w h filled nd
    filled c ≠ nd →
    d8FlowAccum q w h fd FLOWDIR_NO_DATA c = upstreamCount w h fd FLOWDIR_NO_DATA c ∧
    ∃ e, ExitsAt w h filled nd fd e ∧ ReflTransGen (D8FlowsTo w h fd FLOWDIR_NO_DATA) c e := by
  intro filled fd hd
  have hdr : Drained w h .D8 filled := (C07_filled_drains pq w h .D8 dem hw hh).2
  refine ⟨?_, (C53_depression_free w h filled nd hdr c hc hd).2⟩
  refine C21_counts_upstream q w h fd FLOWDIR_NO_DATA ?_ c hc ?_ (C53_acyclic w h filled nd c)
  · intro a ha hna
    exact (C53_values w h filled nd a ha).2 (fun e => hna ((C53_values w h filled nd a ha).1.2 e))
  · exact fun e => hd ((C53_values w h filled nd c hc).1.1 e)

open Classical in
/-- C54: nothing is lost: the accumulations of the cells where flow leaves the data region add up
to the number of data cells. -/
theorem C54_conservation (hw : 0 < w) (hh : 0 < h) :
    let filled := (priorityFloodBarnes pq w h .D8 dem).elev
    let fd := barnesFlatResolutionD8 w h filled nd
    ∑ e ∈ (gridCells w h).filter (ExitsAt w h filled nd fd), d8FlowAccum q w h fd FLOWDIR_NO_DATA e =
      ((gridCells w h).filter (fun c => filled c ≠ nd)).card := by
  intro filled fd
  have hmem : ∀ c, c ∈ gridCells w h ↔ InGrid w h c := by
    intro c; rw [← toFinset_allCells, List.mem_toFinset, mem_allCells]
  have hnd : ∀ a, InGrid w h a → (fd a ≠ FLOWDIR_NO_DATA ↔ filled a ≠ nd) := fun a ha =>
    not_congr (C53_values w h filled nd a ha).1
  set R := D8FlowsTo w h fd FLOWDIR_NO_DATA with hR
  have hup : ∀ e, upstreamCount w h fd FLOWDIR_NO_DATA e =
      ∑ a ∈ (gridCells w h).filter (fun c => filled c ≠ nd), if ReflTransGen R a e then 1 else 0 := by
    intro e
    unfold upstreamCount
    rw [List.countP_eq_length_filter, ← List.toFinset_card_of_nodup ((nodup_allCells w h).filter _),
      ← Finset.card_filter]
    congr 1
    ext a
    simp only [List.mem_toFinset, List.mem_filter, Finset.mem_filter, mem_allCells, hmem,
      decide_eq_true_eq, and_assoc]
    constructor
    · rintro ⟨h1, h2, h3⟩; exact ⟨h1, (hnd a h1).1 h2, h3⟩
    · rintro ⟨h1, h2, h3⟩; exact ⟨h1, (hnd a h1).2 h2, h3⟩
  have h1 : ∑ e ∈ (gridCells w h).filter (ExitsAt w h filled nd fd),
        d8FlowAccum q w h fd FLOWDIR_NO_DATA e =
      ((∑ e ∈ (gridCells w h).filter (ExitsAt w h filled nd fd),
        upstreamCount w h fd FLOWDIR_NO_DATA e : Nat) : Int) := by
    push_cast
    refine Finset.sum_congr rfl fun e he => ?_
    rw [Finset.mem_filter, hmem] at he
    exact (C54_pipeline pq q w h dem nd hw hh e he.1 he.2.2.1).1
  rw [h1]
  congr 1
  simp only [hup]
  rw [Finset.sum_comm, Finset.card_eq_sum_ones]
  refine Finset.sum_congr rfl fun a ha => ?_
  rw [Finset.mem_filter, hmem] at ha
  obtain ⟨e, he, hae⟩ := (C54_pipeline pq q w h dem nd hw hh a ha.1 ha.2).2
  -- `e` is the only exit below `a`
  have hstop : ∀ x y, ExitsAt w h filled nd fd x → ¬ R x y := by
    rintro x y ⟨_, _, _, hx⟩ ⟨_, ⟨hy, hyn⟩, _, rfl⟩
    rcases hx with k | k
    · exact k hy
    · exact (hnd _ hy).1 hyn k
  have huniq : ∀ e', ExitsAt w h filled nd fd e' → ReflTransGen R a e' → e' = e := by
    intro e' he' hae'
    clear ha
    induction hae using ReflTransGen.head_induction_on with
    | refl =>
      rcases ReflTransGen.cases_head hae' with k | ⟨y, k, _⟩
      · exact k.symm
      · exact absurd k (hstop _ _ he)
    | @head x y hxy hye ih =>
      rcases ReflTransGen.cases_head hae' with k | ⟨z, k1, k2⟩
      · exact absurd hxy (k ▸ hstop _ _ he')
      · have : z = y := d8FlowsTo_fun k1 hxy
        exact ih (this ▸ k2)
  rw [Finset.sum_eq_single e]
  · rw [if_pos hae]
  · intro b hb hbe
    rw [Finset.mem_filter] at hb
    rw [if_neg]
    exact fun k => hbe (huniq b hb.2 k)
  · intro hne
    exact absurd (Finset.mem_filter.2 ⟨(hmem e).2 he.1, he⟩) hne

end

/-! ### Non-vacuity -/

/-- The flat of `exF` gets directions; its one outlet is the 0 at the right. -/
example : toRows 6 5 (barnesFlatResolutionD8 6 5 exF (-9999)) =
    [[2, 3, 3, 3, 3, 4], [1, 6, 6, 6, 7, 5], [1, 5, 5, 5, 6, 5], [1, 4, 4, 5, 5, 5],
     [8, 7, 7, 7, 7, 6]] := by decide +kernel

/-- The hypotheses are met: `exF` has a cell without descent. -/
example : NoDescent 6 5 exF (-9999) (1, 1) :=
  (fdFlat_iff (1, 1)).1 ⟨by decide +kernel, by decide +kernel⟩

/-- The whole pipeline on a DEM with a pit, stage by stage: the areas at the 18 edge cells, where
flow leaves, add up to the 30 cells. -/
example : toRows 6 5 (priorityFloodBarnes zPQ 6 5 .D8 (ofRows (-9999 : Int)
        [[9,9,9,9,9,9], [9,1,1,5,1,9], [9,1,0,1,1,9], [9,1,1,1,1,0], [9,9,9,9,9,9]])).elev =
    [[9,9,9,9,9,9], [9,1,1,5,1,9], [9,1,1,1,1,9], [9,1,1,1,1,0], [9,9,9,9,9,9]] := by
  decide +kernel

example : toRows 6 5 (barnesFlatResolutionD8 6 5 (ofRows (-9999 : Int)
        [[9,9,9,9,9,9], [9,1,1,5,1,9], [9,1,1,1,1,9], [9,1,1,1,1,0], [9,9,9,9,9,9]]) (-9999)) =
    [[2,3,3,3,3,4], [1,5,6,1,7,5], [1,5,5,5,6,5], [1,5,5,5,5,5], [8,7,7,7,7,6]] := by
  decide +kernel

example : toRows 6 5 (d8FlowAccum (fifo Cell) 6 5 (ofRows 0
        [[2,3,3,3,3,4], [1,5,6,1,7,5], [1,5,5,5,6,5], [1,5,5,5,5,5], [8,7,7,7,7,6]])
      FLOWDIR_NO_DATA) =
    [[1,1,1,1,1,1], [1,1,3,1,1,1], [1,1,2,6,8,1], [1,1,2,3,4,13], [1,1,1,1,1,1]] := by
  decide +kernel

/-- The altered DEM and its directions for a small flat (elevations in steps of 10, increments of
1): the hypotheses `hgap` and `hnd` hold, and all 8 interior cells drain. -/
def exAlt : Cell → Int := ofRows (-9999)
  [[90,90,90,90,90,90], [90,10,10,10,10,90], [90,10,10,10,10,0], [90,90,90,90,90,90]]

example : toRows 6 4 (barnesFlatResolutionAlter 6 4 (· + 1) exAlt (-9999)).1 =
      [[90,90,90,90,90,90], [90,18,16,14,12,90], [90,18,16,14,12,0], [90,90,90,90,90,90]] ∧
    toRows 6 4 (barnesFlatResolutionAlter 6 4 (· + 1) exAlt (-9999)).2 =
      [[2,3,3,3,3,4], [1,5,5,5,6,5], [1,5,5,5,5,5], [8,7,7,7,7,6]] := by decide +kernel

example : (allCells 6 4).all (fun a => (allCells 6 4).all (fun b => !decide (exAlt a < exAlt b) ||
      decide ((barnesFlatResolutionAlter 6 4 (· + 1) exAlt (-9999)).1 a < exAlt b)) &&
      !decide ((barnesFlatResolutionAlter 6 4 (· + 1) exAlt (-9999)).1 a = -9999)) = true := by
  decide +kernel

end RichDEM
