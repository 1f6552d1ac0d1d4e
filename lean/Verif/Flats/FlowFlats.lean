import Verif.Flats.Mask
import Verif.Flats.Barnes
import Verif.Flow.FlowDir

/-!
Model of include/richdem/flats/flat_resolution.hpp: flat resolution driven by D8 flow directions
(`NO_FLOW` = 0 marks a flat cell, 255 is the NoData value of the flow direction raster).
-/

namespace RichDEM

section
variable {E : Type*} [LinearOrder E]

/-- flat_resolution.hpp:393-394: the scan order, x outermost. -/
def colCells (w h : Nat) : List Cell :=
  (List.range w).flatMap (fun x : Nat => (List.range h).map (fun y : Nat => ((x : Int), (y : Int))))

/-- flat_resolution.hpp:396-415: the queue one cell is put in: `some true` for `low_edges`, `some
false` for `high_edges`. -/
def fdEdgeKind (w h : Nat) (dem : Cell → E) (fd : Cell → Nat) (c : Cell) : Option Bool :=
  if fd c = FLOWDIR_NO_DATA then none                                        -- :396
  else (dirs .D8).findSome? (fun n =>
    if !inGrid w h (nbr .D8 c n) then none                                   -- :404
    else if fd (nbr .D8 c n) = FLOWDIR_NO_DATA then none                     -- :405
    else if fd c ≠ 0 ∧ fd (nbr .D8 c n) = 0 ∧ dem (nbr .D8 c n) = dem c then some true
    else if fd c = 0 ∧ dem c < dem (nbr .D8 c n) then some false
    else none)

/-- flat_resolution.hpp:381-418 (`find_flat_edges`): the queue of low edges. -/
def fdLow (w h : Nat) (dem : Cell → E) (fd : Cell → Nat) : List Cell :=
  (colCells w h).filter (fun c => fdEdgeKind w h dem fd c == some true)

/-- flat_resolution.hpp:381-418 (`find_flat_edges`): the queue of high edges. -/
def fdHigh (w h : Nat) (dem : Cell → E) (fd : Cell → Nat) : List Cell :=
  (colCells w h).filter (fun c => fdEdgeKind w h dem fd c == some false)

/-- flat_resolution.hpp:447-517 (`resolve_flats_barnes`); returns `flat_mask` and `labels`. -/
def resolveFlatsBarnes (w h : Nat) (dem : Cell → E) (fd : Cell → Nat) :
    (Cell → Int) × (Cell → Int) :=
  flatMaskCore w h dem (fun c => fd c == 0) (fdLow w h dem fd) (fdHigh w h dem fd)

end

/-- flat_resolution.hpp:42-65 (`d8_masked_FlowDir`). -/
def maskedFlowDir (mask labels : Cell → Int) (c : Cell) : Nat :=
  (scanDir (fun n => mask (nbr .D8 c n))
    ((dirs .D8).filter (fun n => decide (labels (nbr .D8 c n) = labels c))) (mask c, 0)).2

/-- flat_resolution.hpp:96-116 (`d8_flow_flats`).  The parallel iterations write only their own
cell of `flowdirs` and read no other, so the loop is a pointwise map. -/
def d8FlowFlats (w h : Nat) (mask labels : Cell → Int) (fd : Cell → Nat) (c : Cell) : Nat :=
  if 1 ≤ c.1 ∧ c.1 < (w : Int) - 1 ∧ 1 ≤ c.2 ∧ c.2 < (h : Int) - 1 then
    if mask c = -1 then fd c
    else if fd c = 0 then maskedFlowDir mask labels c
    else fd c
  else fd c

section
variable {E : Type*} [LinearOrder E]

/-- flat_resolution.hpp:587-605 (`barnes_flat_resolution_d8`) with `alter == false`: the resulting
flow directions. -/
def barnesFlatResolutionD8 (w h : Nat) (dem : Cell → E) (nd : E) : Cell → Nat :=
  let fd := d8FlowDirections w h dem nd
  let m := resolveFlatsBarnes w h dem fd
  d8FlowFlats w h m.1 m.2 fd

/-- flat_resolution.hpp:541-582 (`d8_flats_alter_dem`): the same cell-wise raise as
`ResolveFlatsEpsilon_Barnes2014`; `next` is `nextafterf(·, infinity)`. -/
def d8FlatsAlterDem {E : Type*} (w h : Nat) (next : E → E) (mask labels : Cell → Int)
    (dem : Cell → E) : Cell → E := resolveEpsilon w h next mask labels dem

/-- flat_resolution.hpp:587-605 with `alter == true`: the altered DEM and its flow directions. -/
def barnesFlatResolutionAlter (w h : Nat) (next : E → E) (dem : Cell → E) (nd : E) :
    (Cell → E) × (Cell → Nat) :=
  let m := resolveFlatsBarnes w h dem (d8FlowDirections w h dem nd)
  let dem' := d8FlatsAlterDem w h next m.1 m.2 dem
  (dem', d8FlowDirections w h dem' nd)

theorem mem_colCells {w h : Nat} {c : Cell} : c ∈ colCells w h ↔ InGrid w h c := by
  obtain ⟨x, y⟩ := c
  simp only [colCells, List.mem_flatMap, List.mem_map, List.mem_range, Prod.mk.injEq, InGrid]
  constructor
  · rintro ⟨x', h1, y', h2, rfl, rfl⟩; omega
  · rintro ⟨h1, h2, h3, h4⟩
    exact ⟨x.toNat, by omega, y.toNat, by omega, by omega, by omega⟩

/-- A cell without a flow direction. -/
def FdFlat (w h : Nat) (fd : Cell → Nat) (c : Cell) : Prop := InGrid w h c ∧ fd c = 0

/-- A data cell with a flow direction. -/
def FdOut (w h : Nat) (fd : Cell → Nat) (c : Cell) : Prop :=
  InGrid w h c ∧ fd c ≠ 0 ∧ fd c ≠ FLOWDIR_NO_DATA

/-- A cell without a flow direction that has a higher data neighbour. -/
def FdHigh (w h : Nat) (dem : Cell → E) (fd : Cell → Nat) (c : Cell) : Prop :=
  FdFlat w h fd c ∧ ∃ b, Adj .D8 c b ∧ InGrid w h b ∧ fd b ≠ FLOWDIR_NO_DATA ∧ dem c < dem b

variable {w h : Nat} {dem : Cell → E} {fd : Cell → Nat}

theorem findSome_val {α : Type*} {l : List Nat} {f : Nat → Option α} {v : α}
    (hall : ∀ n ∈ l, ∀ u, f n = some u → u = v) (hex : ∃ n ∈ l, f n ≠ none) :
    l.findSome? f = some v := by
  cases hf : l.findSome? f with
  | none =>
    rw [List.findSome?_eq_none_iff] at hf
    obtain ⟨n, hn, h1⟩ := hex
    exact absurd (hf n hn) h1
  | some u =>
    obtain ⟨n, hn, h1⟩ := List.exists_of_findSome?_eq_some hf
    rw [hall n hn u h1]

theorem fdEdgeKind_low {c : Cell} (hc : InGrid w h c) :
    fdEdgeKind w h dem fd c = some true ↔ LowEdgeOf dem (FdFlat w h fd) (FdOut w h fd) c := by
  unfold fdEdgeKind
  by_cases h1 : fd c = FLOWDIR_NO_DATA
  · rw [if_pos h1]
    refine ⟨fun e => by (cases e), fun e => absurd h1 e.1.2.2⟩
  rw [if_neg h1]
  constructor
  · intro h2
    obtain ⟨n, hn, h3⟩ := List.exists_of_findSome?_eq_some h2
    split at h3
    · cases h3
    rename_i h4
    split at h3
    · cases h3
    split at h3
    · rename_i h5
      have h4' : InGrid w h (nbr .D8 c n) := by simpa [inGrid_iff] using h4
      exact ⟨⟨hc, h5.1, h1⟩, _, nbr_adj hn, ⟨h4', h5.2.1⟩, h5.2.2⟩
    · split at h3 <;> cases h3
  · rintro ⟨ho, b, hb, hbf, hbe⟩
    obtain ⟨n, hn, rfl⟩ := adj_iff_nbr.1 hb
    refine findSome_val ?_ ⟨n, hn, ?_⟩
    · intro m _ v hv
      split at hv
      · cases hv
      · split at hv
        · cases hv
        · split at hv
          · injection hv with hv; exact hv.symm
          · split at hv
            · rename_i h7; exact absurd h7.1 ho.2.1
            · cases hv
    · rw [if_neg (by simp [inGrid_iff.2 hbf.1]), if_neg (by rw [hbf.2]; decide),
        if_pos ⟨ho.2.1, hbf.2, hbe⟩]
      exact Option.some_ne_none _

theorem fdEdgeKind_high {c : Cell} (hc : InGrid w h c) :
    fdEdgeKind w h dem fd c = some false ↔ FdHigh w h dem fd c := by
  unfold fdEdgeKind
  by_cases h1 : fd c = FLOWDIR_NO_DATA
  · rw [if_pos h1]
    refine ⟨fun e => by (cases e), fun e => ?_⟩
    have := e.1.2; rw [h1] at this; simp [FLOWDIR_NO_DATA] at this
  rw [if_neg h1]
  constructor
  · intro h2
    obtain ⟨n, hn, h3⟩ := List.exists_of_findSome?_eq_some h2
    split at h3
    · cases h3
    rename_i h4
    split at h3
    · cases h3
    rename_i h5
    split at h3
    · cases h3
    · split at h3
      · rename_i h6
        have h4' : InGrid w h (nbr .D8 c n) := by simpa [inGrid_iff] using h4
        exact ⟨⟨hc, h6.1⟩, _, nbr_adj hn, h4', h5, h6.2⟩
      · cases h3
  · rintro ⟨ho, b, hb, hbg, hbn, hbe⟩
    obtain ⟨n, hn, rfl⟩ := adj_iff_nbr.1 hb
    refine findSome_val ?_ ⟨n, hn, ?_⟩
    · intro m _ v hv
      split at hv
      · cases hv
      · split at hv
        · cases hv
        · split at hv
          · rename_i h7; exact absurd ho.2 h7.1
          · split at hv
            · injection hv with hv; exact hv.symm
            · cases hv
    · rw [if_neg (by simp [inGrid_iff.2 hbg]), if_neg hbn,
        if_neg (fun e => e.1 ho.2), if_pos ⟨ho.2, hbe⟩]
      exact Option.some_ne_none _

/-- Flow directions and DEM form a flat system if a cell of the same elevation as a data cell is
never marked NoData. -/
theorem fdSys (hnd : ∀ a b, InGrid w h a → InGrid w h b → dem b = dem a → fd a = 0 →
      fd b ≠ FLOWDIR_NO_DATA) :
    FlatSys w h dem (FdFlat w h fd) (FdOut w h fd) (FdHigh w h dem fd) (fun c => fd c == 0)
      (fdLow w h dem fd) (fdHigh w h dem fd) where
  flatIn _ hc := hc.1
  outIn _ hc := hc.1
  disj _ hc ho := ho.2.1 hc.2
  step a b ha hab := by
    by_cases h1 : fd b = 0
    · exact .inl ⟨hab.2.1, h1⟩
    · exact .inr ⟨hab.2.1, h1, hnd a b hab.1 hab.2.1 hab.2.2.2 ha.2⟩
  flatb c hc := by simp [FdFlat, hc]
  low c := by
    simp only [fdLow, List.mem_filter, mem_colCells, beq_iff_eq]
    constructor
    · rintro ⟨h1, h2⟩; exact (fdEdgeKind_low h1).1 h2
    · intro h1; exact ⟨h1.1.1, (fdEdgeKind_low h1.1.1).2 h1⟩
  high c := by
    simp only [fdHigh, List.mem_filter, mem_colCells, beq_iff_eq]
    constructor
    · rintro ⟨h1, h2⟩; exact (fdEdgeKind_high h1).1 h2
    · intro h1; exact ⟨h1.1.1, (fdEdgeKind_high h1.1.1).2 h1⟩
  hi _ hc := hc.1

/-- What `d8_masked_FlowDir` returns. -/
theorem maskedFlowDir_spec (mask labels : Cell → Int) (c : Cell) :
    (maskedFlowDir mask labels c = 0 ∧ ∀ b, Adj .D8 c b → labels b = labels c → ¬ mask b < mask c) ∨
    (maskedFlowDir mask labels c ∈ dirs .D8 ∧
      labels (nbr .D8 c (maskedFlowDir mask labels c)) = labels c ∧
      mask (nbr .D8 c (maskedFlowDir mask labels c)) < mask c ∧
      ∀ b, Adj .D8 c b → labels b = labels c →
        mask (nbr .D8 c (maskedFlowDir mask labels c)) ≤ mask b) := by
  have hs := scanDir_spec (fun n => mask (nbr .D8 c n)) (mask c)
    ((dirs .D8).filter (fun n => decide (labels (nbr .D8 c n) = labels c))) [] (mask c) 0
    (by intro n hn
        simp only [List.nil_append, List.mem_filter] at hn
        have := (mem_dirs.1 hn.1); omega)
    (.inl ⟨rfl, rfl, by simp⟩)
  simp only [List.nil_append] at hs
  unfold maskedFlowDir
  rcases hs with ⟨h1, _, h3⟩ | ⟨h1, _, h3, h4, _⟩
  · left
    refine ⟨h1, ?_⟩
    intro b hb hl
    obtain ⟨n, hn, rfl⟩ := adj_iff_nbr.1 hb
    exact h3 n (by simp [hn, hl])
  · right
    simp only [List.mem_filter, decide_eq_true_eq] at h1
    refine ⟨h1.1, h1.2, h3, ?_⟩
    intro b hb hl
    obtain ⟨n, hn, rfl⟩ := adj_iff_nbr.1 hb
    exact h4 n (by simp [hn, hl])

end

end RichDEM
