import Verif.Flats.Core
import Verif.Flow.FlowDir

/-!
Model of include/richdem/flats/find_flats.hpp, include/richdem/flats/Barnes2014.hpp and
include/richdem/flats/flats.hpp.  The two edge queues are filled under `#pragma omp critical`, so
their order is unspecified: `getFlatMask` takes the queues as arguments and every theorem
quantifies over all permutations of the scan order.
-/

namespace RichDEM

section
variable {E : Type*} [LinearOrder E]

/-- find_flats.hpp:40-63: the value of one cell (`FLAT_NO_DATA` -1, `NOT_A_FLAT` 0,
`IS_A_FLAT` 1, find_flats.hpp:10-12). -/
def findFlat (w h : Nat) (dem : Cell → E) (nodata : E) (c : Cell) : Int :=
  if dem c = nodata then -1
  else if isEdgeCell w h c then 0
  else if (dirs .D8).any (fun n => decide (dem (nbr .D8 c n) < dem c) ||
      decide (dem (nbr .D8 c n) = nodata)) then 0
  else 1

/-- Barnes2014.hpp:330-362: the queue a cell is put in: `some true` for `low_edges`,
`some false` for `high_edges`. -/
def edgeKind (w h : Nat) (dem : Cell → E) (flats : Cell → Int) (c : Cell) : Option Bool :=
  if flats c = -1 then none                                            -- :330
  else (dirs .D8).findSome? (fun n =>
    if !inGrid w h (nbr .D8 c n) then none                             -- :337
    else if flats c = 0 ∧ flats (nbr .D8 c n) = 1 ∧ dem (nbr .D8 c n) = dem c then some true
    else if flats c = 1 ∧ dem c < dem (nbr .D8 c n) then some false
    else none)

/-- Barnes2014.hpp:309-369 (`FindFlatEdges`): the low edges in scan order. -/
def scanLow (w h : Nat) (dem : Cell → E) (flats : Cell → Int) : List Cell :=
  (allCells w h).filter (fun c => edgeKind w h dem flats c == some true)

/-- Barnes2014.hpp:309-369 (`FindFlatEdges`): the high edges in scan order. -/
def scanHigh (w h : Nat) (dem : Cell → E) (flats : Cell → Int) : List Cell :=
  (allCells w h).filter (fun c => edgeKind w h dem flats c == some false)

end

/-- Barnes2014.hpp:398-467 (`GetFlatMask`); returns `flat_mask` and `labels`.  Logging is not
modelled; `low` and `high` are the queues produced by `FindFlatEdges`. -/
def getFlatMask {E : Type*} [LinearOrder E] (w h : Nat) (dem : Cell → E) (nodata : E)
    (low high : List Cell) : (Cell → Int) × (Cell → Int) :=
  flatMaskCore w h dem (fun c => findFlat w h dem nodata c == 1) low high

/-- Barnes2014.hpp:496-550 (`ResolveFlatsEpsilon_Barnes2014`).  Each iteration writes only its own
cell, from that cell's own elevation (527-528); neighbours are read only to count warnings
(522-524, 532-546), which are not modelled, so the parallel loop is a pointwise map.  `next` is
`std::nextafter(·, +inf)`. -/
def resolveEpsilon {E : Type*} (w h : Nat) (next : E → E) (mask labels : Cell → Int)
    (dem : Cell → E) : Cell → E :=
  fun c =>
    if 1 ≤ c.2 ∧ c.2 < (h : Int) - 1 ∧ 1 ≤ c.1 ∧ c.1 < (w : Int) - 1 then
      if labels c = 0 then dem c else next^[(mask c).toNat] (dem c)
    else dem c

/-- flats.hpp:23-30 (`ResolveFlatsEpsilon`). -/
def resolveFlatsEpsilon {E : Type*} [LinearOrder E] (w h : Nat) (next : E → E) (dem : Cell → E)
    (nodata : E) (low high : List Cell) : Cell → E :=
  let m := getFlatMask w h dem nodata low high
  resolveEpsilon w h next m.1 m.2 dem

/-! ### FindFlats and FindFlatEdges -/

section
variable {E : Type*} [LinearOrder E] {w h : Nat} {dem : Cell → E} {nodata : E}

theorem any_lower_iff (c : Cell) : ((dirs .D8).any (fun n => decide (dem (nbr .D8 c n) < dem c) ||
      decide (dem (nbr .D8 c n) = nodata))) = true ↔
    ∃ b, Adj .D8 c b ∧ (dem b < dem c ∨ dem b = nodata) := by
  simp only [List.any_eq_true, Bool.or_eq_true, decide_eq_true_eq]
  constructor
  · rintro ⟨n, hn, h1⟩; exact ⟨_, nbr_adj hn, h1⟩
  · rintro ⟨b, hb, h1⟩
    obtain ⟨n, hn, rfl⟩ := adj_iff_nbr.1 hb
    exact ⟨n, hn, h1⟩

theorem findFlat_one {c : Cell} (hc : InGrid w h c) :
    findFlat w h dem nodata c = 1 ↔ IsFlat w h dem nodata c := by
  unfold findFlat
  by_cases h1 : dem c = nodata
  · rw [if_pos h1]
    refine ⟨fun e => by simp at e, fun e => absurd h1 e.2.2.1⟩
  · rw [if_neg h1]
    by_cases h2 : isEdgeCell w h c = true
    · rw [if_pos h2]
      refine ⟨fun e => by simp at e, fun e => absurd ((isEdgeCell_iff hc).1 h2) e.2.1⟩
    · rw [if_neg h2]
      split
      · rename_i h3
        refine ⟨fun e => by simp at e, fun e => ?_⟩
        obtain ⟨b, hb, h4⟩ := (any_lower_iff c).1 h3
        have := e.2.2.2 b hb
        rcases h4 with h4 | h4
        · exact absurd h4 this.1
        · exact absurd h4 this.2
      · rename_i h3
        refine ⟨fun _ => ⟨hc, fun e => h2 ((isEdgeCell_iff hc).2 e), h1, fun b hb => ?_⟩,
          fun _ => rfl⟩
        rw [any_lower_iff] at h3
        exact ⟨fun e => h3 ⟨b, hb, .inl e⟩, fun e => h3 ⟨b, hb, .inr e⟩⟩

theorem findFlat_negone {c : Cell} : findFlat w h dem nodata c = -1 ↔ dem c = nodata := by
  unfold findFlat
  by_cases h1 : dem c = nodata
  · simp [h1]
  · rw [if_neg h1]
    refine ⟨?_, fun e => absurd e h1⟩
    split
    · intro e; simp at e
    · split <;> intro e <;> simp at e

theorem findFlat_range (c : Cell) : findFlat w h dem nodata c = -1 ∨ findFlat w h dem nodata c = 0 ∨
    findFlat w h dem nodata c = 1 := by
  unfold findFlat
  split
  · simp
  · split
    · simp
    · split <;> simp

theorem findFlat_zero {c : Cell} (hc : InGrid w h c) :
    findFlat w h dem nodata c = 0 ↔ HasOutlet w h dem nodata c := by
  constructor
  · intro h1
    have h2 : dem c ≠ nodata := by
      intro e; rw [findFlat_negone.2 e] at h1; simp at h1
    rcases flat_or_outlet hc h2 with h3 | h3
    · rw [(findFlat_one hc).2 h3] at h1; simp at h1
    · exact h3
  · intro h1
    rcases findFlat_range (w := w) (h := h) (dem := dem) (nodata := nodata) c with h2 | h2 | h2
    · exact absurd (findFlat_negone.1 h2) h1.2.1
    · exact h2
    · exact absurd h1 (flat_not_outlet ((findFlat_one hc).1 h2))

theorem flat_nbr_inGrid {c b : Cell} (hf : IsFlat w h dem nodata c) (hb : Adj .D8 c b) :
    InGrid w h b := by
  obtain ⟨x, y⟩ := c; obtain ⟨x', y'⟩ := b
  obtain ⟨⟨h1, h2, h3, h4⟩, h5, -, -⟩ := hf
  obtain ⟨-, h6, h7⟩ := hb
  have h8 : ¬ (x = 0 ∨ y = 0 ∨ x = (w:Int) - 1 ∨ y = (h:Int) - 1) := fun e => h5 ⟨⟨h1, h2, h3, h4⟩, e⟩
  simp only at h1 h2 h3 h4 h6 h7
  refine ⟨?_, ?_, ?_, ?_⟩ <;> dsimp only <;> omega

theorem edgeKind_low {c : Cell} (hc : InGrid w h c) :
    edgeKind w h dem (findFlat w h dem nodata) c = some true ↔ LowEdge w h dem nodata c := by
  unfold edgeKind
  by_cases h1 : findFlat w h dem nodata c = -1
  · rw [if_pos h1]
    refine ⟨fun e => by (cases e), fun e => absurd (findFlat_negone.1 h1) e.1.2.1⟩
  rw [if_neg h1]
  constructor
  · intro h2
    obtain ⟨n, hn, h3⟩ := List.exists_of_findSome?_eq_some h2
    split at h3
    · cases h3
    rename_i h4
    split at h3
    · rename_i h5
      have h4' : InGrid w h (nbr .D8 c n) := by simpa [inGrid_iff] using h4
      exact ⟨(findFlat_zero hc).1 h5.1, _, nbr_adj hn, (findFlat_one h4').1 h5.2.1, h5.2.2⟩
    · split at h3 <;> cases h3
  · rintro ⟨ho, b, hb, hbf, hbe⟩
    obtain ⟨n, hn, rfl⟩ := adj_iff_nbr.1 hb
    have h0 := (findFlat_zero hc).2 ho
    have hval : ∀ m ∈ dirs .D8, ∀ v, (if !inGrid w h (nbr .D8 c m) then none
      else if findFlat w h dem nodata c = 0 ∧ findFlat w h dem nodata (nbr .D8 c m) = 1 ∧
          dem (nbr .D8 c m) = dem c then some true
      else if findFlat w h dem nodata c = 1 ∧ dem c < dem (nbr .D8 c m) then some false
      else none) = some v → v = true := by
      intro m _ v hv
      split at hv
      · cases hv
      · split at hv
        · injection hv with hv; exact hv.symm
        · split at hv
          · rename_i h7; rw [h0] at h7; simp at h7
          · cases hv
    rcases hfs : (dirs .D8).findSome? (fun n => if !inGrid w h (nbr .D8 c n) then none
      else if findFlat w h dem nodata c = 0 ∧ findFlat w h dem nodata (nbr .D8 c n) = 1 ∧
          dem (nbr .D8 c n) = dem c then some true
      else if findFlat w h dem nodata c = 1 ∧ dem c < dem (nbr .D8 c n) then some false
      else none) with _ | v
    · exfalso
      rw [List.findSome?_eq_none_iff] at hfs
      have := hfs n hn
      rw [if_neg (by simp [inGrid_iff.2 hbf.1]), if_pos ⟨h0, (findFlat_one hbf.1).2 hbf, hbe⟩] at this
      cases this
    · obtain ⟨m, hm, h3⟩ := List.exists_of_findSome?_eq_some hfs
      rw [hval m hm v h3]

theorem edgeKind_high {c : Cell} (hc : InGrid w h c) :
    edgeKind w h dem (findFlat w h dem nodata) c = some false ↔ HighEdge w h dem nodata c := by
  unfold edgeKind
  by_cases h1 : findFlat w h dem nodata c = -1
  · rw [if_pos h1]
    refine ⟨fun e => by (cases e), fun e => absurd (findFlat_negone.1 h1) e.1.2.2.1⟩
  rw [if_neg h1]
  constructor
  · intro h2
    obtain ⟨n, hn, h3⟩ := List.exists_of_findSome?_eq_some h2
    split at h3
    · cases h3
    rename_i h4
    split at h3
    · cases h3
    · split at h3
      · rename_i h5
        have h4' : InGrid w h (nbr .D8 c n) := by simpa [inGrid_iff] using h4
        exact ⟨(findFlat_one hc).1 h5.1, _, nbr_adj hn, h4', h5.2⟩
      · cases h3
  · rintro ⟨ho, b, hb, hbg, hbe⟩
    obtain ⟨n, hn, rfl⟩ := adj_iff_nbr.1 hb
    have h0 := (findFlat_one hc).2 ho
    rcases hfs : (dirs .D8).findSome? (fun n => if !inGrid w h (nbr .D8 c n) then none
      else if findFlat w h dem nodata c = 0 ∧ findFlat w h dem nodata (nbr .D8 c n) = 1 ∧
          dem (nbr .D8 c n) = dem c then some true
      else if findFlat w h dem nodata c = 1 ∧ dem c < dem (nbr .D8 c n) then some false
      else none) with _ | v
    · exfalso
      rw [List.findSome?_eq_none_iff] at hfs
      have := hfs n hn
      rw [if_neg (by simp [inGrid_iff.2 hbg]), if_neg (by rw [h0]; simp), if_pos ⟨h0, hbe⟩] at this
      cases this
    · obtain ⟨m, hm, h3⟩ := List.exists_of_findSome?_eq_some hfs
      split at h3
      · cases h3
      · split at h3
        · rename_i h7; rw [h0] at h7; simp at h7
        · split at h3
          · rw [← h3]
          · cases h3

theorem mem_scanLow {c : Cell} : c ∈ scanLow w h dem (findFlat w h dem nodata) ↔
    LowEdge w h dem nodata c := by
  simp only [scanLow, List.mem_filter, mem_allCells, beq_iff_eq]
  constructor
  · rintro ⟨h1, h2⟩; exact (edgeKind_low h1).1 h2
  · intro h1; exact ⟨h1.1.1, (edgeKind_low h1.1.1).2 h1⟩

theorem mem_scanHigh {c : Cell} : c ∈ scanHigh w h dem (findFlat w h dem nodata) ↔
    HighEdge w h dem nodata c := by
  simp only [scanHigh, List.mem_filter, mem_allCells, beq_iff_eq]
  constructor
  · rintro ⟨h1, h2⟩; exact (edgeKind_high h1).1 h2
  · intro h1; exact ⟨h1.1.1, (edgeKind_high h1.1.1).2 h1⟩

end

/-! ### ResolveFlatsFlowdirs -/

/-- Barnes2014.hpp:610-634: one iteration of `ResolveFlatsFlowdirs_Barnes2014`.  `fd` is the flat
array of nine numbers per cell (the code calls `flowdirs.at(i)`, which `Array2D` does not
provide, so the template as written only instantiates for a type with `at`).  `none`: an access
outside the raster.  The NoData test compares the mask with its NoData value -1
(Barnes2014.hpp:425).  `scanDir`'s direction 0 stands for the initial `NO_FLOW_GEN` (-1);
both make the tie test `flowdir>0` fail. -/
def rfCell (w h : Nat) (mask labels : Cell → Int) (fd : Int → Int) (c : Cell) :
    Option (Int → Int) :=
  if !inGrid w h c then none                                              -- :612 isNoData(x,y)
  else
    let ci := xyToI w c                                                   -- :610
    if mask c = -1 then some fd                                           -- :612
    else if fd (9 * ci) ≠ -1 then some fd                                 -- :614
    else if (dirs .D8).any (fun n => !inGrid w h (nbr .D8 c n)) then none
    else
      let d := (scanDir (fun n => mask (nbr .D8 c n))
        ((dirs .D8).filter (fun n => decide (labels (nbr .D8 c n) = labels c)))
        (mask c, 0)).2                                                    -- :617-631
      let flowdir : Int := if d = 0 then -1 else d
      some (Function.update (Function.update fd (9 * ci + 0) 0) (9 * ci + flowdir) 1)  -- :633-634

/-- Barnes2014.hpp:608-609: `for(y=1;y<flat_mask.width()-1;y++) for(x=1;x<flat_mask.height()-1;x++)`
(the bounds are interchanged in the code). -/
def rfCells (w h : Nat) : List Cell :=
  (List.range' 1 (w - 2)).flatMap (fun y : Nat =>
    (List.range' 1 (h - 2)).map (fun x : Nat => ((x : Int), (y : Int))))

/-- Barnes2014.hpp:594-638 (`ResolveFlatsFlowdirs_Barnes2014`), iterations in program order. -/
def resolveFlowdirs (w h : Nat) (mask labels : Cell → Int) (fd : Int → Int) : Option (Int → Int) :=
  (rfCells w h).foldlM (rfCell w h mask labels) fd

end RichDEM
