/-
Property theorems C04-C09 (Priority-Flood: Original, Barnes2014, HasDepressions).

Common hypotheses `0 < w`, `0 < h`: with an empty raster the code reads outside it while
seeding (e.g. `elevations(x, height()-1)` with height 0), see `C09_empty_raster_unsafe`.
-/
import Verif.Flood
import Verif.Examples

namespace RichDEM

variable {E : Type*} [LinearOrder E]

/-! ## C04 / C05 -/

/-- C04: whatever heap is used, `PriorityFlood_Original` leaves in each cell the minimum over
all paths to the perimeter of the maximum original elevation on the path. -/
theorem C04_original_is_fill (pq : PQ (E × Cell) zLt) (w h : Nat) (t : Topo) (dem : Cell → E)
    (hw : 0 < w) (hh : 0 < h) :
    IsFilled w h t dem (priorityFloodOriginal pq w h t dem).elev := by
  obtain ⟨h1, h2, h3, _⟩ := orig_final pq t dem hw hh
  exact (h1.filled h2 h3).2.1

/-- C05: the same for `PriorityFlood_Barnes2014`. -/
theorem C05_barnes_is_fill (pq : PQ (E × Cell) zLt) (w h : Nat) (t : Topo) (dem : Cell → E)
    (hw : 0 < w) (hh : 0 < h) :
    IsFilled w h t dem (priorityFloodBarnes pq w h t dem).elev := by
  obtain ⟨h1, h2, h3, _⟩ := barnes_final pq t dem hw hh
  exact (h1.filled h2 h3).2.1

/-- C04/C05: the fill is unique, so the specification determines the raster. -/
theorem C04_fill_unique (w h : Nat) (t : Topo) (dem a b : Cell → E)
    (ha : IsFilled w h t dem a) (hb : IsFilled w h t dem b) (c : Cell) (hc : InGrid w h c) :
    a c = b c :=
  isWaterLevel_unique (ha c hc) (hb c hc)

/-- C05: the two algorithms agree cell by cell, whatever heaps (tie orders) they use. -/
theorem C05_barnes_eq_original (pq pq' : PQ (E × Cell) zLt) (w h : Nat) (t : Topo)
    (dem : Cell → E) (hw : 0 < w) (hh : 0 < h) (c : Cell) (hc : InGrid w h c) :
    (priorityFloodBarnes pq w h t dem).elev c = (priorityFloodOriginal pq' w h t dem).elev c :=
  C04_fill_unique w h t dem _ _ (C05_barnes_is_fill pq w h t dem hw hh)
    (C04_original_is_fill pq' w h t dem hw hh) c hc

/-- A 5x4 terrain with a pit that spills at 3 (D8) through a diagonal gap. -/
def exDem : Cell → Int := ofRows 0
  [[9, 9, 9, 9, 3], [9, 1, 2, 7, 9], [9, 2, 1, 6, 9], [9, 9, 9, 9, 4]]

example : toRows 5 4 (priorityFloodOriginal zPQ 5 4 .D8 exDem).elev =
    [[9, 9, 9, 9, 3], [9, 6, 6, 7, 9], [9, 6, 6, 6, 9], [9, 9, 9, 9, 4]] := by decide +kernel
example : toRows 5 4 (priorityFloodBarnes zPQ 5 4 .D4 exDem).elev =
    [[9, 9, 9, 9, 3], [9, 9, 9, 9, 9], [9, 9, 9, 9, 9], [9, 9, 9, 9, 4]] := by decide +kernel

/-! ## C06 -/

/-- C06: no cell is lowered and perimeter cells are unchanged. -/
theorem C06_never_lowers (pq : PQ (E × Cell) zLt) (w h : Nat) (t : Topo) (dem : Cell → E)
    (hw : 0 < w) (hh : 0 < h) (c : Cell) (hc : InGrid w h c) :
    dem c ≤ (priorityFloodOriginal pq w h t dem).elev c ∧
    dem c ≤ (priorityFloodBarnes pq w h t dem).elev c ∧
    (OnEdge w h c → (priorityFloodOriginal pq w h t dem).elev c = dem c ∧
      (priorityFloodBarnes pq w h t dem).elev c = dem c) := by
  have h1 := C04_original_is_fill pq w h t dem hw hh c hc
  have h2 := C05_barnes_is_fill pq w h t dem hw hh c hc
  exact ⟨isWaterLevel_ge h1, isWaterLevel_ge h2,
    fun he => ⟨isWaterLevel_edge he h1, isWaterLevel_edge he h2⟩⟩

/-- C06: every raised cell is raised to the elevation of some cell of the input raster. -/
theorem C06_levels_come_from_input (w h : Nat) (t : Topo) (dem out : Cell → E)
    (hf : IsFilled w h t dem out) (c : Cell) (hc : InGrid w h c) :
    ∃ q, InGrid w h q ∧ out c = dem q := by
  obtain ⟨p, hp, hq⟩ := (hf c hc).attained
  obtain ⟨m, hm, hmax⟩ := (hf c hc).least p hp
  exact ⟨m, hp.inGrid m hm, le_antisymm hmax (hq m hm)⟩

/-! ## C07 -/

/-- C07: the filled raster drains: every cell has a never-ascending path to the perimeter. -/
theorem C07_filled_drains (pq : PQ (E × Cell) zLt) (w h : Nat) (t : Topo) (dem : Cell → E)
    (hw : 0 < w) (hh : 0 < h) :
    Drained w h t (priorityFloodOriginal pq w h t dem).elev ∧
    Drained w h t (priorityFloodBarnes pq w h t dem).elev := by
  obtain ⟨h1, h2, h3, _⟩ := orig_final pq t dem hw hh
  obtain ⟨k1, k2, k3, _⟩ := barnes_final pq t dem hw hh
  exact ⟨(h1.filled h2 h3).2.2, (k1.filled k2 k3).2.2⟩

/-- C07: `HasDepressions` returns false exactly when every cell drains monotonically. -/
theorem C07_hasDepressions_iff (pq : PQ (E × Cell) zLt) (w h : Nat) (t : Topo) (dem : Cell → E)
    (hw : 0 < w) (hh : 0 < h) :
    hasDepressions pq w h t dem = false ↔ Drained w h t dem := by
  have key := hasDep_final pq t dem hw hh
  constructor
  · intro hf
    have hno : ¬ HasDep w h t dem := by rw [← key, hf]; simp
    intro c hc
    obtain ⟨h1, h2, h3, _⟩ := orig_final pq t dem hw hh
    obtain ⟨_, hfill, hdr⟩ := h1.filled h2 h3
    have heq : ∀ d, InGrid w h d → (priorityFloodOriginal pq w h t dem).elev d = dem d := by
      intro d hd
      rcases (isWaterLevel_ge (hfill d hd)).lt_or_eq with hlt | he
      · exact absurd ⟨d, _, hd, hfill d hd, hlt⟩ hno
      · exact he.symm
    obtain ⟨p, hp, hch⟩ := hdr c hc
    refine ⟨p, hp, ?_⟩
    refine List.IsChain.imp_of_mem_imp (fun a b ha hb hab => ?_) hch
    rw [heq a (hp.inGrid a ha), heq b (hp.inGrid b hb)] at hab
    exact hab
  · intro hd
    by_contra hf
    rw [Bool.not_eq_false, key] at hf
    obtain ⟨q, z, hq, hz, hlt⟩ := hf
    rw [isWaterLevel_unique hz (isFilled_self hd q hq)] at hlt
    exact lt_irrefl _ hlt

/-- C07: `HasDepressions` returns true exactly when filling would change some cell. -/
theorem C07_hasDepressions_iff_changes (pq pq' : PQ (E × Cell) zLt) (w h : Nat) (t : Topo)
    (dem : Cell → E) (hw : 0 < w) (hh : 0 < h) :
    hasDepressions pq w h t dem = true ↔
      ∃ c, InGrid w h c ∧ (priorityFloodBarnes pq' w h t dem).elev c ≠ dem c := by
  rw [hasDep_final pq t dem hw hh]
  have hf := C05_barnes_is_fill pq' w h t dem hw hh
  constructor
  · rintro ⟨q, z, hq, hz, hlt⟩
    refine ⟨q, hq, ?_⟩
    rw [isWaterLevel_unique (hf q hq) hz]; exact hlt.ne'
  · rintro ⟨c, hc, hne⟩
    exact ⟨c, _, hc, hf c hc, lt_of_le_of_ne (isWaterLevel_ge (hf c hc)) (Ne.symm hne)⟩

/-- C07: the fillers' outputs are reported free of depressions. -/
theorem C07_filled_has_none (pq pq' : PQ (E × Cell) zLt) (w h : Nat) (t : Topo) (dem : Cell → E)
    (hw : 0 < w) (hh : 0 < h) :
    hasDepressions pq' w h t (priorityFloodOriginal pq w h t dem).elev = false ∧
    hasDepressions pq' w h t (priorityFloodBarnes pq w h t dem).elev = false := by
  rw [C07_hasDepressions_iff pq' _ _ _ _ hw hh, C07_hasDepressions_iff pq' _ _ _ _ hw hh]
  exact C07_filled_drains pq w h t dem hw hh

example : hasDepressions zPQ 5 4 .D8 exDem = true ∧
    hasDepressions zPQ 5 4 .D8 (fun c => c.1 + c.2) = false := by decide +kernel

/-! ## C08 -/

/-- C08: filling is idempotent. -/
theorem C08_idempotent (pq pq' : PQ (E × Cell) zLt) (w h : Nat) (t : Topo) (dem : Cell → E)
    (hw : 0 < w) (hh : 0 < h) (c : Cell) (hc : InGrid w h c) :
    (priorityFloodBarnes pq' w h t (priorityFloodBarnes pq w h t dem).elev).elev c =
      (priorityFloodBarnes pq w h t dem).elev c :=
  isWaterLevel_unique (C05_barnes_is_fill pq' w h t _ hw hh c hc)
    (isFilled_self (C07_filled_drains pq w h t dem hw hh).2 c hc)

/-- C08: filling is monotone in the terrain. -/
theorem C08_monotone (pq : PQ (E × Cell) zLt) (w h : Nat) (t : Topo) (dem dem' : Cell → E)
    (hw : 0 < w) (hh : 0 < h) (hle : ∀ c, InGrid w h c → dem c ≤ dem' c) (c : Cell)
    (hc : InGrid w h c) :
    (priorityFloodBarnes pq w h t dem).elev c ≤ (priorityFloodBarnes pq w h t dem').elev c := by
  have h1 := C05_barnes_is_fill pq w h t dem hw hh c hc
  have h2 := C05_barnes_is_fill pq w h t dem' hw hh c hc
  rw [isWaterLevel_iff] at h1 h2
  exact h1.2 _ (h2.1.mono_dem hle)

/-- C08: D8 filling is never above D4 filling (more paths). -/
theorem C08_D8_le_D4 (pq : PQ (E × Cell) zLt) (w h : Nat) (dem : Cell → E)
    (hw : 0 < w) (hh : 0 < h) (c : Cell) (hc : InGrid w h c) :
    (priorityFloodBarnes pq w h .D8 dem).elev c ≤ (priorityFloodBarnes pq w h .D4 dem).elev c := by
  have h1 := C05_barnes_is_fill pq w h .D8 dem hw hh c hc
  have h2 := C05_barnes_is_fill pq w h .D4 dem hw hh c hc
  rw [isWaterLevel_iff] at h1 h2
  refine h1.2 _ ?_
  have : ∀ {z : E} {c : Cell}, Drains w h .D4 dem z c → Drains w h .D8 dem z c := by
    intro z c hd
    induction hd with
    | edge a b => exact .edge a b
    | @step c d a b e _ ih =>
      refine .step a b ?_ ih
      obtain ⟨c1, c2⟩ := c; obtain ⟨d1, d2⟩ := d
      simp only [Adj] at e ⊢
      refine ⟨?_, by omega, by omega⟩
      intro hcd; simp only [Prod.mk.injEq] at hcd; omega
  exact this h2.1

example : ∃ dem dem' : Cell → Int, (∀ c, InGrid 5 4 c → dem c ≤ dem' c) ∧
    (priorityFloodBarnes zPQ 5 4 .D8 dem).elev (1, 1) = 6 ∧
    (priorityFloodBarnes zPQ 5 4 .D8 dem').elev (1, 1) = 7 := by
  refine ⟨exDem, fun c => exDem c + 1, fun c _ => by simp, ?_, ?_⟩ <;> decide +kernel

/-! ## C09 -/

/-- C09: the main loops stop (no further iteration is possible) with empty queues, after
closing every cell, without any access outside the raster; the number of iterations is the
number of perimeter seeds plus the number of non-perimeter cells; the reported "cells in
pits" is the number of cells raised. -/
theorem C09_original_terminates (pq : PQ (E × Cell) zLt) (w h : Nat) (t : Topo) (dem : Cell → E)
    (hw : 0 < w) (hh : 0 < h) :
    let s := priorityFloodOriginal pq w h t dem
    origStep pq w h t s = none ∧ s.openQ = [] ∧ s.safe = true ∧
    (∀ c, InGrid w h c → s.closed c = true) ∧
    s.processed = (perimeter w h).length +
      (allCells w h).countP (fun c => decide (¬ OnEdge w h c)) ∧
    s.pitc = (allCells w h).countP (fun c => decide (dem c < s.elev c)) := by
  obtain ⟨h1, h2, h3, h4⟩ := orig_final pq t dem hw hh
  have hf := (h1.filled h2 h3).1
  refine ⟨h4, h2, h1.cnt.safe, hf, ?_, h1.cnt.pitc⟩
  have hc := h1.cnt.count
  rw [h2, h3] at hc
  have hz : unflagged w h (priorityFloodOriginal pq w h t dem).closed = 0 := by
    unfold unflagged; rw [List.countP_eq_zero]
    intro c hc; simp [hf c (mem_allCells.1 hc)]
  have hu := unflagged_perimeter hw hh
  simp only [List.length_nil] at hc
  omega

/-- C09 for `PriorityFlood_Barnes2014`. -/
theorem C09_barnes_terminates (pq : PQ (E × Cell) zLt) (w h : Nat) (t : Topo) (dem : Cell → E)
    (hw : 0 < w) (hh : 0 < h) :
    let s := priorityFloodBarnes pq w h t dem
    barnesStep pq w h t s = none ∧ s.openQ = [] ∧ s.pitQ = [] ∧ s.safe = true ∧
    (∀ c, InGrid w h c → s.closed c = true) ∧
    s.processed = (perimeter w h).length +
      (allCells w h).countP (fun c => decide (¬ OnEdge w h c)) ∧
    s.pitc = (allCells w h).countP (fun c => decide (dem c < s.elev c)) := by
  obtain ⟨h1, h2, h3, h4⟩ := barnes_final pq t dem hw hh
  have hf := (h1.filled h2 h3).1
  refine ⟨h4, h2, h3, h1.cnt.safe, hf, ?_, h1.cnt.pitc⟩
  have hc := h1.cnt.count
  rw [h2, h3] at hc
  have hz : unflagged w h (priorityFloodBarnes pq w h t dem).closed = 0 := by
    unfold unflagged; rw [List.countP_eq_zero]
    intro c hc; simp [hf c (mem_allCells.1 hc)]
  have hu := unflagged_perimeter hw hh
  simp only [List.length_nil] at hc
  omega

example : (priorityFloodBarnes zPQ 5 4 .D8 exDem).processed = 20 ∧
    (priorityFloodBarnes zPQ 5 4 .D8 exDem).pitc = 4 ∧
    (priorityFloodOriginal zPQ 5 4 .D8 exDem).processed = 20 := by decide +kernel

/-- C09, excluded point: on a raster of positive width and height 0 the seeding already
touches cells outside the raster. -/
theorem C09_empty_raster_unsafe (pq : PQ (E × Cell) zLt) (w : Nat) (dem : Cell → E)
    (hw : 0 < w) : (floodInit pq w 0 dem).safe = false := by
  simp only [floodInit]
  rw [List.all_eq_false]
  refine ⟨(0, 0), ?_, ?_⟩
  · simp only [perimeter, List.mem_append, List.mem_flatMap, List.mem_range]
    exact Or.inl ⟨0, hw, by simp⟩
  · simp [inGrid]

end RichDEM
