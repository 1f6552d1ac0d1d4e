/-
Property theorems C15: the depression fillers that bypass the heap (Zhou2016, Wei2018) and the
dispatcher `FillDepressions` compute the same surface as Priority-Flood.
-/
import Verif.Wei
import Verif.Props.Flood

namespace RichDEM

variable {E : Type*} [LinearOrder E]

/-! ### Specification with NoData -/

/-- `z` is the minimum over all paths through data cells to the raster's edge or to a NoData cell
(`DataPath`) of the highest terrain met on the path. -/
structure IsDataLevel (w h : Nat) (dem : Cell → E) (nd : E) (c : Cell) (z : E) : Prop where
  attained : ∃ p, DataPath w h .D8 dem nd c p ∧ ∀ q ∈ p, dem q ≤ z
  least    : ∀ p, DataPath w h .D8 dem nd c p → ∃ q ∈ p, z ≤ dem q

variable {w h : Nat} {dem : Cell → E} {nd : E}

theorem sdrains_data {z : E} {c : Cell} : SDrains (wreg w h dem nd) (wout w h dem nd) dem z c ↔
    ∃ p, DataPath w h .D8 dem nd c p ∧ ∀ q ∈ p, dem q ≤ z := by
  constructor
  · intro hd
    induction hd with
    | @out c h1 h2 h3 =>
      exact ⟨[c], ⟨rfl, by simp, by simpa [wreg] using h1, c, rfl, h2⟩, by simpa using h3⟩
    | @step c d h1 h2 h3 _ ih =>
      obtain ⟨p, hp, hq⟩ := ih
      cases p with
      | nil => have := hp.head; simp at this
      | cons b p =>
        obtain rfl : b = d := by simpa using hp.head
        refine ⟨c :: b :: p, ⟨rfl, ?_, ?_, ?_⟩, ?_⟩
        · rw [List.isChain_cons_cons]; exact ⟨h3, hp.chain⟩
        · intro q hq'
          rcases List.mem_cons.1 hq' with rfl | hq'
          · exact h1
          · exact hp.data q hq'
        · obtain ⟨e, he, h5⟩ := hp.last
          exact ⟨e, by rw [List.getLast?_cons_cons]; exact he, h5⟩
        · intro q hq'
          rcases List.mem_cons.1 hq' with rfl | hq'
          · exact h2
          · exact hq q hq'
  · rintro ⟨p, hp, hq⟩
    induction p generalizing c with
    | nil => have := hp.head; simp at this
    | cons a p ih =>
      obtain rfl : a = c := by simpa using hp.head
      cases p with
      | nil =>
        obtain ⟨e, he, h5⟩ := hp.last
        obtain rfl : a = e := by simpa using he
        exact .out (hp.data _ (by simp)) h5 (hq _ (by simp))
      | cons b p =>
        have hch := List.isChain_cons_cons.1 hp.chain
        refine .step (hp.data _ (by simp)) (hq _ (by simp)) hch.1 (ih ⟨rfl, hch.2, ?_, ?_⟩ ?_)
        · intro q hm; exact hp.data q (List.mem_cons_of_mem _ hm)
        · obtain ⟨e, he, h5⟩ := hp.last
          rw [List.getLast?_cons_cons] at he
          exact ⟨e, he, h5⟩
        · intro q hm; exact hq q (List.mem_cons_of_mem _ hm)

theorem isDataLevel_iff {c : Cell} {z : E} :
    IsLvl (wreg w h dem nd) (wout w h dem nd) dem c z ↔ IsDataLevel w h dem nd c z := by
  constructor
  · rintro ⟨h1, h2⟩
    refine ⟨sdrains_data.1 h1, ?_⟩
    intro p hp
    have hne : p ≠ [] := by rintro rfl; have := hp.head; simp at this
    obtain ⟨m, hm, hmax⟩ := exists_max (dem := dem) p hne
    exact ⟨m, hm, h2 _ (sdrains_data.2 ⟨p, hp, hmax⟩)⟩
  · rintro ⟨h1, h2⟩
    refine ⟨sdrains_data.2 h1, ?_⟩
    intro z' hz'
    obtain ⟨p, hp, hq⟩ := sdrains_data.1 hz'
    obtain ⟨q, hm, hz⟩ := h2 p hp
    exact hz.trans (hq q hm)

/-- Every data cell has a way out of the data. -/
theorem exists_sdrains {c : Cell} (hc : wreg w h dem nd c) :
    ∃ z, SDrains (wreg w h dem nd) (wout w h dem nd) dem z c := by
  obtain ⟨z, hz⟩ := exists_drains (t := .D8) dem hc.1
  induction hz with
  | @edge c h1 h2 => exact ⟨dem c, .out hc (Or.inl h1) le_rfl⟩
  | @step c d h1 h2 h3 hd ih =>
    by_cases hn : dem d = nd
    · exact ⟨dem c, .out hc (Or.inr ⟨d, h3, hd.inGrid, hn⟩) le_rfl⟩
    · obtain ⟨z', hz'⟩ := ih ⟨hd.inGrid, hn⟩
      exact ⟨max z' (dem c), .step hc (le_max_right _ _) h3 (hz'.mono (le_max_left _ _))⟩

/-! ### Property theorems -/

/-- C15: `PriorityFlood_Zhou2016` stops with its heap empty and leaves in each cell its water
level, whatever heap is used. -/
theorem C15_zhou_is_fill (pq : PQ (E × Cell) zLt) (w h : Nat) (dem : Cell → E) (hw : 0 < w) (hh : 0 < h) :
    zhouStep pq (fun n _ => n) w h (priorityFloodZhou pq w h dem) = none ∧
    IsFilled w h .D8 dem (priorityFloodZhou pq w h dem).elev :=
  zhou_filled _ (fun _ _ hn _ => hn) pq dem hw hh

/-- C15: in the test whether a slope cell is a potential spill the code looks `d8x[n], d8y[n]`
where the loop variable is `nn`.  The slip does not change the result: whichever neighbour each
iteration of that loop looks at, the surface is the same, in particular the one obtained with the
intended `nn`. -/
theorem C15_zhou_typo_harmless (pq pq' : PQ (E × Cell) zLt) (sel : Nat → Nat → Nat)
    (hsel : ∀ n nn, n ∈ dirs .D8 → nn ∈ dirs .D8 → sel n nn ∈ dirs .D8)
    (w h : Nat) (dem : Cell → E) (hw : 0 < w) (hh : 0 < h) (c : Cell) (hc : InGrid w h c) :
    (zhouRun sel pq' w h dem).elev c = (priorityFloodZhou pq w h dem).elev c :=
  C04_fill_unique w h .D8 dem _ _ (zhou_filled sel hsel pq' dem hw hh).2 (C15_zhou_is_fill pq w h dem hw hh).2 c hc

example (pq : PQ (Int × Cell) zLt) (c : Cell) (hc : InGrid 5 4 c) :
    (zhouRun (fun _ nn => nn) pq 5 4 exDem).elev c = (priorityFloodZhou pq 5 4 exDem).elev c :=
  C15_zhou_typo_harmless pq pq _ (fun _ _ _ h => h) 5 4 exDem (by decide) (by decide) c hc

/-- C15: `PriorityFlood_Wei2018` stops with its heap empty and never reads or writes outside the
raster, although its two inner functions test no bounds. -/
theorem C15_wei_safe (pq : PQ (E × Cell) zLt) (w h : Nat) (dem : Cell → E) (nd : E) :
    weiStep pq w h (priorityFloodWei pq w h dem nd) = none ∧ (priorityFloodWei pq w h dem nd).safe = true :=
  ⟨(wei_final pq dem nd).1, (wei_final pq dem nd).2.1⟩

/-- C15: with NoData, `PriorityFlood_Wei2018` leaves in each data cell the minimum over the paths
through data cells to the raster's edge or to a NoData cell, and it leaves NoData cells alone. -/
theorem C15_wei_nodata (pq : PQ (E × Cell) zLt) (w h : Nat) (dem : Cell → E) (nd : E) (c : Cell)
    (hc : InGrid w h c) :
    (dem c ≠ nd → IsDataLevel w h dem nd c ((priorityFloodWei pq w h dem nd).elev c)) ∧
    (dem c = nd → (priorityFloodWei pq w h dem nd).elev c = nd) := by
  obtain ⟨_, _, k1, k2⟩ := wei_final (w := w) (h := h) pq dem nd
  refine ⟨fun hn => ?_, k2 c hc⟩
  obtain ⟨z, hz⟩ := exists_sdrains (dem := dem) (nd := nd) ⟨hc, hn⟩
  exact isDataLevel_iff.1 (k1 c z hz)

/-- C15: without NoData cells `PriorityFlood_Wei2018` fills the DEM. -/
theorem C15_wei_is_fill (pq : PQ (E × Cell) zLt) (w h : Nat) (dem : Cell → E) (nd : E)
    (hnd : ∀ c, InGrid w h c → dem c ≠ nd) :
    IsFilled w h .D8 dem (priorityFloodWei pq w h dem nd).elev := by
  have hp : ∀ c p, DataPath w h .D8 dem nd c p ↔ EscapePath w h .D8 c p := by
    intro c p
    constructor
    · intro hp
      refine ⟨hp.head, hp.chain, fun q hq => (hp.data q hq).1, ?_⟩
      obtain ⟨e, he, h1 | ⟨b, _, hb, hn⟩⟩ := hp.last
      · exact ⟨e, he, h1⟩
      · exact absurd hn (hnd b hb)
    · intro hp
      obtain ⟨e, he, h1⟩ := hp.last
      exact ⟨hp.head, hp.chain, fun q hq => ⟨hp.inGrid q hq, hnd q (hp.inGrid q hq)⟩, e, he, Or.inl h1⟩
  intro c hc
  have k := (C15_wei_nodata pq w h dem nd c hc).1 (hnd c hc)
  refine ⟨?_, ?_⟩
  · obtain ⟨p, hp1, hp2⟩ := k.attained
    exact ⟨p, (hp c p).1 hp1, hp2⟩
  · intro p hp1
    exact k.least p ((hp c p).2 hp1)

/-- depressions.hpp:14-21 `FillDepressions<topo>`. -/
def fillDepressionsTopo (pq : PQ (E × Cell) zLt) (t : Topo) (w h : Nat) (dem : Cell → E) : Cell → E :=
  match t with
  | .D8 => (priorityFloodZhou pq w h dem).elev
  | .D4 => (priorityFloodBarnes pq w h .D4 dem).elev

/-- C15: `FillDepressions` fills with the topology asked for. -/
theorem C15_fillDepressions_is_fill (pq : PQ (E × Cell) zLt) (t : Topo) (w h : Nat) (dem : Cell → E)
    (hw : 0 < w) (hh : 0 < h) : IsFilled w h t dem (fillDepressionsTopo pq t w h dem) := by
  cases t
  · exact (C15_zhou_is_fill pq w h dem hw hh).2
  · exact C05_barnes_is_fill pq w h .D4 dem hw hh

/-- C15: on a DEM without NoData all fillers return the same raster, whatever heaps (orders of
equal elevations) they use. -/
theorem C15_all_equal (p1 p2 p3 p4 p5 : PQ (E × Cell) zLt) (w h : Nat) (dem : Cell → E) (nd : E)
    (hw : 0 < w) (hh : 0 < h) (hnd : ∀ c, InGrid w h c → dem c ≠ nd) (c : Cell) (hc : InGrid w h c) :
    (priorityFloodZhou p1 w h dem).elev c = (priorityFloodBarnes p2 w h .D8 dem).elev c ∧
    (priorityFloodWei p3 w h dem nd).elev c = (priorityFloodBarnes p2 w h .D8 dem).elev c ∧
    (priorityFloodOriginal p4 w h .D8 dem).elev c = (priorityFloodBarnes p2 w h .D8 dem).elev c ∧
    (∀ t, fillDepressionsTopo p5 t w h dem c = (priorityFloodBarnes p2 w h t dem).elev c) := by
  have hb := fun t => C05_barnes_is_fill p2 w h t dem hw hh
  exact ⟨C04_fill_unique w h .D8 dem _ _ (C15_zhou_is_fill p1 w h dem hw hh).2 (hb _) c hc,
    C04_fill_unique w h .D8 dem _ _ (C15_wei_is_fill p3 w h dem nd hnd) (hb _) c hc,
    C04_fill_unique w h .D8 dem _ _ (C04_original_is_fill p4 w h .D8 dem hw hh) (hb _) c hc,
    fun t => C04_fill_unique w h t dem _ _ (C15_fillDepressions_is_fill p5 t w h dem hw hh) (hb t) c hc⟩

/-- The hypotheses are met, and the terrain is changed by filling. -/
example : (∀ c ∈ allCells 5 4, exDem c ≠ -9999) ∧
    toRows 5 4 (priorityFloodZhou zPQ 5 4 exDem).elev =
      [[9, 9, 9, 9, 3], [9, 6, 6, 7, 9], [9, 6, 6, 6, 9], [9, 9, 9, 9, 4]] ∧
    toRows 5 4 (priorityFloodWei zPQ 5 4 exDem (-9999)).elev =
      [[9, 9, 9, 9, 3], [9, 6, 6, 7, 9], [9, 6, 6, 6, 9], [9, 9, 9, 9, 4]] := by decide +kernel

/-- A 5x5 bowl with a NoData cell (0) beside the bottom. -/
def weiHole : Cell → Int := ofRows 0
  [[9, 9, 9, 9, 9], [9, 3, 4, 5, 9], [9, 4, 0, 5, 9], [9, 6, 5, 2, 9], [9, 9, 9, 9, 9]]

/-- C15: the hypothesis "without NoData" is needed: Wei2018 lets water out at NoData cells, the
other fillers take NoData for terrain. -/
theorem C15_wei_nodata_differs :
    toRows 5 5 (priorityFloodWei zPQ 5 5 weiHole 0).elev = toRows 5 5 weiHole ∧
    toRows 5 5 (priorityFloodZhou zPQ 5 5 weiHole).elev =
      [[9, 9, 9, 9, 9], [9, 9, 9, 9, 9], [9, 9, 9, 9, 9], [9, 9, 9, 9, 9], [9, 9, 9, 9, 9]] := by
  decide +kernel

end RichDEM
