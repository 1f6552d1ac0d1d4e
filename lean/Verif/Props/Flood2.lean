/-
Property theorems C12 (watersheds), C13 (pit mask), C51 (NoData under filling).
-/
import Verif.Watersheds
import Verif.Props.Flood

namespace RichDEM

variable {E : Type*} [LinearOrder E]

/-- `p` is a route from `c` to `r` between adjacent in-grid cells that all carry the same
label and along which the surface `f` never rises. -/
structure LabelRoute (w h : Nat) (t : Topo) (lab : Cell → Int) (f : Cell → E) (c r : Cell)
    (p : List Cell) : Prop where
  head : p.head? = some c
  last : p.getLast? = some r
  inGrid : ∀ q ∈ p, InGrid w h q
  chain : p.IsChain (fun a b => Adj t a b ∧ lab a = lab b ∧ f b ≤ f a)

theorem LPath.route {w h : Nat} {t : Topo} {lab : Cell → Int} {f : Cell → E} {r c : Cell}
    (hp : LPath w h t lab f r c) : ∃ p, LabelRoute w h t lab f c r p := by
  induction hp with
  | root hr => exact ⟨[r], rfl, rfl, by simpa using hr, by simp⟩
  | @step c d h1 h2 h3 h4 _ ih =>
    obtain ⟨p, k1, k2, k3, k4⟩ := ih
    cases p with
    | nil => simp at k1
    | cons a p =>
      obtain rfl : a = d := by simpa using k1
      refine ⟨c :: a :: p, rfl, by rw [List.getLast?_cons_cons]; exact k2, ?_, ?_⟩
      · intro q hq
        rcases List.mem_cons.1 hq with rfl | hq
        · exact h1
        · exact k3 q hq
      · exact List.IsChain.cons_cons ⟨h2, h3, h4⟩ k4

/-! ## C12 -/

/-- C12: with a NoData value not above any elevation, every data cell gets a label in
`1 .. k`, and for each label `l` there is one outlet cell - a perimeter cell or a cell next to
NoData - such that every cell labelled `l` reaches it through adjacent cells labelled `l`
without climbing on the filled surface. -/
theorem C12_labels (pq : PQ (E × Cell) zLt) (w h : Nat) (t : Topo) (alter : Bool) (nodata : E)
    (dem F : Cell → E) (hF : IsFilled w h t dem F) (hnd : ∀ c, nodata ≤ dem c)
    (hw : 0 < w) (hh : 0 < h) :
    let lab := (watersheds pq w h t alter nodata dem).labels
    ∃ k : Int,
      (∀ c, InGrid w h c → dem c ≠ nodata → 1 ≤ lab c ∧ lab c ≤ k) ∧
      (∀ c, InGrid w h c → lab c = -1 ∨ (1 ≤ lab c ∧ lab c ≤ k)) ∧
      ∀ l, 1 ≤ l → l ≤ k → ∃ r, lab r = l ∧ InGrid w h r ∧
        (OnEdge w h r ∨ ∃ d, Adj t r d ∧ InGrid w h d ∧ dem d = nodata) ∧
        ∀ c, InGrid w h c → lab c = l → ∃ p, LabelRoute w h t lab F c r p := by
  intro lab
  obtain ⟨s, ⟨h1, h2, root, h3⟩, h4, h5, _⟩ := watersheds_final pq t alter nodata dem hnd hw hh
  obtain ⟨hcl, hfill, _⟩ := h1.filled h4 h5
  refine ⟨(watersheds pq w h t alter nodata dem).clabel - 1, ?_, ?_, ?_⟩
  · intro c hc hd
    rcases h3.range c with h6 | h6
    · rcases h3.pending c (hcl c hc) h6 with h7 | h7 | ⟨e, h7, _⟩
      · exact absurd h7 hd
      · exact h7.elim
      · rw [h4, h5] at h7; simp at h7
    · exact ⟨h6.1, by simp only [lab]; omega⟩
  · intro c _
    rcases h3.range c with h6 | h6
    · exact Or.inl h6
    · exact Or.inr ⟨h6.1, by simp only [lab]; omega⟩
  · intro l hl1 hl2
    obtain ⟨k1, k2, k3⟩ := h3.rootok l hl1 (by omega)
    refine ⟨root l, k2, k1, k3, ?_⟩
    intro c hc hcl'
    have hlp := h3.path c (by simp only [lab] at hcl'; omega)
    simp only [lab] at hcl'
    rw [hcl'] at hlp
    obtain ⟨p, q1, q2, q3, q4⟩ := hlp.route
    refine ⟨p, q1, q2, q3, ?_⟩
    refine List.IsChain.imp_of_mem_imp (fun a b ha hb hab => ?_) q4
    refine ⟨hab.1, hab.2.1, ?_⟩
    rw [isWaterLevel_unique (hF a (q3 a ha)) (hfill a (q3 a ha)),
      isWaterLevel_unique (hF b (q3 b hb)) (hfill b (q3 b hb))]
    exact hab.2.2

/-- C12: the elevations are the filled surface if alteration was requested and untouched
otherwise. -/
theorem C12_elevations (pq : PQ (E × Cell) zLt) (w h : Nat) (t : Topo) (nodata : E)
    (dem : Cell → E) (hnd : ∀ c, nodata ≤ dem c) (hw : 0 < w) (hh : 0 < h) :
    IsFilled w h t dem (watersheds pq w h t true nodata dem).elev ∧
    (watersheds pq w h t false nodata dem).elev = dem := by
  constructor
  · obtain ⟨s, ⟨h1, h2, _⟩, h4, h5, _⟩ := watersheds_final pq t true nodata dem hnd hw hh
    rw [h2.elev]; simpa using (h1.filled h4 h5).2.1
  · obtain ⟨s, ⟨h1, h2, _⟩, h4, h5, _⟩ := watersheds_final pq t false nodata dem hnd hw hh
    rw [h2.elev]; simp

/-- Two watersheds separated by a ridge, with a NoData corner (-9). -/
def exWs : Cell → Int := ofRows 0
  [[-9, 8, 9, 8, 5], [7, 2, 9, 3, 6], [5, 2, 9, 1, 6], [8, 8, 9, 8, 7]]

example : toRows 5 4 (watersheds zPQ 5 4 .D4 true (-9) exWs).labels =
    [[-1, 8, 12, 10, 1], [6, 2, 2, 3, 3], [2, 2, 2, 3, 4], [7, 9, 13, 11, 5]] := by decide +kernel
example : IsFilled 5 4 .D4 exWs (priorityFloodBarnes zPQ 5 4 .D4 exWs).elev :=
  C05_barnes_is_fill _ _ _ _ _ (by omega) (by omega)

/-! ## C13 -/

/-- C13: `pit_mask` is 3 exactly at NoData cells, and elsewhere 1 exactly where filling would
raise the cell, else 0. -/
theorem C13_pit_mask (pq : PQ (E × Cell) zLt) (w h : Nat) (t : Topo) (nodata : E)
    (dem F : Cell → E) (hF : IsFilled w h t dem F) (hw : 0 < w) (hh : 0 < h) (c : Cell)
    (hc : InGrid w h c) :
    (pitMask pq w h t nodata dem).mask c =
      if dem c = nodata then 3 else if dem c < F c then 1 else 0 := by
  obtain ⟨s, h1, h4, h5, _⟩ := pitMask_final pq t nodata dem hw hh
  obtain ⟨hcl, hfill, _⟩ := h1.core.filled h4 h5
  have he : s.elev c = F c := isWaterLevel_unique (hfill c hc) (hF c hc)
  split
  · next hd =>
    rcases h1.nd c (by rw [h1.rel.closed]; exact hcl c hc) hd with h6 | ⟨e, h6, _⟩
    · exact h6
    · rw [h4, h5] at h6; simp at h6
  · next hd =>
    have h3 : (pitMask pq w h t nodata dem).mask c ≠ 3 :=
      fun e => hd (h1.mask.three c e).1
    rw [h1.mask.other c h3, he]

example : toRows 5 4 (pitMask zPQ 5 4 .D8 (3 : Int) exDem).mask =
    [[0, 0, 0, 0, 3], [0, 1, 1, 0, 0], [0, 1, 1, 0, 0], [0, 0, 0, 0, 0]] := by decide +kernel

/-! ## C51 -/

/-- A ring of 5s around one NoData cell (-9). -/
def exNd : Cell → Int := ofRows 0 [[5, 5, 5], [5, -9, 5], [5, 5, 5]]

/-- C51 is false of the code: postcondition 1 of `PriorityFlood_Original` and
`PriorityFlood_Barnes2014` (Barnes2014.hpp:128-130, 222-224) says cells outside the DEM hold
NoData afterwards, but an enclosed NoData cell is raised to its spill elevation and becomes
data. -/
theorem C51_nodata_not_kept :
    exNd (1, 1) = -9 ∧
    (priorityFloodOriginal zPQ 3 3 .D8 exNd).elev (1, 1) = 5 ∧
    (priorityFloodBarnes zPQ 3 3 .D8 exNd).elev (1, 1) = 5 := by decide +kernel

/-- C51, what holds: for every raster and heap, a NoData cell keeps its value exactly when it is
connected to the perimeter through cells not above the NoData value (for the usual NoData value
below all data: through NoData cells only). -/
theorem C51_nodata_kept_iff_partial (pq : PQ (E × Cell) zLt) (w h : Nat) (t : Topo) (nodata : E)
    (dem : Cell → E) (hw : 0 < w) (hh : 0 < h) (c : Cell) (hc : InGrid w h c)
    (hd : dem c = nodata) :
    (priorityFloodBarnes pq w h t dem).elev c = nodata ↔
      ∃ p, EscapePath w h t c p ∧ ∀ q ∈ p, dem q ≤ nodata := by
  have hf := C05_barnes_is_fill pq w h t dem hw hh c hc
  constructor
  · intro e; rw [e] at hf; exact hf.attained
  · rintro ⟨p, hp, hq⟩
    refine le_antisymm ?_ (hd ▸ isWaterLevel_ge hf)
    exact (isWaterLevel_iff.1 hf).2 _ (drains_iff_path.2 ⟨p, hp, hq⟩)

end RichDEM
