/-
Property theorems C16 (D8 flow directions) and C17 (O'Callaghan flow metric).
-/
import Verif.Flow.FlowDir
import Verif.Examples

namespace RichDEM

variable {E : Type*} [LinearOrder E]

/-- Odd D8 directions are the four side neighbours. -/
theorem nbr_D4_iff (c : Cell) {n : Nat} (hn : n ∈ dirs .D8) :
    Adj .D4 c (nbr .D8 c n) ↔ n % 2 = 1 := by
  rw [mem_dirs] at hn
  obtain ⟨h1, h2⟩ := hn
  simp only [nmax] at h2
  interval_cases n <;> simp [Adj, nbr, dx, dy, d8x, d8y]

theorem adj_D4_D8 {a b : Cell} (h : Adj .D4 a b) : Adj .D8 a b := by
  obtain ⟨a1, a2⟩ := a; obtain ⟨b1, b2⟩ := b
  simp only [Adj] at h
  refine ⟨?_, ?_, ?_⟩
  · rintro ⟨⟩; omega
  · simp only; omega
  · simp only; omega

/-- C16: the direction of an interior cell is 0 exactly when no neighbour is strictly lower;
otherwise it is a direction code 1..8 naming an in-grid neighbour that is strictly lower than
the cell and at most as high as every neighbour, and if that neighbour is a diagonal one then
every side neighbour is strictly higher than it. -/
theorem C16_interior (w h : Nat) (dem : Cell → E) (c : Cell) (hc : InGrid w h c)
    (he : ¬ OnEdge w h c) :
    let d := d8FlowDir w h dem c
    (d = 0 ↔ ∀ b, Adj .D8 c b → dem c ≤ dem b) ∧
    (d ≠ 0 → 1 ≤ d ∧ d ≤ 8 ∧ InGrid w h (nbr .D8 c d) ∧ Adj .D8 c (nbr .D8 c d) ∧
      dem (nbr .D8 c d) < dem c ∧ (∀ b, Adj .D8 c b → dem (nbr .D8 c d) ≤ dem b) ∧
      (¬ Adj .D4 c (nbr .D8 c d) → ∀ b, Adj .D4 c b → dem (nbr .D8 c d) < dem b)) := by
  have he' : isEdgeCell w h c = false := by
    rw [← Bool.not_eq_true, isEdgeCell_iff hc]; exact he
  have key := scanDir_spec (fun n => dem (nbr .D8 c n)) (dem c) (dirs .D8) [] (dem c) 0
    (by intro n hn; rw [List.nil_append, mem_dirs] at hn; omega) (.inl ⟨rfl, rfl, by simp⟩)
  simp only [List.nil_append] at key
  have hd : d8FlowDir w h dem c
      = (scanDir (fun n => dem (nbr .D8 c n)) (dirs .D8) (dem c, 0)).2 := by
    simp [d8FlowDir, he']
  intro d
  change (d8FlowDir w h dem c = 0 ↔ _) ∧ (d8FlowDir w h dem c ≠ 0 → _)
  have hdd : d = (scanDir (fun n => dem (nbr .D8 c n)) (dirs .D8) (dem c, 0)).2 := hd
  rw [← hdd] at key
  change (d = 0 ↔ _) ∧ (d ≠ 0 → _)
  rcases key with ⟨k1, _, k3⟩ | ⟨k1, _, k3, k4, k5⟩
  · refine ⟨⟨fun _ b hb => ?_, fun _ => k1⟩, fun h0 => absurd k1 h0⟩
    obtain ⟨n, hn, rfl⟩ := adj_iff_nbr.1 hb
    exact not_lt.1 (k3 n hn)
  · have hm := mem_dirs.1 k1
    simp only [nmax] at hm
    refine ⟨⟨fun h0 => by omega, fun hall => ?_⟩, fun _ => ?_⟩
    · exact absurd k3 (not_lt.2 (hall _ (nbr_adj k1)))
    · refine ⟨hm.1, hm.2, nbr_interior_inGrid hc he' k1, nbr_adj k1, k3, ?_, ?_⟩
      · intro b hb
        obtain ⟨n, hn, rfl⟩ := adj_iff_nbr.1 hb
        exact k4 n hn
      · intro hdiag b hb
        obtain ⟨n, hn, rfl⟩ := adj_iff_nbr.1 (adj_D4_D8 hb)
        rw [nbr_D4_iff c k1] at hdiag
        rw [nbr_D4_iff c hn] at hb
        exact lt_of_le_of_ne (k4 n hn) (Ne.symm (k5 (by omega) n hn hb))

/-- C16: an edge cell always flows, and flows off the raster. -/
theorem C16_edge (w h : Nat) (dem : Cell → E) (c : Cell) (he : OnEdge w h c) :
    1 ≤ d8FlowDir w h dem c ∧ d8FlowDir w h dem c ≤ 8 ∧
      ¬ InGrid w h (nbr .D8 c (d8FlowDir w h dem c)) := by
  obtain ⟨hc, he2⟩ := he
  have he' : isEdgeCell w h c = true := (isEdgeCell_iff hc).2 ⟨hc, he2⟩
  simp only [d8FlowDir, he', if_true, edgeDir]
  obtain ⟨c1, c2⟩ := c
  obtain ⟨h1, h2, h3, h4⟩ := hc
  simp only at *
  have a1 : d8x.getD 1 0 = -1 := rfl
  have a2 : d8x.getD 2 0 = -1 := rfl
  have a8 : d8x.getD 8 0 = -1 := rfl
  have a4 : d8x.getD 4 0 = 1 := rfl
  have a5 : d8x.getD 5 0 = 1 := rfl
  have a6 : d8x.getD 6 0 = 1 := rfl
  have b3 : d8y.getD 3 0 = -1 := rfl
  have b7 : d8y.getD 7 0 = 1 := rfl
  split_ifs <;> refine ⟨by omega, by omega, ?_⟩ <;> simp only [InGrid, nbr, dx, dy] <;>
    intro ⟨q1, q2, q3, q4⟩ <;> omega

/-- C16: the flow direction raster has the NoData value exactly at the NoData cells; elsewhere
the values are 0..8. -/
theorem C16_noData (w h : Nat) (dem : Cell → E) (nd : E) (c : Cell) (hc : InGrid w h c) :
    (d8FlowDirections w h dem nd c = FLOWDIR_NO_DATA ↔ dem c = nd) ∧
    (dem c ≠ nd → d8FlowDirections w h dem nd c ≤ 8) := by
  have hb : d8FlowDir w h dem c ≤ 8 := by
    by_cases he : OnEdge w h c
    · exact (C16_edge w h dem c he).2.1
    · have := C16_interior w h dem c hc he
      by_cases h0 : d8FlowDir w h dem c = 0
      · omega
      · exact (this.2 h0).2.1
  constructor
  · constructor
    · intro h1
      by_contra h2
      simp only [d8FlowDirections, if_neg h2, FLOWDIR_NO_DATA] at h1
      omega
    · intro h1; simp [d8FlowDirections, h1]
  · intro h1; simpa [d8FlowDirections, h1] using hb

/-- C16: when the NoData value is below all data (the documented assumption), an interior data
cell beside a NoData cell flows into a NoData cell. -/
theorem C16_noData_drains (w h : Nat) (dem : Cell → E) (nd : E) (c b : Cell) (hc : InGrid w h c)
    (he : ¬ OnEdge w h c) (hlow : ∀ a, InGrid w h a → nd ≤ dem a) (hd : dem c ≠ nd)
    (hb : Adj .D8 c b) (hbn : dem b = nd) :
    dem (nbr .D8 c (d8FlowDirections w h dem nd c)) = nd := by
  have hlt : dem b < dem c := by rw [hbn]; exact lt_of_le_of_ne (hlow c hc) (Ne.symm hd)
  simp only [d8FlowDirections, if_neg hd]
  obtain ⟨h1, h2⟩ := C16_interior w h dem c hc he
  have h0 : d8FlowDir w h dem c ≠ 0 := fun h0 => absurd hlt (not_lt.2 (h1.1 h0 b hb))
  obtain ⟨_, _, h3, _, _, h4, _⟩ := h2 h0
  exact le_antisymm (hbn ▸ h4 b hb) (hlow _ h3)

/-- A 3x3 DEM whose centre has two equally low neighbours, one diagonal (direction 2) and one
orthogonal (direction 3). -/
def exTie : Cell → Int := ofRows 0 [[1, 1, 5], [5, 3, 5], [5, 5, 5]]

example : InGrid 3 3 (1, 1) ∧ ¬ OnEdge 3 3 (1, 1) ∧ d8FlowDir 3 3 exTie (1, 1) = 3 := by
  decide +kernel

example : d8FlowDirections 3 3 (ofRows 0 [[9, 9, 9], [9, 3, -1], [9, 2, 9]]) (-1 : Int) (1, 1) = 5
    := by decide +kernel

/-! ### C17 -/

/-- C17: the metric on every cell.  `mx` is the largest value of the elevation type
(only `dem c ≤ mx` is used). -/
theorem C17_metric (w h : Nat) (t : Topo) (dem : Cell → E) (nd mx : E) (c : Cell)
    (hmx : dem c ≤ mx) (hc : InGrid w h c) :
    (fmOCallaghan w h t dem nd mx c = .noData ↔ dem c = nd) ∧
    (OnEdge w h c → dem c ≠ nd → fmOCallaghan w h t dem nd mx c = .noFlow) ∧
    (¬ OnEdge w h c → dem c ≠ nd →
      (fmOCallaghan w h t dem nd mx c = .noFlow ↔
        ∀ b, Adj t c b → dem b ≠ nd → dem c ≤ dem b) ∧
      (∀ n, fmOCallaghan w h t dem nd mx c = .flow n →
        1 ≤ n ∧ n ≤ nmax t ∧ InGrid w h (nbr t c n) ∧ Adj t c (nbr t c n) ∧
        dem (nbr t c n) ≠ nd ∧ dem (nbr t c n) < dem c ∧
        ∀ b, Adj t c b → dem b ≠ nd → dem (nbr t c n) ≤ dem b)) := by
  refine ⟨?_, ?_, ?_⟩
  · constructor
    · intro h1
      by_contra h2
      simp only [fmOCallaghan, if_neg h2] at h1
      split at h1
      · cases h1
      · split at h1 <;> cases h1
    · intro h1; simp [fmOCallaghan, h1]
  · intro h1 h2
    simp [fmOCallaghan, h2, (isEdgeCell_iff hc).2 h1]
  · intro he hne
    have he' : isEdgeCell w h c = false := by
      rw [← Bool.not_eq_true, isEdgeCell_iff hc]; exact he
    set nb : Nat → Option E :=
      fun n => if dem (nbr t c n) = nd then none else some (dem (nbr t c n)) with hnb
    have key := scanLowest_spec (dem c) mx hmx nb (dirs t) [] mx 0
      (by intro n hn; rw [List.nil_append, mem_dirs] at hn; omega) (.inl ⟨rfl, rfl, by simp⟩)
    simp only [List.nil_append] at key
    have hfm : fmOCallaghan w h t dem nd mx c =
        if (scanLowest (dem c) nb (dirs t) (mx, 0)).2 = 0 then .noFlow
        else .flow (scanLowest (dem c) nb (dirs t) (mx, 0)).2 := by
      simp only [fmOCallaghan, if_neg hne, he', hnb]; simp
    have hsome : ∀ n, dem (nbr t c n) ≠ nd → nb n = some (dem (nbr t c n)) := by
      intro n hn; simp [hnb, hn]
    have hsome' : ∀ n z, nb n = some z → dem (nbr t c n) ≠ nd ∧ dem (nbr t c n) = z := by
      intro n z hz
      simp only [hnb] at hz
      split at hz
      · cases hz
      · rename_i h3; exact ⟨h3, by simpa using hz⟩
    rw [hfm]
    generalize scanLowest (dem c) nb (dirs t) (mx, 0) = r at key
    rcases key with ⟨k1, k2⟩ | ⟨k1, k2, k3, k4⟩
    · refine ⟨⟨fun _ b hb hbn => ?_, fun _ => by rw [if_pos k1]⟩, ?_⟩
      · obtain ⟨n, hn, rfl⟩ := adj_iff_nbr.1 hb
        exact k2 n hn _ (hsome n hbn)
      · intro n hn; rw [if_pos k1] at hn; cases hn
    · have hm := mem_dirs.1 k1
      have h0 : r.2 ≠ 0 := by omega
      obtain ⟨k5, k6⟩ := hsome' _ _ k2
      rw [if_neg h0]
      refine ⟨⟨fun h1 => absurd h1 (by simp), fun hall => ?_⟩, ?_⟩
      · have := hall _ (nbr_adj k1) k5
        rw [k6] at this
        exact absurd k3 (not_lt.2 this)
      · intro n hn
        injection hn with hn
        subst hn
        refine ⟨hm.1, hm.2, nbr_interior_inGrid hc he' k1, nbr_adj k1, k5, by rw [k6]; exact k3, ?_⟩
        intro b hb hbn
        obtain ⟨n, hn, rfl⟩ := adj_iff_nbr.1 hb
        rw [k6]
        exact k4 n hn _ (hsome n hbn)

/-- C17: exactly one positive proportion, equal to one, when there is flow; none otherwise. -/
theorem C17_one_unit (w h : Nat) (t : Topo) (dem : Cell → E) (nd mx : E) (c : Cell) :
    (∃ m, m ≠ 0 ∧ (fmOCallaghan w h t dem nd mx c).slot 0 = 0 ∧
        (fmOCallaghan w h t dem nd mx c).slot m = 1 ∧
        ∀ n, n ≠ m → (fmOCallaghan w h t dem nd mx c).slot n ≤ 0) ∨
    (((fmOCallaghan w h t dem nd mx c).slot 0 = -1 ∨
        (fmOCallaghan w h t dem nd mx c).slot 0 = -2) ∧
      ∀ n, (fmOCallaghan w h t dem nd mx c).slot n < 0) := by
  have hne : ∀ m, fmOCallaghan w h t dem nd mx c = .flow m → m ≠ 0 := by
    intro m hm
    simp only [fmOCallaghan] at hm
    split at hm
    · cases hm
    · split at hm
      · cases hm
      · split at hm
        · cases hm
        · rename_i h3; injection hm with hm; rw [← hm]; exact h3
  generalize fmOCallaghan w h t dem nd mx c = p at *
  cases p with
  | noData =>
    right
    refine ⟨.inr rfl, ?_⟩
    intro n; cases n <;> simp [Props1.slot]
  | noFlow =>
    right
    exact ⟨.inl rfl, fun n => by simp [Props1.slot]⟩
  | flow m =>
    left
    have hm := hne m rfl
    refine ⟨m, hm, ?_, ?_, ?_⟩
    · simp only [Props1.slot, if_neg (Ne.symm hm), if_true]
    · simp [Props1.slot]
    · intro n hn
      simp only [Props1.slot, if_neg hn]
      split <;> simp

/-- C17: in the D8 metric the accumulation (which reads slot `n` as D8 neighbour `n`) sends the
flow to a lowest strictly lower neighbour. -/
theorem C17_d8_consistent (w h : Nat) (dem : Cell → E) (nd mx : E) (c : Cell)
    (hmx : dem c ≤ mx) (hc : InGrid w h c) (n : Nat)
    (hn : 0 < (fmOCallaghan w h .D8 dem nd mx c).slot n) :
    InGrid w h (nbr .D8 c n) ∧ dem (nbr .D8 c n) ≠ nd ∧ dem (nbr .D8 c n) < dem c ∧
      ∀ b, Adj .D8 c b → dem b ≠ nd → dem (nbr .D8 c n) ≤ dem b := by
  obtain ⟨h1, h2, h3⟩ := C17_metric w h .D8 dem nd mx c hmx hc
  have hflow : fmOCallaghan w h .D8 dem nd mx c = .flow n := by
    generalize fmOCallaghan w h .D8 dem nd mx c = p at *
    cases p with
    | noData => cases n <;> simp [Props1.slot] at hn
    | noFlow => simp [Props1.slot] at hn
    | flow m =>
      simp only [Props1.slot] at hn
      split at hn
      · rename_i h4; rw [h4]
      · split at hn <;> simp at hn
  have hnd : dem c ≠ nd := fun h4 => by rw [h1.2 h4] at hflow; cases hflow
  have he : ¬ OnEdge w h c := fun h4 => by rw [h2 h4 hnd] at hflow; cases hflow
  obtain ⟨_, _, k1, _, k2, k3, k4⟩ := (h3 he hnd).2 n hflow
  exact ⟨k1, k2, k3, k4⟩

/-- C17 fails for D4: unless the flow goes left (slot 1), the slot that the metric fills names,
for the accumulation, a different cell than the neighbour it chose. -/
theorem C17_d4_misdirected (c : Cell) (n : Nat) (hn : n ∈ dirs .D4) :
    nbr .D8 c n = nbr .D4 c n ↔ n = 1 := by
  rw [mem_dirs] at hn
  obtain ⟨h1, h2⟩ := hn
  simp only [nmax] at h2
  interval_cases n <;> simp [nbr, dx, dy, d8x, d8y, d4x, d4y]

/-- C17 fails for D4, concretely: the cell above the centre is its only lower neighbour; the
metric fills slot 2, which the accumulation reads as the top-left cell, which is higher. -/
theorem C17_d4_uphill :
    fmOCallaghan 3 3 .D4 (ofRows (0 : Int) [[9, 1, 9], [9, 5, 9], [9, 9, 9]]) (-1) 100 (1, 1)
      = .flow 2 ∧
    nbr .D8 (1, 1) 2 = (0, 0) ∧
    ofRows (0 : Int) [[9, 1, 9], [9, 5, 9], [9, 9, 9]] (1, 1)
      < ofRows (0 : Int) [[9, 1, 9], [9, 5, 9], [9, 9, 9]] (0, 0) := by decide +kernel

example : fmOCallaghan 3 3 .D8 (ofRows (0 : Int) [[9, 4, 2], [9, 5, 9], [9, -1, 9]]) (-1) 100 (1, 1)
      = .flow 4 := by decide +kernel

end RichDEM
