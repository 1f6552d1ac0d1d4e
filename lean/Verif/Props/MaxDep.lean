/-
Property theorems C14 (size-limited filling).
-/
import Verif.MaxDep
import Verif.Props.Flood

namespace RichDEM

variable {E : Type*} [LinearOrder E]

/-- `a` and `b` are cells of the same depression: joined by adjacent in-grid cells that the
full fill `F` would raise. -/
inductive SameDep (w h : Nat) (t : Topo) (dem F : Cell → E) : Cell → Cell → Prop
  | refl {a} : InGrid w h a → dem a < F a → SameDep w h t dem F a a
  | step {a b c} : InGrid w h a → dem a < F a → Adj t a b → SameDep w h t dem F b c →
      SameDep w h t dem F a c

/-- 5x3 terrain: two one-cell pits that share the spill cell (2,0). -/
def exTwin : Cell → Int := ofRows 0 [[5, 5, 4, 5, 5], [5, 0, 5, 0, 5], [5, 5, 5, 5, 5]]

/-- C14 as documented ("all landscape depressions <= max_dep_size are filled") is false of the
code: two separate one-cell depressions spilling into the same cell are counted together, so
with `max_dep_size = 1` neither is filled although each has one cell. -/
theorem C14_small_depressions_missed :
    (priorityFloodBarnes zPQ 5 3 .D8 exTwin).elev (1, 1) = 4 ∧
    (priorityFloodBarnes zPQ 5 3 .D8 exTwin).elev (3, 1) = 4 ∧
    (priorityFloodBarnes zPQ 5 3 .D8 exTwin).elev (2, 1) = exTwin (2, 1) ∧
    (priorityFloodMaxDep zPQ 5 3 .D8 1 0 exTwin).elev (1, 1) = 0 ∧
    (priorityFloodMaxDep zPQ 5 3 .D8 1 0 exTwin).elev (3, 1) = 0 := by decide +kernel

/-- C14, what holds for every input (missing: "small implies filled", refuted above): each cell
keeps its elevation or gets its water level; if any cell of a depression is changed then all of
that depression is filled, and it has at most `maxDep` cells - so larger depressions are left as
they were. -/
theorem C14_large_untouched_partial (pq : PQ (E × Cell) zLt) (w h : Nat) (t : Topo) (maxDep : Nat)
    (z0 : E) (dem F : Cell → E) (hF : IsFilled w h t dem F) (hw : 0 < w) (hh : 0 < h) (c : Cell)
    (hc : InGrid w h c) :
    let out := (priorityFloodMaxDep pq w h t maxDep z0 dem).elev
    (out c = dem c ∨ out c = F c) ∧
    (out c ≠ dem c →
      (∀ b, SameDep w h t dem F c b → out b = F b) ∧
      ∀ K : List Cell, K.Nodup → (∀ b ∈ K, SameDep w h t dem F c b) → K.length ≤ maxDep) := by
  intro out
  obtain ⟨⟨L, h1, h2⟩, h3, _⟩ := maxDep_final pq (w := w) (h := h) t maxDep z0 dem hw hh
  have hLF : ∀ a, InGrid w h a → L a = F a := fun a ha => isWaterLevel_unique (h2 a ha) (hF a ha)
  have key : out c = dem c ∨ ∃ B, c ∈ B ∧ Batch w h t maxDep dem L out
      (priorityFloodMaxDep pq w h t maxDep z0 dem).closed B := h1.elevs c
  constructor
  · rcases key with h4 | ⟨B, h4, h5⟩
    · exact Or.inl h4
    · right; rw [← hLF c hc]; exact (h5.raised c h4).2.2
  · intro hne
    rcases key with h4 | ⟨B, h4, h5⟩
    · exact absurd h4 hne
    · have hin : ∀ a b, SameDep w h t dem F a b → a ∈ B → b ∈ B := by
        intro a b hab
        induction hab with
        | refl _ _ => exact id
        | @step a b c k1 k2 k3 k4 ih =>
          intro ha
          apply ih
          have hb : InGrid w h b ∧ dem b < F b := by
            cases k4 with
            | refl j1 j2 => exact ⟨j1, j2⟩
            | step j1 j2 _ _ => exact ⟨j1, j2⟩
          refine (h5.full a ha b k3 hb.1).2 ?_
          rw [hLF b hb.1]; exact hb.2
      constructor
      · intro b hb
        have hbB := hin c b hb h4
        have := (h5.raised b hbB)
        rw [← hLF b (h1.core.inside b this.1)]; exact this.2.2
      · intro K hK hKB
        exact (List.Nodup.length_le_of_subset hK (fun b hb => hin c b (hKB b hb) h4)).trans h5.small

/-- C14: with a limit of at least the raster size, every depression is filled. -/
theorem C14_unlimited_is_fill (pq : PQ (E × Cell) zLt) (w h : Nat) (t : Topo) (maxDep : Nat)
    (z0 : E) (dem : Cell → E) (hw : 0 < w) (hh : 0 < h) (hmax : w * h ≤ maxDep) :
    IsFilled w h t dem (priorityFloodMaxDep pq w h t maxDep z0 dem).elev := by
  obtain ⟨⟨L, h1, h2⟩, h3, h4, h5, _⟩ := maxDep_final pq (w := w) (h := h) t maxDep z0 dem hw hh
  intro c hc
  have hdep : (priorityFloodMaxDep pq w h t maxDep z0 dem).depCells = [] := by
    rcases h1.more with h6 | h6
    · exact absurd h4 h6
    · exact h6.2.1
  have heq : (priorityFloodMaxDep pq w h t maxDep z0 dem).elev c = L c := by
    by_cases hr : dem c < L c
    · rcases h1.big c (h3 c hc) hr (by simp [hdep]) (by simp [h5]) with h6 | h6
      · exact h6
      · omega
    · have hLd : L c = dem c := le_antisymm (not_lt.1 hr) (isWaterLevel_ge (h2 c hc))
      rcases h1.elevs c with h6 | ⟨B, h6, h7⟩
      · rw [h6, hLd]
      · exact (h7.raised c h6).2.2
  rw [heq]; exact h2 c hc

/-- C14: with limit 0 nothing changes. -/
theorem C14_zero_is_identity (pq : PQ (E × Cell) zLt) (w h : Nat) (t : Topo) (z0 : E)
    (dem : Cell → E) (hw : 0 < w) (hh : 0 < h) :
    (priorityFloodMaxDep pq w h t 0 z0 dem).elev = dem := by
  obtain ⟨⟨L, h1, h2⟩, _⟩ := maxDep_final pq (w := w) (h := h) t 0 z0 dem hw hh
  funext c
  rcases h1.elevs c with h6 | ⟨B, h6, h7⟩
  · exact h6
  · have := h7.small
    cases B with
    | nil => simp at h6
    | cons a B => simp at this

example : toRows 5 4 (priorityFloodMaxDep zPQ 5 4 .D8 4 0 exDem).elev =
    [[9, 9, 9, 9, 3], [9, 6, 6, 7, 9], [9, 6, 6, 6, 9], [9, 9, 9, 9, 4]] ∧
    toRows 5 4 (priorityFloodMaxDep zPQ 5 4 .D8 3 0 exDem).elev = toRows 5 4 exDem := by
  decide +kernel

end RichDEM
