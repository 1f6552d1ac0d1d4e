/-
Property theorems C72 (the order of equal elevations in `GetDepressionHierarchy`) and C73 (flats are not split).
-/
import Verif.DepHier.Heap
import Verif.DepHier.PitFlat
import Verif.Props.Pits
import Verif.Examples

namespace RichDEM

section
variable {E : Type} [LinearOrder E]

/-- **C72.** With the radix heap the code uses, `GetDepressionHierarchy` never pushes an elevation below the one last returned
(which the heap would refuse), and it visits the cells as a stack would: lowest first, and of equal elevations the one added
last.  `enc` and `dec` are the order-preserving coding of elevations (C31). -/
theorem C72_flood (enc : E → Nat) (dec : Nat → E) (W w h : Nat) (t : Topo) (dem : Cell → E) (oc : Cell → Bool)
    (he : StrictMono enc) (hdec : ∀ z, dec (enc z) = z) (hW : ∀ z, enc z < 2 ^ W) :
    dhFloodH enc dec W w h t dem oc = some (dhFlood lifoPQ w h t dem oc) :=
  dhFloodH_eq he hdec hW

/-- **C73.** The cells of a flat without lower neighbours all get the label of one depression (or all that of the ocean). -/
theorem C73_flat {pq : PQ (E × Cell) zLt} (hq : pq.Lifo) (w h : Nat) (t : Topo) (dem : Cell → E) (lab : Cell → Option Nat)
    (s : DHS E) (hs : getDHFlood pq w h t dem lab = some s) {c d : Cell} (hc : InGrid w h c) (ho : lab c ≠ some 0)
    (F : PitFlat w h t dem (fun c => lab c == some 0) c) (p : FlatPath w h t dem (fun c => lab c == some 0) c d) :
    s.label c = s.label d := by
  obtain ⟨rfl, _⟩ := getDHFlood_some hs
  have hd : InGrid w h d := by cases p <;> assumption
  obtain ⟨a, ha⟩ := Option.ne_none_iff_exists'.1 ((dhFlood_complete pq w h t dem (fun c => lab c == some 0)).1 c hc)
  obtain ⟨b, hb⟩ := Option.ne_none_iff_exists'.1 ((dhFlood_complete pq w h t dem (fun c => lab c == some 0)).1 d hd)
  rw [ha, hb, pitFlat_label hq hc (by simpa using ho) F p ha hb]

end

/-- **C73.** Every depression that lies in another one has a positive volume. -/
theorem C73_volumes {E : Type} [Field E] [LinearOrder E] [IsStrictOrderedRing E] {w h : Nat} {dem : Cell → E}
    {pq : PQ (E × Cell) zLt} (hq : pq.Lifo) (lab : Cell → Option Nat) (s : DHS E)
    (hs : getDHFlood pq w h .D8 dem lab = some s)
    (os : List (Outlet E)) (O : IsOutletVec s os) (h32 : 2 * s.ndep < 2 ^ 32) (H : Hier E)
    (hH : depHierarchy s os = some H) (parts : List (List Cell)) (hp : parts.flatten.Perm (allCells w h))
    (m : Tally E) (hm : calcMarginal H.n H.dep dem s.label parts = some m) (v : Vols E)
    (hv : calcTotal H.n H.dep m = some v) (d : Nat) (hd : d < H.n) (h0 : d ≠ 0) (hpar : (H.dep d).oceanParent = false)
    (x : E) (hx : v.vol d = some x) : 0 < x := by
  have hvol : ∀ d, d < H.n → d ≠ 0 → ∃ x, v.vol d = some x := by
    intro d hd h0
    obtain ⟨m', v', e1, e2, _, _, k⟩ := C43_volumes pq w h .D8 dem lab s hs os O h32 H hH parts hp
    rw [hm] at e1; cases e1
    rw [hv] at e2; cases e2
    obtain ⟨_, _, _, _, _, _, k, _⟩ := k d hd h0
    exact ⟨_, k⟩
  have := lifo_volumes hq lab s hs os O h32 H hH parts hp m hm v hv (fun d => if d = 0 then 0 else (v.vol d).getD 0) (by
    intro d hd h0
    obtain ⟨x, hx⟩ := hvol d hd h0
    rw [if_neg h0, hx]; rfl) (by simp) d hd h0 hpar
  rw [if_neg h0, hx] at this
  exact this

/-! ### Concrete cases -/

/-- A U-shaped flat: its two arms touch only at the bottom. -/
def uDem : Cell → ℚ := ofRows 0 [[0, 9, 4, 9, 4], [0, 9, 4, 4, 4]]
def uLab (pq : PQ (ℚ × Cell) zLt) : List (List (Option Nat)) :=
  toRows 5 2 (dhFlood pq 5 2 .D8 uDem (fun c => c.1 == 0)).label

/-- Last in, first out: one depression. -/
example : uLab lifoPQ = [[some 0, some 0, some 1, some 1, some 1], [some 0, some 0, some 1, some 1, some 1]] := by decide +kernel

/-- With another order of equal elevations the flat is split, so C73 rests on C72. -/
theorem C73_fifo_refuted :
    uLab zPQ = [[some 0, some 0, some 1, some 1, some 2], [some 0, some 0, some 1, some 1, some 2]] := by decide +kernel

/-- The claim cannot be extended to flats with lower neighbours: a terrace between two pits is split. -/
theorem C73_terrace_refuted :
    (toRows 8 1 (dhFlood (lifoPQ (E := ℚ)) 8 1 .D8 (pitRow [0, 10, 4, 5, 5, 5, 4, 20]) (fun c => c.1 == 0)).label) =
      [[some 0, some 0, some 2, some 2, some 2, some 1, some 1, some 1]] := by decide +kernel

/-- The radix heap itself, on eight-bit elevations. -/
example : (dhFloodH (E := Fin 256) (fun z => z.val) (fun n => Fin.ofNat 256 n) 8 5 2 .D8
    (ofRows 0 [[0, 9, 4, 9, 4], [0, 9, 4, 4, 4]]) (fun c => c.1 == 0)).map (fun s => toRows 5 2 s.label) =
      some [[some 0, some 0, some 1, some 1, some 1], [some 0, some 0, some 1, some 1, some 1]] := by decide +kernel

/-- The coding hypotheses of `C72_flood` are met by eight-bit elevations. -/
example : StrictMono (fun z : Fin 256 => z.val) ∧ (∀ z : Fin 256, Fin.ofNat 256 z.val = z) ∧ ∀ z : Fin 256, z.val < 2 ^ 8 :=
  ⟨fun _ _ h => h, fun z => by simp, fun z => z.isLt⟩

/-- The hypotheses of `C73_flat` are met by the two ends of the U. -/
example : getDHFlood lifoPQ 5 2 .D8 uDem (fun c => if c.1 = 0 then some 0 else none) ≠ none ∧
    FlatPath 5 2 .D8 uDem (fun c => (if c.1 = 0 then some 0 else none) == some 0) (2, 0) (4, 0) ∧
    PitFlat 5 2 .D8 uDem (fun c => (if c.1 = 0 then some 0 else none) == some 0) (2, 0) := by
  refine ⟨by decide +kernel, ?_, ?_⟩
  · refine .step (b := (3, 1)) (.step (b := (2, 0)) (.refl _) ?_ ?_ ?_ ?_) ?_ ?_ ?_ ?_ <;> decide +kernel
  · intro d p n had hn
    have hd : uDem d = 4 := by rw [p.dem_eq]; decide +kernel
    have hg : InGrid 5 2 d := by
      cases p with
      | refl => decide +kernel
      | step _ _ g _ _ => exact g
    have all : ∀ d ∈ allCells 5 2, ∀ n ∈ allCells 5 2, Adj .D8 d n → uDem d = 4 → uDem d ≤ uDem n := by decide +kernel
    exact all d (mem_allCells.2 hg) n (mem_allCells.2 hn) had hd

end RichDEM
