/-
Property theorem C79 (`LastLayer`).
-/
import Verif.DepHier.LastLayer
import Verif.Props.DepHier

namespace RichDEM

variable {E : Type} [LinearOrder E]

theorem parent_lt {n0 : Nat} {os : List (Outlet E)} {rep : Nat → Nat} {H : Hier E} (J : HierInv n0 os [] rep H) {x y : Nat}
    (hx : x < H.n) (hc : AncU (fun y => (H.dep y).parent) x y) : y < H.n := by
  induction hc with
  | refl => exact hx
  | @step l p x hp _ ih =>
    have hp : (H.dep l).parent = some p := hp
    refine ih ?_
    cases ho : (H.dep l).oceanParent with
    | false => exact (J.up l p (by unfold upOf; simp [ho, hp])).2.1
    | true => exact lt_of_lt_of_le (J.oc l p hp ho).2.1 J.le

theorem anc_parent {dep : Nat → Dep E} {x y : Nat} (ha : Anc dep x y) : AncU (fun y => (dep y).parent) x y := by
  refine AncU.mono (fun l p hp => ?_) ha
  unfold upOf at hp
  split at hp
  · cases hp
  · exact hp

/-- C79: after the depression hierarchy of a raster with floating-point elevations has been built, `LastLayer` ends for every cell; it
gives label 0 to the cells from which water can reach the ocean without rising above the cell, and label 2^32-3 to the others:
those that are under water once all depressions are full. -/
theorem C79_last_layer (pq : PQ (E × Cell) zLt) (w h : Nat) (t : Topo) (dem : Cell → E)
    (lab : Cell → Option Nat) (s : DHS E) (hs : getDHFlood pq w h t dem lab = some s)
    (os : List (Outlet E)) (O : IsOutletVec s os) (h32 : 2 * s.ndep < 2 ^ 32) (H : Hier E)
    (hH : depHierarchy s os = some H) (c : Cell) (hc : InGrid w h c) :
    ∃ k, ∀ fuel, k ≤ fuel →
      (lastLayer none H dem s.label fuel c = .label 0 ∧ IsOceanLevel w h t dem (fun c => lab c == some 0) c (dem c)) ∨
      (lastLayer none H dem s.label fuel c = .label LAST_LAYER ∧
        ∃ z, dem c < z ∧ IsOceanLevel w h t dem (fun c => lab c == some 0) c z) := by
  have hlev := C63_ocean_level pq w h t dem lab s hs os O h32 H hH c hc
  obtain ⟨H', rep, h1, J, hlink⟩ := dh_run pq w h t dem lab s hs os O h32
  rw [hH] at h1; cases h1
  obtain ⟨rfl, _⟩ := getDHFlood_some hs
  obtain ⟨⟨D, I⟩, _⟩ := dhFlood_final pq w h t dem (fun c => lab c == some 0)
  have hw : OceanWay os H := depHierarchy_way h32 I.pos _ os (outlet_labs I O) O.sorted hH
  rcases hlev with ⟨hl, hz⟩ | ⟨l, x, z, hl, hl0, ha, hox, hz, hlvl⟩
  · have hn : 0 < H.n := lt_of_lt_of_le I.pos J.le
    have h0 : ∀ y, AncU (fun y => (H.dep y).parent) 0 y → y = 0 := by
      intro y hy
      cases hy with
      | refl => rfl
      | step hp _ => rw [J.ocean0] at hp; cases hp
    obtain ⟨k, hk⟩ := lastLayer_zero J (v := dem c) (x := 0) (.refl _) (fun y hy => by rw [h0 y hy]; exact hn)
      (fun y zy hy hne => absurd (h0 y hy) hne)
    exact ⟨k, fun f hf => Or.inl ⟨by simp only [lastLayer, hl]; exact hk f hf, hz⟩⟩
  · have hln : l < H.n := lt_of_lt_of_le (I.lt c l hl) J.le
    have hlt : ∀ y, AncU (fun y => (H.dep y).parent) l y → y < H.n := fun y hy => parent_lt J hln hy
    by_cases hcz : dem c < z
    · have hx0 : x ≠ 0 := by
        rintro rfl
        rw [(J.unl 0 J.ocean0).2.2.1] at hz; cases hz
      obtain ⟨k, hk⟩ := lastLayer_mark J ha hx0 hz hcz (fun a h => hlt a (anc_parent h)) hl0
      refine ⟨k, fun f hf => Or.inr ⟨by simp only [lastLayer, hl]; exact hk f hf, z, hcz, ?_⟩⟩
      rw [max_eq_right hcz.le] at hlvl
      exact hlvl
    · rw [max_eq_left (not_lt.1 hcz)] at hlvl
      have hlow : ∀ a za, Anc H.dep l a → a ≠ 0 → (H.dep a).outElev = some za → za ≤ dem c := by
        intro a za h1 h2 h3
        -- `a` contains the cell, so no way to the ocean avoids its rim
        obtain ⟨hL, hC⟩ := dhFlood_complete pq w h t dem (fun c => lab c == some 0)
        obtain ⟨p, P, hp⟩ := hlvl.attained
        obtain ⟨e, e1, e2⟩ := P.last
        obtain ⟨u, v, m1, m2, m3, m4, m5⟩ := path_leaves (t := t)
          (S := InDep (dhFlood pq w h t dem (fun c => lab c == some 0)).label H.dep a) p c e P.head e1 P.chain
          ⟨l, hl, h1⟩ (by
            rintro ⟨b, hb, hbb⟩
            rw [I.lab0 e (P.inGrid e (List.mem_of_getLast? e1)) e2] at hb
            cases hb
            exact h2 (anc_zero J hbb))
        exact ((spill_cells I hL hC O J h3).1 u v m3 (P.inGrid u m1) (P.inGrid v m2) m4 m5).trans (max_le (hp u m1) (hp v m2))
      obtain ⟨k, hk⟩ := lastLayer_zero J (v := dem c) (x := l) (J.reach_ocean hlink l hln) hlt
        (fun y zy hy hne hzy => chain_low J hw hy hlow zy hne hzy)
      exact ⟨k, fun f hf => Or.inl ⟨by simp only [lastLayer, hl]; exact hk f hf, hlvl⟩⟩

/-- C79 is false of rasters of integers, where `numeric_limits<elev_t>::infinity()` is 0: any cell that drains to the ocean and is not below
zero makes `LastLayer` throw. -/
theorem C79_integer_refuted (pq : PQ (Int × Cell) zLt) (w h : Nat) (t : Topo) (dem : Cell → Int)
    (lab : Cell → Option Nat) (s : DHS Int) (hs : getDHFlood pq w h t dem lab = some s)
    (os : List (Outlet Int)) (O : IsOutletVec s os) (h32 : 2 * s.ndep < 2 ^ 32) (H : Hier Int)
    (hH : depHierarchy s os = some H) (c : Cell) (hc : s.label c = some 0) (h0 : 0 ≤ dem c) (fuel : Nat) :
    lastLayer (some 0) H dem s.label (fuel + 1) c = .throws := by
  obtain ⟨H', rep, h1, J, _⟩ := dh_run pq w h t dem lab s hs os O h32
  rw [hH] at h1; cases h1
  have hn : 0 < H.n := lt_of_lt_of_le J.pos J.le
  simp only [lastLayer, hc]
  rw [lastLayerCell, if_neg (by omega), (J.unl 0 J.ocean0).2.2.1, if_pos (by simpa [reachesOut] using h0), J.ocean0]

/-- The new labels, 1 for the marked cells and 9 for anything else. -/
def llShow : LLRes → Nat
  | .label l => if l = 0 then 0 else if l = LAST_LAYER then 1 else 9
  | _ => 9

/-- On the raster of C59 the marked cells are those that the full lakes cover: the ridge cell of 9 between them and the sill cells are not. -/
example : (dhEx.bind fun s => (depHierarchy s (outletVec s)).map fun H => toRows 9 5 (fun c => llShow (lastLayer none H dhDem s.label 9 c))) =
    some [[0, 0, 0, 0, 0, 0, 0, 0, 0], [0, 0, 0, 0, 0, 0, 0, 0, 0], [0, 0, 1, 1, 1, 0, 1, 0, 0], [0, 0, 0, 0, 0, 0, 0, 0, 0],
      [0, 0, 0, 0, 0, 0, 0, 0, 0]] := by decide +kernel

/-- The same raster, as integers. -/
example : (dhEx.bind fun s => (depHierarchy s (outletVec s)).map fun H => lastLayer (some 0) H dhDem s.label 9 (0, 0)) = some .throws := by
  decide +kernel

end RichDEM
