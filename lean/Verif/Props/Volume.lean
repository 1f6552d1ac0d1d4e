/-
Property theorems C43: cell counts, elevations and volumes of the depression hierarchy.
-/
import Verif.DepHier.Volume
import Verif.Props.DepHier

namespace RichDEM

variable {E : Type} [CommRing E] [LinearOrder E] [IsStrictOrderedRing E]

/-- C43: however the cells are split among threads and in whatever order the threads add their
tallies, the marginal counts and elevations are the same: those of the cells that lie in the
depression and not above its spill elevation, but above the spill elevation of whichever child
depression they lie in.  No cell is counted for the ocean. -/
theorem C43_marginal (pq : PQ (E × Cell) zLt) (w h : Nat) (t : Topo) (dem : Cell → E)
    (lab : Cell → Option Nat) (s : DHS E) (hs : getDHFlood pq w h t dem lab = some s)
    (os : List (Outlet E)) (O : IsOutletVec s os) (h32 : 2 * s.ndep < 2 ^ 32) (H : Hier E)
    (hH : depHierarchy s os = some H) (parts : List (List Cell)) (hp : parts.flatten.Perm (allCells w h)) :
    ∃ m, calcMarginal H.n H.dep dem s.label parts = some m ∧ m.count 0 = 0 ∧ m.tot 0 = 0 ∧
      ∀ d, d < H.n → d ≠ 0 → ∃ S : Finset Cell,
        (∀ c, c ∈ S ↔ InGrid w h c ∧ InDep s.label H.dep d c ∧
          (∃ z, (H.dep d).outElev = some z ∧ dem c ≤ z) ∧
          ∀ k z, (H.dep d).lchild = some k ∨ (H.dep d).rchild = some k →
            InDep s.label H.dep k c → (H.dep k).outElev = some z → z < dem c) ∧
        m.count d = S.card ∧ m.tot d = S.sum dem := by
  obtain ⟨H', rep, h1, J, hlink⟩ := dh_run pq w h t dem lab s hs os O h32
  rw [hH] at h1; cases h1
  obtain ⟨rfl, _⟩ := getDHFlood_some hs
  obtain ⟨⟨D, I⟩, _⟩ := dhFlood_final pq w h t dem (fun c => lab c == some 0)
  obtain ⟨hL, _⟩ := dhFlood_complete pq w h t dem (fun c => lab c == some 0)
  set s := dhFlood pq w h t dem (fun c => lab c == some 0)
  have T := J.depTree hlink
  have hlab : ∀ c ∈ allCells w h, ∃ l, s.label c = some l ∧ l < H.n := by
    intro c hc
    cases hl : s.label c with
    | none => exact absurd hl (hL c (mem_allCells.1 hc))
    | some l => exact ⟨l, rfl, lt_of_lt_of_le (I.lt c l hl) J.le⟩
  obtain ⟨m, m1, m2, m3, m4⟩ := calcMarginal_finset (dem := dem) T (allCells w h) (nodup_allCells w h) parts hp hlab
  refine ⟨m, m1, m2, m3, ?_⟩
  intro d hd h0
  refine ⟨_, ?_, (m4 d h0).1, (m4 d h0).2⟩
  intro c
  rw [Finset.mem_filter, List.mem_toFinset, ← mem_allCells]
  refine and_congr_right fun hc => ?_
  obtain ⟨l, hl, hln⟩ := hlab c hc
  obtain ⟨z, hz⟩ := T.elev d hd h0
  have hkid : ∀ k, upOf H.dep k = some d ↔ (H.dep d).lchild = some k ∨ (H.dep d).rchild = some k := by
    intro k
    constructor
    · intro hk; exact (T.up k d hk).2.2.2
    · intro hk
      by_cases hdn : d < s.ndep
      · have := T.leaf d hdn
        rcases hk with hk | hk
        · rw [this.1] at hk; cases hk
        · rw [this.2] at hk; cases hk
      · obtain ⟨a, b, k1, k2, _, _, _, _, _, k8, k9, _⟩ := T.kids d (by omega) hd
        rcases hk with hk | hk
        · rw [k1] at hk; cases hk; exact k8
        · rw [k2] at hk; cases hk; exact k9
  rw [cellHome_iff T hl hln hd h0 hz, indep_iff hl]
  constructor
  · rintro ⟨a, b, e⟩
    refine ⟨a, ⟨z, hz, b⟩, ?_⟩
    intro k zk hk hin hzk
    exact e k zk ((hkid k).2 hk) ((indep_iff hl).1 hin) hzk
  · rintro ⟨a, ⟨z', hz', b⟩, e⟩
    rw [hz] at hz'; cases hz'
    refine ⟨a, b, ?_⟩
    intro k zk hk hin hzk
    exact e k zk ((hkid k).1 hk) ((indep_iff hl).2 hin) hzk

/-- C43: no assertion of the volume computation fails, and every (meta)depression `d` with spill
elevation `z` ends with the number and the total elevation of all cells that lie in it not above
`z`, and with the volume between the terrain and `z` over these cells. -/
theorem C43_volumes (pq : PQ (E × Cell) zLt) (w h : Nat) (t : Topo) (dem : Cell → E)
    (lab : Cell → Option Nat) (s : DHS E) (hs : getDHFlood pq w h t dem lab = some s)
    (os : List (Outlet E)) (O : IsOutletVec s os) (h32 : 2 * s.ndep < 2 ^ 32) (H : Hier E)
    (hH : depHierarchy s os = some H) (parts : List (List Cell)) (hp : parts.flatten.Perm (allCells w h)) :
    ∃ m v, calcMarginal H.n H.dep dem s.label parts = some m ∧ calcTotal H.n H.dep m = some v ∧
      v.count 0 = 0 ∧ v.tot 0 = 0 ∧
      ∀ d, d < H.n → d ≠ 0 → ∃ (z : E) (S : Finset Cell), (H.dep d).outElev = some z ∧
        (∀ c, c ∈ S ↔ InGrid w h c ∧ InDep s.label H.dep d c ∧ dem c ≤ z) ∧
        v.count d = S.card ∧ v.tot d = S.sum dem ∧ v.vol d = some (S.sum (fun c => z - dem c)) ∧
        v.vol d = some ((v.count d : E) * z - v.tot d) := by
  obtain ⟨H', rep, h1, J, hlink⟩ := dh_run pq w h t dem lab s hs os O h32
  rw [hH] at h1; cases h1
  obtain ⟨rfl, _⟩ := getDHFlood_some hs
  obtain ⟨⟨D, I⟩, _⟩ := dhFlood_final pq w h t dem (fun c => lab c == some 0)
  obtain ⟨hL, _⟩ := dhFlood_complete pq w h t dem (fun c => lab c == some 0)
  set s := dhFlood pq w h t dem (fun c => lab c == some 0)
  have T := J.depTree hlink
  have hlab : ∀ c ∈ allCells w h, ∃ l, s.label c = some l ∧ l < s.ndep := by
    intro c hc
    cases hl : s.label c with
    | none => exact absurd hl (hL c (mem_allCells.1 hc))
    | some l => exact ⟨l, rfl, I.lt c l hl⟩
  obtain ⟨m, m1, m2, m3, m4⟩ := calcMarginal_finset (dem := dem) T (allCells w h) (nodup_allCells w h) parts hp
    (fun c hc => by obtain ⟨l, a, b⟩ := hlab c hc; exact ⟨l, a, lt_of_lt_of_le b J.le⟩)
  obtain ⟨v, v1, v2, v3, v4⟩ := calcTotal_spec T (allCells w h) hlab m m4
  refine ⟨m, v, m1, v1, by rw [v2, m2], by rw [v3, m3], ?_⟩
  intro d hd h0
  obtain ⟨z, hz, a1, a2, a3⟩ := v4 d hd h0
  refine ⟨z, heldCells (allCells w h) H.dep dem s.label d, hz, ?_, a1, a2, a3, ?_⟩
  · intro c
    rw [mem_held, mem_allCells]
    constructor
    · rintro ⟨k1, k2, z', k3, k4⟩
      rw [hz] at k3; cases k3
      exact ⟨k1, k2, k4⟩
    · rintro ⟨k1, k2, k3⟩; exact ⟨k1, k2, z, hz, k3⟩
  · rw [a3, a1, a2, Finset.sum_sub_distrib, Finset.sum_const, nsmul_eq_mul]

/-- C43: volumes are not negative and the two children of a metadepression together hold at most
its volume. -/
theorem C43_children_le (pq : PQ (E × Cell) zLt) (w h : Nat) (t : Topo) (dem : Cell → E)
    (lab : Cell → Option Nat) (s : DHS E) (hs : getDHFlood pq w h t dem lab = some s)
    (os : List (Outlet E)) (O : IsOutletVec s os) (h32 : 2 * s.ndep < 2 ^ 32) (H : Hier E)
    (hH : depHierarchy s os = some H) (parts : List (List Cell)) (hp : parts.flatten.Perm (allCells w h))
    (m : Tally E) (hm : calcMarginal H.n H.dep dem s.label parts = some m) (v : Vols E)
    (hv : calcTotal H.n H.dep m = some v) :
    (∀ d, d < H.n → d ≠ 0 → ∃ x, v.vol d = some x ∧ 0 ≤ x) ∧
    (∀ d a b, d < H.n → (H.dep d).lchild = some a → (H.dep d).rchild = some b →
      v.count a + v.count b ≤ v.count d ∧
      ∃ xa xb xd, v.vol a = some xa ∧ v.vol b = some xb ∧ v.vol d = some xd ∧ xa + xb ≤ xd) := by
  obtain ⟨m', v', e1, e2, _, _, hd⟩ := C43_volumes pq w h t dem lab s hs os O h32 H hH parts hp
  rw [hm] at e1; cases e1
  rw [hv] at e2; cases e2
  constructor
  · intro d h1 h2
    obtain ⟨z, S, _, hS, _, _, k, _⟩ := hd d h1 h2
    refine ⟨_, k, Finset.sum_nonneg fun c hc => ?_⟩
    have := ((hS c).1 hc).2.2
    linarith
  · intro d a b hdn ha hb
    have hge : s.ndep ≤ d := by
      by_contra hlt
      have := (C61_binary pq w h t dem lab s hs os O h32 H hH d hdn).1 (by omega)
      rw [this.1] at ha; cases ha
    obtain ⟨a', b', k1, k2, kab, kal, kbl, ka0, kb0, kpa, kpb, koa, kob, _⟩ :=
      (C61_binary pq w h t dem lab s hs os O h32 H hH d hdn).2 hge
    rw [ha] at k1; cases k1
    rw [hb] at k2; cases k2
    have hd0 : d ≠ 0 := by omega
    obtain ⟨zd, Sd, hzd, hSd, cd, _, vd, _⟩ := hd d hdn hd0
    obtain ⟨za, Sa, hza, hSa, ca, _, va, _⟩ := hd a (by omega) ka0
    obtain ⟨zb, Sb, hzb, hSb, cb, _, vb, _⟩ := hd b (by omega) kb0
    obtain ⟨za', zd', hza', hzd', hlea⟩ := C62_monotone pq w h t dem lab s hs os O h32 H hH a d kpa koa
    rw [hza] at hza'; cases hza'; rw [hzd] at hzd'; cases hzd'
    obtain ⟨zb', zd', hzb', hzd', hleb⟩ := C62_monotone pq w h t dem lab s hs os O h32 H hH b d kpb kob
    rw [hzb] at hzb'; cases hzb'; rw [hzd] at hzd'; cases hzd'
    obtain ⟨H', rep, h1, J, hlink⟩ := dh_run pq w h t dem lab s hs os O h32
    rw [hH] at h1; cases h1
    have T := J.depTree hlink
    have kua : upOf H.dep a = some d := by unfold upOf; simp [koa, kpa]
    have kub : upOf H.dep b = some d := by unfold upOf; simp [kob, kpb]
    have hdis : Disjoint Sa Sb := by
      rw [Finset.disjoint_left]
      intro c h1 h2
      obtain ⟨l, l1, l2⟩ := ((hSa c).1 h1).2.1
      obtain ⟨l', l3, l4⟩ := ((hSb c).1 h2).2.1
      rw [l1] at l3; cases l3
      exact kab (T.sib_disjoint kua kub l2 l4)
    have hsub : Sa ∪ Sb ⊆ Sd := by
      intro c hc
      rw [hSd]
      rcases Finset.mem_union.1 hc with h | h
      · obtain ⟨g, ⟨l, l1, l2⟩, q⟩ := (hSa c).1 h
        exact ⟨g, ⟨l, l1, AncU.trans l2 (.step kua (.refl _))⟩, q.trans hlea⟩
      · obtain ⟨g, ⟨l, l1, l2⟩, q⟩ := (hSb c).1 h
        exact ⟨g, ⟨l, l1, AncU.trans l2 (.step kub (.refl _))⟩, q.trans hleb⟩
    refine ⟨?_, _, _, _, va, vb, vd, ?_⟩
    · rw [ca, cb, cd, ← Finset.card_union_of_disjoint hdis]
      exact Finset.card_le_card hsub
    · have h1 : Sa.sum (fun c => za - dem c) ≤ Sa.sum (fun c => zd - dem c) :=
        Finset.sum_le_sum fun c _ => by linarith
      have h2 : Sb.sum (fun c => zb - dem c) ≤ Sb.sum (fun c => zd - dem c) :=
        Finset.sum_le_sum fun c _ => by linarith
      have h3 : (Sa ∪ Sb).sum (fun c => zd - dem c) ≤ Sd.sum (fun c => zd - dem c) := by
        refine Finset.sum_le_sum_of_subset_of_nonneg hsub fun c hc _ => ?_
        have := ((hSd c).1 hc).2.2
        linarith
      rw [Finset.sum_union hdis] at h3
      linarith

/-! ## A concrete run -/

def volEx : Option (List (Nat × Int × Option Int)) :=
  dhEx.bind fun s => dhExH.bind fun H =>
    (calcMarginal H.n H.dep dhDem s.label [(allCells 9 5).drop 20, (allCells 9 5).take 20]).bind fun m =>
      (calcTotal H.n H.dep m).map fun v => (List.range H.n).map fun d => (v.count d, v.tot d, v.vol d)

/-- Two threads on the example of `Props/DepHier`: the pits hold 3, 2 and 2, the metadepression
of the first two holds 11. -/
example : volEx = some [(0, 0, none), (2, 7, some 3), (1, 3, some 2), (1, 4, some 2), (3, 10, some 11)] := by
  decide +kernel

end RichDEM
