/-
From the flooding, the hierarchy and the overflows to the filling: everything `FillSpillMerge` needs.
-/
import Verif.DepHier.FillThm
import Verif.Props.Move
import Verif.Props.Pits

namespace RichDEM

variable {E : Type} [Field E] [LinearOrder E] [IsStrictOrderedRing E]
variable {w h : Nat} {dem : Cell → E} {label : Cell → Option Nat} {n0 n : Nat} {dep : Nat → Dep E} {pit : Nat → Cell}
  {vol W : Nat → E}

/-- The water after `MoveWaterInDepHier`. -/
theorem WaterInv.wetTree {act : Nat → Bool} {s : FSM E} (T : FlowTree n0 n dep) (I : WaterInv n0 n dep vol act s)
    (hle : ∀ d, d < n → d ≠ 0 → s.water d ≤ vol d)
    (hpos : ∀ c, c < n → c ≠ 0 → (dep c).oceanParent = false → 0 < vol c) : WetTree n0 n dep vol s.water where
  nn := I.nn
  le := hle
  kids := by
    intro d c hw hc
    obtain ⟨h1, h2, h3, _⟩ := T.up c d hc
    have h0 : c ≠ 0 := by
      rintro rfl
      have := (upOf_eq.1 hc).1
      rw [T.ocean] at this; cases this
    exact le_antisymm (hle c (by omega) h0) (I.i2 d c (I.i1 d h3 h2 hw) hc)
  low := fun d h1 h2 h3 => I.i4 d (I.i1 d h1 h2 h3)
  pos := hpos

/-- The sanity checks pass. -/
theorem WetTree.sanity (T : FlowTree n0 n dep) (K : WetTree n0 n dep vol W) {d : Nat} (hd : d < n) (h0 : d ≠ 0) :
    sanityAt dep vol W d = true := by
  have hle := K.le d hd h0
  unfold sanityAt
  by_cases hw : W d = 0
  · simp [hw]
  · by_cases hl : d < n0
    · obtain ⟨l1, l2⟩ := T.leaf d hl
      simp [l1, l2, hle]
    · obtain ⟨a, b, k1, k2, _, k4, k5, k6, k7, k8, k9, _⟩ := T.kids d (by omega) hd
      have hlow := K.low d (by omega) hd hw
      have hkv : kidVol dep vol d = vol a + vol b := by unfold kidVol; rw [k1, k2]
      rw [hkv] at hlow
      have pa := K.pos a (by omega) k6 (upOf_eq.1 k8).2
      have pb := K.pos b (by omega) k7 (upOf_eq.1 k9).2
      have ea := K.kids d a hw k8
      have eb := K.kids d b hw k9
      have h1 : W a < W d := by rw [ea]; linarith
      have h2 : W b < W d := by rw [eb]; linarith
      simp [k1, k2, hle, h1, h2]

/-! ### The topmost wet depressions hold all water -/

open Classical in
/-- The topmost wet depressions. -/
noncomputable def topSet (n : Nat) (dep : Nat → Dep E) (W : Nat → E) : Finset Nat :=
  (Finset.range n).filter (TopWet n dep W)

omit [LinearOrder E] [IsStrictOrderedRing E] in
theorem mem_topSet {d : Nat} : d ∈ topSet n dep W ↔ TopWet n dep W d := by
  classical
  unfold topSet
  rw [Finset.mem_filter, Finset.mem_range]
  exact ⟨fun h => h.2, fun h => ⟨h.1, h⟩⟩

open Classical in
omit [IsStrictOrderedRing E] in
theorem WetTree.content_eq (T : FlowTree n0 n dep) (K : WetTree n0 n dep vol W) : ∀ d, d < n → d ≠ 0 →
    (∀ p, upOf dep d = some p → W p = 0) →
    content dep W n d = ((topSet n dep W).filter (fun x => Anc dep x d)).sum W := by
  intro d
  induction d using Nat.strongRecOn with
  | _ d ih =>
    intro hd h0 hup
    by_cases hw : W d = 0
    · by_cases hl : d < n0
      · rw [content_fuel T.toDepTree W d n (n + 1) hd hd (by omega), content_leaf T.toDepTree W hl, hw]
        symm
        apply Finset.sum_eq_zero
        intro x hx
        rw [Finset.mem_filter] at hx
        rw [T.anc_leaf hx.2 hl, hw]
      · obtain ⟨a, b, k1, k2, k3, k4, k5, k6, k7, k8, k9, _⟩ := T.kids d (by omega) hd
        rw [content_meta T.toDepTree W hd k1 k2 k4 k5, if_pos hw]
        rw [ih a k4 (by omega) k6 (fun p hp => by rw [k8] at hp; cases hp; exact hw),
          ih b k5 (by omega) k7 (fun p hp => by rw [k9] at hp; cases hp; exact hw)]
        rw [← Finset.sum_union]
        · apply Finset.sum_congr _ (fun _ _ => rfl)
          ext x
          rw [Finset.mem_union, Finset.mem_filter, Finset.mem_filter, Finset.mem_filter, ← and_or_left]
          refine and_congr_right fun hx => ?_
          constructor
          · rintro (hk | hk)
            · exact AncU.trans hk (.step k8 (.refl _))
            · exact AncU.trans hk (.step k9 (.refl _))
          · intro hk
            refine T.anc_kids hk ?_ k1 k2
            rintro rfl
            exact (mem_topSet.1 hx).2.2.1 hw
        · rw [Finset.disjoint_left]
          intro x h1 h2
          exact k3 (T.sib_disjoint k8 k9 (Finset.mem_filter.1 h1).2 (Finset.mem_filter.1 h2).2)
    · have ht : TopWet n dep W d := ⟨hd, h0, hw, hup⟩
      have hset : (topSet n dep W).filter (fun x => Anc dep x d) = {d} := by
        ext x
        rw [Finset.mem_filter, Finset.mem_singleton, mem_topSet]
        constructor
        · rintro ⟨h1, h2⟩; exact K.antichain T h1 ht h2
        · rintro rfl; exact ⟨ht, .refl _⟩
      rw [hset, Finset.sum_singleton]
      by_cases hl : d < n0
      · rw [content_fuel T.toDepTree W d n (n + 1) hd hd (by omega), content_leaf T.toDepTree W hl]
      · obtain ⟨a, b, k1, k2, _, k4, k5, _⟩ := T.kids d (by omega) hd
        rw [content_meta T.toDepTree W hd k1 k2 k4 k5, if_neg hw]

omit [Field E] [IsStrictOrderedRing E] in
theorem FlowTree.exists_root (T : FlowTree n0 n dep) : ∀ (k x : Nat), x < n → x ≠ 0 → n - x = k →
    ∃ y, Anc dep x y ∧ (dep y).oceanParent = true ∧ y < n ∧ y ≠ 0 := by
  intro k
  induction k using Nat.strongRecOn with
  | _ k ih =>
    intro x hx h0 hk
    cases ho : (dep x).oceanParent with
    | true => exact ⟨x, .refl _, ho, hx, h0⟩
    | false =>
      obtain ⟨p, hp⟩ := Option.ne_none_iff_exists'.1 (T.par x hx h0)
      have hu : upOf dep x = some p := upOf_eq.2 ⟨hp, ho⟩
      obtain ⟨a1, a2, _⟩ := T.up x p hu
      obtain ⟨y, y1, y2⟩ := ih (n - p) (by omega) p a2 (by omega) rfl
      exact ⟨y, .step hu y1, y2⟩

omit [IsStrictOrderedRing E] in
theorem WetTree.held_eq (T : FlowTree n0 n dep) (K : WetTree n0 n dep vol W) :
    held n dep W = W 0 + (topSet n dep W).sum W := by
  classical
  unfold held
  congr 1
  have hroot : ∀ d, (dep d).oceanParent = true → upOf dep d = none := by
    intro d hd; unfold upOf; rw [hd]; simp
  have hcon : ∀ d ∈ (Finset.range n).filter (fun d => d ≠ 0 ∧ (dep d).oceanParent = true),
      content dep W n d = ((topSet n dep W).filter (fun x => Anc dep x d)).sum W := by
    intro d hd
    rw [Finset.mem_filter, Finset.mem_range] at hd
    exact K.content_eq T d hd.1 hd.2.1 (fun p hp => by rw [hroot d hd.2.2] at hp; cases hp)
  rw [Finset.sum_congr rfl hcon]
  rw [← Finset.sum_biUnion]
  · apply Finset.sum_congr _ (fun _ _ => rfl)
    ext x
    rw [Finset.mem_biUnion]
    constructor
    · rintro ⟨d, _, hx⟩; exact (Finset.mem_filter.1 hx).1
    · intro hx
      have ht := mem_topSet.1 hx
      obtain ⟨y, y1, y2, y3, y4⟩ := T.exists_root _ x ht.1 ht.2.1 rfl
      exact ⟨y, Finset.mem_filter.2 ⟨Finset.mem_range.2 y3, y4, y2⟩, Finset.mem_filter.2 ⟨hx, y1⟩⟩
  · intro a ha b hb hab
    rw [Function.onFun, Finset.disjoint_left]
    intro x h1 h2
    rw [Finset.mem_coe, Finset.mem_filter] at ha hb
    have key : ∀ a b, (dep a).oceanParent = true → Anc dep a b → a = b := by
      intro a b h k
      cases k with
      | refl => rfl
      | step h' _ => rw [hroot a h] at h'; cases h'
    rcases AncU.chain (Finset.mem_filter.1 h1).2 (Finset.mem_filter.1 h2).2 with hk | hk
    · exact hab (key a b ha.2.2 hk)
    · exact hab (key b a hb.2.2 hk).symm

/-- The water on the raster after the filling. -/
theorem SpreadInv.total (T : FlowTree n0 n dep) (K : WetTree n0 n dep vol W) {eps : E} (heps : 0 < eps) {P : Finset Nat}
    {wtd : Cell → E} (I : SpreadInv w h dem label n dep eps W P wtd) (hP : ∀ d, d < n → d ∈ P) :
    |rasterSum w h wtd - (topSet n dep W).sum W| ≤ 3 * eps * (w * h + n) := by
  classical
  have hdis : ∀ a ∈ topSet n dep W, ∀ b ∈ topSet n dep W, a ≠ b →
      Disjoint (depCells w h label dep a) (depCells w h label dep b) := by
    intro a ha b hb hab
    rw [Finset.disjoint_left]
    intro c h1 h2
    exact hab (K.disjoint T (mem_topSet.1 ha) (mem_topSet.1 hb) (mem_depCells.1 h1).2 (mem_depCells.1 h2).2)
  have hsub : (topSet n dep W).biUnion (depCells w h label dep) ⊆ gridCells w h := by
    intro c hc
    obtain ⟨d, _, hc⟩ := Finset.mem_biUnion.1 hc
    exact mem_gridCells.2 (mem_depCells.1 hc).1
  have e1 : rasterSum w h wtd = (topSet n dep W).sum (fun d => (depCells w h label dep d).sum wtd) := by
    unfold rasterSum
    rw [← Finset.sum_biUnion hdis]
    symm
    apply Finset.sum_subset hsub
    intro c hc hno
    refine I.dry c (mem_gridCells.1 hc) fun d hd ht hin => hno ?_
    exact Finset.mem_biUnion.2 ⟨d, mem_topSet.2 ht, mem_depCells.2 ⟨mem_gridCells.1 hc, hin⟩⟩
  rw [e1, ← Finset.sum_sub_distrib]
  refine (Finset.abs_sum_le_sum_abs _ _).trans ?_
  have e2 : (topSet n dep W).sum (fun d => |(depCells w h label dep d).sum wtd - W d|) ≤
      (topSet n dep W).sum (fun d => 3 * eps * (((depCells w h label dep d).card : E) + 1)) := by
    apply Finset.sum_le_sum
    intro d hd
    have ht := mem_topSet.1 hd
    obtain ⟨_, _, _, _, _, h5⟩ := I.wet d (hP d ht.1) ht
    exact h5
  refine e2.trans ?_
  rw [← Finset.mul_sum, Finset.sum_add_distrib]
  have c1 : ((topSet n dep W).sum (fun d => (depCells w h label dep d).card)) ≤ w * h := by
    rw [← Finset.card_biUnion hdis]
    have : (gridCells w h).card = w * h := by
      rw [← toFinset_allCells, List.toFinset_card_of_nodup (nodup_allCells w h), length_allCells]
    rw [← this]; exact Finset.card_le_card hsub
  have c2 : (topSet n dep W).card ≤ n := by
    have : topSet n dep W ⊆ Finset.range n := fun d hd => Finset.mem_range.2 (mem_topSet.1 hd).1
    simpa using Finset.card_le_card this
  have c1' : ((topSet n dep W).sum (fun d => ((depCells w h label dep d).card : E))) ≤ (w * h : E) := by
    exact_mod_cast c1
  have c2' : ((topSet n dep W).card : E) ≤ n := by exact_mod_cast c2
  rw [Finset.sum_const, nsmul_eq_mul, mul_one]
  apply mul_le_mul_of_nonneg_left _ (by positivity)
  linarith

/-! ### The geometry -/

omit [Field E] [IsStrictOrderedRing E] in
theorem DHPath.inConn {oc : Cell → Bool} {fd : Cell → Nat} {l : Nat} {c : Cell}
    (p : DHPath w h .D8 dem oc label fd pit l c) (hl : l ≠ 0) :
    InConn w h dem (fun q => label q = some l) (dem c) c (pit l) := by
  induction p with
  | ocean _ _ k => exact absurd k hl
  | pit a b c d e => subst b; exact .refl c d le_rfl
  | @step c a b d e f ih => exact .step a b le_rfl (nbr_adj d) (ih.mono (fun _ h => h) e)

/-- `GetDepressionHierarchy` and its volumes provide what the filling needs. -/
theorem geo_of_run (pq : PQ (E × Cell) zLt) (lab : Cell → Option Nat) (s : DHS E)
    (hs : getDHFlood pq w h .D8 dem lab = some s)
    (os : List (Outlet E)) (O : IsOutletVec s os) (h32 : 2 * s.ndep < 2 ^ 32) (H : Hier E)
    (hH : depHierarchy s os = some H) (parts : List (List Cell)) (hp : parts.flatten.Perm (allCells w h))
    (m : Tally E) (hm : calcMarginal H.n H.dep dem s.label parts = some m) (v : Vols E)
    (hv : calcTotal H.n H.dep m = some v)
    (vol : Nat → E) (hvol : ∀ d, d < H.n → d ≠ 0 → v.vol d = some (vol d)) :
    Geo w h dem s.label s.ndep H.n H.dep s.pit vol := by
  obtain ⟨m', v', e1, e2, _, _, hd⟩ := C43_volumes pq w h .D8 dem lab s hs os O h32 H hH parts hp
  rw [hm] at e1; cases e1
  rw [hv] at e2; cases e2
  obtain ⟨H', rep, h1, J, hlink⟩ := dh_run pq w h .D8 dem lab s hs os O h32
  rw [hH] at h1; cases h1
  have T := J.flowTree hlink
  have hpit := fun l hl => buildHier_pit hH l hl
  obtain ⟨rfl, _⟩ := getDHFlood_some hs
  obtain ⟨⟨D, I⟩, _⟩ := dhFlood_final pq w h .D8 dem (fun c => lab c == some 0)
  obtain ⟨hL, hC⟩ := dhFlood_complete pq w h .D8 dem (fun c => lab c == some 0)
  set s := dhFlood pq w h .D8 dem (fun c => lab c == some 0)
  refine ⟨T, ?_, ?_, ?_, ?_, ?_, ?_⟩
  · intro c hc
    cases hl : s.label c with
    | none => exact absurd hl (hL c hc)
    | some l => exact ⟨l, rfl, I.lt c l hl⟩
  · intro c l hl h0
    exact (I.path c l hl).inConn h0
  · intro l h0 hl
    obtain ⟨p1, p2⟩ := I.pits l (by omega) hl
    refine ⟨p2, I.inside _ (by rw [p2]; simp), ?_⟩
    rw [hpit l hl, if_neg h0]
  · intro d z _ _ hz
    exact spill_cells I hL hC O J hz
  · intro d a b _ ha hb
    obtain ⟨o, ho, hab, hz⟩ := J.pass d a b ha hb
    obtain ⟨_, u, v, k1, k2, k3, k4, k5, k6, _⟩ := outlet_sound I O ho
    rcases hab with ⟨q1, q2⟩ | ⟨q1, q2⟩
    · exact ⟨u, v, k1, k2, k3, ⟨_, k4, q1⟩, ⟨_, k5, q2⟩, by rw [hz, k6]⟩
    · exact ⟨v, u, k1.symm, k3, k2, ⟨_, k5, q1⟩, ⟨_, k4, q2⟩, by rw [hz, k6, max_comm]⟩
  · intro d hdn h0
    obtain ⟨z, S, z1, z2, _, _, z3, _⟩ := hd d hdn h0
    refine ⟨z, S, z1, z2, ?_⟩
    rw [hvol d hdn h0] at z3; exact Option.some.inj z3

end RichDEM
