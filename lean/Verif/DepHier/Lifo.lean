/-
A consequence of the order in which `pair_radix_heap` returns equal keys (last in, first out):
`GetDepressionHierarchy` never splits a flat between two depressions, so every depression that
is not drained directly into the ocean has a positive volume.
-/
import Verif.DepHier.FillAll

namespace RichDEM

section
variable {E : Type} [LinearOrder E]

/-- The queue returns, among the entries of least elevation, the one pushed last. -/
structure PQ.Lifo (pq : PQ (E × Cell) zLt) : Prop where
  push : ∀ e l, pq.push e l = e :: l
  pop : ∀ l e r, pq.pop l = some (e, r) → ∃ A B, l = A ++ e :: B ∧ r = A ++ B ∧ ∀ x ∈ A, e.1 < x.1

variable {w h : Nat} {t : Topo} {dem : Cell → E} {oc : Cell → Bool}

/-- When the depression `l` was opened, every depression opened before it had been flooded to the
elevation of its pit without reaching the pit. -/
def Snap (w h : Nat) (t : Topo) (dem : Cell → E) (oc : Cell → Bool) (s : DHS E) : Prop :=
  ∀ l, 1 ≤ l → l < s.ndep → ∃ X : Cell → Prop, (∀ c, X c → dem c ≤ dem (s.pit l)) ∧
    (∀ c d, X c → Adj t c d → InGrid w h d → dem d ≤ dem (s.pit l) → oc d = false → X d) ∧
    ¬ X (s.pit l) ∧ ∀ l', 1 ≤ l' → l' < l → X (s.pit l')

/-- The pushes since the beginning lie above the seeds that are left. -/
structure LifoInv (w h : Nat) (t : Topo) (dem : Cell → E) (oc : Cell → Bool) (D : Cell → Prop) (cur : Option Cell)
    (s : DHS E) : Prop where
  stack : ∃ R S, s.q = R ++ S ∧ (∀ x ∈ R, s.label x.2 ≠ none ∧ oc x.2 = false) ∧
    ∀ c, s.label c ≠ none → oc c = false → (D c ∨ cur = some c) ∨ (dem c, c) ∈ R
  pitD : ∀ l, 1 ≤ l → l < s.ndep → D (s.pit l) ∨ cur = some (s.pit l)
  snap : Snap w h t dem oc s
  oce : ∀ c, InGrid w h c → oc c = true → s.label c ≠ none

theorem DHInv.oce {D : Cell → Prop} {cur : Option Cell} {s : DHS E} (I : DHInv w h t dem oc D cur s) :
    ∀ c, InGrid w h c → oc c = true → s.label c ≠ none := by
  intro c hc ho; rw [I.lab0 c hc ho]; simp

theorem dhNbr_lifo {pq : PQ (E × Cell) zLt} (hq : pq.Lifo) {D : Cell → Prop} {c : Cell} {l : Nat} {s : DHS E} {e : E × Cell}
    {n : Nat} (L : LifoInv w h t dem oc D (some c) s) :
    LifoInv w h t dem oc D (some c) (dhNbr pq w h t dem e l s n) := by
  unfold dhNbr
  simp only
  split
  · exact L
  · rename_i hin
    cases hq' : s.label (nbr t e.2 n) with
    | none =>
      simp only
      obtain ⟨R, S, h1, h2, h3⟩ := L.stack
      refine ⟨⟨(dem (nbr t e.2 n), nbr t e.2 n) :: R, S, ?_, ?_, ?_⟩, L.pitD, L.snap, ?_⟩
      · simp only [hq.push, h1, List.cons_append]
      · intro x hx
        by_cases hxq : x.2 = nbr t e.2 n
        · rw [hxq]
          refine ⟨by simp, ?_⟩
          by_contra ho
          exact L.oce _ (inGrid_iff.1 (by simpa using hin)) (by simpa using ho) hq'
        · simp only [Function.update_of_ne hxq]
          rcases List.mem_cons.1 hx with rfl | hx
          · exact absurd rfl hxq
          · exact h2 x hx
      · intro d hd ho
        by_cases hdq : d = nbr t e.2 n
        · right; rw [hdq]; exact List.mem_cons_self
        · simp only [Function.update_of_ne hdq] at hd
          rcases h3 d hd ho with k | k
          · exact Or.inl k
          · exact Or.inr (List.mem_cons_of_mem _ k)
      · intro c hc ho
        by_cases hcq : c = nbr t e.2 n
        · rw [hcq]; simp
        · simp only [Function.update_of_ne hcq]; exact L.oce c hc ho
    | some m =>
      simp only
      split
      · exact L
      · exact ⟨L.stack, L.pitD, L.snap, L.oce⟩

/-- When an unlabelled cell or an ocean cell is popped, everything pushed since the beginning is higher. -/
theorem lifo_low {pq : PQ (E × Cell) zLt} (hq : pq.Lifo) {D : Cell → Prop} {s : DHS E} {e : E × Cell}
    {rest : List (E × Cell)} (L : LifoInv w h t dem oc D none s) (hp : pq.pop s.q = some (e, rest))
    (he : s.label e.2 = none ∨ oc e.2 = true) :
    ∀ c, s.label c ≠ none → oc c = false → dem c ≤ e.1 → D c := by
  obtain ⟨A, B, hA, hr, hlt⟩ := hq.pop _ _ _ hp
  obtain ⟨R, S, h1, h2, h3⟩ := L.stack
  have heR : e ∉ R := by
    intro hx
    obtain ⟨k1, k2⟩ := h2 e hx
    rcases he with k | k
    · exact k1 k
    · rw [k] at k2; cases k2
  have r4 : ∀ x ∈ R, e.1 < x.1 := by
    rw [h1] at hA
    intro x hx
    rcases List.append_eq_append_iff.1 hA with ⟨C, k1, k2⟩ | ⟨C, k1, k2⟩
    · exact hlt x (by rw [k1]; simp [hx])
    · cases C with
      | nil =>
        simp only [List.append_nil] at k1
        exact hlt x (by rw [← k1]; exact hx)
      | cons c C =>
        simp only [List.cons_append, List.cons.injEq] at k2
        obtain ⟨rfl, k2⟩ := k2
        exact absurd (by rw [k1]; simp) heR
  intro c hc ho hle
  rcases h3 c hc ho with (k | k) | k
  · exact k
  · cases k
  · exact absurd (r4 _ k) (not_lt.2 hle)

theorem dhOpen_lifo {pq : PQ (E × Cell) zLt} (hq : pq.Lifo) {D : Cell → Prop} {s : DHS E} {e : E × Cell}
    {rest : List (E × Cell)} (I : DHInv w h t dem oc D none s) (L : LifoInv w h t dem oc D none s)
    (hp : pq.pop s.q = some (e, rest)) :
    LifoInv w h t dem oc D (some e.2) (dhOpen e.2 { s with q := rest }).2 := by
  obtain ⟨A, B, hA, hr, hlt⟩ := hq.pop _ _ _ hp
  obtain ⟨R, S, h1, h2, h3⟩ := L.stack
  have he : e ∈ s.q := by rw [hA]; simp
  obtain ⟨q1, q2, q3⟩ := I.queued e he
  -- the new stack
  have hst : ∃ R' S', rest = R' ++ S' ∧ (∀ x ∈ R', x ∈ R) ∧ (∀ x ∈ R, x = e ∨ x ∈ R') ∧
      (e ∉ R → ∀ x ∈ R, e.1 < x.1) := by
    rw [h1] at hA
    rcases List.append_eq_append_iff.1 hA with ⟨C, k1, k2⟩ | ⟨C, k1, k2⟩
    · refine ⟨R, C ++ B, by rw [hr, k1, List.append_assoc], fun x hx => hx, fun x hx => Or.inr hx, fun _ x hx => ?_⟩
      exact hlt x (by rw [k1]; simp [hx])
    · cases C with
      | nil =>
        simp only [List.append_nil, List.nil_append] at k1 k2
        refine ⟨R, B, by rw [hr, k1], fun x hx => hx, fun x hx => Or.inr hx, fun _ x hx => ?_⟩
        exact hlt x (by rw [← k1]; exact hx)
      | cons c C =>
        simp only [List.cons_append, List.cons.injEq] at k2
        obtain ⟨rfl, k2⟩ := k2
        refine ⟨A ++ C, S, by rw [hr, k2, List.append_assoc], ?_, ?_, ?_⟩
        · intro x hx; rw [k1]
          rcases List.mem_append.1 hx with hx | hx <;> simp [hx]
        · intro x hx; rw [k1] at hx
          simp only [List.mem_append, List.mem_cons] at hx ⊢
          tauto
        · intro hne; exact absurd (by rw [k1]; simp) hne
  obtain ⟨R', S', r1, r2, r3, r4⟩ := hst
  have hcov : ∀ c, s.label c ≠ none → oc c = false → (D c ∨ some e.2 = some c) ∨ (dem c, c) ∈ R' := by
    intro c hc ho
    rcases h3 c hc ho with (k | k) | k
    · exact Or.inl (Or.inl k)
    · cases k
    · rcases r3 _ k with k | k
      · left; right; rw [← k]
      · exact Or.inr k
  have hpits : ∀ l, 1 ≤ l → l < s.ndep → D (s.pit l) := by
    intro l l1 l2
    rcases L.pitD l l1 l2 with k | k
    · exact k
    · cases k
  cases hl : s.label e.2 with
  | some l =>
    have eo : dhOpen e.2 { s with q := rest } = (l, { s with q := rest }) := by simp only [dhOpen, hl]
    rw [eo]
    refine ⟨⟨R', S', r1, fun x hx => h2 x (r2 x hx), hcov⟩, fun l l1 l2 => Or.inl (hpits l l1 l2), L.snap, L.oce⟩
  | none =>
    have eo : dhOpen e.2 { s with q := rest } =
        (s.ndep, { s with
          q := rest
          label := Function.update s.label e.2 (some s.ndep)
          pit := Function.update s.pit s.ndep e.2
          ndep := s.ndep + 1 }) := by
      simp only [dhOpen, hl]
    rw [eo]
    have heR : e ∉ R := fun hx => (h2 e hx).1 hl
    have hpos := I.pos
    -- low labelled land has been processed
    have hlow : ∀ c, s.label c ≠ none → oc c = false → dem c ≤ e.1 → D c := by
      intro c hc ho hle
      rcases h3 c hc ho with (k | k) | k
      · exact k
      · cases k
      · exact absurd (r4 heR _ k) (not_lt.2 hle)
    refine ⟨⟨R', S', r1, ?_, ?_⟩, ?_, ?_, ?_⟩
    · intro x hx
      by_cases hxe : x.2 = e.2
      · exact ⟨by simp [hxe], (h2 x (r2 x hx)).2⟩
      · simp only [Function.update_of_ne hxe]; exact h2 x (r2 x hx)
    · intro c hc ho
      by_cases hce : c = e.2
      · left; right; rw [hce]
      · simp only [Function.update_of_ne hce] at hc
        exact hcov c hc ho
    · intro l l1 l2
      by_cases hln : l = s.ndep
      · right; simp [hln]
      · left
        have l2 : l < s.ndep + 1 := l2
        simp only [Function.update_of_ne hln]
        exact hpits l l1 (by omega)
    · intro l l1 l2
      have l2 : l < s.ndep + 1 := l2
      by_cases hln : l = s.ndep
      · subst hln
        refine ⟨fun c => s.label c ≠ none ∧ oc c = false ∧ dem c ≤ e.1, ?_, ?_, ?_, ?_⟩
        · rintro c ⟨_, _, k⟩
          simp only [Function.update_self]
          rw [← q1]; exact k
        · rintro c d ⟨k1, k2, k3⟩ had hd hle ho
          simp only [Function.update_self] at hle
          exact ⟨(I.done c (hlow c k1 k2 k3) d had hd).1, ho, by rw [q1]; exact hle⟩
        · simp only [Function.update_self]
          rintro ⟨k, _⟩; exact k hl
        · intro l' a b
          simp only [Function.update_of_ne (show l' ≠ s.ndep by omega)]
          obtain ⟨p1, p2⟩ := I.pits l' a b
          exact ⟨by rw [p2]; simp, p1.2.1, I.order _ (.inl (hpits l' a b)) e he⟩
      · obtain ⟨X, x1, x2, x3, x4⟩ := L.snap l l1 (by omega)
        refine ⟨X, ?_, ?_, ?_, ?_⟩
        · simp only [Function.update_of_ne hln]; exact x1
        · simp only [Function.update_of_ne hln]; exact x2
        · simp only [Function.update_of_ne hln]; exact x3
        · intro l' a b
          simp only [Function.update_of_ne (show l' ≠ s.ndep by omega)]
          exact x4 l' a b
    · intro c hc ho
      by_cases hce : c = e.2
      · simp [hce]
      · simp only [Function.update_of_ne hce]; exact L.oce c hc ho

theorem dhStep_lifo {pq : PQ (E × Cell) zLt} (hq : pq.Lifo) {D : Cell → Prop} {s s' : DHS E} {e : E × Cell}
    {rest : List (E × Cell)} (I : DHInv w h t dem oc D none s) (L : LifoInv w h t dem oc D none s)
    (hp : pq.pop s.q = some (e, rest)) (hs : dhStep pq w h t dem s = some s') :
    LifoInv w h t dem oc (fun c => D c ∨ c = e.2) none s' := by
  unfold dhStep at hs
  rw [hp] at hs
  simp only [Option.some.injEq] at hs
  have L1 := dhOpen_lifo hq I L hp
  have L2 : LifoInv w h t dem oc D (some e.2) s' := by
    rw [← hs]
    refine List.foldlRecOn (dirs t) _ L1 ?_
    intro s1 J n _
    exact dhNbr_lifo hq J
  obtain ⟨R, S, h1, h2, h3⟩ := L2.stack
  refine ⟨⟨R, S, h1, h2, fun c hc ho => ?_⟩, fun l l1 l2 => ?_, L2.snap, L2.oce⟩
  · rcases h3 c hc ho with (k | k) | k
    · exact Or.inl (Or.inl (Or.inl k))
    · exact Or.inl (Or.inl (Or.inr (by cases k; rfl)))
    · exact Or.inr k
  · rcases L2.pitD l l1 l2 with k | k
    · exact Or.inl (Or.inl k)
    · exact Or.inl (Or.inr (Option.some.inj k).symm)

theorem dhInit_lifo (pq : PQ (E × Cell) zLt) :
    LifoInv w h t dem oc (fun _ => False) none (dhInit pq w h t dem oc) :=
  ⟨⟨[], _, rfl, by simp, fun c hc ho => (by
      exfalso
      simp only [dhInit] at hc
      rw [ho] at hc
      simp at hc)⟩, fun l l1 l2 => (by
      have l2 : l < 1 := l2
      omega), fun l l1 l2 => (by
      have l2 : l < 1 := l2
      omega), (dhInit_inv pq).oce⟩

theorem dhFlood_snap {pq : PQ (E × Cell) zLt} (hq : pq.Lifo) (w h : Nat) (t : Topo) (dem : Cell → E)
    (oc : Cell → Bool) : Snap w h t dem oc (dhFlood pq w h t dem oc) := by
  obtain ⟨⟨D, _, L⟩, _⟩ := loop_spec (step := dhStep pq w h t dem)
    (fun s => ∃ D, DHInv w h t dem oc D none s ∧ LifoInv w h t dem oc D none s) (dhMeasure w h)
    (fun s s' ⟨D, I, L⟩ hs => by
      obtain ⟨⟨e, rest, hp, J⟩, hm⟩ := dhStep_inv' pq I hs
      exact ⟨⟨_, J, dhStep_lifo hq I L hp hs⟩, hm⟩) (2 * (w * h)) (dhInit pq w h t dem oc)
    ⟨_, dhInit_inv pq, dhInit_lifo pq⟩ (dhInit_measure pq)
  exact L.snap

/-- A flat is never split between two land depressions. -/
theorem dhFlood_flat {pq : PQ (E × Cell) zLt} (hq : pq.Lifo) {u v : Cell} {a b : Nat} (hu : InGrid w h u) (hv : InGrid w h v)
    (huv : Adj .D8 u v) (ha : (dhFlood pq w h .D8 dem oc).label u = some a) (hb : (dhFlood pq w h .D8 dem oc).label v = some b)
    (ha0 : a ≠ 0) (hb0 : b ≠ 0) (hab : a ≠ b) :
    dem ((dhFlood pq w h .D8 dem oc).pit a) < max (dem u) (dem v) := by
  have hsn := dhFlood_snap hq w h .D8 dem oc
  obtain ⟨⟨D, I⟩, _⟩ := dhFlood_final pq w h .D8 dem oc
  set s := dhFlood pq w h .D8 dem oc
  by_contra hle
  rw [not_lt, max_le_iff] at hle
  have hoc : ∀ c l, s.label c = some l → l ≠ 0 → oc c = false := by
    intro c l hc h0
    by_contra hne
    have := I.lab0 c (I.inside c (by rw [hc]; simp)) (by simpa using hne)
    rw [hc] at this; cases this; exact h0 rfl
  have pu := (I.path u a ha).inConn ha0
  have pv := (I.path v b hb).inConn hb0
  have walk : ∀ (X : Cell → Prop) (z m : E) (l : Nat), l ≠ 0 → m ≤ z →
      (∀ c d, X c → Adj .D8 c d → InGrid w h d → dem d ≤ z → oc d = false → X d) →
      ∀ c d, InConn w h dem (fun q => s.label q = some l) m c d → X c → X d := by
    intro X z m l hl hm hX c d p hc
    induction p with
    | refl => exact hc
    | step _ _ _ k4 k5 ih =>
      obtain ⟨g1, g2, g3⟩ := k5.left
      exact ih (hX _ _ hc k4 g1 (g3.trans hm) (hoc _ l g2 hl))
  have hal := I.lt u a ha
  have hbl := I.lt v b hb
  rcases Nat.lt_or_gt_of_ne hab with hlt | hlt
  · obtain ⟨X, x1, x2, x3, x4⟩ := hsn b (by omega) hbl
    have xa := x4 a (by omega) hlt
    have hz := x1 _ xa
    have xu := walk X _ _ a ha0 (hle.1.trans hz) x2 _ _ pu.symm xa
    have xv := x2 u v xu huv hv (hle.2.trans hz) (hoc v b hb hb0)
    exact x3 (walk X _ _ b hb0 (hle.2.trans hz) x2 _ _ pv xv)
  · obtain ⟨X, x1, x2, x3, x4⟩ := hsn a (by omega) hal
    have xb := x4 b (by omega) hlt
    have xv := walk X _ _ b hb0 hle.2 x2 _ _ pv.symm xb
    have xu := x2 v u xv huv.symm hu hle.1 (hoc u a ha ha0)
    exact x3 (walk X _ _ a ha0 hle.1 x2 _ _ pu xu)

end

section
variable {E : Type} [Field E] [LinearOrder E] [IsStrictOrderedRing E]

/-- With a last-in-first-out queue, depressions inside others have a positive volume. -/
theorem lifo_volumes {w h : Nat} {dem : Cell → E} {pq : PQ (E × Cell) zLt} (hq : pq.Lifo) (lab : Cell → Option Nat) (s : DHS E)
    (hs : getDHFlood pq w h .D8 dem lab = some s)
    (os : List (Outlet E)) (O : IsOutletVec s os) (h32 : 2 * s.ndep < 2 ^ 32) (H : Hier E)
    (hH : depHierarchy s os = some H) (parts : List (List Cell)) (hp : parts.flatten.Perm (allCells w h))
    (m : Tally E) (hm : calcMarginal H.n H.dep dem s.label parts = some m) (v : Vols E)
    (hv : calcTotal H.n H.dep m = some v)
    (vol : Nat → E) (hvol : ∀ d, d < H.n → d ≠ 0 → v.vol d = some (vol d)) (hvol0 : 0 ≤ vol 0) :
    ∀ d, d < H.n → d ≠ 0 → (H.dep d).oceanParent = false → 0 < vol d := by
  have G := geo_of_run pq lab s hs os O h32 H hH parts hp m hm v hv vol hvol
  obtain ⟨T, V⟩ := move_setup pq w h .D8 dem lab s hs os O h32 H hH parts hp m hm v hv vol hvol hvol0
  have hflat : ∀ u v a b, InGrid w h u → InGrid w h v → Adj .D8 u v → s.label u = some a → s.label v = some b →
      a ≠ 0 → b ≠ 0 → a ≠ b → dem (s.pit a) < max (dem u) (dem v) := by
    obtain ⟨rfl, _⟩ := getDHFlood_some hs
    intro u v a b h1 h2 h3 h4 h5 h6 h7 h8
    exact dhFlood_flat hq h1 h2 h3 h4 h5 h6 h7 h8
  intro d
  induction d using Nat.strongRecOn with
  | _ d ih =>
    intro hd h0 ho
    by_cases hl : d < s.ndep
    · obtain ⟨p, hpar⟩ := Option.ne_none_iff_exists'.1 (T.par d hd h0)
      have hup : upOf H.dep d = some p := upOf_eq.2 ⟨hpar, ho⟩
      obtain ⟨p1, p2, p3, p4⟩ := T.up d p hup
      obtain ⟨a, b, k1, k2, k3, k4, k5, k6, k7, k8, k9, k10⟩ := T.kids p p3 p2
      obtain ⟨x, y, g1, g2, g3, ⟨la, e1, e2⟩, ⟨lb, e3, e4⟩, g6⟩ := G.pass p a b p2 k1 k2
      have hla := AncU.ne_zero T.toDepTree e2 k6
      have hlb := AncU.ne_zero T.toDepTree e4 k7
      have hlab : la ≠ lb := by
        rintro rfl; exact k3 (T.sib_disjoint k8 k9 e2 e4)
      have key : ∃ z, (H.dep d).outElev = some z ∧ dem (s.pit d) < z := by
        rcases p4 with h | h
        · rw [k1] at h; cases h
          obtain rfl := T.anc_leaf e2 hl
          exact ⟨_, g6, hflat x y la lb g2 g3 g1 e1 e3 hla hlb hlab⟩
        · rw [k2] at h; cases h
          obtain rfl := T.anc_leaf e4 hl
          refine ⟨_, by rw [← k10]; exact g6, ?_⟩
          rw [max_comm]
          exact hflat y x lb la g3 g2 g1.symm e3 e1 hlb hla (Ne.symm hlab)
      obtain ⟨z, hz, hlt⟩ := key
      obtain ⟨z', S, s1, s2, s3⟩ := G.vols d hd h0
      rw [hz] at s1; cases s1
      obtain ⟨q1, q2, _⟩ := G.pits d h0 hl
      rw [s3]
      refine Finset.sum_pos' (fun c hc => sub_nonneg.2 ((s2 c).1 hc).2.2) ⟨s.pit d, (s2 _).2 ⟨q2, ⟨d, q1, .refl _⟩, hlt.le⟩, ?_⟩
      exact sub_pos.2 hlt
    · obtain ⟨a, b, k1, k2, k3, k4, k5, k6, k7, k8, k9, k10⟩ := T.kids d (by omega) hd
      have ha := ih a k4 (by omega) k6 (upOf_eq.1 k8).2
      have hb := ih b k5 (by omega) k7 (upOf_eq.1 k9).2
      have := V.super d a b hd k1 k2
      linarith

end

end RichDEM
