/-
With a queue that returns equal elevations last in, first out, the cells of a flat without lower neighbours get one label
(depression_hierarchy.hpp:372-376: "This ensures that a single depression gets all the cells within a flat area").
-/
import Verif.DepHier.Lifo

namespace RichDEM

variable {E : Type} [LinearOrder E]

/-! ### Specification -/

/-- Two land cells of one flat: joined by steps between neighbouring land cells of equal elevation. -/
inductive FlatPath (w h : Nat) (t : Topo) (dem : Cell → E) (oc : Cell → Bool) : Cell → Cell → Prop
  | refl (c) : FlatPath w h t dem oc c c
  | step {a b c} : FlatPath w h t dem oc a b → Adj t b c → InGrid w h c → oc c = false → dem c = dem b →
      FlatPath w h t dem oc a c

/-- No cell of the flat has a lower neighbour. -/
def PitFlat (w h : Nat) (t : Topo) (dem : Cell → E) (oc : Cell → Bool) (c : Cell) : Prop :=
  ∀ d, FlatPath w h t dem oc c d → ∀ n, Adj t d n → InGrid w h n → dem d ≤ dem n

variable {w h : Nat} {t : Topo} {dem : Cell → E} {oc : Cell → Bool}

theorem FlatPath.dem_eq {a b : Cell} (p : FlatPath w h t dem oc a b) : dem b = dem a := by
  induction p with
  | refl => rfl
  | step _ _ _ _ e ih => rw [e, ih]

theorem FlatPath.trans {a b c : Cell} (p : FlatPath w h t dem oc a b) (q : FlatPath w h t dem oc b c) :
    FlatPath w h t dem oc a c := by
  induction q with
  | refl => exact p
  | step _ h1 h2 h3 h4 ih => exact .step ih h1 h2 h3 h4

theorem FlatPath.symm {a b : Cell} (p : FlatPath w h t dem oc a b) (ha : InGrid w h a) (ho : oc a = false) :
    FlatPath w h t dem oc b a := by
  induction p with
  | refl => exact .refl _
  | @step b c p h1 h2 h3 h4 ih =>
    have hb : InGrid w h b ∧ oc b = false := by
      cases p with
      | refl => exact ⟨ha, ho⟩
      | step _ _ k2 k3 _ => exact ⟨k2, k3⟩
    exact (FlatPath.step (.refl _) h1.symm hb.1 hb.2 h4.symm).trans ih

/-- `X` is closed under going to land neighbours not above `z`. -/
def ClosedAt (w h : Nat) (t : Topo) (dem : Cell → E) (oc : Cell → Bool) (z : E) (X : Cell → Prop) : Prop :=
  ∀ c d, X c → Adj t c d → InGrid w h d → dem d ≤ z → oc d = false → X d

theorem ClosedAt.walk {z : E} {X : Cell → Prop} (C : ClosedAt w h t dem oc z X) {a b : Cell}
    (p : FlatPath w h t dem oc a b) (ha : X a) (hz : dem a ≤ z) : X b := by
  induction p with
  | refl => exact ha
  | step p h1 h2 h3 h4 ih => exact C _ _ ih h1 h2 (by rw [h4, p.dem_eq]; exact hz) h3

/-- `c` was labelled from `o`. -/
def KidOf (t : Topo) (fd : Cell → Nat) (o c : Cell) : Prop := fd c ≠ 0 ∧ nbr t c (fd c) = o

structure OcInv (w h : Nat) (t : Topo) (dem : Cell → E) (oc : Cell → Bool) (D : Cell → Prop) (s : DHS E) : Prop where
  kids : ∀ c, s.fd c ≠ 0 → D (nbr t c (s.fd c)) ∧ oc c = false
  snap : ∀ l, 1 ≤ l → l < s.ndep → ∀ o, D o → oc o = true →
    (∃ X, ClosedAt w h t dem oc (dem o) X ∧ X (s.pit l) ∧ ∀ c, KidOf t s.fd o c → ¬ X c) ∨
    (∃ X, ClosedAt w h t dem oc (dem (s.pit l)) X ∧ ¬ X (s.pit l) ∧
      ∀ c, KidOf t s.fd o c → dem c ≤ dem (s.pit l) → X c)

/-- What one turn does to directions and labels. -/
structure TurnFacts (t : Topo) (e : E × Cell) (s s' : DHS E) : Prop where
  lab : ∀ c l, s.label c = some l → s'.label c = some l
  fd : ∀ c, s'.fd c = s.fd c ∨ (s.label c = none ∧ nbr t c (s'.fd c) = e.2)
  pit : ∀ l, l < s.ndep → s'.pit l = s.pit l
  ndep : s'.ndep = s.ndep ∨ (s'.ndep = s.ndep + 1 ∧ s.label e.2 = none ∧ s'.pit s.ndep = e.2)

theorem dhStep_facts {pq : PQ (E × Cell) zLt} {s s' : DHS E} {e : E × Cell} {rest : List (E × Cell)}
    (hp : pq.pop s.q = some (e, rest)) (hs : dhStep pq w h t dem s = some s') : TurnFacts t e s s' := by
  unfold dhStep at hs
  rw [hp] at hs
  simp only [Option.some.injEq] at hs
  have h0 : TurnFacts t e s (dhOpen e.2 { s with q := rest }).2 := by
    unfold dhOpen
    simp only
    cases hl : s.label e.2 with
    | some l => exact ⟨fun _ _ h => h, fun _ => Or.inl rfl, fun _ _ => rfl, Or.inl rfl⟩
    | none =>
      refine ⟨?_, fun _ => Or.inl rfl, ?_, Or.inr ⟨rfl, hl, by simp⟩⟩
      · intro c l hc
        have : c ≠ e.2 := by rintro rfl; rw [hl] at hc; cases hc
        simp only [Function.update_of_ne this]; exact hc
      · intro l hl'
        simp only [Function.update_of_ne (show l ≠ s.ndep by omega)]
  rw [← hs]
  refine List.foldlRecOn (dirs t) _ h0 ?_
  intro s1 J n hn
  unfold dhNbr
  simp only
  split
  · exact J
  · cases hq : s1.label (nbr t e.2 n) with
    | none =>
      simp only
      refine ⟨?_, ?_, J.pit, J.ndep⟩
      · intro c l hc
        have : c ≠ nbr t e.2 n := by rintro rfl; rw [J.lab _ l hc] at hq; cases hq
        simp only [Function.update_of_ne this]; exact J.lab c l hc
      · intro c
        by_cases hcq : c = nbr t e.2 n
        · right
          subst hcq
          refine ⟨?_, ?_⟩
          · cases hl : s.label (nbr t e.2 n) with
            | none => rfl
            | some l => rw [J.lab _ l hl] at hq; cases hq
          · simp only [Function.update_self]
            exact (nbr_dinverse hn).2
        · simp only [Function.update_of_ne hcq]; exact J.fd c
    | some m =>
      simp only
      split
      · exact J
      · exact ⟨J.lab, J.fd, J.pit, J.ndep⟩

/-- Children are neighbours inside the grid. -/
theorem DHInv.kid {D : Cell → Prop} {cur : Option Cell} {s : DHS E} (I : DHInv w h t dem oc D cur s) {c : Cell}
    (hc : s.fd c ≠ 0) : InGrid w h c ∧ Adj t c (nbr t c (s.fd c)) ∧ s.label c ≠ none := by
  have hl : s.label c ≠ none := fun h => hc (I.fresh c h)
  obtain ⟨l, hl'⟩ := Option.ne_none_iff_exists'.1 hl
  refine ⟨I.inside c hl, ?_, hl⟩
  cases I.path c l hl' with
  | ocean _ _ _ _ h => exact absurd h hc
  | pit _ _ _ _ h => exact absurd h hc
  | step _ _ h _ _ => exact nbr_adj h

theorem dhStep_oc {pq : PQ (E × Cell) zLt} (hq : pq.Lifo) {D : Cell → Prop} {s s' : DHS E} {e : E × Cell}
    {rest : List (E × Cell)} (I : DHInv w h t dem oc D none s) (L : LifoInv w h t dem oc D none s)
    (O : OcInv w h t dem oc D s) (hp : pq.pop s.q = some (e, rest)) (hs : dhStep pq w h t dem s = some s')
    (I' : DHInv w h t dem oc (fun c => D c ∨ c = e.2) none s') :
    OcInv w h t dem oc (fun c => D c ∨ c = e.2) s' := by
  have F := dhStep_facts hp hs
  have he : e ∈ s.q := by
    obtain ⟨A, B, h1, _⟩ := hq.pop _ _ _ hp
    rw [h1]; simp
  obtain ⟨q1, q2, q3⟩ := I.queued e he
  have hclosed : (s.label e.2 = none ∨ oc e.2 = true) →
      ClosedAt w h t dem oc e.1 (fun c => s.label c ≠ none ∧ oc c = false ∧ dem c ≤ e.1) := by
    rintro hor c d ⟨k1, k2, k3⟩ had hd hle ho
    exact ⟨(I.done c (lifo_low hq L hp hor c k1 k2 k3) d had hd).1, ho, hle⟩
  have hpD : ∀ l, 1 ≤ l → l < s.ndep → D (s.pit l) := by
    intro l l1 l2
    rcases L.pitD l l1 l2 with k | k
    · exact k
    · cases k
  refine ⟨?_, ?_⟩
  · intro c hc
    rcases F.fd c with k | ⟨k1, k2⟩
    · rw [k] at hc ⊢
      exact ⟨Or.inl (O.kids c hc).1, (O.kids c hc).2⟩
    · refine ⟨Or.inr k2, ?_⟩
      by_contra ho
      exact I.oce c (I'.kid hc).1 (by simpa using ho) k1
  · intro l l1 l2 o hDo hoo
    -- children of `o` after the turn
    have hkid : ∀ c, KidOf t s'.fd o c → KidOf t s.fd o c ∨ (s.label c = none ∧ o = e.2) := by
      rintro c ⟨k1, k2⟩
      rcases F.fd c with k | ⟨k3, k4⟩
      · rw [k] at k1 k2; exact Or.inl ⟨k1, k2⟩
      · exact Or.inr ⟨k3, by rw [← k2, k4]⟩
    by_cases hl : l < s.ndep
    · rw [F.pit l hl]
      by_cases hD : D o
      · have hkid' : ∀ c, KidOf t s'.fd o c → KidOf t s.fd o c := by
          intro c hc
          rcases hkid c hc with k | ⟨k1, k2⟩
          · exact k
          · exfalso
            obtain ⟨g1, g2, _⟩ := I'.kid hc.1
            rw [hc.2] at g2
            exact (I.done o hD c g2.symm g1).1 k1
        rcases O.snap l l1 hl o hD hoo with ⟨X, x1, x2, x3⟩ | ⟨X, x1, x2, x3⟩
        · exact Or.inl ⟨X, x1, x2, fun c hc => x3 c (hkid' c hc)⟩
        · exact Or.inr ⟨X, x1, x2, fun c hc => x3 c (hkid' c hc)⟩
      · have hoe : o = e.2 := hDo.resolve_left hD
        left
        have hC := hclosed (Or.inr (by rw [← hoe]; exact hoo))
        rw [q1, ← hoe] at hC
        refine ⟨_, hC, ?_, ?_⟩
        · obtain ⟨p1, p2⟩ := I.pits l l1 hl
          refine ⟨by rw [p2]; simp, p1.2.1, ?_⟩
          rw [hoe, ← q1]
          exact I.order _ (Or.inl (hpD l l1 hl)) e he
        · intro c hc hX
          rcases hkid c hc with k | ⟨k1, _⟩
          · exact hD (by have := (O.kids c k.1).1; rwa [k.2] at this)
          · exact hX.1 k1
    · rcases F.ndep with k | ⟨k1, k2, k3⟩
      · omega
      · have hln : l = s.ndep := by omega
        subst hln
        rw [k3]
        have hoe : o ≠ e.2 := by
          rintro rfl
          exact I.oce e.2 q2 hoo k2
        right
        have hC := hclosed (Or.inl k2)
        rw [q1] at hC
        refine ⟨_, hC, fun hX => hX.1 k2, ?_⟩
        intro c hc hle
        rcases hkid c hc with k | ⟨_, k⟩
        · exact ⟨(I.kid k.1).2.2, (O.kids c k.1).2, hle⟩
        · exact absurd k hoe

theorem dhFlood_oc {pq : PQ (E × Cell) zLt} (hq : pq.Lifo) (w h : Nat) (t : Topo) (dem : Cell → E) (oc : Cell → Bool) :
    ∃ D, DHInv w h t dem oc D none (dhFlood pq w h t dem oc) ∧ Snap w h t dem oc (dhFlood pq w h t dem oc) ∧
      OcInv w h t dem oc D (dhFlood pq w h t dem oc) := by
  obtain ⟨⟨D, I, L, O⟩, _⟩ := loop_spec (step := dhStep pq w h t dem)
    (fun s => ∃ D, DHInv w h t dem oc D none s ∧ LifoInv w h t dem oc D none s ∧ OcInv w h t dem oc D s) (dhMeasure w h)
    (fun s s' ⟨D, I, L, O⟩ hs => by
      obtain ⟨⟨e, rest, hp, J⟩, hm⟩ := dhStep_inv' pq I hs
      exact ⟨⟨_, J, dhStep_lifo hq I L hp hs, dhStep_oc hq I L O hp hs J⟩, hm⟩) (2 * (w * h)) (dhInit pq w h t dem oc)
    ⟨_, dhInit_inv pq, dhInit_lifo pq, ⟨fun c hc => absurd rfl hc, fun l l1 l2 => (by
      have l2 : l < 1 := l2
      omega)⟩⟩ (dhInit_measure pq)
  exact ⟨D, I, L.snap, O⟩

theorem pitFlat_label {pq : PQ (E × Cell) zLt} (hq : pq.Lifo) {c d : Cell} (hc : InGrid w h c) (ho : oc c = false)
    (F : PitFlat w h t dem oc c) (p : FlatPath w h t dem oc c d) {a b : Nat}
    (ha : (dhFlood pq w h t dem oc).label c = some a) (hb : (dhFlood pq w h t dem oc).label d = some b) : a = b := by
  obtain ⟨D, I, S, O⟩ := dhFlood_oc hq w h t dem oc
  set s := dhFlood pq w h t dem oc
  have hoc : ∀ c l, s.label c = some l → l ≠ 0 → oc c = false := by
    intro c l hc h0
    by_contra hne
    have := I.lab0 c (I.inside c (by rw [hc]; simp)) (by simpa using hne)
    rw [hc] at this; cases this; exact h0 rfl
  -- a step down inside the flat
  have stepdown : ∀ x, FlatPath w h t dem oc c x → InGrid w h (nbr t x (s.fd x)) → s.fd x ∈ dirs t →
      dem (nbr t x (s.fd x)) ≤ dem x → dem (nbr t x (s.fd x)) = dem x := by
    intro x px g m hle
    exact le_antisymm hle (F x px _ (nbr_adj m) g)
  have toPit : ∀ l, l ≠ 0 → ∀ x, FlatPath w h t dem oc c x → DHPath w h t dem oc s.label s.fd s.pit l x →
      FlatPath w h t dem oc c (s.pit l) := by
    intro l h0 x px P
    induction P with
    | ocean _ _ h _ _ => exact absurd h h0
    | pit _ h _ _ _ => rw [← h]; exact px
    | @step y g1 g2 g3 g4 g5 ih =>
      have hl : s.label (nbr t y (s.fd y)) = some l := by cases g5 <;> assumption
      have hg := I.inside _ (show s.label (nbr t y (s.fd y)) ≠ none by rw [hl]; simp)
      exact ih (.step px (nbr_adj g3) hg (hoc _ l hl h0) (stepdown y px hg g3 g4))
  have toOcean : ∀ x, FlatPath w h t dem oc c x → oc x = false → DHPath w h t dem oc s.label s.fd s.pit 0 x →
      ∃ o k, FlatPath w h t dem oc c k ∧ KidOf t s.fd o k ∧ oc o = true ∧ dem o = dem c := by
    intro x px hox P
    induction P with
    | ocean _ h _ _ _ => rw [hox] at h; cases h
    | pit h _ _ _ _ => omega
    | @step y g1 g2 g3 g4 g5 ih =>
      have hl : s.label (nbr t y (s.fd y)) = some 0 := by cases g5 <;> assumption
      have hg := I.inside _ (show s.label (nbr t y (s.fd y)) ≠ none by rw [hl]; simp)
      have hde := stepdown y px hg g3 g4
      by_cases hoy : oc (nbr t y (s.fd y)) = true
      · exact ⟨_, y, px, ⟨by have := mem_dirs.1 g3; omega, rfl⟩, hoy, by rw [hde, px.dem_eq]⟩
      · exact ih (.step px (nbr_adj g3) hg (by simpa using hoy) hde) (by simpa using hoy)
  have sym : ∀ x y, FlatPath w h t dem oc c x → FlatPath w h t dem oc c y → FlatPath w h t dem oc x y :=
    fun x y px py => (px.symm hc ho).trans py
  have lands : ∀ x, FlatPath w h t dem oc c x → oc x = false := by
    intro x px
    cases px with
    | refl => exact ho
    | step _ _ _ h _ => exact h
  -- two land labels
  have two : ∀ x y l m, l ≠ 0 → l < m → FlatPath w h t dem oc c x → FlatPath w h t dem oc c y → s.label x = some l →
      s.label y = some m → False := by
    intro x y l m l0 hlt px py hx hy
    have p1 := toPit l l0 x px (I.path x l hx)
    have p2 := toPit m (by omega) y py (I.path y m hy)
    obtain ⟨X, x1, x2, x3, x4⟩ := S m (by omega) (I.lt y m hy)
    have C : ClosedAt w h t dem oc (dem (s.pit m)) X := x2
    exact x3 (C.walk (sym _ _ p1 p2) (x4 l (by omega) hlt) (by rw [p1.dem_eq, p2.dem_eq]))
  have ocean : ∀ x y l, l ≠ 0 → FlatPath w h t dem oc c x → FlatPath w h t dem oc c y → s.label x = some l →
      s.label y = some 0 → False := by
    intro x y l l0 px py hx hy
    have p1 := toPit l l0 x px (I.path x l hx)
    obtain ⟨o, k, k1, k2, k3, k4⟩ := toOcean y py (lands y py) (I.path y 0 hy)
    have hDo : D o := by have := (O.kids k k2.1).1; rwa [k2.2] at this
    rcases O.snap l (by omega) (I.lt x l hx) o hDo k3 with ⟨X, x1, x2, x3⟩ | ⟨X, x1, x2, x3⟩
    · exact x3 k k2 (x1.walk (sym _ _ p1 k1) x2 (by rw [p1.dem_eq, k4]))
    · exact x2 (x1.walk (sym _ _ k1 p1) (x3 k k2 (by rw [p1.dem_eq, k1.dem_eq])) (by rw [p1.dem_eq, k1.dem_eq]))
  by_contra hab
  by_cases ha0 : a = 0
  · subst ha0
    exact ocean d c b (Ne.symm hab) p (.refl c) hb ha
  by_cases hb0 : b = 0
  · subst hb0
    exact ocean c d a ha0 (.refl c) p ha hb
  rcases Nat.lt_or_gt_of_ne hab with k | k
  · exact two c d a b ha0 k (.refl c) p ha hb
  · exact two d c b a hb0 k p (.refl c) hb ha

end RichDEM
