/-
Property theorems C70: Fill-Spill-Merge first runs all standing water down to the pits.
-/
import Verif.DepHier.Pits
import Verif.Props.DepHier
import Mathlib.Algebra.Order.Ring.Rat
import Mathlib.Algebra.Order.BigOperators.Group.Finset
import Mathlib.Tactic.Abel

namespace RichDEM

open Finset

/-! ### Specification -/

/-- `T` is the water balance of every cell: what was there (negative: room in the ground) plus all
the surplus of the cells flowing into it. -/
def IsRunoff {R : Type*} [AddCommGroup R] [LinearOrder R] (w h : Nat) (fd : Cell → Nat)
    (wtd0 T : Cell → R) : Prop :=
  ∀ c, InGrid w h c → T c = wtd0 c +
    ∑ p ∈ (gridCells w h).filter (fun p => fd p ≠ 0 ∧ nbr .D8 p (fd p) = c), max 0 (T p)

section General
variable {R : Type*} [AddCommGroup R] [LinearOrder R]

/-- Following the flow directions, some number decreases. -/
def RunsDown (w h : Nat) (fd : Cell → Nat) : Prop :=
  ∃ r : Cell → Nat, ∀ p, InGrid w h p → fd p ≠ 0 → r (nbr .D8 p (fd p)) < r p

/-- Labels do not change along the flow. -/
def LabelsFlow (w h : Nat) (fd : Cell → Nat) (lab : Cell → Nat) : Prop :=
  ∀ p, InGrid w h p → fd p ≠ 0 → lab (nbr .D8 p (fd p)) = lab p

variable {w h : Nat} {fd : Cell → Nat} {lab : Cell → Nat} {wtd0 : Cell → R} {water0 : Nat → R}

/-- An unfinished cell lies downstream of the first cell of the raster, which has inflow. -/
theorem unfinished {g : Finset Cell × (Cell → R)} {s : PitS R} (A : RunsDown w h fd)
    (I : PitsInv w h fd lab wtd0 water0 g s) (hq : s.q = []) {x : Cell}
    (hx : InGrid w h x) (hxg : x ∉ g.1) :
    (∃ p, InGrid w h p ∧ Into fd p (0, 0)) ∧
      Relation.ReflTransGen (fun a b => InGrid w h a ∧ Into fd a b) (0, 0) x := by
  obtain ⟨r, hr⟩ := A
  -- the largest value of `r` on the raster
  obtain ⟨B, hB⟩ : ∃ B, ∀ c, InGrid w h c → r c ≤ B := by
    refine ⟨(gridCells w h).sup r, fun c hc => Finset.le_sup (f := r) (mem_gridCells.2 hc)⟩
  induction hk : B - r x using Nat.strongRecOn generalizing x with
  | _ k ih =>
    have hd : s.dep x ≠ 0 := by
      intro hd
      have := (I.qok x).2 ⟨hx, hxg, hd⟩
      rw [hq] at this; simp at this
    rw [I.dep x hx] at hd
    have : ((gridCells w h).filter (fun p => Into fd p x ∧ ¬ (p ∈ g.1 ∧ x ≠ (0, 0)))).Nonempty := by
      rw [Finset.nonempty_iff_ne_empty]
      intro e; apply hd; rw [e]; simp
    obtain ⟨p, hp⟩ := this
    rw [Finset.mem_filter, mem_gridCells] at hp
    obtain ⟨hp, hpx, hpn⟩ := hp
    by_cases hx0 : x = (0, 0)
    · subst hx0
      exact ⟨⟨p, hp, hpx⟩, .refl⟩
    · have hpg : p ∉ g.1 := fun e => hpn ⟨e, hx0⟩
      have h1 : r x < r p := by
        have := hr p hp hpx.1
        rwa [hpx.2] at this
      have h2 := hB p hp
      obtain ⟨a, b⟩ := ih (B - r p) (by omega) hp hpg rfl
      exact ⟨a, b.tail ⟨hp, hpx⟩⟩

theorem conserved_aux [IsOrderedAddMonoid R] (q : AnyQ Cell) (F : FlowsInside w h fd) (L : LabelsFlow w h fd lab)
    (l : Nat) :
    (∑ c ∈ (gridCells w h).filter (fun c => lab c = l), (movePits q w h fd lab wtd0 water0).wtd c) +
      (movePits q w h fd lab wtd0 water0).water l =
    (∑ c ∈ (gridCells w h).filter (fun c => lab c = l), wtd0 c) + water0 l := by
  obtain ⟨⟨D, T⟩, I, hq⟩ := movePits_final (lab := lab) (wtd0 := wtd0) (water0 := water0) q F
  set s := movePits q w h fd lab wtd0 water0
  -- every cell: final + surplus sent on (if done) = initial + received
  have key : ∀ c, InGrid w h c → s.wtd c + (if c ∈ D then max 0 (T c) else 0) =
      wtd0 c + sent fd D T c := by
    intro c hc
    by_cases hd : c ∈ D
    · rw [if_pos hd, (I.wd c hd).2]
      simp only
      rw [← (I.wd c hd).1, min_add_max, zero_add]
    · rw [if_neg hd, add_zero]
      exact I.wu c hc hd
  have hsum : (∑ c ∈ (gridCells w h).filter (fun c => lab c = l),
        (s.wtd c + (if c ∈ D then max 0 (T c) else 0))) =
      ∑ c ∈ (gridCells w h).filter (fun c => lab c = l), (wtd0 c + sent fd D T c) :=
    Finset.sum_congr rfl fun c hc => key c (mem_gridCells.1 (Finset.mem_filter.1 hc).1)
  rw [Finset.sum_add_distrib, Finset.sum_add_distrib] at hsum
  -- surplus of the finished cells, split by destination
  have h1 : (∑ c ∈ (gridCells w h).filter (fun c => lab c = l), (if c ∈ D then max 0 (T c) else 0)) =
      ∑ c ∈ D.filter (fun c => lab c = l), max 0 (T c) := by
    rw [← Finset.sum_filter, Finset.filter_filter]
    apply Finset.sum_congr _ (fun _ _ => rfl)
    ext c
    simp only [Finset.mem_filter]
    constructor
    · rintro ⟨_, a, b⟩; exact ⟨b, a⟩
    · rintro ⟨a, b⟩; exact ⟨I.sub a, b, a⟩
  have h2 : (∑ c ∈ (gridCells w h).filter (fun c => lab c = l), sent fd D T c) =
      ∑ c ∈ D.filter (fun c => lab c = l ∧ ¬ Books fd c), max 0 (T c) := by
    unfold sent
    have e : ∀ x, (∑ p ∈ D.filter (fun p => Into fd p x ∧ x ≠ (0, 0)), max 0 (T p)) =
        ∑ p ∈ D, if Into fd p x ∧ x ≠ (0, 0) then max 0 (T p) else 0 := fun x => by
      rw [Finset.sum_filter]
    simp only [e]
    rw [Finset.sum_comm, Finset.sum_filter]
    apply Finset.sum_congr rfl
    intro p hp
    have hpin := mem_gridCells.1 (I.sub hp)
    by_cases hb : lab p = l ∧ ¬ Books fd p
    · rw [if_pos hb]
      have hf : fd p ≠ 0 := fun k => hb.2 (Or.inl k)
      rw [Finset.sum_eq_single (nbr .D8 p (fd p))]
      · rw [if_pos ⟨⟨hf, rfl⟩, fun k => hb.2 (Or.inr ⟨hf, k⟩)⟩]
      · intro y _ hy
        rw [if_neg]
        rintro ⟨⟨_, k⟩, _⟩; exact hy k.symm
      · intro k
        exfalso; apply k
        rw [Finset.mem_filter, mem_gridCells]
        exact ⟨((F p hpin).resolve_left hf).2, by rw [L p hpin hf]; exact hb.1⟩
    · rw [if_neg hb]
      apply Finset.sum_eq_zero
      intro x hx
      rw [if_neg]
      rintro ⟨⟨k1, k2⟩, k3⟩
      apply hb
      rw [Finset.mem_filter] at hx
      refine ⟨?_, ?_⟩
      · rw [← L p hpin k1, k2]; exact hx.2
      · rintro (k | ⟨_, k⟩)
        · exact k1 k
        · exact k3 (k2.symm.trans k)
  have h3 : (∑ c ∈ D.filter (fun c => lab c = l), max 0 (T c)) =
      (∑ c ∈ D.filter (fun c => Books fd c ∧ lab c = l), max 0 (T c)) +
      ∑ c ∈ D.filter (fun c => lab c = l ∧ ¬ Books fd c), max 0 (T c) := by
    rw [← Finset.sum_filter_add_sum_filter_not (D.filter (fun c => lab c = l)) (fun c => Books fd c),
      Finset.filter_filter, Finset.filter_filter]
    congr 1
    apply Finset.sum_congr _ (fun _ _ => rfl)
    ext c; simp only [Finset.mem_filter]; tauto
  rw [h1, h2, h3] at hsum
  rw [I.wat l]
  simp only
  have := hsum
  rw [← add_assoc] at this
  have h4 := add_right_cancel this
  rw [← h4]
  abel

end General

/-! ### C70 -/

section
variable {E : Type} [CommRing E] [LinearOrder E] [IsStrictOrderedRing E]

/-- The flow directions of `GetDepressionHierarchy` (D8) are fit for `MoveWaterIntoPits`. -/
theorem dh_flows (pq : PQ (E × Cell) zLt) (w h : Nat) (dem : Cell → E)
    (lab : Cell → Option Nat) (s : DHS E) (hs : getDHFlood pq w h .D8 dem lab = some s) :
    FlowsInside w h s.fd ∧ LabelsFlow w h s.fd (labelOf s.label) ∧ RunsDown w h s.fd ∧
      (∀ c, InGrid w h c → s.label c = some (labelOf s.label c)) := by
  obtain ⟨rfl, c0, hc0, ho0, _⟩ := getDHFlood_some hs
  obtain ⟨⟨D, I⟩, _⟩ := dhFlood_final pq w h .D8 dem (fun c => lab c == some 0)
  obtain ⟨hL, _⟩ := dhFlood_complete pq w h .D8 dem (fun c => lab c == some 0)
  set s := dhFlood pq w h .D8 dem (fun c => lab c == some 0)
  have hlab : ∀ c, InGrid w h c → s.label c = some (labelOf s.label c) := by
    intro c hc
    rcases hl : s.label c with _ | l
    · exact absurd hl (hL c hc)
    · simp [labelOf, hl]
  have hp : ∀ c, InGrid w h c → DHPath w h .D8 dem (fun c => lab c == some 0) s.label s.fd s.pit
      (labelOf s.label c) c := fun c hc => I.path c _ (hlab c hc)
  have hin : ∀ l c, DHPath w h .D8 dem (fun c => lab c == some 0) s.label s.fd s.pit l c → InGrid w h c := by
    intro l c p
    cases p <;> assumption
  have hlb : ∀ l c, DHPath w h .D8 dem (fun c => lab c == some 0) s.label s.fd s.pit l c →
      s.label c = some l := by
    intro l c p
    cases p <;> assumption
  refine ⟨?_, ?_, ?_, hlab⟩
  · intro c hc
    have p := hp c hc
    cases p with
    | ocean _ _ _ _ e => exact Or.inl e
    | pit _ _ _ _ e => exact Or.inl e
    | step _ _ a _ b => exact Or.inr ⟨a, hin _ _ b⟩
  · intro c hc hf
    have p := hp c hc
    generalize hl : labelOf s.label c = l at p
    cases p with
    | ocean _ _ _ _ e => exact absurd e hf
    | pit _ _ _ _ e => exact absurd e hf
    | step _ _ a _ b =>
      have := hlb _ _ b
      simp [labelOf, this]
  · let down : Cell → Cell := fun c => if s.fd c = 0 then c else nbr .D8 c (s.fd c)
    have hex : ∀ l c, DHPath w h .D8 dem (fun c => lab c == some 0) s.label s.fd s.pit l c →
        ∃ k, s.fd (down^[k] c) = 0 := by
      intro l c p
      induction p with
      | ocean _ _ _ _ e => exact ⟨0, e⟩
      | pit _ _ _ _ e => exact ⟨0, e⟩
      | @step c _ _ a _ _ ih =>
        obtain ⟨k, hk⟩ := ih
        refine ⟨k + 1, ?_⟩
        have h0 : s.fd c ≠ 0 := by have := mem_dirs.1 a; omega
        rw [Function.iterate_succ_apply]
        have : down c = nbr .D8 c (s.fd c) := if_neg h0
        rw [this]; exact hk
    classical
    refine ⟨fun c => if hk : ∃ k, s.fd (down^[k] c) = 0 then Nat.find hk else 0, ?_⟩
    intro p hp0 hf
    have e1 := hex _ _ (hp p hp0)
    have hd : down p = nbr .D8 p (s.fd p) := if_neg hf
    have hfind := Nat.find_spec e1
    rcases hk : Nat.find e1 with _ | j
    · rw [hk] at hfind; exact absurd hfind hf
    · rw [hk, Function.iterate_succ_apply, hd] at hfind
      have e2 : ∃ k, s.fd (down^[k] (nbr .D8 p (s.fd p))) = 0 := ⟨j, hfind⟩
      simp only
      rw [dif_pos e1, dif_pos e2, hk]
      exact Nat.lt_succ_of_le (Nat.find_le hfind)

variable (q : AnyQ Cell) (pq : PQ (E × Cell) zLt) (w h : Nat) (dem : Cell → E)
    (lab : Cell → Option Nat) (s : DHS E) (hs : getDHFlood pq w h .D8 dem lab = some s)
    (wtd0 : Cell → E) (water0 : Nat → E)

include hs

/-- C70: `MoveWaterIntoPits` neither makes nor loses water, and moves none between depressions: for
every label (the ocean included), the water tables of its cells and the water booked on it add up to
what they were. -/
theorem C70_conserved (l : Nat) :
    (∑ c ∈ (gridCells w h).filter (fun c => s.label c = some l),
        (movePits q w h s.fd (labelOf s.label) wtd0 water0).wtd c) +
      (movePits q w h s.fd (labelOf s.label) wtd0 water0).water l =
    (∑ c ∈ (gridCells w h).filter (fun c => s.label c = some l), wtd0 c) + water0 l := by
  obtain ⟨F, L, A, hl⟩ := dh_flows pq w h dem lab s hs
  have e : (gridCells w h).filter (fun c => s.label c = some l) =
      (gridCells w h).filter (fun c => labelOf s.label c = l) := by
    apply Finset.filter_congr
    intro c hc
    rw [hl c (mem_gridCells.1 hc)]
    simp
  rw [e]
  exact conserved_aux q F L l

/-- C70: the loop terminates with the queue empty. -/
theorem C70_loop : (movePits q w h s.fd (labelOf s.label) wtd0 water0).q = [] := by
  obtain ⟨F, L, A, hl⟩ := dh_flows pq w h dem lab s hs
  obtain ⟨g, _, hq⟩ := movePits_final (lab := labelOf s.label) (wtd0 := wtd0) (water0 := water0) q F
  exact hq

/-- C70: afterwards no cell has standing water, except possibly cells downstream of the cell (0,0)
if something flows into it.  Water tables below the ground only rise. -/
theorem C70_dry_partial (c : Cell) (hc : InGrid w h c)
    (h0 : (¬ ∃ p, InGrid w h p ∧ s.fd p ≠ 0 ∧ nbr .D8 p (s.fd p) = (0, 0)) ∨
      ¬ Relation.ReflTransGen (fun a b => InGrid w h a ∧ s.fd a ≠ 0 ∧ nbr .D8 a (s.fd a) = b) (0, 0) c) :
    (movePits q w h s.fd (labelOf s.label) wtd0 water0).wtd c ≤ 0 ∧
    min 0 (wtd0 c) ≤ (movePits q w h s.fd (labelOf s.label) wtd0 water0).wtd c := by
  obtain ⟨F, L, A, hl⟩ := dh_flows pq w h dem lab s hs
  obtain ⟨⟨D, T⟩, I, hq⟩ := movePits_final (lab := labelOf s.label) (wtd0 := wtd0) (water0 := water0) q F
  have hd : c ∈ D := by
    by_contra hn
    obtain ⟨k1, k2⟩ := unfinished A I hq hc hn
    rcases h0 with h0 | h0
    · exact h0 k1
    · exact h0 k2
  obtain ⟨e1, e2⟩ := I.wd c hd
  rw [e2]
  simp only at e1 ⊢
  refine ⟨min_le_left _ _, ?_⟩
  rw [e1]
  have : 0 ≤ sent s.fd D T c := Finset.sum_nonneg fun _ _ => le_max_left _ _
  exact min_le_min_left _ (by linarith)

/-- C70: if nothing flows into the cell (0,0), or it is an end point of flow with a water table at
the ground, then the run-off is computed exactly: there is a water balance `T` of all cells such that
every cell keeps the deficit (`T`, if negative) and every depression receives the surplus of the
end points of flow labelled with it. -/
theorem C70_runoff_partial
    (h0 : (¬ ∃ p, InGrid w h p ∧ s.fd p ≠ 0 ∧ nbr .D8 p (s.fd p) = (0, 0)) ∨
      (s.fd (0, 0) = 0 ∧ wtd0 (0, 0) = 0)) :
    ∃ T, IsRunoff w h s.fd wtd0 T ∧
      (∀ c, InGrid w h c → (movePits q w h s.fd (labelOf s.label) wtd0 water0).wtd c = min 0 (T c)) ∧
      (∀ l, (movePits q w h s.fd (labelOf s.label) wtd0 water0).water l = water0 l +
        ∑ c ∈ (gridCells w h).filter (fun c => s.fd c = 0 ∧ s.label c = some l), max 0 (T c)) := by
  obtain ⟨F, L, A, hl⟩ := dh_flows pq w h dem lab s hs
  obtain ⟨⟨D, T⟩, I, hq⟩ := movePits_final (lab := labelOf s.label) (wtd0 := wtd0) (water0 := water0) q F
  set f := movePits q w h s.fd (labelOf s.label) wtd0 water0
  by_cases hin : ∃ p, InGrid w h p ∧ s.fd p ≠ 0 ∧ nbr .D8 p (s.fd p) = (0, 0)
  swap
  · -- everything is finished
    have hall : ∀ c, InGrid w h c → c ∈ D := by
      intro c hc
      by_contra hn
      exact hin (unfinished A I hq hc hn).1
    have hD : D = gridCells w h :=
      Finset.Subset.antisymm I.sub fun c hc => hall c (mem_gridCells.1 hc)
    subst hD
    refine ⟨T, ?_, ?_, ?_⟩
    · intro c hc
      refine (I.wd c (hall c hc)).1.trans ?_
      unfold sent
      congr 1
      apply Finset.sum_congr _ (fun _ _ => rfl)
      apply Finset.filter_congr
      intro p hp
      constructor
      · exact fun k => k.1
      · intro k
        exact ⟨k, fun k0 => hin ⟨p, mem_gridCells.1 hp, k.1, k.2.trans k0⟩⟩
    · intro c hc; exact (I.wd c (hall c hc)).2
    · intro l
      rw [I.wat l]
      congr 1
      apply Finset.sum_congr _ (fun _ _ => rfl)
      apply Finset.filter_congr
      intro p hp
      rw [hl p (mem_gridCells.1 hp)]
      constructor
      · rintro ⟨k | k, k2⟩
        · exact ⟨k, by rw [k2]⟩
        · exact absurd ⟨p, mem_gridCells.1 hp, k.1, k.2⟩ hin
      · rintro ⟨k, k2⟩
        exact ⟨Or.inl k, by simpa using k2⟩
  · obtain ⟨hf0, hw0⟩ := h0.resolve_left (fun k => k hin)
    -- exactly (0,0) is left
    have hgin : InGrid w h (0, 0) := by
      obtain ⟨p, hp, k1, k2⟩ := hin
      have := ((F p hp).resolve_left k1).2
      rwa [k2] at this
    have hall : ∀ c, InGrid w h c → c ≠ (0, 0) → c ∈ D := by
      intro c hc hc0
      by_contra hn
      have := (unfinished A I hq hc hn).2
      rcases Relation.ReflTransGen.cases_head this with k | ⟨b, ⟨_, k, _⟩, _⟩
      · exact hc0 k.symm
      · exact k hf0
    have h00 : (0, 0) ∉ D := by
      intro hd
      have e := I.dep _ hgin
      rw [I.dd _ hd] at e
      have e' := Finset.card_eq_zero.1 (Nat.cast_eq_zero.1 e.symm)
      obtain ⟨p, hp, k1, k2⟩ := hin
      have : p ∈ (∅ : Finset Cell) := by
        rw [← e']
        exact Finset.mem_filter.2 ⟨mem_gridCells.2 hp, ⟨k1, k2⟩, by simp⟩
      simp at this
    have hD : gridCells w h = insert (0, 0) D := by
      ext c
      rw [Finset.mem_insert, mem_gridCells]
      constructor
      · intro hc
        by_cases k : c = (0, 0)
        · exact Or.inl k
        · exact Or.inr (hall c hc k)
      · rintro (rfl | k)
        · exact hgin
        · exact mem_gridCells.1 (I.sub k)
    let S : E := ∑ p ∈ D.filter (fun p => Into s.fd p (0, 0)), max 0 (T p)
    have hS : 0 ≤ S := Finset.sum_nonneg fun _ _ => le_max_left _ _
    have hsum : ∀ P : Cell → Prop, ∀ [DecidablePred P], ¬ P (0, 0) →
        (∑ p ∈ (gridCells w h).filter P, max 0 (Function.update T (0, 0) S p)) =
        ∑ p ∈ D.filter P, max 0 (T p) := by
      intro P _ hP
      rw [hD, Finset.filter_insert, if_neg hP]
      apply Finset.sum_congr rfl
      intro p hp
      have : p ≠ (0, 0) := fun e => h00 (e ▸ (Finset.mem_filter.1 hp).1)
      rw [Function.update_of_ne this]
    refine ⟨Function.update T (0, 0) S, ?_, ?_, ?_⟩
    · intro c hc
      rw [hsum _ (by simp [hf0])]
      by_cases hc0 : c = (0, 0)
      · subst hc0
        rw [Function.update_self, hw0, zero_add]; rfl
      · rw [Function.update_of_ne hc0]
        refine (I.wd c (hall c hc hc0)).1.trans ?_
        unfold sent
        congr 1
        apply Finset.sum_congr _ (fun _ _ => rfl)
        apply Finset.filter_congr
        intro p hp
        exact ⟨fun k => k.1, fun k => ⟨k, hc0⟩⟩
    · intro c hc
      by_cases hc0 : c = (0, 0)
      · subst hc0
        rw [Function.update_self, min_eq_left hS]
        have := I.wu _ hgin h00
        rw [this, hw0, zero_add]
        unfold sent
        simp
      · rw [Function.update_of_ne hc0]
        exact (I.wd c (hall c hc hc0)).2
    · intro l
      rw [I.wat l]
      congr 1
      have e1 : (gridCells w h).filter (fun c => s.fd c = 0 ∧ s.label c = some l) =
          (gridCells w h).filter (fun c => s.fd c = 0 ∧ labelOf s.label c = l) := by
        apply Finset.filter_congr
        intro c hc
        rw [hl c (mem_gridCells.1 hc)]
        simp
      rw [e1]
      have e2 : ∀ p, Into s.fd p (0, 0) → InGrid w h p → labelOf s.label p = labelOf s.label (0, 0) := by
        intro p k hp
        have := L p hp k.1
        rw [k.2] at this; exact this.symm
      have e3 : (∑ c ∈ D.filter (fun c => Books s.fd c ∧ labelOf s.label c = l), max 0 (T c)) =
          (∑ c ∈ D.filter (fun c => s.fd c = 0 ∧ labelOf s.label c = l), max 0 (T c)) +
          (∑ c ∈ D.filter (fun c => Into s.fd c (0, 0) ∧ labelOf s.label c = l), max 0 (T c)) := by
        rw [← Finset.sum_union]
        · apply Finset.sum_congr _ (fun _ _ => rfl)
          ext c
          rw [Finset.mem_union, Finset.mem_filter, Finset.mem_filter, Finset.mem_filter]
          constructor
          · rintro ⟨a, b | b, d⟩
            · exact Or.inl ⟨a, b, d⟩
            · exact Or.inr ⟨a, b, d⟩
          · rintro (⟨a, b, d⟩ | ⟨a, b, d⟩)
            · exact ⟨a, Or.inl b, d⟩
            · exact ⟨a, Or.inr b, d⟩
        · rw [Finset.disjoint_left]
          intro c hc1 hc2
          exact (Finset.mem_filter.1 hc2).2.1.1 (Finset.mem_filter.1 hc1).2.1
      simp only
      rw [e3]
      have e4 : (∑ c ∈ D.filter (fun c => Into s.fd c (0, 0) ∧ labelOf s.label c = l), max 0 (T c)) =
          if labelOf s.label (0, 0) = l then S else 0 := by
        by_cases hll : labelOf s.label (0, 0) = l
        · rw [if_pos hll]
          apply Finset.sum_congr _ (fun _ _ => rfl)
          apply Finset.filter_congr
          intro p hp
          exact ⟨fun k => k.1, fun k => ⟨k, (e2 p k (mem_gridCells.1 (I.sub hp))).trans hll⟩⟩
        · rw [if_neg hll]
          apply Finset.sum_eq_zero
          intro p hp
          obtain ⟨hp1, hp2, hp3⟩ := Finset.mem_filter.1 hp
          exact absurd ((e2 p hp2 (mem_gridCells.1 (I.sub hp1))).symm.trans hp3) hll
      rw [e4, hD, Finset.filter_insert]
      have e5 : (∑ c ∈ D.filter (fun c => s.fd c = 0 ∧ labelOf s.label c = l),
            max 0 (Function.update T (0, 0) S c)) =
          (∑ c ∈ D.filter (fun c => s.fd c = 0 ∧ labelOf s.label c = l), max 0 (T c)) := by
        apply Finset.sum_congr rfl
        intro p hp
        have : p ≠ (0, 0) := fun e => h00 (e ▸ (Finset.mem_filter.1 hp).1)
        rw [Function.update_of_ne this]
      by_cases hll : labelOf s.label (0, 0) = l
      · rw [if_pos hll, if_pos ⟨hf0, hll⟩, Finset.sum_insert (by simp [h00]), Function.update_self, e5,
          max_eq_right hS, add_comm]
      · rw [if_neg hll, if_neg (fun k => hll k.2), e5, add_zero]

/-- C70: on saturated ground every depression receives all the water standing on its cells. -/
theorem C70_saturated_partial (hsat : ∀ c, InGrid w h c → 0 ≤ wtd0 c)
    (h0 : (¬ ∃ p, InGrid w h p ∧ s.fd p ≠ 0 ∧ nbr .D8 p (s.fd p) = (0, 0)) ∨
      (s.fd (0, 0) = 0 ∧ wtd0 (0, 0) = 0)) :
    (∀ c, InGrid w h c → (movePits q w h s.fd (labelOf s.label) wtd0 water0).wtd c = 0) ∧
    (∀ l, (movePits q w h s.fd (labelOf s.label) wtd0 water0).water l = water0 l +
      ∑ c ∈ (gridCells w h).filter (fun c => s.label c = some l), wtd0 c) := by
  obtain ⟨T, h1, h2, _⟩ := C70_runoff_partial q pq w h dem lab s hs wtd0 water0 h0
  have hz : ∀ c, InGrid w h c → (movePits q w h s.fd (labelOf s.label) wtd0 water0).wtd c = 0 := by
    intro c hc
    rw [h2 c hc]
    apply min_eq_left
    rw [h1 c hc]
    have : 0 ≤ ∑ p ∈ (gridCells w h).filter (fun p => s.fd p ≠ 0 ∧ nbr .D8 p (s.fd p) = c), max 0 (T p) :=
      Finset.sum_nonneg fun _ _ => le_max_left _ _
    have := hsat c hc
    linarith
  refine ⟨hz, fun l => ?_⟩
  have := C70_conserved q pq w h dem lab s hs wtd0 water0 l
  rw [Finset.sum_eq_zero (fun c hc => hz c (mem_gridCells.1 (Finset.mem_filter.1 hc).1)), zero_add] at this
  rw [this, add_comm]

end

/-! ### Concrete runs -/

/-- A row: a pit at 1 in the corner, a crest at 3, a slope, the ocean. -/
def pitDem : Cell → ℚ := fun c => [1, 3, 2, 0].getD c.1.toNat 0
def pitLab : Cell → Option Nat := fun c => if c = (3, 0) then some 0 else none
def pitRow (l : List ℚ) : Cell → ℚ := fun c => l.getD c.1.toNat 0
def pitRun (dem : Cell → ℚ) (lab : Cell → Option Nat) (n : Nat) (wtd : List ℚ) : Option (List ℚ × List ℚ) :=
  match getDHFlood zPQ n 1 .D8 dem lab with
  | none => none
  | some s =>
    let r := movePits (fifo Cell) n 1 s.fd (labelOf s.label) (pitRow wtd) (fun _ => 0)
    some ((List.range n).map (fun i : Nat => r.wtd ((i : Int), 0)), (List.range 3).map r.water)

/-- "All values in wtd will be <=0 following this operation" (fill_spill_merge.hpp:228) is false:
the depression's pit is the cell (0,0), its address is taken for `NO_FLOW`, and its own water
stays where it is. -/
theorem C70_dry_refuted : pitRun pitDem pitLab 4 [5, 1, 1, 1] = some ([5, 0, 0, 0], [2, 1, 0]) := by
  decide +kernel

/-- The same row mirrored: the water reaches the pit. -/
example : pitRun (fun c => [0, 2, 3, 1].getD c.1.toNat 0) (fun c => if c = (0, 0) then some 0 else none) 4
    [0, 1, 1, 5] = some ([0, 0, 0, 0], [1, 6, 0]) := by decide +kernel

/-- Dry ground takes up water on the way: the deficit of the pit is two units. -/
example : pitRun (fun c => [0, 2, 3, 1].getD c.1.toNat 0) (fun c => if c = (0, 0) then some 0 else none) 4
    [0, 1, 5, -2] = some ([0, 0, 0, 0], [1, 3, 0]) := by decide +kernel

/-- The hypotheses of `C70_runoff_partial` are met by this row (the ocean corner is an end point of flow
with its water table at the ground). -/
example : ∃ s, getDHFlood zPQ 4 1 .D8 (fun c => [(0 : ℚ), 2, 3, 1].getD c.1.toNat 0)
    (fun c => if c = (0, 0) then some 0 else none) = some s ∧ s.fd (0, 0) = 0 ∧
    pitRow [0, 1, 5, -2] (0, 0) = 0 := by
  refine ⟨_, rfl, by decide +kernel, by decide +kernel⟩

end RichDEM
