/-
Model of `MoveWaterIntoPits` (include/richdem/depressions/fill_spill_merge.hpp:230-327): standing
water runs down the flow directions, saturating the ground on its way, and what reaches a pit is
booked on the pit's depression.
-/
import Verif.Loop
import Verif.DepHier.Flood
import Verif.Flow.Accum
import Verif.Props.Fill

namespace RichDEM

variable {R : Type*} [AddCommGroup R] [LinearOrder R]

/-- The variables of `MoveWaterIntoPits`: `wtd`, `deps[·].water_vol`, `dependencies` and `q`.
Simplification: arithmetic is exact (`wtd_t` is a floating type), `dependencies` is an unbounded
integer (`char`; at most eight). -/
structure PitS (R : Type*) where
  wtd : Cell → R
  water : Nat → R
  dep : Cell → Int
  q : List Cell

/-- fill_spill_merge.hpp:248-260: how many neighbours flow into the cell. -/
def pitDeps (w h : Nat) (fd : Cell → Nat) (c : Cell) : Int :=
  ((dirs .D8).countP (fun n => inGrid w h (nbr .D8 c n) &&
    (fd (nbr .D8 c n) == dinverse .D8 n)) : Nat)

/-- fill_spill_merge.hpp:267-271: the peaks, in index order. -/
def pitStart (q : AnyQ Cell) (w h : Nat) (fd : Cell → Nat) (wtd : Cell → R) (water : Nat → R) :
    PitS R where
  wtd := wtd
  water := water
  dep := pitDeps w h fd
  q := q.pushAll ((allCells w h).filter (fun c => pitDeps w h fd c == 0)) []

/-- fill_spill_merge.hpp:286-296: the address of the downstream neighbour, `NO_FLOW` (0) if there is
none.  Note that 0 is also the address of the first cell of the raster. -/
def pitNext (w : Nat) (fd : Cell → Nat) (c : Cell) : Int :=
  if fd c = 0 then 0 else xyToI w (nbr .D8 c (fd c))

/-- fill_spill_merge.hpp:276-322: one turn of the loop.  `lab` is the label raster (labels of
depressions, 0 the ocean).  Simplification: the downstream neighbour is addressed by coordinates
where its address is not 0 (the two agree, `C01`). -/
def pitStep (q : AnyQ Cell) (w : Nat) (fd : Cell → Nat) (lab : Cell → Nat) (s : PitS R) :
    Option (PitS R) :=
  match q.pop s.q with
  | none => none
  | some (c, rest) =>
    if pitNext w fd c = 0 then                                                     -- :298
      if 0 < s.wtd c then
        some { s with q := rest
                      water := Function.update s.water (lab c) (s.water (lab c) + s.wtd c)
                      wtd := Function.update s.wtd c 0 }
      else some { s with q := rest }
    else
      let n := nbr .D8 c (fd c)
      let wtd := if 0 < s.wtd c then                                                -- :309
          Function.update (Function.update s.wtd n (s.wtd n + s.wtd c)) c 0
        else s.wtd
      let dep := Function.update s.dep n (s.dep n - 1)                              -- :316
      some { s with wtd := wtd, dep := dep, q := if dep n = 0 then q.push n rest else rest }

/-- fill_spill_merge.hpp:230-327: `MoveWaterIntoPits`; `w*h` turns suffice (`C70_loop`).  The code
uses a FIFO queue; any queue is allowed here. -/
def movePits (q : AnyQ Cell) (w h : Nat) (fd : Cell → Nat) (lab : Cell → Nat) (wtd : Cell → R)
    (water : Nat → R) : PitS R :=
  loop (pitStep q w fd lab) (w * h) (pitStart q w h fd wtd water)

/-! ### Invariant -/

/-- Cell `p` flows into cell `x`. -/
def Into (fd : Cell → Nat) (p x : Cell) : Prop := fd p ≠ 0 ∧ nbr .D8 p (fd p) = x

instance (fd : Cell → Nat) (p x : Cell) : Decidable (Into fd p x) := by unfold Into; infer_instance

/-- Cell `p` books its water on its depression: it has no flow direction, or flows to address 0. -/
def Books (fd : Cell → Nat) (p : Cell) : Prop := fd p = 0 ∨ Into fd p (0, 0)

instance (fd : Cell → Nat) (p : Cell) : Decidable (Books fd p) := by unfold Books; infer_instance

/-- Flow directions point to cells of the raster. -/
def FlowsInside (w h : Nat) (fd : Cell → Nat) : Prop :=
  ∀ c, InGrid w h c → fd c = 0 ∨ (fd c ∈ dirs .D8 ∧ InGrid w h (nbr .D8 c (fd c)))

open Finset

/-- Water that the cells `D` send to `x`. -/
def sent (fd : Cell → Nat) (D : Finset Cell) (T : Cell → R) (x : Cell) : R :=
  ∑ p ∈ D.filter (fun p => Into fd p x ∧ x ≠ (0, 0)), max 0 (T p)

structure PitsInv (w h : Nat) (fd : Cell → Nat) (lab : Cell → Nat) (wtd0 : Cell → R) (water0 : Nat → R)
    (g : Finset Cell × (Cell → R)) (s : PitS R) : Prop where
  sub : g.1 ⊆ gridCells w h
  dep : ∀ x, InGrid w h x → s.dep x =
    (((gridCells w h).filter (fun p => Into fd p x ∧ ¬ (p ∈ g.1 ∧ x ≠ (0, 0)))).card : Int)
  qnd : s.q.Nodup
  qok : ∀ c, c ∈ s.q ↔ InGrid w h c ∧ c ∉ g.1 ∧ s.dep c = 0
  dd : ∀ x ∈ g.1, s.dep x = 0
  wu : ∀ x, InGrid w h x → x ∉ g.1 → s.wtd x = wtd0 x + sent fd g.1 g.2 x
  wd : ∀ x ∈ g.1, g.2 x = wtd0 x + sent fd g.1 g.2 x ∧ s.wtd x = min 0 (g.2 x)
  wat : ∀ l, s.water l = water0 l +
    ∑ c ∈ g.1.filter (fun c => Books fd c ∧ lab c = l), max 0 (g.2 c)
  out : ∀ x, ¬ InGrid w h x → s.wtd x = wtd0 x

theorem mem_gridCells {w h : Nat} {c : Cell} : c ∈ gridCells w h ↔ InGrid w h c := by
  rw [← toFinset_allCells, List.mem_toFinset, mem_allCells]

theorem pitNext_zero {w h : Nat} {fd : Cell → Nat} (F : FlowsInside w h fd) {c : Cell}
    (hc : InGrid w h c) : pitNext w fd c = 0 ↔ Books fd c := by
  unfold pitNext Books Into
  by_cases h0 : fd c = 0
  · simp [h0]
  · rw [if_neg h0]
    obtain ⟨_, hin⟩ := (F c hc).resolve_left h0
    simp only [h0, false_or, ne_eq, not_false_eq_true, true_and]
    generalize nbr .D8 c (fd c) = n at hin
    obtain ⟨x, y⟩ := n
    obtain ⟨a1, a2, a3, a4⟩ := hin
    simp only at a1 a2 a3 a4
    simp only [xyToI, Prod.mk.injEq]
    constructor
    · intro e
      have : (0 : Int) ≤ y * w := by positivity
      have hx : x = 0 := by omega
      refine ⟨hx, ?_⟩
      have hw : (0 : Int) < w := by omega
      by_contra hy
      have : (0 : Int) < y * w := by
        apply mul_pos _ hw; omega
      omega
    · rintro ⟨rfl, rfl⟩; simp

theorem nbr_inj {c : Cell} {n m : Nat} (hn : n ∈ dirs .D8) (hm : m ∈ dirs .D8)
    (e : nbr .D8 c n = nbr .D8 c m) : n = m := by
  have hn' := mem_dirs.1 hn
  have hm' := mem_dirs.1 hm
  obtain ⟨x, y⟩ := c
  have i1 : n = 1 ∨ n = 2 ∨ n = 3 ∨ n = 4 ∨ n = 5 ∨ n = 6 ∨ n = 7 ∨ n = 8 := by
    simp only [nmax] at hn'; omega
  have i2 : m = 1 ∨ m = 2 ∨ m = 3 ∨ m = 4 ∨ m = 5 ∨ m = 6 ∨ m = 7 ∨ m = 8 := by
    simp only [nmax] at hm'; omega
  rcases i1 with rfl | rfl | rfl | rfl | rfl | rfl | rfl | rfl <;>
  rcases i2 with rfl | rfl | rfl | rfl | rfl | rfl | rfl | rfl <;>
    first | rfl | (simp [nbr, dx, dy, d8x, d8y] at e)

theorem dinverse_dinverse {t : Topo} {n : Nat} (hn : n ∈ dirs t) : dinverse t (dinverse t n) = n := by
  revert n; cases t <;> decide

theorem pitDeps_eq {w h : Nat} {fd : Cell → Nat} (F : FlowsInside w h fd) (x : Cell) (hx : InGrid w h x) :
    pitDeps w h fd x = (((gridCells w h).filter (fun p => Into fd p x)).card : Int) := by
  unfold pitDeps
  congr 1
  rw [List.countP_eq_length_filter]
  have hnd : (dirs .D8).Nodup := by decide
  rw [← List.toFinset_card_of_nodup (hnd.filter _)]
  apply Finset.card_bij (fun n _ => nbr .D8 x n)
  · intro n hn
    rw [List.mem_toFinset, List.mem_filter, Bool.and_eq_true] at hn
    obtain ⟨h1, h2, h3⟩ := hn
    rw [Finset.mem_filter, mem_gridCells]
    obtain ⟨k1, k2⟩ := nbr_dinverse (c := x) h1
    have h4 : fd (nbr .D8 x n) = dinverse .D8 n := by simpa using h3
    refine ⟨inGrid_iff.1 h2, ?_, ?_⟩
    · rw [h4]; have := mem_dirs.1 k1; omega
    · rw [h4]; exact k2
  · intro a ha b hb e
    rw [List.mem_toFinset, List.mem_filter] at ha hb
    exact nbr_inj ha.1 hb.1 e
  · intro p hp
    rw [Finset.mem_filter, mem_gridCells] at hp
    obtain ⟨hp, h0, h1⟩ := hp
    obtain ⟨hd, _⟩ := (F p hp).resolve_left h0
    obtain ⟨k1, k2⟩ := nbr_dinverse (c := p) hd
    rw [h1] at k2
    refine ⟨dinverse .D8 (fd p), ?_, k2⟩
    rw [List.mem_toFinset, List.mem_filter, Bool.and_eq_true, k2]
    exact ⟨k1, inGrid_iff.2 hp, by simp [dinverse_dinverse hd]⟩

variable {w h : Nat} {fd : Cell → Nat} {lab : Cell → Nat} {wtd0 : Cell → R} {water0 : Nat → R}

theorem pitStart_inv (q : AnyQ Cell) (F : FlowsInside w h fd) :
    PitsInv w h fd lab wtd0 water0 (∅, fun _ => 0) (pitStart q w h fd wtd0 water0) := by
  obtain ⟨n1, n2⟩ := nodup_pushAll_filter q (allCells w h) (nodup_allCells w h)
    (fun c => pitDeps w h fd c == 0)
  refine ⟨by simp, ?_, n1, ?_, by simp, ?_, by simp, ?_, fun _ _ => rfl⟩
  · intro x hx
    simpa [pitStart] using pitDeps_eq F x hx
  · intro c
    refine (n2 c).trans ?_
    rw [mem_allCells]
    simp [pitStart]
  · intro x _ _
    simp [pitStart, sent]
  · intro l; simp [pitStart]

theorem sent_insert_ne {D : Finset Cell} {T : Cell → R} {c x : Cell} (v : R) (hc : c ∉ D)
    (hx : ¬ (Into fd c x ∧ x ≠ (0, 0))) :
    sent fd (insert c D) (Function.update T c v) x = sent fd D T x := by
  unfold sent
  rw [Finset.filter_insert, if_neg hx]
  apply Finset.sum_congr rfl
  intro p hp
  have : p ≠ c := fun e => hc (e ▸ (Finset.mem_filter.1 hp).1)
  rw [Function.update_of_ne this]

theorem sent_insert_eq {D : Finset Cell} {T : Cell → R} {c x : Cell} (v : R) (hc : c ∉ D)
    (hx : Into fd c x ∧ x ≠ (0, 0)) :
    sent fd (insert c D) (Function.update T c v) x = sent fd D T x + max 0 v := by
  unfold sent
  rw [Finset.filter_insert, if_pos hx, Finset.sum_insert (by simp [hc]), Function.update_self, add_comm]
  congr 1
  apply Finset.sum_congr rfl
  intro p hp
  have : p ≠ c := fun e => hc (e ▸ (Finset.mem_filter.1 hp).1)
  rw [Function.update_of_ne this]

theorem min_zero_of_pos {a : R} (ha : 0 < a) : min 0 a = 0 := min_eq_left ha.le
theorem max_zero_of_not_pos {a : R} (ha : ¬ 0 < a) : max 0 a = 0 := max_eq_left (not_lt.1 ha)

theorem pitStep_inv (q : AnyQ Cell) (F : FlowsInside w h fd) (g : Finset Cell × (Cell → R)) (s s' : PitS R)
    (I : PitsInv w h fd lab wtd0 water0 g s) (hs : pitStep q w fd lab s = some s') :
    ∃ c, InGrid w h c ∧ c ∉ g.1 ∧
      PitsInv w h fd lab wtd0 water0 (insert c g.1, Function.update g.2 c (s.wtd c)) s' := by
  obtain ⟨D, T⟩ := g
  unfold pitStep at hs
  rcases hpop : q.pop s.q with _ | ⟨c, rest⟩
  · rw [hpop] at hs; cases hs
  rw [hpop] at hs
  simp only at hs
  obtain ⟨hperm, _⟩ := q.pop_some hpop
  have hqn : (c :: rest).Nodup := hperm.nodup_iff.1 I.qnd
  rw [List.nodup_cons] at hqn
  have hcq : c ∈ s.q := hperm.mem_iff.2 (by simp)
  obtain ⟨hcin, hcD, hc0⟩ := (I.qok c).1 hcq
  simp only at hcD
  have hself : ¬ Into fd c c := by
    rintro ⟨h1, h2⟩
    obtain ⟨hd, _⟩ := (F c hcin).resolve_left h1
    exact nbr_ne hd h2
  refine ⟨c, hcin, hcD, ?_⟩
  -- an undone cell does not flow into a finished one
  have hnd : ∀ x ∈ D, ¬ (Into fd c x ∧ x ≠ (0, 0)) := by
    rintro x hx ⟨h1, h2⟩
    have e := I.dep x (mem_gridCells.1 (I.sub hx))
    rw [I.dd x hx] at e
    have e' := Finset.card_eq_zero.1 (Nat.cast_eq_zero.1 e.symm)
    have : c ∈ (∅ : Finset Cell) := by
      rw [← e']
      exact Finset.mem_filter.2 ⟨mem_gridCells.2 hcin, h1, fun k => hcD k.1⟩
    simp at this
  have hrest : ∀ y, y ∈ rest ↔ InGrid w h y ∧ y ∉ insert c D ∧ s.dep y = 0 := by
    intro y
    have : y ∈ rest ↔ y ∈ s.q ∧ y ≠ c := by
      rw [hperm.mem_iff, List.mem_cons]
      constructor
      · intro hy; exact ⟨Or.inr hy, fun e => hqn.1 (e ▸ hy)⟩
      · rintro ⟨h1 | h1, h2⟩
        · exact absurd h1 h2
        · exact h1
    rw [this, I.qok y, Finset.mem_insert, not_or]
    tauto
  have hTc : wtd0 c + sent fd D T c = s.wtd c := (I.wu c hcin hcD).symm
  have hsc : sent fd (insert c D) (Function.update T c (s.wtd c)) c = sent fd D T c :=
    sent_insert_ne _ hcD (fun k => hself k.1)
  by_cases hb : Books fd c
  · rw [if_pos ((pitNext_zero F hcin).2 hb)] at hs
    have hno : ∀ x, ¬ (Into fd c x ∧ x ≠ (0, 0)) := by
      rintro x ⟨⟨h1, h2⟩, h3⟩
      rcases hb with hb | ⟨_, hb⟩
      · exact h1 hb
      · exact h3 (h2.symm.trans hb)
    have hdep : ∀ x, InGrid w h x → s.dep x = (((gridCells w h).filter
        (fun p => Into fd p x ∧ ¬ (p ∈ insert c D ∧ x ≠ (0, 0)))).card : Int) := by
      intro x hx
      rw [I.dep x hx]
      congr 2
      apply Finset.filter_congr
      intro p _
      refine and_congr_right (fun hp => ?_)
      rw [Finset.mem_insert]
      constructor
      · rintro k ⟨rfl | k1, k2⟩
        · exact hno x ⟨hp, k2⟩
        · exact k ⟨k1, k2⟩
      · rintro k ⟨k1, k2⟩; exact k ⟨Or.inr k1, k2⟩
    have hwd : ∀ x ∈ insert c D, Function.update T c (s.wtd c) x =
        wtd0 x + sent fd (insert c D) (Function.update T c (s.wtd c)) x := by
      intro x hx
      by_cases hxc : x = c
      · subst hxc
        rw [Function.update_self, hsc, hTc]
      · rw [Function.update_of_ne hxc, sent_insert_ne _ hcD (hno x)]
        exact (I.wd x ((Finset.mem_insert.1 hx).resolve_left hxc)).1
    have hwat : ∀ l, (∑ y ∈ (insert c D).filter (fun y => Books fd y ∧ lab y = l),
        max 0 (Function.update T c (s.wtd c) y)) =
        (∑ y ∈ D.filter (fun y => Books fd y ∧ lab y = l), max 0 (T y)) +
          if lab c = l then max 0 (s.wtd c) else 0 := by
      intro l
      have hco : (∑ y ∈ D.filter (fun y => Books fd y ∧ lab y = l),
          max 0 (Function.update T c (s.wtd c) y)) =
          (∑ y ∈ D.filter (fun y => Books fd y ∧ lab y = l), max 0 (T y)) := by
        apply Finset.sum_congr rfl
        intro p hp
        have : p ≠ c := fun e => hcD (e ▸ (Finset.mem_filter.1 hp).1)
        rw [Function.update_of_ne this]
      rw [Finset.filter_insert]
      by_cases hl : lab c = l
      · rw [if_pos ⟨hb, hl⟩, if_pos hl, Finset.sum_insert (by simp [hcD]), Function.update_self, hco,
          add_comm]
      · rw [if_neg (fun k => hl k.2), if_neg hl, hco, add_zero]
    have hdd : ∀ x ∈ insert c D, s.dep x = 0 := by
      intro x hx
      rcases Finset.mem_insert.1 hx with rfl | hx
      · exact hc0
      · exact I.dd x hx
    have hsub : insert c D ⊆ gridCells w h := Finset.insert_subset (mem_gridCells.2 hcin) I.sub
    by_cases hp : 0 < s.wtd c
    · rw [if_pos hp] at hs
      cases hs
      refine ⟨hsub, hdep, hqn.2, hrest, hdd, ?_, ?_, ?_, ?_⟩
      · intro x hx hxD
        rw [Finset.mem_insert, not_or] at hxD
        show Function.update s.wtd c 0 x = _
        rw [Function.update_of_ne hxD.1, sent_insert_ne _ hcD (hno x)]
        exact I.wu x hx hxD.2
      · intro x hx
        refine ⟨hwd x hx, ?_⟩
        show Function.update s.wtd c 0 x = min 0 (Function.update T c (s.wtd c) x)
        by_cases hxc : x = c
        · subst hxc
          rw [Function.update_self, Function.update_self, min_zero_of_pos hp]
        · rw [Function.update_of_ne hxc, Function.update_of_ne hxc]
          exact (I.wd x ((Finset.mem_insert.1 hx).resolve_left hxc)).2
      · intro l
        show Function.update s.water (lab c) _ l = _
        rw [hwat l, ← add_assoc, ← I.wat l]
        by_cases hl : lab c = l
        · subst hl
          rw [Function.update_self, if_pos rfl, max_eq_right hp.le]
        · rw [Function.update_of_ne (Ne.symm hl), if_neg hl, add_zero]
      · intro x hx
        show Function.update s.wtd c 0 x = _
        rw [Function.update_of_ne (show x ≠ c from fun e => hx (e ▸ hcin))]
        exact I.out x hx
    · rw [if_neg hp] at hs
      cases hs
      refine ⟨hsub, hdep, hqn.2, hrest, hdd, ?_, ?_, ?_, I.out⟩
      · intro x hx hxD
        rw [Finset.mem_insert, not_or] at hxD
        rw [sent_insert_ne _ hcD (hno x)]
        exact I.wu x hx hxD.2
      · intro x hx
        refine ⟨hwd x hx, ?_⟩
        show s.wtd x = min 0 (Function.update T c (s.wtd c) x)
        by_cases hxc : x = c
        · subst hxc
          rw [Function.update_self, min_eq_right (not_lt.1 hp)]
        · rw [Function.update_of_ne hxc]
          exact (I.wd x ((Finset.mem_insert.1 hx).resolve_left hxc)).2
      · intro l
        rw [hwat l, ← add_assoc, ← I.wat l, max_zero_of_not_pos hp]
        simp
  · rw [if_neg (fun k => hb ((pitNext_zero F hcin).1 k))] at hs
    have hf : fd c ≠ 0 := fun k => hb (Or.inl k)
    obtain ⟨hdir, hnin⟩ := (F c hcin).resolve_left hf
    set n := nbr .D8 c (fd c) with hn
    have hinto : Into fd c n := ⟨hf, rfl⟩
    have hn0 : n ≠ (0, 0) := fun k => hb (Or.inr ⟨hf, k⟩)
    have hnc : n ≠ c := fun k => hself (k ▸ hinto)
    have hnD : n ∉ D := fun k => hnd n k ⟨hinto, hn0⟩
    have hinto' : ∀ x, Into fd c x → x = n := fun x k => k.2.symm
    have hno : ∀ x, x ≠ n → ¬ (Into fd c x ∧ x ≠ (0, 0)) := fun x hx k => hx (hinto' x k.1)
    have hdep : ∀ x, InGrid w h x → Function.update s.dep n (s.dep n - 1) x = (((gridCells w h).filter
        (fun p => Into fd p x ∧ ¬ (p ∈ insert c D ∧ x ≠ (0, 0)))).card : Int) := by
      intro x hx
      by_cases hxn : x = n
      · subst hxn
        rw [Function.update_self, I.dep _ hx]
        have e : (gridCells w h).filter (fun p => Into fd p n ∧ ¬ (p ∈ D ∧ n ≠ (0, 0))) =
            insert c ((gridCells w h).filter (fun p => Into fd p n ∧ ¬ (p ∈ insert c D ∧ n ≠ (0, 0)))) := by
          ext p
          simp only [Finset.mem_filter, Finset.mem_insert, mem_gridCells]
          constructor
          · rintro ⟨a, b, d⟩
            by_cases hpc : p = c
            · exact Or.inl hpc
            · exact Or.inr ⟨a, b, fun k => d ⟨k.1.resolve_left hpc, k.2⟩⟩
          · rintro (rfl | ⟨a, b, d⟩)
            · exact ⟨hcin, hinto, fun k => hcD k.1⟩
            · exact ⟨a, b, fun k => d ⟨Or.inr k.1, k.2⟩⟩
        rw [e, Finset.card_insert_of_notMem]
        · push_cast; ring
        · simp [hn0]
      · rw [Function.update_of_ne hxn, I.dep x hx]
        congr 2
        apply Finset.filter_congr
        intro p _
        refine and_congr_right (fun hp => ?_)
        rw [Finset.mem_insert]
        constructor
        · rintro k ⟨rfl | k1, k2⟩
          · exact hno x hxn ⟨hp, k2⟩
          · exact k ⟨k1, k2⟩
        · rintro k ⟨k1, k2⟩; exact k ⟨Or.inr k1, k2⟩
    cases hs
    refine ⟨Finset.insert_subset (mem_gridCells.2 hcin) I.sub, hdep, ?_, ?_, ?_, ?_, ?_, ?_, ?_⟩
    · have hnr : n ∉ rest := by
        intro k
        have := ((hrest n).1 k).2.2
        rw [I.dep n hnin] at this
        have e' := Finset.card_eq_zero.1 (Nat.cast_eq_zero.1 this)
        have : c ∈ (∅ : Finset Cell) := by
          rw [← e']
          exact Finset.mem_filter.2 ⟨mem_gridCells.2 hcin, hinto, fun k => hcD k.1⟩
        simp at this
      show (if Function.update s.dep n (s.dep n - 1) n = 0 then q.push n rest else rest).Nodup
      by_cases hz : Function.update s.dep n (s.dep n - 1) n = 0
      · rw [if_pos hz, (q.push_perm n rest).nodup_iff, List.nodup_cons]
        exact ⟨hnr, hqn.2⟩
      · rw [if_neg hz]; exact hqn.2
    · intro y
      show y ∈ (if Function.update s.dep n (s.dep n - 1) n = 0 then q.push n rest else rest) ↔ _ ∧ _ ∧
        Function.update s.dep n (s.dep n - 1) y = 0
      by_cases hyn : y = n
      · subst hyn
        by_cases hz : Function.update s.dep n (s.dep n - 1) n = 0
        · rw [if_pos hz, q.mem_push]
          simp only [true_or, true_iff]
          exact ⟨hnin, by simp [hnc, hnD], hz⟩
        · rw [if_neg hz]
          constructor
          · intro k
            have := ((hrest n).1 k).2.2
            rw [I.dep n hnin] at this
            have e' := Finset.card_eq_zero.1 (Nat.cast_eq_zero.1 this)
            have : c ∈ (∅ : Finset Cell) := by
              rw [← e']
              exact Finset.mem_filter.2 ⟨mem_gridCells.2 hcin, hinto, fun k => hcD k.1⟩
            simp at this
          · rintro ⟨_, _, k⟩; exact absurd k hz
      · rw [Function.update_of_ne hyn, ← hrest y]
        split
        · rw [q.mem_push]; simp [hyn]
        · rfl
    · intro x hx
      show Function.update s.dep n (s.dep n - 1) x = 0
      have hxn : x ≠ n := by
        rcases Finset.mem_insert.1 hx with rfl | hx
        · exact hnc.symm
        · exact fun e => hnD (e ▸ hx)
      rw [Function.update_of_ne hxn]
      rcases Finset.mem_insert.1 hx with rfl | hx
      · exact hc0
      · exact I.dd x hx
    · intro x hx hxD
      rw [Finset.mem_insert, not_or] at hxD
      by_cases hxn : x = n
      · subst hxn
        rw [sent_insert_eq _ hcD ⟨hinto, hn0⟩, ← add_assoc, ← I.wu _ hx hxD.2]
        by_cases hp : 0 < s.wtd c
        · simp only [if_pos hp]
          rw [Function.update_of_ne hxD.1, Function.update_self, max_eq_right hp.le]
        · simp only [if_neg hp]
          rw [max_zero_of_not_pos hp, add_zero]
      · rw [sent_insert_ne _ hcD (hno x hxn), ← I.wu _ hx hxD.2]
        by_cases hp : 0 < s.wtd c
        · simp only [if_pos hp]
          rw [Function.update_of_ne hxD.1, Function.update_of_ne hxn]
        · simp only [if_neg hp]
    · intro x hx
      have hxn : x ≠ n := by
        rcases Finset.mem_insert.1 hx with rfl | hx
        · exact hnc.symm
        · exact fun e => hnD (e ▸ hx)
      simp only
      rw [sent_insert_ne _ hcD (hno x hxn)]
      by_cases hxc : x = c
      · subst hxc
        rw [Function.update_self]
        refine ⟨hTc.symm, ?_⟩
        by_cases hp : 0 < s.wtd x
        · simp only [if_pos hp]
          rw [Function.update_self, min_zero_of_pos hp]
        · simp only [if_neg hp]
          rw [min_eq_right (not_lt.1 hp)]
      · have := I.wd x ((Finset.mem_insert.1 hx).resolve_left hxc)
        rw [Function.update_of_ne hxc]
        refine ⟨this.1, ?_⟩
        rw [← this.2]
        by_cases hp : 0 < s.wtd c
        · simp only [if_pos hp]
          rw [Function.update_of_ne hxc, Function.update_of_ne hxn]
        · simp only [if_neg hp]
    · intro l
      show s.water l = _
      rw [I.wat l, Finset.filter_insert, if_neg (fun k => hb k.1)]
      congr 1
      apply Finset.sum_congr rfl
      intro p hp
      have : p ≠ c := fun e => hcD (e ▸ (Finset.mem_filter.1 hp).1)
      simp only
      rw [Function.update_of_ne this]
    · intro x hx
      have h1 : x ≠ c := fun e => hx (e ▸ hcin)
      have h2 : x ≠ n := fun e => hx (e ▸ hnin)
      rw [← I.out x hx]
      by_cases hp : 0 < s.wtd c
      · simp only [if_pos hp]
        rw [Function.update_of_ne h1, Function.update_of_ne h2]
      · simp only [if_neg hp]

/-- The loop ends within `w*h` turns, in a state with empty queue satisfying the invariant. -/
theorem movePits_final (q : AnyQ Cell) (F : FlowsInside w h fd) :
    ∃ g, PitsInv w h fd lab wtd0 water0 g (movePits q w h fd lab wtd0 water0) ∧
      (movePits q w h fd lab wtd0 water0).q = [] := by
  obtain ⟨g, I, hn⟩ := loop_ghost (step := pitStep q w fd lab)
    (PitsInv w h fd lab wtd0 water0) (fun g => (gridCells w h).card - g.1.card)
    (by
      intro g s s' I hs
      obtain ⟨c, h1, h2, J⟩ := pitStep_inv q F g s s' I hs
      refine ⟨_, J, ?_⟩
      have := Finset.card_le_card J.sub
      simp only at this ⊢
      rw [Finset.card_insert_of_notMem h2] at this ⊢
      omega)
    (w * h) (pitStart q w h fd wtd0 water0) (∅, fun _ => 0) (pitStart_inv q F) (by
      have : (gridCells w h).card ≤ w * h := by
        rw [← toFinset_allCells]
        refine (List.toFinset_card_le _).trans ?_
        rw [length_allCells]
      omega)
  refine ⟨g, I, ?_⟩
  unfold movePits
  revert hn
  unfold pitStep
  split
  · rename_i hp; intro _; exact q.pop_none.1 hp
  · rename_i c rest hp
    intro hn
    split at hn
    · split at hn <;> cases hn
    · cases hn

/-- The label of a cell as `deps[label(c)]` reads it (fill_spill_merge.hpp:272). -/
def labelOf (label : Cell → Option Nat) (c : Cell) : Nat := (label c).getD 0

end RichDEM
