/-
Property theorems C19 (second part: dinf_flowdirs.hpp, dinf_methods.hpp) and C58
(dinf_upslope_area).
-/
import Verif.Flow.DinfDirs
import Verif.Props.Tarboton

namespace RichDEM

open Real Relation Finset

/-! ### Specification -/

section
variable {K : Type*} [Field K] [LinearOrder K] [IsStrictOrderedRing K] [FloorRing K]

/-- The share of a cell's flow that `dinf_upslope_area` sends to octant `k` (0 = E, 1 = NE, ...,
7 = SE) when its angle is `f` eighths of a turn.  Between octants `i` and `i+1`, at fraction `t`
from `i`, octant `i` receives `t` and octant `i+1` receives `1-t`. -/
def dinfShare (f : K) (k : Nat) : K :=
  if Int.fract f < 1 / 1000000 then (if ⌊f⌋ % 8 = (k : Int) then 1 else 0)
  else if ⌊f⌋ = (k : Int) then Int.fract f
  else if (⌊f⌋ + 1) % 8 = (k : Int) then 1 - Int.fract f
  else 0

/-- The D8 direction of octant `k`. -/
def octDir (k : Nat) : Nat := ([5, 4, 3, 2, 1, 8, 7, 6] : List Nat).getD k 0

/-- Data cell `p`, whose angle is not 0, sends something to the neighbouring data cell `c`. -/
def DinfEdge (w h : Nat) (fd : Cell → K) (nd : K) (p c : Cell) : Prop :=
  (InGrid w h p ∧ fd p ≠ nd) ∧ (InGrid w h c ∧ fd c ≠ nd) ∧ fd p ≠ 0 ∧
    ∃ k ∈ List.range 8, dinfShare (fd p) k ≠ 0 ∧ nbr .D8 p (octDir k) = c

/-- What arrives at `c` if the areas are `area`. -/
def dinfInflow (w h : Nat) (fd : Cell → K) (nd : K) (area : Cell → K) (c : Cell) : K :=
  ((allCells w h).map (fun p => ((List.range 8).map (fun k =>
    if fd p ≠ nd ∧ fd p ≠ 0 ∧ nbr .D8 p (octDir k) = c then dinfShare (fd p) k * area p else 0)).sum)).sum

/-! ### C19: shares -/

/-- C19: the two shares of `area_proportion` are in [0,1] and sum to one. -/
theorem C19_proportions (f : K) (h0 : 0 ≤ f) (h8 : f ≤ 8) :
    0 ≤ (areaProportion f (whereFlow f).1 (whereFlow f).2).1 ∧
    0 ≤ (areaProportion f (whereFlow f).1 (whereFlow f).2).2 ∧
    (areaProportion f (whereFlow f).1 (whereFlow f).2).1 +
      (areaProportion f (whereFlow f).1 (whereFlow f).2).2 = 1 := by
  unfold areaProportion
  rcases whereFlow_spec h0 h8 with ⟨_, e, _, _⟩ | ⟨hf, e, h1, _⟩
  · rw [e]; simp
  · rw [e]
    have hn : ⌊f⌋ ≠ -1 := by omega
    have hlt := Int.fract_lt_one f
    have h0' := Int.fract_nonneg f
    have hff : f = ⌊f⌋ + Int.fract f := (Int.floor_add_fract f).symm
    simp only [if_neg hn]
    refine ⟨?_, ?_, by ring⟩
    · push_cast; rw [Int.fract] at hlt; linarith
    · push_cast; rw [Int.fract] at h0'; linarith

/-- C19 fails here too: at fraction `t` of the way from octant `i` to octant `i+1`, octant `i+1`
receives `1 - t` and octant `i` receives `t` (Tarboton 1997: the other way round). -/
theorem C19_proportions_reversed (f : K) (h0 : 0 ≤ f) (h8 : f ≤ 8) (hf : 1 / 1000000 ≤ Int.fract f) :
    (whereFlow f).1 = ⌊f⌋ + 1 ∧ (whereFlow f).2 = ⌊f⌋ ∧
    (areaProportion f (whereFlow f).1 (whereFlow f).2).1 = 1 - Int.fract f ∧
    (areaProportion f (whereFlow f).1 (whereFlow f).2).2 = Int.fract f := by
  unfold areaProportion
  rcases whereFlow_spec h0 h8 with ⟨hf', _⟩ | ⟨_, e, h1, _⟩
  · exact absurd hf (not_le.2 hf')
  · rw [e]
    have hn : ⌊f⌋ ≠ -1 := by omega
    simp only [if_neg hn, true_and]
    rw [Int.fract]
    constructor <;> (push_cast; ring)

example : ∃ f : ℚ, 0 ≤ f ∧ f ≤ 8 ∧ 1 / 1000000 ≤ Int.fract f := ⟨3 / 4, by decide +kernel⟩

/-! ### C58 -/

theorem octDir_nbr (c : Cell) : ∀ k : Nat, k < 9 → dinfNbr c (k : Int) = nbr .D8 c (octDir (k % 8)) := by
  have key : ∀ k < 9, (([1, 1, 0, -1, -1, -1, 0, 1, 1] : List Int).getD ((k : Nat) : Int).toNat 0,
      ([0, -1, -1, -1, 0, 1, 1, 1, 0] : List Int).getD ((k : Nat) : Int).toNat 0) =
      (dx .D8 (octDir (k % 8)), dy .D8 (octDir (k % 8))) := by decide
  intro k hk
  have := key k hk
  have h1 := congrArg Prod.fst this
  have h2 := congrArg Prod.snd this
  simp only at h1 h2
  unfold dinfNbr nbr
  rw [h1, h2]

theorem octDir_inj (c : Cell) : ∀ k < 8, ∀ l < 8, nbr .D8 c (octDir k) = nbr .D8 c (octDir l) → k = l := by
  have key : ∀ k < 8, ∀ l < 8, (dx .D8 (octDir k), dy .D8 (octDir k)) =
      (dx .D8 (octDir l), dy .D8 (octDir l)) → k = l := by decide
  intro k hk l hl e
  apply key k hk l hl
  unfold nbr at e
  have h1 := congrArg Prod.fst e
  have h2 := congrArg Prod.snd e
  simp only at h1 h2
  exact Prod.ext (by simp only; omega) (by simp only; omega)

theorem dinfOk_iff {w h : Nat} {fd : Cell → K} {nd : K} {c : Cell} :
    dinfOk w h fd nd c = true ↔ InGrid w h c ∧ fd c ≠ nd := by
  unfold dinfOk; rw [Bool.and_eq_true, inGrid_iff]; simp

theorem sum_range8_single (g : Nat → K) (m : Nat) (hm : m < 8) (hg : ∀ k < 8, k ≠ m → g k = 0) :
    ((List.range 8).map g).sum = g m := by
  rw [sum_toFinset' _ List.nodup_range]
  rw [Finset.sum_eq_single m]
  · intro k hk hne; exact hg k (by simpa using hk) hne
  · intro hn; exact absurd (by simpa using hm) hn

/-- Weight and count of the edges of a data cell in terms of the shares. -/
theorem dinfOut_spec {w h : Nat} {fd : Cell → K} {nd : K} (hr : AngleRange w h fd nd) {p c : Cell}
    (hp : InGrid w h p ∧ fd p ≠ nd) (hc : InGrid w h c ∧ fd c ≠ nd) :
    wt (dinfOut w h fd nd) p c = ((List.range 8).map (fun k =>
      if fd p ≠ 0 ∧ nbr .D8 p (octDir k) = c then dinfShare (fd p) k else 0)).sum ∧
    (0 < cnt (dinfOut w h fd nd) p c ↔ fd p ≠ 0 ∧
      ∃ k ∈ List.range 8, dinfShare (fd p) k ≠ 0 ∧ nbr .D8 p (octDir k) = c) := by
  by_cases hz : fd p = 0
  · simp [hz, wt, cnt, dinfOut]
  obtain ⟨h0, h8⟩ := hr p hp.1 hp.2
  obtain ⟨f1, f2⟩ := dinfNbr_facts h0 h8 p
  by_cases hnb : ∃ m < 8, nbr .D8 p (octDir m) = c
  · obtain ⟨m, hm, rfl⟩ := hnb
    have hsum : ((List.range 8).map (fun k =>
        if fd p ≠ 0 ∧ nbr .D8 p (octDir k) = nbr .D8 p (octDir m) then dinfShare (fd p) k else 0)).sum
        = dinfShare (fd p) m := by
      rw [sum_range8_single _ m hm]
      · rw [if_pos ⟨hz, rfl⟩]
      · intro k hk hne
        rw [if_neg]
        intro hh; exact hne (octDir_inj p k hk m hm hh.2)
    have hex : (∃ k ∈ List.range 8, dinfShare (fd p) k ≠ 0 ∧
        nbr .D8 p (octDir k) = nbr .D8 p (octDir m)) ↔ dinfShare (fd p) m ≠ 0 := by
      constructor
      · rintro ⟨k, hk, h1, h2⟩
        rw [← octDir_inj p k (by simpa using hk) m hm h2]; exact h1
      · intro hh; exact ⟨m, by simpa using hm, hh, rfl⟩
    rw [hsum, hex]
    simp only [ne_eq, hz, not_false_eq_true, true_and]
    unfold wt cnt dinfOut
    rw [if_neg hz]
    rcases whereFlow_spec h0 h8 with ⟨hf, e, hl, hl8⟩ | ⟨hf, e, hl, hl8⟩
    · -- one receiver
      obtain ⟨i, hi⟩ := Int.eq_ofNat_of_zero_le hl
      have hsh : dinfShare (fd p) m = if i % 8 = m then 1 else 0 := by
        unfold dinfShare
        rw [if_pos hf, hi]
        by_cases hh : i % 8 = m
        · rw [if_pos hh, if_pos (by omega)]
        · rw [if_neg hh, if_neg (by omega)]
      rw [hsh, e]
      simp only [ne_eq, not_true, false_and, if_false, List.nil_append, areaProportion, if_true]
      rw [hi, octDir_nbr p i (by omega)]
      by_cases hh : i % 8 = m
      · rw [hh, if_pos (dinfOk_iff.2 hc)]; simp
      · have hne : nbr .D8 p (octDir (i % 8)) ≠ nbr .D8 p (octDir m) := by
          intro e; exact hh (octDir_inj p _ (by omega) m hm e)
        split <;> simp [hh, hne]
    · -- two receivers
      obtain ⟨i, hi⟩ := Int.eq_ofNat_of_zero_le hl
      have hi8 : i < 8 := by omega
      have hpos : 0 < Int.fract (fd p) := lt_of_lt_of_le (by norm_num) hf
      have hlt : 0 < 1 - Int.fract (fd p) := sub_pos.2 (Int.fract_lt_one _)
      have hff : Int.fract (fd p) = fd p - ((i : Nat) : K) := by
        rw [Int.fract, hi]; push_cast; ring
      have hsh : dinfShare (fd p) m = if i = m then Int.fract (fd p)
          else if (i + 1) % 8 = m then 1 - Int.fract (fd p) else 0 := by
        unfold dinfShare
        rw [if_neg (not_lt.2 hf), hi]
        by_cases hh : i = m
        · rw [if_pos hh, if_pos (by omega)]
        · rw [if_neg hh, if_neg (by omega)]
          by_cases h2 : (i + 1) % 8 = m
          · rw [if_pos h2, if_pos (by omega)]
          · rw [if_neg h2, if_neg (by omega)]
      have n1 : dinfNbr p (⌊fd p⌋) = nbr .D8 p (octDir i) := by
        rw [hi, octDir_nbr p i (by omega), Nat.mod_eq_of_lt hi8]
      have n2 : dinfNbr p (⌊fd p⌋ + 1) = nbr .D8 p (octDir ((i + 1) % 8)) := by
        have := octDir_nbr p (i + 1) (by omega)
        rw [hi]; push_cast at this ⊢; exact this
      have hne1 : ⌊fd p⌋ ≠ -1 := by omega
      have p1 : 1 - (((⌊fd p⌋ + 1 : Int) : K) - fd p) = Int.fract (fd p) := by
        rw [Int.fract]; push_cast; ring
      have p2 : ((⌊fd p⌋ + 1 : Int) : K) - fd p = 1 - Int.fract (fd p) := by
        rw [Int.fract]; push_cast; ring
      rw [hsh, e]
      simp only [areaProportion, if_neg hne1, n1, n2, p1, ne_eq, hne1, not_false_eq_true, true_and, if_false]
      rw [p2]
      by_cases e1 : i = m
      · have e2 : (i + 1) % 8 ≠ m := by omega
        have hne : nbr .D8 p (octDir ((i + 1) % 8)) ≠ nbr .D8 p (octDir m) := by
          intro e; exact e2 (octDir_inj p _ (by omega) m hm e)
        rw [e1] at *
        rw [if_pos (dinfOk_iff.2 hc)]
        by_cases hb : dinfOk w h fd nd (nbr .D8 p (octDir ((m + 1) % 8))) = true
        · rw [if_pos hb]; simp [hne, hpos.ne']
        · rw [if_neg hb]; simp [hpos.ne']
      · have hne : nbr .D8 p (octDir i) ≠ nbr .D8 p (octDir m) := by
          intro e; exact e1 (octDir_inj p _ (by omega) m hm e)
        by_cases e2 : (i + 1) % 8 = m
        · rw [e2, if_pos (dinfOk_iff.2 hc)]
          by_cases hb : dinfOk w h fd nd (nbr .D8 p (octDir i)) = true
          · rw [if_pos hb]; simp [hne, e1, hlt.ne']
          · rw [if_neg hb]; simp [e1, hlt.ne']
        · have hne2 : nbr .D8 p (octDir ((i + 1) % 8)) ≠ nbr .D8 p (octDir m) := by
            intro e; exact e2 (octDir_inj p _ (by omega) m hm e)
          by_cases hb : dinfOk w h fd nd (nbr .D8 p (octDir i)) = true <;>
          by_cases hb' : dinfOk w h fd nd (nbr .D8 p (octDir ((i + 1) % 8))) = true <;>
          simp [hb, hb', hne, hne2, e1, e2]
  · -- not a neighbour
    push Not at hnb
    have hsum : ((List.range 8).map (fun k =>
        if fd p ≠ 0 ∧ nbr .D8 p (octDir k) = c then dinfShare (fd p) k else 0)).sum = 0 := by
      apply List.sum_eq_zero
      intro x hx
      rw [List.mem_map] at hx
      obtain ⟨k, hk, rfl⟩ := hx
      rw [if_neg]
      intro hh; exact hnb k (by simpa using hk) hh.2
    have hall : ∀ e ∈ dinfOut w h fd nd p, e.1 ≠ c := by
      have hn : ∀ n : Int, 0 ≤ n → n ≤ 8 → dinfNbr p n ≠ c := by
        intro n hn0 hn8
        obtain ⟨i, rfl⟩ := Int.eq_ofNat_of_zero_le hn0
        have := octDir_nbr p i (by omega)
        rw [this]
        exact hnb _ (Nat.mod_lt _ (by omega))
      intro e he
      unfold dinfOut at he
      rw [if_neg hz, List.mem_append] at he
      rcases whereFlow_spec h0 h8 with ⟨_, e', hl, hl8⟩ | ⟨_, e', hl, hl8⟩
      · rw [e'] at he
        rcases he with he | he
        · simp at he
        · split at he
          · rw [List.mem_singleton] at he; rw [he]; exact hn _ hl hl8
          · simp at he
      · rw [e'] at he
        rcases he with he | he
        · split at he
          · rw [List.mem_singleton] at he; rw [he]; exact hn _ hl (by omega)
          · simp at he
        · split at he
          · rw [List.mem_singleton] at he; rw [he]; exact hn _ (by omega) (by omega)
          · simp at he
    have hc0 : cnt (dinfOut w h fd nd) p c = 0 := by
      unfold cnt; rw [List.countP_eq_zero]; intro e he; simpa using hall e he
    rw [hsum, wt_eq_zero hc0, hc0]
    refine ⟨rfl, ⟨fun hh => absurd hh (lt_irrefl _), ?_⟩⟩
    rintro ⟨_, k, hk, _, hh⟩
    exact absurd hh (hnb k (by simpa using hk))

theorem dinfEdge_iff {w h : Nat} {fd : Cell → K} {nd : K} (hr : AngleRange w h fd nd) {p c : Cell}
    (hc : c ∈ dinfVerts w h fd nd) :
    (p ∈ dinfVerts w h fd nd ∧ 0 < cnt (dinfOut w h fd nd) p c) ↔ DinfEdge w h fd nd p c := by
  have hc' := mem_dinfVerts.1 hc
  unfold DinfEdge
  constructor
  · rintro ⟨h1, h2⟩
    have hp := mem_dinfVerts.1 h1
    exact ⟨⟨hp.1, hp.2.1⟩, ⟨hc'.1, hc'.2.1⟩,
      (dinfOut_spec hr ⟨hp.1, hp.2.1⟩ ⟨hc'.1, hc'.2.1⟩).2.1 h2⟩
  · rintro ⟨h1, h2, h3⟩
    exact ⟨mem_dinfVerts.2 ⟨h1.1, h1.2, fun hh => h3.1 hh.1⟩, (dinfOut_spec hr h1 h2).2.2 h3⟩

/-- The cells that take part, in terms of the specification. -/
theorem mem_dinfVerts_iff {w h : Nat} {fd : Cell → K} {nd : K} (hr : AngleRange w h fd nd) {c : Cell} :
    c ∈ dinfVerts w h fd nd ↔ (InGrid w h c ∧ fd c ≠ nd) ∧
      (fd c ≠ 0 ∨ ∃ p, DinfEdge w h fd nd p c) := by
  constructor
  · intro hc
    have h1 := mem_dinfVerts.1 hc
    refine ⟨⟨h1.1, h1.2.1⟩, ?_⟩
    by_cases hz : fd c = 0
    · right
      have h2 : dinfDeps w h fd nd c ≠ 0 := fun hh => h1.2.2 ⟨hz, hh⟩
      rw [dinfDeps_eq] at h2
      obtain ⟨p, hp, hne⟩ := Finset.exists_ne_zero_of_sum_ne_zero h2
      exact ⟨p, (dinfEdge_iff hr hc).1 ⟨hp, by omega⟩⟩
    · exact .inl hz
  · rintro ⟨h1, h2⟩
    refine mem_dinfVerts.2 ⟨h1.1, h1.2, ?_⟩
    rintro ⟨hz, hd⟩
    rcases h2 with h2 | ⟨p, hp⟩
    · exact h2 hz
    · have hpv : p ∈ dinfVerts w h fd nd :=
        mem_dinfVerts.2 ⟨hp.1.1, hp.1.2, fun hh => hp.2.2.1 hh.1⟩
      have hpos := (dinfOut_spec hr hp.1 h1).2.2 hp.2.2
      rw [dinfDeps_eq] at hd
      have := (Finset.sum_eq_zero_iff_of_nonneg (by intro i _; exact Int.natCast_nonneg _)).1 hd p hpv
      omega

theorem dinfAcc_iff {w h : Nat} {fd : Cell → K} {nd : K} (hr : AngleRange w h fd nd) {c : Cell}
    (hc : c ∈ dinfVerts w h fd nd) :
    Acc (fun p c => p ∈ dinfVerts w h fd nd ∧ 0 < cnt (dinfOut w h fd nd) p c) c ↔
      NoCycleAbove (DinfEdge w h fd nd) c := by
  have hev : ∀ a b, DinfEdge w h fd nd a b → a ∈ dinfVerts w h fd nd := fun a b hab =>
    (mem_dinfVerts_iff hr).2 ⟨hab.1, .inl hab.2.2.1⟩
  rw [NoCycleAbove, ← acc_iff_no_cycle (dinfVerts w h fd nd) (DinfEdge w h fd nd) hev hc]
  constructor
  · intro hA
    induction hA with
    | intro c _ ih =>
      refine Acc.intro _ (fun p hp => ih p ((dinfEdge_iff hr hc).2 hp) (hev _ _ hp))
  · intro hA
    induction hA with
    | intro c _ ih =>
      refine Acc.intro _ (fun p hp => ?_)
      have := (dinfEdge_iff hr hc).1 hp
      exact ih p this (hev _ _ this)

/-- C58: the main loop stops with an empty queue within `w*h` iterations. -/
theorem C58_terminates (q : AnyQ Cell) (w h : Nat) (fd : Cell → K) (nd : K)
    (hr : AngleRange w h fd nd) : (dinfLoop q w h fd nd).q = [] := (dinf_final q hr).1

/-- C58: NoData cells get area -1. -/
theorem C58_noData (q : AnyQ Cell) (w h : Nat) (fd : Cell → K) (nd : K)
    (hr : AngleRange w h fd nd) (c : Cell) (hc : fd c = nd) : dinfUpslopeArea q w h fd nd c = -1 :=
  (dinf_final q hr).2.2.2.1 c hc

/-- C58, in part: a data cell that has a non-zero angle, or receives flow, and is not on or below
a cycle, has area one plus the shares of the areas of the cells that flow into it.  What is missing
are the cells of angle 0 (due east, indistinguishable from NO_FLOW) that receive nothing: see
`C58_zero_dropped`. -/
theorem C58_upstream_sum_partial (q : AnyQ Cell) (w h : Nat) (fd : Cell → K) (nd : K)
    (hr : AngleRange w h fd nd) (c : Cell) (hc : InGrid w h c) (hd : fd c ≠ nd)
    (hrec : fd c ≠ 0 ∨ ∃ p, DinfEdge w h fd nd p c) (hac : NoCycleAbove (DinfEdge w h fd nd) c) :
    dinfUpslopeArea q w h fd nd c =
      1 + dinfInflow w h fd nd (dinfUpslopeArea q w h fd nd) c := by
  obtain ⟨_, _, _, _, done, h3, h4, h5⟩ := dinf_final q hr
  have hv : c ∈ dinfVerts w h fd nd := (mem_dinfVerts_iff hr).2 ⟨⟨hc, hd⟩, hrec⟩
  have hcd : c ∈ done := (h4 c hv).2 ((dinfAcc_iff hr hv).2 hac)
  have := h5 c hcd
  unfold dinfUpslopeArea
  rw [this]
  congr 1
  unfold dinfInflow
  rw [sum_toFinset' _ (nodup_allCells w h)]
  rw [dinfVerts, Finset.sum_filter]
  apply Finset.sum_congr rfl
  intro p hp
  have hpg : InGrid w h p := by simpa [mem_allCells] using hp
  by_cases h1 : fd p = nd
  · rw [if_neg (fun hh => hh.1 h1)]
    simp [h1]
  · have hspec := (dinfOut_spec hr ⟨hpg, h1⟩ ⟨hc, hd⟩).1
    by_cases hz : fd p = 0
    · have hw : wt (dinfOut w h fd nd) p c = 0 := by rw [hspec]; simp [hz]
      simp [hz, hw]
    · rw [if_pos ⟨h1, fun hh => hz hh.1⟩, hspec, ← List.sum_map_mul_right]
      congr 1
      apply List.map_congr_left
      intro k _
      by_cases hk : nbr .D8 p (octDir k) = c
      · simp [h1, hz, hk]
      · simp [hk]

/-- C58 fails for cells of angle 0 (due east) that receive nothing: their own area is lost. -/
theorem C58_zero_dropped (q : AnyQ Cell) (w h : Nat) (fd : Cell → K) (nd : K)
    (hr : AngleRange w h fd nd) (c : Cell) (hc : InGrid w h c) (hd : fd c ≠ nd) (hz : fd c = 0)
    (hno : ∀ p, ¬ DinfEdge w h fd nd p c) : dinfUpslopeArea q w h fd nd c = 0 := by
  refine (dinf_final q hr).2.2.1 c hc hd ?_
  rw [mem_dinfVerts_iff hr]
  rintro ⟨_, h | ⟨p, hp⟩⟩
  · exact h hz
  · exact hno p hp

/-- C58: the result does not depend on the order in which the queue serves cells. -/
theorem C58_order_independent (q q' : AnyQ Cell) (w h : Nat) (fd : Cell → K) (nd : K)
    (hr : AngleRange w h fd nd) (hac : ∀ c, ¬ TransGen (DinfEdge w h fd nd) c c) (c : Cell)
    (hc : InGrid w h c) :
    dinfUpslopeArea q w h fd nd c = dinfUpslopeArea q' w h fd nd c := by
  obtain ⟨_, _, z1, z2, D, h3, h4, h5⟩ := dinf_final q hr
  obtain ⟨_, _, z1', z2', D', h3', h4', h5'⟩ := dinf_final q' hr
  unfold dinfUpslopeArea
  by_cases hd : fd c = nd
  · rw [z2 c hd, z2' c hd]
  by_cases hv : c ∈ dinfVerts w h fd nd
  · have hA := (dinfAcc_iff hr hv).2 (fun a _ => hac a)
    revert hv
    clear hd hc
    induction hA with
    | intro c hA ih =>
      intro hv
      have hA' : Acc (fun p c => p ∈ dinfVerts w h fd nd ∧ 0 < cnt (dinfOut w h fd nd) p c) c :=
        Acc.intro c hA
      rw [h5 c ((h4 c hv).2 hA'), h5' c ((h4' c hv).2 hA')]
      congr 1
      apply Finset.sum_congr rfl
      intro p hp
      by_cases h0 : cnt (dinfOut w h fd nd) p c = 0
      · rw [wt_eq_zero h0]; simp
      · rw [ih p ⟨hp, Nat.pos_of_ne_zero h0⟩ hp]
  · rw [z1 c hc hd hv, z1' c hc hd hv]

end

/-! ### Directions computed from a DEM -/

theorem dinfRS_spec (e0 e1 e2 : ℝ) (hs : 0 < (dinfRS e0 e1 e2).2) :
    ((dinfRS e0 e1 e2).1 = 0 ∧ e1 < e0) ∨ ((dinfRS e0 e1 e2).1 = π / 4 ∧ e2 < e0) ∨
    (0 < (dinfRS e0 e1 e2).1 ∧ (dinfRS e0 e1 e2).1 < π / 4 ∧ e1 < e0 ∧ e2 < e0) := by
  have hpi := pi_big
  unfold dinfRS at *
  simp only at *
  by_cases h1 : atan2 (e1 - e2) (e0 - e1) < 0
  · rw [if_pos h1] at hs ⊢; left; exact ⟨rfl, by linarith⟩
  · rw [if_neg h1] at hs ⊢
    by_cases h2 : π / 4 < atan2 (e1 - e2) (e0 - e1)
    · rw [if_pos h2] at hs ⊢
      right; left
      refine ⟨rfl, ?_⟩
      have hsq : 0 < Real.sqrt 2 := by positivity
      have := (div_pos_iff_of_pos_right hsq).1 hs
      linarith
    · rw [if_neg h2] at hs ⊢
      rcases (not_lt.1 h1).lt_or_eq with ha | ha
      · have hq := atan2_quadrant ha (by have := not_lt.1 h2; linarith)
        rcases (not_lt.1 h2).lt_or_eq with hb | hb
        · right; right; exact ⟨ha, hb, by linarith, by linarith⟩
        · right; left; exact ⟨hb, by linarith⟩
      · left
        refine ⟨ha.symm, ?_⟩
        have h3 : 0 ≤ e0 - e1 ∧ e1 - e2 = 0 := Complex.arg_eq_zero_iff.1 ha.symm
        simp only at hs
        have h4 := Real.sqrt_pos.1 hs
        rw [h3.2] at h4
        rcases h3.1.lt_or_eq with h5 | h5
        · linarith
        · rw [← h5] at h4; norm_num at h4

theorem dinfBest_spec (dem : Cell → ℝ) (c : Cell) :
    (dinfBest dem c).n = none ∨ ∃ n < 8, (dinfBest dem c).n = some n ∧ 0 < (dinfBest dem c).s ∧
      ((dinfBest dem c).r, (dinfBest dem c).s) =
        dinfRS (dem c) (dem (dinfE1 c n)) (dem (dinfE2 c n)) := by
  unfold dinfBest
  have h := foldl_inv' (f := dinfFacetStep dem c) (P := fun b => 0 ≤ b.s ∧ (b.n = none ∨ ∃ n < 8, b.n = some n ∧ 0 < b.s ∧
    (b.r, b.s) = dinfRS (dem c) (dem (dinfE1 c n)) (dem (dinfE2 c n)))) (List.range 8)
    { n := none, s := 0, r := 0 } ?_ ⟨le_refl _, .inl rfl⟩
  · exact h.2
  · intro b n hn hb
    unfold dinfFacetStep
    simp only
    split
    · rename_i hlt
      have : 0 < (dinfRS (dem c) (dem (dinfE1 c n)) (dem (dinfE2 c n))).2 := lt_of_le_of_lt hb.1 hlt
      exact ⟨this.le, .inr ⟨n, by simpa using hn, rfl, this, rfl⟩⟩
    · exact hb

section
variable (w h : Nat) (dem : Cell → ℝ) (nd : ℝ)

/-- The angle of a cell: an outward octant (edge cells), 0 (no lower facet), or within a facet
whose receiving corners are lower. -/
theorem dinf_angle (p : Cell) (hp : InGrid w h p) :
    (OnEdge w h p ∧ ∃ k < 8, dinfFlowDir w h dem p / (π / 4) = ((k : Nat) : ℝ) ∧
      ¬ InGrid w h (nbr .D8 p (octDir k))) ∨
    (¬ OnEdge w h p ∧ dinfFlowDir w h dem p = 0) ∨
    (¬ OnEdge w h p ∧ ∃ n < 8, ∃ t : ℝ, dinfFlowDir w h dem p / (π / 4) =
      2 * (dinfAc n : ℝ) + (dinfAf n : ℝ) * t ∧
      ((t = 0 ∧ dem (dinfE1 p n) < dem p) ∨ (t = 1 ∧ dem (dinfE2 p n) < dem p) ∨
       (0 < t ∧ t < 1 ∧ dem (dinfE1 p n) < dem p ∧ dem (dinfE2 p n) < dem p))) := by
  have hpi := pi_big
  by_cases he : OnEdge w h p
  · left
    refine ⟨he, ?_⟩
    have hce : isEdgeCell w h p = true := (isEdgeCell_iff hp).2 he
    unfold dinfFlowDir
    rw [if_pos hce]
    obtain ⟨x, y⟩ := p
    obtain ⟨a1, a2, a3, a4⟩ := hp
    have he2 := he.2
    simp only at *
    have out : ∀ k, ¬ InGrid w h (nbr .D8 (x, y) (octDir k)) ↔
        ¬ (0 ≤ x + dx .D8 (octDir k) ∧ x + dx .D8 (octDir k) < w ∧
          0 ≤ y + dy .D8 (octDir k) ∧ y + dy .D8 (octDir k) < h) := by
      intro k; rfl
    have v : ∀ k : ℝ, k * π / 4 / (π / 4) = k := by intro k; field_simp
    split
    · rename_i hh; exact ⟨3, by omega, by rw [v]; norm_num, by
        rw [out, show dx .D8 (octDir 3) = -1 from rfl, show dy .D8 (octDir 3) = -1 from rfl]; omega⟩
    split
    · rename_i hh; exact ⟨5, by omega, by rw [v]; norm_num, by
        rw [out, show dx .D8 (octDir 5) = -1 from rfl, show dy .D8 (octDir 5) = 1 from rfl]; omega⟩
    split
    · rename_i hh; exact ⟨1, by omega, by rw [v]; norm_num, by
        rw [out, show dx .D8 (octDir 1) = 1 from rfl, show dy .D8 (octDir 1) = -1 from rfl]; omega⟩
    split
    · rename_i hh; exact ⟨7, by omega, by rw [v]; norm_num, by
        rw [out, show dx .D8 (octDir 7) = 1 from rfl, show dy .D8 (octDir 7) = 1 from rfl]; omega⟩
    split
    · rename_i hh; exact ⟨4, by omega, by rw [v]; norm_num, by
        rw [out, show dx .D8 (octDir 4) = -1 from rfl, show dy .D8 (octDir 4) = 0 from rfl]; omega⟩
    split
    · rename_i hh; exact ⟨0, by omega, by rw [v]; norm_num, by
        rw [out, show dx .D8 (octDir 0) = 1 from rfl, show dy .D8 (octDir 0) = 0 from rfl]; omega⟩
    split
    · rename_i hh; exact ⟨2, by omega, by rw [v]; norm_num, by
        rw [out, show dx .D8 (octDir 2) = 0 from rfl, show dy .D8 (octDir 2) = -1 from rfl]; omega⟩
    · rename_i q1 q2 q3 q4 q5 q6 q7
      exact ⟨6, by omega, by rw [v]; norm_num, by
        rw [out, show dx .D8 (octDir 6) = 0 from rfl, show dy .D8 (octDir 6) = 1 from rfl]; omega⟩
  · right
    have hce : ¬ isEdgeCell w h p = true := fun hh => he ((isEdgeCell_iff hp).1 hh)
    unfold dinfFlowDir
    rw [if_neg hce]
    rcases dinfBest_spec dem p with hn | ⟨n, hn8, hn, hs, hrs⟩
    · left; rw [hn]; exact ⟨he, rfl⟩
    · right
      rw [hn]
      refine ⟨he, n, hn8, (dinfBest dem p).r / (π / 4), ?_, ?_⟩
      · simp only; field_simp; ring
      · have hr : (dinfBest dem p).r = (dinfRS (dem p) (dem (dinfE1 p n)) (dem (dinfE2 p n))).1 := by
          rw [← hrs]
        have hs' : (dinfBest dem p).s = (dinfRS (dem p) (dem (dinfE1 p n)) (dem (dinfE2 p n))).2 := by
          rw [← hrs]
        rw [hs'] at hs
        have hp4 : (0 : ℝ) < π / 4 := by linarith
        rcases dinfRS_spec _ _ _ hs with ⟨h1, h2⟩ | ⟨h1, h2⟩ | ⟨h1, h2, h3, h4⟩
        · left; rw [hr, h1]; exact ⟨by simp, h2⟩
        · right; left; rw [hr, h1]; exact ⟨div_self hp4.ne', h2⟩
        · right; right; rw [hr]
          exact ⟨div_pos h1 hp4, by rw [div_lt_one hp4]; exact h2, h3, h4⟩

theorem dinf_facet_consts : ∀ n < 8, 0 ≤ 2 * dinfAc n ∧ 2 * dinfAc n ≤ 8 ∧
    0 ≤ 2 * dinfAc n + dinfAf n ∧ 2 * dinfAc n + dinfAf n ≤ 8 ∧ (dinfAf n = 1 ∨ dinfAf n = -1) := by
  decide

theorem dinf_corner1 (p : Cell) : ∀ n < 8, nbr .D8 p (octDir ((2 * dinfAc n) % 8).toNat) = dinfE1 p n := by
  have key : ∀ n < 8, (dx .D8 (octDir ((2 * dinfAc n) % 8).toNat), dy .D8 (octDir ((2 * dinfAc n) % 8).toNat)) =
      (([1, 0, 0, -1, -1, 0, 0, 1] : List Int).getD n 0, ([0, -1, -1, 0, 0, 1, 1, 0] : List Int).getD n 0) := by
    decide
  intro n hn
  obtain ⟨h1, h2⟩ := Prod.ext_iff.1 (key n hn)
  simp only at h1 h2
  unfold nbr dinfE1
  rw [h1, h2]

theorem dinf_corner2 (p : Cell) : ∀ n < 8,
    nbr .D8 p (octDir ((2 * dinfAc n + dinfAf n) % 8).toNat) = dinfE2 p n := by
  have key : ∀ n < 8, (dx .D8 (octDir ((2 * dinfAc n + dinfAf n) % 8).toNat),
      dy .D8 (octDir ((2 * dinfAc n + dinfAf n) % 8).toNat)) =
      (([1, 1, -1, -1, -1, -1, 1, 1] : List Int).getD n 0,
       ([-1, -1, -1, -1, 1, 1, 1, 1] : List Int).getD n 0) := by
    decide
  intro n hn
  obtain ⟨h1, h2⟩ := Prod.ext_iff.1 (key n hn)
  simp only at h1 h2
  unfold nbr dinfE2
  rw [h1, h2]

/-- C58: `dinf_flow_directions` gives every data cell an angle between 0 and 2π. -/
theorem C58_angle_range (c : Cell) (hc : InGrid w h c) (hd : dem c ≠ nd) :
    0 ≤ dinfFlowDirections w h dem nd c ∧ dinfFlowDirections w h dem nd c ≤ 8 := by
  unfold dinfFlowDirections
  rw [if_neg hd]
  rcases dinf_angle w h dem c hc with ⟨_, k, hk, e, _⟩ | ⟨_, e⟩ | ⟨_, n, hn, t, e, ht⟩
  · rw [e]
    have : (k : ℝ) ≤ 7 := by exact_mod_cast (show k ≤ 7 by omega)
    exact ⟨by positivity, by linarith⟩
  · rw [e]; norm_num
  · rw [e]
    obtain ⟨k1, k2, k3, k4, k5⟩ := dinf_facet_consts n hn
    have c1 : (0 : ℝ) ≤ 2 * (dinfAc n : ℝ) := by exact_mod_cast k1
    have c2 : 2 * (dinfAc n : ℝ) ≤ 8 := by exact_mod_cast k2
    have c3 : (0 : ℝ) ≤ 2 * (dinfAc n : ℝ) + (dinfAf n : ℝ) := by exact_mod_cast k3
    have c4 : 2 * (dinfAc n : ℝ) + (dinfAf n : ℝ) ≤ 8 := by exact_mod_cast k4
    have ht01 : 0 ≤ t ∧ t ≤ 1 := by
      rcases ht with ⟨rfl, _⟩ | ⟨rfl, _⟩ | ⟨h1, h2, _⟩
      · norm_num
      · norm_num
      · exact ⟨h1.le, h2.le⟩
    obtain ⟨t0, t1⟩ := ht01
    rcases k5 with k5 | k5
    · have k5' : (dinfAf n : ℝ) = 1 := by rw [k5]; norm_num
      rw [k5'] at c3 c4 ⊢
      exact ⟨by linarith, by linarith⟩
    · have k5' : (dinfAf n : ℝ) = -1 := by rw [k5]; norm_num
      rw [k5'] at c3 c4 ⊢
      exact ⟨by linarith, by linarith⟩

theorem dinfDirs_nd (c : Cell) (hc : InGrid w h c) :
    dinfFlowDirections w h dem nd c = -1 ↔ dem c = nd := by
  constructor
  · intro e
    by_contra hd
    have := (C58_angle_range w h dem nd c hc hd).1
    linarith
  · intro hd; unfold dinfFlowDirections; rw [if_pos hd]

theorem dinf_angleRange : AngleRange w h (dinfFlowDirections w h dem nd) (-1) := by
  intro c hc hd
  exact C58_angle_range w h dem nd c hc (fun hh => hd ((dinfDirs_nd w h dem nd c hc).2 hh))

/-- The receivers at an integral angle. -/
theorem dinfShare_int (i : Int) (k : Nat) (h0 : dinfShare (i : ℝ) k ≠ 0) : i % 8 = (k : Int) := by
  unfold dinfShare at h0
  rw [Int.fract_intCast, Int.floor_intCast, if_pos (by norm_num)] at h0
  by_contra hh
  rw [if_neg hh] at h0; exact h0 rfl

theorem dinfShare_mid (i : Int) (f : ℝ) (h1 : (i : ℝ) < f) (h2 : f < i + 1) (hi : 0 ≤ i) (hi8 : i < 8)
    (k : Nat) (h0 : dinfShare f k ≠ 0) : i % 8 = (k : Int) ∨ (i + 1) % 8 = (k : Int) := by
  have hfl : ⌊f⌋ = i := Int.floor_eq_iff.2 ⟨h1.le, h2⟩
  unfold dinfShare at h0
  rw [hfl] at h0
  by_contra hh
  push Not at hh
  have hne : i ≠ (k : Int) := by intro e; apply hh.1; omega
  rw [if_neg hh.1, if_neg hne, if_neg hh.2] at h0
  simp at h0

/-- C58: the flow computed from a DEM goes strictly downhill, so it has no cycles. -/
theorem C58_downhill (p c : Cell)
    (hpc : DinfEdge w h (dinfFlowDirections w h dem nd) (-1) p c) : ¬ OnEdge w h p ∧ dem c < dem p := by
  obtain ⟨⟨hp, hpd⟩, ⟨hc, _⟩, hnz, k, hk, hsh, hnb⟩ := hpc
  have hk8 : k < 8 := by simpa using hk
  have hd : dem p ≠ nd := fun hh => hpd ((dinfDirs_nd w h dem nd p hp).2 hh)
  unfold dinfFlowDirections at hsh hnz
  rw [if_neg hd] at hsh hnz
  have nat : ∀ i : Int, i % 8 = (k : Int) → (i % 8).toNat = k := by intro i hi; omega
  rcases dinf_angle w h dem p hp with ⟨_, j, hj, e, hout⟩ | ⟨_, e⟩ | ⟨hne, n, hn, t, e, ht⟩
  · exfalso
    rw [e] at hsh
    have := dinfShare_int (j : Int) k (by push_cast; exact hsh)
    have : j = k := by omega
    rw [this, hnb] at hout
    exact hout hc
  · rw [e] at hnz; simp at hnz
  · refine ⟨hne, ?_⟩
    obtain ⟨k1, k2, k3, k4, k5⟩ := dinf_facet_consts n hn
    rw [e] at hsh
    rcases ht with ⟨rfl, hlow⟩ | ⟨rfl, hlow⟩ | ⟨t0, t1, hl1, hl2⟩
    · have := dinfShare_int (2 * dinfAc n) k (by push_cast; simpa using hsh)
      have hcn := dinf_corner1 p n hn
      rw [nat _ this, hnb] at hcn
      rw [hcn]; exact hlow
    · have := dinfShare_int (2 * dinfAc n + dinfAf n) k (by push_cast; simpa using hsh)
      have hcn := dinf_corner2 p n hn
      rw [nat _ this, hnb] at hcn
      rw [hcn]; exact hlow
    · have hor : (2 * dinfAc n) % 8 = (k : Int) ∨ (2 * dinfAc n + dinfAf n) % 8 = (k : Int) := by
        rcases k5 with k5 | k5
        · rw [k5] at hsh k4 ⊢
          have := dinfShare_mid (2 * dinfAc n) _ (by push_cast; linarith) (by push_cast; linarith)
            k1 (by omega) k hsh
          exact this
        · rw [k5] at hsh k3 ⊢
          have := dinfShare_mid (2 * dinfAc n + -1) _ (by push_cast; linarith) (by push_cast; linarith)
            k3 (by omega) k hsh
          rcases this with h | h
          · exact .inr h
          · left; rw [show 2 * dinfAc n + -1 + 1 = 2 * dinfAc n by ring] at h; exact h
      rcases hor with h | h
      · have hcn := dinf_corner1 p n hn
        rw [nat _ h, hnb] at hcn
        rw [hcn]; exact hl1
      · have hcn := dinf_corner2 p n hn
        rw [nat _ h, hnb] at hcn
        rw [hcn]; exact hl2

theorem C58_acyclic (c : Cell) :
    ¬ TransGen (DinfEdge w h (dinfFlowDirections w h dem nd) (-1)) c c := by
  have : ∀ a b, TransGen (DinfEdge w h (dinfFlowDirections w h dem nd) (-1)) a b → dem b < dem a := by
    intro a b hab
    induction hab with
    | single h1 => exact (C58_downhill w h dem nd _ _ h1).2
    | tail _ h1 ih => exact (C58_downhill w h dem nd _ _ h1).2.trans ih
  intro hc
  exact lt_irrefl _ (this c c hc)

/-- C58, in part, from the DEM: every data cell whose angle is not 0, or which receives flow, has
area one plus the shares of its inflow. -/
theorem C58_dem_partial (q : AnyQ Cell) (c : Cell) (hc : InGrid w h c) (hd : dem c ≠ nd)
    (hrec : dinfFlowDirections w h dem nd c ≠ 0 ∨
      ∃ p, DinfEdge w h (dinfFlowDirections w h dem nd) (-1) p c) :
    dinfUpslopeArea q w h (dinfFlowDirections w h dem nd) (-1) c =
      1 + dinfInflow w h (dinfFlowDirections w h dem nd) (-1)
        (dinfUpslopeArea q w h (dinfFlowDirections w h dem nd) (-1)) c :=
  C58_upstream_sum_partial q w h _ _ (dinf_angleRange w h dem nd) c hc
    (fun hh => hd ((dinfDirs_nd w h dem nd c hc).1 hh)) hrec
    (fun a _ => C58_acyclic w h dem nd a)

end

/-- C58 fails on a plane that falls due east: every interior cell is given angle 0 = NO_FLOW, so
no water moves and every interior cell has upslope area 0 instead of its column number. -/
theorem C58_east_plane_lost (q : AnyQ Cell) (w h : Nat) (z s nd : ℝ) (hs : 0 < s)
    (hnd : ∀ x : Int, z - s * x ≠ nd) (c : Cell) (hc : InGrid w h c) (he : ¬ OnEdge w h c) :
    dinfUpslopeArea q w h (dinfFlowDirections w h (fun c => z - s * (c.1 : ℝ)) nd) (-1) c = 0 := by
  have hpi := pi_big
  have slope : ∀ (p : Cell), ∀ n < 8, (dinfRS (z - s * (p.1 : ℝ)) (z - s * ((dinfE1 p n).1 : ℝ))
      (z - s * ((dinfE2 p n).1 : ℝ))).2 ≤ s := by
    intro p n hn
    have key : ∀ n < 8, (([1, 0, 0, -1, -1, 0, 0, 1] : List Int).getD n 0) *
        (([1, 0, 0, -1, -1, 0, 0, 1] : List Int).getD n 0) +
        (([1, 1, -1, -1, -1, -1, 1, 1] : List Int).getD n 0 - ([1, 0, 0, -1, -1, 0, 0, 1] : List Int).getD n 0) *
        (([1, 1, -1, -1, -1, -1, 1, 1] : List Int).getD n 0 - ([1, 0, 0, -1, -1, 0, 0, 1] : List Int).getD n 0) ≤ 1 ∧
        ([1, 0, 0, -1, -1, 0, 0, 1] : List Int).getD n 0 ≤ 1 ∧
        ([1, 1, -1, -1, -1, -1, 1, 1] : List Int).getD n 0 ≤ 1 := by decide
    obtain ⟨k1, k2, k3⟩ := key n hn
    unfold dinfE1 dinfE2
    simp only
    generalize ([1, 0, 0, -1, -1, 0, 0, 1] : List Int).getD n 0 = a at *
    generalize ([1, 1, -1, -1, -1, -1, 1, 1] : List Int).getD n 0 = b at *
    have r1 : (a : ℝ) * a + ((b : ℝ) - a) * (b - a) ≤ 1 := by exact_mod_cast k1
    have r2 : (a : ℝ) ≤ 1 := by exact_mod_cast k2
    have r3 : (b : ℝ) ≤ 1 := by exact_mod_cast k3
    unfold dinfRS
    simp only
    push_cast
    split
    · show z - s * p.1 - (z - s * (p.1 + a)) ≤ s
      nlinarith
    split
    · show (z - s * p.1 - (z - s * (p.1 + b))) / Real.sqrt 2 ≤ s
      have h2 : (1 : ℝ) ≤ Real.sqrt 2 := Real.one_le_sqrt.2 (by norm_num)
      rw [div_le_iff₀ (by positivity)]
      nlinarith
    · show Real.sqrt _ ≤ s
      rw [Real.sqrt_le_left hs.le]
      nlinarith [sq_nonneg s]
  have first : ∀ p : Cell, dinfRS (z - s * (p.1 : ℝ)) (z - s * ((dinfE1 p 0).1 : ℝ))
      (z - s * ((dinfE2 p 0).1 : ℝ)) = (0, s) := by
    intro p
    have e1 : (dinfE1 p 0).1 = p.1 + 1 := rfl
    have e2 : (dinfE2 p 0).1 = p.1 + 1 := rfl
    rw [e1, e2]
    unfold dinfRS
    simp only
    push_cast
    have a1 : z - s * (p.1 : ℝ) - (z - s * (p.1 + 1)) = s := by ring
    rw [a1, sub_self]
    have hat : atan2 0 s = 0 := by
      unfold atan2; exact Complex.arg_eq_zero_iff.2 ⟨hs.le, rfl⟩
    rw [hat, if_neg (lt_irrefl _), if_neg (by linarith)]
    congr 1
    rw [mul_zero, add_zero, Real.sqrt_mul_self hs.le]
  have hzero : ∀ p, ¬ OnEdge w h p → InGrid w h p →
      dinfFlowDirections w h (fun c => z - s * (c.1 : ℝ)) nd p = 0 := by
    intro p hpe hp
    have hce : ¬ isEdgeCell w h p = true := fun hh => hpe ((isEdgeCell_iff hp).1 hh)
    have hbest : (dinfBest (fun c => z - s * (c.1 : ℝ)) p) = { n := some 0, s := s, r := 0 } := by
      unfold dinfBest
      rw [show List.range 8 = 0 :: [1, 2, 3, 4, 5, 6, 7] from rfl, List.foldl_cons]
      have h0 : dinfFacetStep (fun c => z - s * (c.1 : ℝ)) p { n := none, s := 0, r := 0 } 0 =
          { n := some 0, s := s, r := 0 } := by
        unfold dinfFacetStep
        simp only [first p, if_pos hs]
      rw [h0]
      refine foldl_inv' (P := fun b : DFacet => b = { n := some 0, s := s, r := 0 }) _ _ ?_ rfl
      rintro b n hn rfl
      unfold dinfFacetStep
      simp only
      rw [if_neg (not_lt.2 (slope p n ?_))]
      simp only [List.mem_cons, List.not_mem_nil, or_false] at hn
      omega
    unfold dinfFlowDirections dinfFlowDir
    rw [if_neg (hnd p.1), if_neg hce, hbest]
    simp [dinfAf, dinfAc]
  refine C58_zero_dropped q w h _ _ (dinf_angleRange w h _ nd) c hc ?_ (hzero c he hc) ?_
  · rw [hzero c he hc]; norm_num
  · intro p hp
    have := C58_downhill w h _ nd p c hp
    exact hp.2.2.1 (hzero p this.1 hp.1.1)

example : InGrid 4 3 (2, 1) ∧ ¬ OnEdge 4 3 (2, 1) ∧ ∀ x : Int, (10 : ℝ) - 1 * x ≠ -1 / 2 := by
  refine ⟨by decide, by decide, ?_⟩
  intro x hx
  have : (2 * x : ℝ) = 21 := by linarith
  have h2 : 2 * x = 21 := by exact_mod_cast this
  omega

/-- A 4x3 raster of angles: the interior cells send their flow west and northwest; `AngleRange`
holds, and the areas are as the theorem says. -/
def exDinf : Cell → ℚ := fun c =>
  if c = (2, 1) then 7 / 2 else if c = (1, 1) then 4 else if c.2 = 0 then 2 else if c.2 = 2 then 6
  else if c.1 = 0 then 4 else 0

example : toRows 4 3 (dinfUpslopeArea (fifo Cell) 4 3 exDinf (-1)) =
    [[1, 3 / 2, 1, 1], [5 / 2, 3 / 2, 1, 0], [1, 1, 1, 1]] := by decide +kernel

example : ∀ c ∈ allCells 4 3, 0 ≤ exDinf c ∧ exDinf c ≤ 8 := by decide +kernel

end RichDEM
