/-
Model of `PriorityFloodFlowdirs_Barnes2014`
(include/richdem/depressions/Barnes2014.hpp:482-555).
-/
import Verif.Flood

namespace RichDEM

variable {E : Type*} [LinearOrder E]

/-- grid_cell.hpp:73-81: `GridCellZk_low` ordering - by elevation, ties by insertion number. -/
def zkLt (a b : E × Nat × Cell) : Prop := a.1 < b.1 ∨ (a.1 = b.1 ∧ a.2.1 < b.2.1)

/-- State of the flow-direction flood: `k` is the heap's insertion counter. -/
structure FDState (E : Type*) where
  closed : Cell → Bool
  openQ : List (E × Nat × Cell)
  fd : Cell → Nat
  k : Nat

/-- `open.emplace(x,y,z)` of `GridCellZk_low_pq` (grid_cell.hpp:112-122): number the entry. -/
def fdPush (pq : PQ (E × Nat × Cell) zkLt) (z : E) (c : Cell) (s : FDState E) : FDState E :=
  { s with openQ := pq.push (z, s.k, c) s.openQ, k := s.k + 1 }

/-- Barnes2014.hpp:503-523: the flow directions written while seeding, in program order
(later writes win). -/
def fdSeeds (w h : Nat) : List (Cell × Nat) :=
  (List.range w).flatMap (fun x : Nat => [(((x : Int), (0 : Int)), 3), (((x : Int), (h : Int) - 1), 7)]) ++
  (List.range' 1 (h - 2)).flatMap (fun y : Nat =>
    [(((0 : Int), (y : Int)), 1), (((w : Int) - 1, (y : Int)), 5)]) ++
  [(((0 : Int), (0 : Int)), 2), (((w : Int) - 1, (0 : Int)), 4), (((0 : Int), (h : Int) - 1), 8),
   (((w : Int) - 1, (h : Int) - 1), 6)]

/-- Barnes2014.hpp:489-523: flags, seeds and perimeter directions. -/
def fdInit (pq : PQ (E × Nat × Cell) zkLt) (w h : Nat) (dem : Cell → E) : FDState E :=
  (perimeter w h).foldl (fun s c => fdPush pq (dem c) c s)
    { closed := markAll (perimeter w h) (fun _ => false)
      openQ := []
      fd := (fdSeeds w h).foldl (fun f a => Function.update f a.1 a.2) (fun _ => 0)
      k := 0 }

/-- Barnes2014.hpp:525 `d8_order` (entries 1..8). -/
def d8Order : List Nat := [1, 3, 5, 7, 2, 4, 6, 8]

/-- Barnes2014.hpp:533-550: neighbour loop body. -/
def fdNbr (pq : PQ (E × Nat × Cell) zkLt) (w h : Nat) (nodata : E) (dem : Cell → E) (c : Cell)
    (s : FDState E) (n : Nat) : FDState E :=
  let q := nbr .D8 c n
  if inGrid w h q = false then s                                          -- :537-538
  else if s.closed q then s                                               -- :539-540
  else
    fdPush pq (dem q) q                                                   -- :549
      { s with closed := Function.update s.closed q true                  -- :542
               fd := Function.update s.fd q
                 (if dem q = nodata then 0 else d8_inverse.getD n 0) }    -- :544-547

/-- Barnes2014.hpp:528-552: one iteration. -/
def fdStep (pq : PQ (E × Nat × Cell) zkLt) (w h : Nat) (nodata : E) (dem : Cell → E)
    (s : FDState E) : Option (FDState E) :=
  match pq.pop s.openQ with
  | none => none
  | some (c, rest) => some (d8Order.foldl (fdNbr pq w h nodata dem c.2.2) { s with openQ := rest })

/-- Barnes2014.hpp:482-555 `PriorityFloodFlowdirs_Barnes2014`. -/
def priorityFloodFlowdirs (pq : PQ (E × Nat × Cell) zkLt) (w h : Nat) (nodata : E)
    (dem : Cell → E) : FDState E :=
  loop (fdStep pq w h nodata dem) (floodFuel w h) (fdInit pq w h dem)

/-- An executable heap for concrete examples. -/
def zkPQ : PQ (E × Nat × Cell) (zkLt (E := E)) :=
  let p := scanPQ (A := E × Nat × Cell)
    (fun a b => decide (a.1 < b.1) || (decide (a.1 = b.1) && decide (a.2.1 < b.2.1)))
    (fun a b c h1 h2 => by
      simp only [Bool.or_eq_true, decide_eq_true_eq, Bool.and_eq_true, not_or, not_lt, not_and]
        at *
      refine ⟨h1.1.trans h2.1, fun e => ?_⟩
      have h3 : a.1 = b.1 := le_antisymm h1.1 (by rw [← e]; exact h2.1)
      exact (h1.2 h3.symm).trans (h2.2 (by rw [e, h3])))
    (fun a => by simp)
    (fun a b h1 => by
      simp only [Bool.or_eq_true, decide_eq_true_eq, Bool.and_eq_true, not_or, not_lt, not_and]
        at *
      rcases h1 with h1 | ⟨h1, h2⟩
      · exact ⟨h1.le, fun e => absurd e.symm h1.ne⟩
      · exact ⟨h1.le, fun _ => h2.le⟩)
  { push := p.push, pop := p.pop, push_perm := p.push_perm, pop_nil := p.pop_nil
    pop_cons := fun l hl => by
      obtain ⟨e, r, h1, h2, h3⟩ := p.pop_cons l hl
      exact ⟨e, r, h1, h2, fun f hf => by simpa [zkLt] using h3 f hf⟩ }

/-! ### Invariant -/

/-- Following the directions inside `S` ends at a perimeter cell whose direction leaves the
raster, or at a NoData cell; `L` never increases on the way and bounds the terrain. -/
inductive FDPath (w h : Nat) (nodata : E) (dem : Cell → E) (fd : Cell → Nat) (L : Cell → E)
    (S : Cell → Prop) : Cell → Prop
  | out {c} : S c → OnEdge w h c → dem c ≤ L c → fd c ∈ dirs .D8 → ¬ InGrid w h (nbr .D8 c (fd c)) →
      FDPath w h nodata dem fd L S c
  | nd {c} : S c → InGrid w h c → dem c ≤ L c → dem c = nodata → fd c = 0 →
      FDPath w h nodata dem fd L S c
  | step {c} : S c → InGrid w h c → dem c ≤ L c → fd c ∈ dirs .D8 → L (nbr .D8 c (fd c)) ≤ L c →
      FDPath w h nodata dem fd L S (nbr .D8 c (fd c)) → FDPath w h nodata dem fd L S c

theorem FDPath.mem {w h : Nat} {nodata : E} {dem : Cell → E} {fd : Cell → Nat} {L : Cell → E}
    {S : Cell → Prop} {c : Cell} (hp : FDPath w h nodata dem fd L S c) : S c := by
  cases hp <;> assumption

theorem FDPath.congr {w h : Nat} {nodata : E} {dem : Cell → E} {fd fd' : Cell → Nat}
    {L L' : Cell → E} {S S' : Cell → Prop} (hS : ∀ c, S c → S' c ∧ fd' c = fd c ∧ L' c = L c)
    {c : Cell} (hp : FDPath w h nodata dem fd L S c) : FDPath w h nodata dem fd' L' S' c := by
  induction hp with
  | @out c h1 h2 h3 h4 h5 =>
    obtain ⟨k1, k2, k3⟩ := hS c h1
    exact .out k1 h2 (by rw [k3]; exact h3) (by rw [k2]; exact h4) (by rw [k2]; exact h5)
  | @nd c h1 h2 h3 h4 h5 =>
    obtain ⟨k1, k2, k3⟩ := hS c h1
    exact .nd k1 h2 (by rw [k3]; exact h3) h4 (by rw [k2]; exact h5)
  | @step c h1 h2 h3 h4 h5 h6 ih =>
    obtain ⟨k1, k2, k3⟩ := hS c h1
    obtain ⟨_, _, j3⟩ := hS _ h6.mem
    refine .step k1 h2 (by rw [k3]; exact h3) (by rw [k2]; exact h4) ?_ (by rw [k2]; exact ih)
    rw [k2, k3, j3]; exact h5

/-- Ghost queue for the frontier invariant: queued cells at their ghost level. -/
def gq (L : Cell → E) (o : List (E × Nat × Cell)) : E × Cell → Prop :=
  fun e => e.1 = L e.2 ∧ ∃ x ∈ o, x.2.2 = e.2

structure FDInv (w h : Nat) (nodata : E) (dem : Cell → E) (L : Cell → E) (s : FDState E) :
    Prop where
  core : FInv w h .D8 dem L s.closed (gq L s.openQ) (fun _ => False)
  keys : ∀ x ∈ s.openQ, x.1 = dem x.2.2
  comp : ∀ x ∈ s.openQ, ∀ y ∈ s.openQ, L x.2.2 ≤ dem x.2.2 ∨ L x.2.2 ≤ L y.2.2
  path : ∀ c, s.closed c = true → FDPath w h nodata dem s.fd L (s.closed · = true) c

structure FDMid (w h : Nat) (nodata : E) (dem : Cell → E) (c : Cell) (L : Cell → E)
    (s : FDState E) : Prop where
  core : FInv w h .D8 dem L s.closed (gq L s.openQ) (· = c)
  keys : ∀ x ∈ s.openQ, x.1 = dem x.2.2
  cc : s.closed c = true
  lo : ∀ x ∈ s.openQ, L c ≤ L x.2.2
  hi : ∀ x ∈ s.openQ, L x.2.2 ≤ dem x.2.2 ∨ L x.2.2 ≤ L c
  path : ∀ c, s.closed c = true → FDPath w h nodata dem s.fd L (s.closed · = true) c

def fdMeasure (w h : Nat) (s : FDState E) : Nat := s.openQ.length + unflagged w h s.closed

theorem nbr_inverse {n : Nat} (hn : n ∈ dirs .D8) (c : Cell) :
    d8_inverse.getD n 0 ∈ dirs .D8 ∧ nbr .D8 (nbr .D8 c n) (d8_inverse.getD n 0) = c := by
  rw [mem_dirs] at hn
  obtain ⟨x, y⟩ := c
  have h1 := hn.1
  have h2 : n ≤ 8 := hn.2
  interval_cases n <;> simp [d8_inverse, mem_dirs, nmax, nbr, dx, dy, d8x, d8y]

theorem fdNbr_inv (pq : PQ (E × Nat × Cell) zkLt) {w h : Nat} {nodata : E} {dem : Cell → E}
    {c : Cell} {L : Cell → E} {s : FDState E} {n : Nat} (hn : n ∈ dirs .D8)
    (hm : FDMid w h nodata dem c L s) :
    let s' := fdNbr pq w h nodata dem c s n
    (∃ L', FDMid w h nodata dem c L' s') ∧
    (InGrid w h (nbr .D8 c n) → s'.closed (nbr .D8 c n) = true) ∧
    (∀ d, s.closed d = true → s'.closed d = true) ∧ fdMeasure w h s' = fdMeasure w h s := by
  have hinv := nbr_inverse hn c
  have hadj := nbr_adj hn (c := c)
  unfold fdNbr
  simp only
  split
  · next hg => exact ⟨⟨L, hm⟩, fun h => absurd h (inGrid_false.1 hg), fun d hd => hd, rfl⟩
  · next hg =>
    have hg' : InGrid w h (nbr .D8 c n) := by rw [← inGrid_iff]; simpa using hg
    generalize hq : nbr .D8 c n = q at *
    split
    · next hcl => exact ⟨⟨L, hm⟩, fun _ => hcl, fun d hd => hd, rfl⟩
    · next hcl =>
      have hcl' : s.closed q = false := by simpa using hcl
      have hne : c ≠ q := by intro e; rw [← e, hm.cc] at hcl'; cases hcl'
      have hnq : ∀ d, s.closed d = true → d ≠ q := by
        rintro d hd rfl; rw [hd] at hcl'; cases hcl'
      have hcl2 : ∀ d, s.closed d = true → Function.update s.closed q true d = true := by
        intro d hd; rw [Function.update_of_ne (hnq d hd)]; exact hd
      have hqc : ∀ x ∈ s.openQ, s.closed x.2.2 = true := by
        intro x hx
        exact (hm.core.queued (L x.2.2, x.2.2) ⟨rfl, x, hx, rfl⟩).1
      have hmin : ∀ e, gq L s.openQ e → L c ≤ e.1 := by
        rintro ⟨z, d⟩ ⟨h1, x, hx, h2⟩
        simp only at h1 h2
        rw [h1, ← h2]; exact hm.lo x hx
      have hLu : ∀ v d, s.closed d = true → Function.update L q v d = L d :=
        fun v d hd => Function.update_of_ne (hnq d hd) _ _
      have hc := hm.core.close (v := max (dem q) (L c))
        (Q' := gq (Function.update L q (max (dem q) (L c)))
          (pq.push (dem q, s.k, q) s.openQ)) hm.cc hmin hadj hg' hcl' rfl (by
            rintro ⟨z, d⟩
            simp only [gq, pq.mem_push, exists_eq_or_imp, Prod.mk.injEq]
            constructor
            · rintro ⟨h1, rfl | ⟨x, hx, h2⟩⟩
              · left; simpa using h1
              · right
                have := hqc x hx
                rw [h2] at this
                rw [hLu _ d this] at h1
                exact ⟨h1, x, hx, h2⟩
            · rintro (⟨rfl, rfl⟩ | ⟨h1, x, hx, h2⟩)
              · exact ⟨by simp, Or.inl rfl⟩
              · have := hqc x hx
                rw [h2] at this
                exact ⟨by rw [hLu _ d this]; exact h1, Or.inr ⟨x, hx, h2⟩⟩)
      refine ⟨⟨Function.update L q (max (dem q) (L c)), ⟨hc.1, ?_, hcl2 _ hm.cc, ?_, ?_, ?_⟩⟩,
        fun _ => by simp [fdPush], hcl2, ?_⟩
      · intro x hx
        simp only [fdPush, pq.mem_push] at hx
        rcases hx with rfl | hx
        · rfl
        · exact hm.keys x hx
      · intro x hx
        simp only [fdPush, pq.mem_push] at hx
        rw [hLu _ c hm.cc]
        rcases hx with rfl | hx
        · simp
        · rw [hLu _ _ (hqc x hx)]; exact hm.lo x hx
      · intro x hx
        simp only [fdPush, pq.mem_push] at hx
        rw [hLu _ c hm.cc]
        rcases hx with rfl | hx
        · simp only [Function.update_self]
          rcases le_total (dem q) (L c) with h1 | h1
          · right; rw [max_eq_right h1]
          · left; rw [max_eq_left h1]
        · rw [hLu _ _ (hqc x hx)]; exact hm.hi x hx
      · have lift : ∀ d, s.closed d = true → FDPath w h nodata dem
            (Function.update s.fd q (if dem q = nodata then 0 else d8_inverse.getD n 0))
            (Function.update L q (max (dem q) (L c)))
            (Function.update s.closed q true · = true) d := by
          intro d hd
          refine (hm.path d hd).congr ?_
          intro x hx
          exact ⟨hcl2 x hx, Function.update_of_ne (hnq x hx) _ _, hLu _ x hx⟩
        intro d hd
        simp only [fdPush] at hd ⊢
        by_cases e : d = q
        · subst e
          by_cases hdn : dem d = nodata
          · refine .nd hd hg' ?_ hdn ?_
            · simp
            · simp [hdn]
          · refine .step hd hg' ?_ ?_ ?_ ?_
            · simp
            · simp only [Function.update_self, hdn, if_false]; exact hinv.1
            · simp only [Function.update_self, hdn, if_false, hinv.2]
              rw [hLu _ c hm.cc]; exact le_max_right _ _
            · simp only [Function.update_self, hdn, if_false, hinv.2]
              simpa only [hdn, if_false] using lift c hm.cc
        · rw [Function.update_of_ne e] at hd; exact lift d hd
      · have hu := unflagged_update hg' hcl'
        simp only [fdMeasure, fdPush, pq.length_push]; omega

theorem mem_d8Order {n : Nat} : n ∈ d8Order ↔ n ∈ dirs .D8 := by
  rw [mem_dirs]; simp only [d8Order, nmax, List.mem_cons, List.not_mem_nil, or_false]; omega

theorem fdStep_inv (pq : PQ (E × Nat × Cell) zkLt) {w h : Nat} {nodata : E} {dem : Cell → E}
    (s s' : FDState E) (hs : ∃ L, FDInv w h nodata dem L s)
    (hst : fdStep pq w h nodata dem s = some s') :
    (∃ L, FDInv w h nodata dem L s') ∧ fdMeasure w h s' < fdMeasure w h s := by
  obtain ⟨L, hs⟩ := hs
  unfold fdStep at hst
  cases hpop : pq.pop s.openQ with
  | none => rw [hpop] at hst; cases hst
  | some cr =>
    obtain ⟨c, rest⟩ := cr
    rw [hpop] at hst
    simp only [Option.some.injEq] at hst
    obtain ⟨hperm, hmin⟩ := pq.pop_some hpop
    have hcm : c ∈ s.openQ := hperm.mem_iff.2 (by simp)
    have hrm : ∀ x ∈ rest, x ∈ s.openQ := fun x hx => hperm.mem_iff.2 (by simp [hx])
    have hcc := (hs.core.queued (L c.2.2, c.2.2) ⟨rfl, c, hcm, rfl⟩).1
    have hsound := fun d hd => (hs.core.sound d hd).le
    have h0 : FDMid w h nodata dem c.2.2 L { s with openQ := rest } := by
      refine ⟨?_, fun x hx => hs.keys x (hrm x hx), hcc, ?_, ?_, hs.path⟩
      · refine ⟨hs.core.fresh, hs.core.inside, hs.core.edges, ?_, ?_, hs.core.sound,
          hs.core.least, hs.core.mono⟩
        · rintro e ⟨h1, x, hx, h2⟩
          exact hs.core.queued e ⟨h1, x, hrm x hx, h2⟩
        · intro d hd
          rcases hs.core.frontier d hd with h1 | ⟨_, x, hx, h2⟩ | h1
          · exact h1.elim
          · rcases List.mem_cons.1 (hperm.mem_iff.1 hx) with rfl | hx
            · exact Or.inl h2.symm
            · exact Or.inr (Or.inl ⟨rfl, x, hx, h2⟩)
          · exact Or.inr (Or.inr h1)
      · intro x hx
        rcases hs.comp c hcm x (hrm x hx) with h1 | h1
        · refine h1.trans ?_
          have h2 : ¬ zkLt x c := hmin x (hrm x hx)
          have h3 : c.1 ≤ x.1 := by
            by_contra h4; exact h2 (Or.inl (not_le.1 h4))
          rw [hs.keys c hcm, hs.keys x (hrm x hx)] at h3
          exact h3.trans (hsound _
            (hs.core.queued (L x.2.2, x.2.2) ⟨rfl, x, hrm x hx, rfl⟩).1)
        · exact h1
      · intro x hx
        exact hs.comp x (hrm x hx) c hcm
    have key := foldl_inv (f := fdNbr pq w h nodata dem c.2.2)
      (fun r : FDState E => (∃ L, FDMid w h nodata dem c.2.2 L r) ∧
        fdMeasure w h r = fdMeasure w h { s with openQ := rest })
      (fun n s => InGrid w h (nbr .D8 c.2.2 n) → s.closed (nbr .D8 c.2.2 n) = true) d8Order
      { s with openQ := rest }
      (fun s n hn hp => by
        obtain ⟨⟨L, hL⟩, hme⟩ := hp
        have := fdNbr_inv pq (mem_d8Order.1 hn) hL
        exact ⟨⟨this.1, by rw [this.2.2.2]; exact hme⟩, this.2.1⟩)
      (fun s n m hn hp hr hg => by
        obtain ⟨⟨L, hL⟩, hme⟩ := hp
        exact (fdNbr_inv pq (mem_d8Order.1 hn) hL).2.2.1 _ (hr hg))
      ⟨⟨L, h0⟩, rfl⟩
    rw [hst] at key
    obtain ⟨⟨⟨L', k1⟩, k2⟩, k3, _⟩ := key
    refine ⟨⟨L', ⟨?_, k1.keys, ?_, k1.path⟩⟩, ?_⟩
    · refine k1.core.finish ?_
      intro d ha hd
      obtain ⟨n, hn, rfl⟩ := adj_iff_nbr.1 ha
      exact k3 n (mem_d8Order.2 hn) hd
    · intro x hx y hy
      rcases k1.hi x hx with h1 | h1
      · exact Or.inl h1
      · exact Or.inr (h1.trans (k1.lo y hy))
    · rw [k2]
      have := hperm.length_eq
      simp only [List.length_cons] at this
      simp only [fdMeasure]; omega

/-! #### Seeding -/

theorem foldl_update_mem {l : List (Cell × Nat)} {f : Cell → Nat} {c : Cell}
    (hc : ∃ a ∈ l, a.1 = c) :
    ∃ a ∈ l, a.1 = c ∧ l.foldl (fun f a => Function.update f a.1 a.2) f c = a.2 := by
  induction l using List.reverseRecOn with
  | nil => simp at hc
  | append_singleton l b ih =>
    rw [List.foldl_append]
    simp only [List.foldl_cons, List.foldl_nil]
    by_cases e : b.1 = c
    · exact ⟨b, by simp, e, by rw [← e]; simp⟩
    · have : ∃ a ∈ l, a.1 = c := by
        obtain ⟨a, ha, h1⟩ := hc
        rcases List.mem_append.1 ha with ha | ha
        · exact ⟨a, ha, h1⟩
        · rw [List.mem_singleton.1 ha] at h1; exact absurd h1 e
      obtain ⟨a, ha, h1, h2⟩ := ih this
      exact ⟨a, by simp [ha], h1, by rw [Function.update_of_ne (fun h => e h.symm)]; exact h2⟩

/-- Every direction written while seeding points out of the raster. -/
theorem fdSeeds_leave {w h : Nat} {a : Cell × Nat} (ha : a ∈ fdSeeds w h) :
    a.2 ∈ dirs .D8 ∧ ¬ InGrid w h (nbr .D8 a.1 a.2) := by
  simp only [fdSeeds, List.mem_append, List.mem_flatMap, List.mem_range, List.mem_range'_1,
    List.mem_cons, List.not_mem_nil, or_false] at ha
  rcases ha with (⟨x, hx, rfl | rfl⟩ | ⟨y, hy, rfl | rfl⟩) | rfl | rfl | rfl | rfl <;>
    simp [mem_dirs, nmax, nbr, dx, dy, d8x, d8y, InGrid]

theorem fdSeeds_cover {w h : Nat} {c : Cell} (hc : c ∈ perimeter w h) :
    ∃ a ∈ fdSeeds w h, a.1 = c := by
  simp only [perimeter, List.mem_append, List.mem_flatMap, List.mem_range, List.mem_range'_1,
    List.mem_cons, List.not_mem_nil, or_false] at hc
  simp only [fdSeeds, List.mem_append, List.mem_flatMap, List.mem_range, List.mem_range'_1,
    List.mem_cons, List.not_mem_nil, or_false]
  rcases hc with ⟨x, hx, rfl | rfl⟩ | ⟨y, hy, rfl | rfl⟩
  · exact ⟨_, Or.inl (Or.inl ⟨x, hx, Or.inl rfl⟩), rfl⟩
  · exact ⟨_, Or.inl (Or.inl ⟨x, hx, Or.inr rfl⟩), rfl⟩
  · exact ⟨_, Or.inl (Or.inr ⟨y, hy, Or.inl rfl⟩), rfl⟩
  · exact ⟨_, Or.inl (Or.inr ⟨y, hy, Or.inr rfl⟩), rfl⟩

theorem fdPushAll (pq : PQ (E × Nat × Cell) zkLt) (dem : Cell → E) (l : List Cell)
    (s : FDState E) :
    let s' := l.foldl (fun s c => fdPush pq (dem c) c s) s
    s'.closed = s.closed ∧ s'.fd = s.fd ∧ s'.openQ.length = s.openQ.length + l.length ∧
    (∀ x ∈ s'.openQ, x ∈ s.openQ ∨ (x.2.2 ∈ l ∧ x.1 = dem x.2.2)) ∧
    (∀ c ∈ l, ∃ x ∈ s'.openQ, x.2.2 = c) ∧ (∀ x ∈ s.openQ, x ∈ s'.openQ) := by
  induction l generalizing s with
  | nil => simp
  | cons a l ih =>
    have := ih (fdPush pq (dem a) a s)
    obtain ⟨h1, h2, h3, h4, h5, h6⟩ := this
    simp only [List.foldl_cons]
    refine ⟨h1, h2, ?_, ?_, ?_, ?_⟩
    · rw [h3]; simp only [fdPush, pq.length_push, List.length_cons]; omega
    · intro x hx
      rcases h4 x hx with h7 | h7
      · simp only [fdPush, pq.mem_push] at h7
        rcases h7 with rfl | h7
        · exact Or.inr ⟨by simp, rfl⟩
        · exact Or.inl h7
      · exact Or.inr ⟨by simp [h7.1], h7.2⟩
    · intro c hc
      rcases List.mem_cons.1 hc with rfl | hc
      · exact ⟨(dem c, s.k, c), h6 _ (by simp [fdPush, pq.mem_push]), rfl⟩
      · exact h5 c hc
    · intro x hx; exact h6 x (by simp [fdPush, pq.mem_push, hx])

theorem fdInit_inv (pq : PQ (E × Nat × Cell) zkLt) {w h : Nat} (nodata : E) (dem : Cell → E)
    (hw : 0 < w) (hh : 0 < h) :
    (∃ L, FDInv w h nodata dem L (fdInit pq w h dem)) ∧
    fdMeasure w h (fdInit pq w h dem) ≤ floodFuel w h := by
  obtain ⟨h1, h2, h3, h4, h5, _⟩ := fdPushAll pq dem (perimeter w h)
    { closed := markAll (perimeter w h) (fun _ => false)
      openQ := []
      fd := (fdSeeds w h).foldl (fun f a => Function.update f a.1 a.2) (fun _ => 0)
      k := 0 }
  change (fdInit pq w h dem).closed = _ at h1
  change (fdInit pq w h dem).fd = _ at h2
  change (fdInit pq w h dem).openQ.length = _ at h3
  change ∀ x ∈ (fdInit pq w h dem).openQ, _ at h4
  change ∀ c ∈ perimeter w h, ∃ x ∈ (fdInit pq w h dem).openQ, _ at h5
  have h4' : ∀ x ∈ (fdInit pq w h dem).openQ, x.2.2 ∈ perimeter w h ∧ x.1 = dem x.2.2 := by
    intro x hx
    rcases h4 x hx with h7 | h7
    · simp at h7
    · exact h7
  have hcl : ∀ c, (fdInit pq w h dem).closed c = true ↔ c ∈ perimeter w h := by
    intro c; rw [h1, markAll_iff]; simp
  refine ⟨⟨dem, ⟨FInv.init dem hw hh hcl ?_, fun x hx => (h4' x hx).2,
    fun x _ _ _ => Or.inl (le_refl _), ?_⟩⟩, ?_⟩
  · rintro ⟨z, d⟩
    simp only [gq, Prod.mk.injEq]
    constructor
    · rintro ⟨rfl, x, hx, rfl⟩
      exact ⟨_, (h4' x hx).1, rfl, rfl⟩
    · rintro ⟨c, hc, rfl, rfl⟩
      obtain ⟨x, hx, h7⟩ := h5 d hc
      exact ⟨rfl, x, hx, h7⟩
  · intro c hc
    have hp := (hcl c).1 hc
    obtain ⟨a, ha, h7, h8⟩ := foldl_update_mem (f := fun _ => 0) (fdSeeds_cover hp)
    have h9 := fdSeeds_leave ha
    rw [h7] at h9
    refine .out hc ((mem_perimeter hw hh).1 hp) (le_refl _) ?_ ?_
    · rw [h2]; simp only; rw [h8]; exact h9.1
    · rw [h2]; simp only; rw [h8]; exact h9.2
  · have h6 := unflagged_le w h (fdInit pq w h dem).closed
    have h7 := length_perimeter w h
    simp only [List.length_nil] at h3
    simp only [fdMeasure, floodFuel]; omega

theorem fdStep_none (pq : PQ (E × Nat × Cell) zkLt) {w h : Nat} {nodata : E} {dem : Cell → E}
    {s : FDState E} (h3 : fdStep pq w h nodata dem s = none) : s.openQ = [] := by
  unfold fdStep at h3
  cases hpop : pq.pop s.openQ with
  | none => exact pq.pop_none.1 hpop
  | some cr => rw [hpop] at h3; cases h3

theorem flowdirs_final (pq : PQ (E × Nat × Cell) zkLt) {w h : Nat} (nodata : E) (dem : Cell → E)
    (hw : 0 < w) (hh : 0 < h) :
    let s := priorityFloodFlowdirs pq w h nodata dem
    (∃ L, IsFilled w h .D8 dem L ∧ ∀ c, InGrid w h c →
      FDPath w h nodata dem s.fd L (InGrid w h) c) ∧
    fdStep pq w h nodata dem s = none := by
  intro s
  have hi := fdInit_inv pq (w := w) (h := h) nodata dem hw hh
  have := loop_spec (step := fdStep pq w h nodata dem)
    (fun s => ∃ L, FDInv w h nodata dem L s) (fdMeasure w h)
    (fun s s' hs hst => fdStep_inv pq s s' hs hst) (floodFuel w h) _ hi.1 hi.2
  obtain ⟨⟨L, h1⟩, h2⟩ := this
  have h3 := fdStep_none pq h2
  obtain ⟨h4, h5, _⟩ := h1.core.final (by
    rintro e ⟨_, x, hx, _⟩
    rw [h3] at hx; simp at hx)
  refine ⟨⟨L, h5, ?_⟩, h2⟩
  intro c hc
  exact (h1.path c (h4 c hc)).congr (fun x hx => ⟨h1.core.inside x hx, rfl, rfl⟩)

end RichDEM
