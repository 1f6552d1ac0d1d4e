/-
Model of `HasDepressions`, `PriorityFlood_Original` and `PriorityFlood_Barnes2014`
(include/richdem/depressions/Barnes2014.hpp).

Simplifications (all variants): elevations range over an arbitrary linear order (no NaN);
logging and progress bars are dropped; `closed` is a Boolean per cell; rasters are functions
from cells, and the ghost flag `safe` records whether every raster access so far was inside
the raster.
-/
import Verif.FloodCore

namespace RichDEM

variable {E : Type*} [LinearOrder E]

/-- grid_cell.hpp:36: `GridCellZ` ordering, `a` leaves the queue before `b` iff `b.z > a.z`
(`std::greater` in grid_cell.hpp:97). -/
def zLt (a b : E × Cell) : Prop := a.1 < b.1

/-- State of the flood loops: raster, flags, heap, pit queue, counters. -/
structure FState (E : Type*) where
  elev : Cell → E
  closed : Cell → Bool
  openQ : List (E × Cell)
  pitQ : List (E × Cell)
  processed : Nat
  pitc : Nat
  safe : Bool

/-- Barnes2014.hpp:138-171 / 232-267: allocate flags, push the perimeter, mark it closed. -/
def floodInit (pq : PQ (E × Cell) zLt) (w h : Nat) (dem : Cell → E) : FState E where
  elev := dem
  closed := markAll (perimeter w h) (fun _ => false)
  openQ := pq.pushAll ((perimeter w h).map (fun c => (dem c, c))) []
  pitQ := []
  processed := 0
  pitc := 0
  safe := (perimeter w h).all (inGrid w h)

/-- Fuel that always suffices (`C09`): one unit per queue entry ever made. -/
def floodFuel (w h : Nat) : Nat := 2 * w + 2 * h + w * h

/-! #### PriorityFlood_Original -/

/-- Barnes2014.hpp:180-192: body of the neighbour loop of `PriorityFlood_Original`. -/
def origNbr (pq : PQ (E × Cell) zLt) (w h : Nat) (t : Topo) (c : Cell) (s : FState E) (n : Nat) :
    FState E :=
  let q := nbr t c n
  if inGrid w h q = false then s                                          -- :183
  else if s.closed q then s                                               -- :184-185
  else
    let v := max (s.elev q) (s.elev c)                                    -- :190
    { s with
      closed := Function.update s.closed q true                           -- :187
      pitc := if s.elev q < s.elev c then s.pitc + 1 else s.pitc          -- :188-189
      elev := Function.update s.elev q v                                  -- :190
      openQ := pq.push (v, q) s.openQ                                     -- :191
      safe := s.safe && inGrid w h c && inGrid w h q }

/-- Barnes2014.hpp:175-194: one iteration of the main loop of `PriorityFlood_Original`. -/
def origStep (pq : PQ (E × Cell) zLt) (w h : Nat) (t : Topo) (s : FState E) :
    Option (FState E) :=
  match pq.pop s.openQ with
  | none => none                                                          -- :175
  | some (c, rest) =>                                                     -- :176-177
    some ((dirs t).foldl (origNbr pq w h t c.2)
      { s with openQ := rest, processed := s.processed + 1 })             -- :178-192

/-- Barnes2014.hpp:136-198 `PriorityFlood_Original`. -/
def priorityFloodOriginal (pq : PQ (E × Cell) zLt) (w h : Nat) (t : Topo) (dem : Cell → E) :
    FState E :=
  loop (origStep pq w h t) (floodFuel w h) (floodInit pq w h dem)

/-! #### PriorityFlood_Barnes2014 -/

/-- Barnes2014.hpp:282-298: body of the neighbour loop of `PriorityFlood_Barnes2014`. -/
def barnesNbr (pq : PQ (E × Cell) zLt) (w h : Nat) (t : Topo) (c : E × Cell) (s : FState E)
    (n : Nat) : FState E :=
  let q := nbr t c.2 n
  if inGrid w h q = false then s                                          -- :285
  else if s.closed q then s                                               -- :286-287
  else
    let s := { s with closed := Function.update s.closed q true           -- :289
                      safe := s.safe && inGrid w h q }
    if s.elev q ≤ c.1 then                                                -- :290
      let s := if s.elev q < c.1 then                                     -- :291
          { s with pitc := s.pitc + 1, elev := Function.update s.elev q c.1 }  -- :292-293
        else s
      { s with pitQ := s.pitQ ++ [(c.1, q)] }                             -- :295
    else { s with openQ := pq.push (s.elev q, q) s.openQ }                -- :297

/-- Barnes2014.hpp:273-279: take the next cell, from the pit queue if it is non-empty. -/
def barnesNext (pq : PQ (E × Cell) zLt) (s : FState E) : Option ((E × Cell) × FState E) :=
  match s.pitQ with
  | c :: rest => some (c, { s with pitQ := rest })
  | [] => match pq.pop s.openQ with
    | some (c, rest) => some (c, { s with openQ := rest })
    | none => none

/-- Barnes2014.hpp:271-300: one iteration of the main loop of `PriorityFlood_Barnes2014`. -/
def barnesStep (pq : PQ (E × Cell) zLt) (w h : Nat) (t : Topo) (s : FState E) :
    Option (FState E) :=
  match barnesNext pq s with
  | none => none
  | some (c, s) =>
    some ((dirs t).foldl (barnesNbr pq w h t c) { s with processed := s.processed + 1 })

/-- Barnes2014.hpp:230-304 `PriorityFlood_Barnes2014`. -/
def priorityFloodBarnes (pq : PQ (E × Cell) zLt) (w h : Nat) (t : Topo) (dem : Cell → E) :
    FState E :=
  loop (barnesStep pq w h t) (floodFuel w h) (floodInit pq w h dem)

/-! #### HasDepressions -/

/-- State of `HasDepressions`: `found` is the early `return true`. -/
structure HState (E : Type*) where
  closed : Cell → Bool
  openQ : List (E × Cell)
  found : Bool

/-- Barnes2014.hpp:85-99: body of the neighbour loop of `HasDepressions` (skipped after the
early return). -/
def hasDepNbr (pq : PQ (E × Cell) zLt) (w h : Nat) (t : Topo) (dem : Cell → E) (c : Cell)
    (s : HState E) (n : Nat) : HState E :=
  if s.found then s else
  let q := nbr t c n
  if inGrid w h q = false then s                                          -- :88
  else if s.closed q then s                                               -- :89-90
  else
    let s := { s with closed := Function.update s.closed q true }         -- :92
    if dem q < dem c then { s with found := true }                        -- :93-97
    else { s with openQ := pq.push (dem q, q) s.openQ }                   -- :98

/-- Barnes2014.hpp:80-100: one iteration of the main loop of `HasDepressions`. -/
def hasDepStep (pq : PQ (E × Cell) zLt) (w h : Nat) (t : Topo) (dem : Cell → E) (s : HState E) :
    Option (HState E) :=
  if s.found then none else
  match pq.pop s.openQ with
  | none => none
  | some (c, rest) => some ((dirs t).foldl (hasDepNbr pq w h t dem c.2) { s with openQ := rest })

/-- Barnes2014.hpp:44-104 `HasDepressions`. -/
def hasDepressions (pq : PQ (E × Cell) zLt) (w h : Nat) (t : Topo) (dem : Cell → E) : Bool :=
  (loop (hasDepStep pq w h t dem) (floodFuel w h)
    { closed := markAll (perimeter w h) (fun _ => false)
      openQ := pq.pushAll ((perimeter w h).map (fun c => (dem c, c))) []
      found := false }).found

/-- An executable heap for concrete examples. -/
def zPQ : PQ (E × Cell) (zLt (E := E)) :=
  let p := scanPQ (A := E × Cell) (fun a b => decide (a.1 < b.1))
    (fun a b c h1 h2 => by simp only [decide_eq_true_eq, not_lt] at *; exact h1.trans h2)
    (fun a => by simp) (fun a b h => by simp only [decide_eq_true_eq, not_lt] at *; exact h.le)
  { push := p.push, pop := p.pop, push_perm := p.push_perm, pop_nil := p.pop_nil
    pop_cons := fun l hl => by
      obtain ⟨e, r, h1, h2, h3⟩ := p.pop_cons l hl
      exact ⟨e, r, h1, h2, fun f hf => by simpa [zLt] using h3 f hf⟩ }

/-! ### Invariants -/

/-- Queue membership as a predicate. -/
def inQ (a b : List (E × Cell)) : E × Cell → Prop := fun e => e ∈ a ∨ e ∈ b

/-- Counting part of the invariant. -/
structure CInv (w h : Nat) (dem : Cell → E) (s : FState E) (cur : Nat) : Prop where
  count : s.processed + s.openQ.length + s.pitQ.length + unflagged w h s.closed =
    (perimeter w h).length + unflagged w h (markAll (perimeter w h) (fun _ => false)) + cur
  pitc : s.pitc = (allCells w h).countP (fun c => decide (dem c < s.elev c))
  safe : s.safe = true

theorem countP_raise {w h : Nat} {dem elev : Cell → E} {q : Cell} {v : E} (hq : InGrid w h q)
    (hold : elev q = dem q) (hv : dem q < v) :
    (allCells w h).countP (fun c => decide (dem c < Function.update elev q v c)) =
    (allCells w h).countP (fun c => decide (dem c < elev c)) + 1 := by
  symm
  refine countP_update (nodup_allCells w h) (mem_allCells.2 hq) ?_ ?_ ?_
  · simp [hv]
  · simp [hold]
  · intro d hd; simp [Function.update_of_ne hd]

theorem countP_noraise {w h : Nat} {dem elev : Cell → E} {q : Cell} {v : E}
    (hold : elev q = dem q) (hv : v = dem q) :
    (allCells w h).countP (fun c => decide (dem c < Function.update elev q v c)) =
    (allCells w h).countP (fun c => decide (dem c < elev c)) := by
  have : Function.update elev q v = elev := by
    rw [hv, ← hold]; exact Function.update_eq_self _ _
  rw [this]

/-- Full invariant between iterations. -/
structure OInv (w h : Nat) (t : Topo) (dem : Cell → E) (s : FState E) : Prop where
  core : FInv w h t dem s.elev s.closed (inQ s.openQ s.pitQ) (fun _ => False)
  cnt : CInv w h dem s 0
  pit : ∀ e ∈ s.pitQ, (∀ f ∈ s.pitQ, e.1 = f.1) ∧ ∀ f ∈ s.openQ, e.1 ≤ f.1

/-- Full invariant inside the neighbour loop of `c`. -/
structure MInv (w h : Nat) (t : Topo) (dem : Cell → E) (c : E × Cell) (s : FState E) : Prop where
  core : FInv w h t dem s.elev s.closed (inQ s.openQ s.pitQ) (· = c.2)
  cnt : CInv w h dem s 0
  cc : s.closed c.2 = true
  cz : c.1 = s.elev c.2
  minO : ∀ e ∈ s.openQ, c.1 ≤ e.1
  pitz : ∀ e ∈ s.pitQ, e.1 = c.1

theorem MInv.finish {w h : Nat} {t : Topo} {dem : Cell → E} {c : E × Cell} {s : FState E}
    (hm : MInv w h t dem c s) (hall : ∀ n ∈ dirs t, InGrid w h (nbr t c.2 n) →
      s.closed (nbr t c.2 n) = true) : OInv w h t dem s where
  core := hm.core.finish (fun d ha hd => by
    obtain ⟨n, hn, rfl⟩ := adj_iff_nbr.1 ha
    exact hall n hn hd)
  cnt := hm.cnt
  pit := fun e he => ⟨fun f hf => by rw [hm.pitz e he, hm.pitz f hf],
    fun f hf => by rw [hm.pitz e he]; exact hm.minO f hf⟩

theorem floodInit_inv (pq : PQ (E × Cell) zLt) {w h : Nat} (t : Topo) (dem : Cell → E)
    (hw : 0 < w) (hh : 0 < h) : OInv w h t dem (floodInit pq w h dem) := by
  have hQ : ∀ e, inQ (floodInit pq w h dem).openQ (floodInit pq w h dem).pitQ e ↔
      ∃ c ∈ perimeter w h, e = (dem c, c) := by
    intro e
    simp only [inQ, floodInit, pq.mem_pushAll, List.mem_map, List.not_mem_nil, or_false]
    constructor
    · rintro ⟨c, hc, rfl⟩; exact ⟨c, hc, rfl⟩
    · rintro ⟨c, hc, rfl⟩; exact ⟨c, hc, rfl⟩
  refine ⟨FInv.init dem hw hh ?_ hQ, ⟨?_, ?_, ?_⟩, ?_⟩
  · intro c; simp only [floodInit]; rw [markAll_iff]; simp
  · simp only [floodInit, pq.length_pushAll]; simp
  · simp only [floodInit]; symm; rw [List.countP_eq_zero]; simp
  · simp only [floodInit, List.all_eq_true]
    intro c hc; rw [inGrid_iff]; exact ((mem_perimeter hw hh).1 hc).1
  · simp [floodInit]

theorem origNbr_inv (pq : PQ (E × Cell) zLt) {w h : Nat} {t : Topo} {dem : Cell → E}
    {c : E × Cell} {s : FState E} {n : Nat} (hn : n ∈ dirs t) (hp : s.pitQ = [])
    (hm : MInv w h t dem c s) :
    (MInv w h t dem c (origNbr pq w h t c.2 s n) ∧ (origNbr pq w h t c.2 s n).pitQ = []) ∧
    (InGrid w h (nbr t c.2 n) → (origNbr pq w h t c.2 s n).closed (nbr t c.2 n) = true) ∧
    (∀ d, s.closed d = true → (origNbr pq w h t c.2 s n).closed d = true) := by
  unfold origNbr
  simp only
  split
  · next hg => exact ⟨⟨hm, hp⟩, fun h => absurd h (inGrid_false.1 hg), fun d hd => hd⟩
  · next hg =>
    have hg' : InGrid w h (nbr t c.2 n) := by
      rw [← inGrid_iff]; simpa using hg
    split
    · next hcl => exact ⟨⟨hm, hp⟩, fun _ => hcl, fun d hd => hd⟩
    · next hcl =>
      have hcl' : s.closed (nbr t c.2 n) = false := by simpa using hcl
      have hfresh := hm.core.fresh _ hcl'
      have hmin : ∀ e, inQ s.openQ s.pitQ e → s.elev c.2 ≤ e.1 := by
        rw [← hm.cz]
        rintro e (he | he)
        · exact hm.minO e he
        · rw [hp] at he; simp at he
      have hc := hm.core.close (v := max (s.elev (nbr t c.2 n)) (s.elev c.2))
        (Q' := inQ (pq.push (max (s.elev (nbr t c.2 n)) (s.elev c.2), nbr t c.2 n) s.openQ) s.pitQ)
        hm.cc hmin (nbr_adj hn) hg' hcl' (by rw [hfresh])
        (by intro e; simp only [inQ, pq.mem_push]; tauto)
      have hne : c.2 ≠ nbr t c.2 n := by
        intro e; rw [← e, hm.cc] at hcl'; cases hcl'
      refine ⟨⟨⟨hc.1, ⟨?_, ?_, ?_⟩, ?_, ?_, ?_, ?_⟩, hp⟩, ?_, ?_⟩
      · have := hm.cnt.count
        have hu := unflagged_update hg' hcl'
        simp only [pq.length_push]
        omega
      · simp only
        rcases lt_or_ge (s.elev (nbr t c.2 n)) (s.elev c.2) with hlt | hge
        · rw [if_pos hlt, countP_raise hg' hfresh, hm.cnt.pitc]
          rw [← hfresh]; exact lt_max_of_lt_right hlt
        · rw [if_neg (not_lt.2 hge), countP_noraise hfresh, hm.cnt.pitc]
          rw [max_eq_left hge, hfresh]
      · simp only [hm.cnt.safe, inGrid_iff.2 hg', inGrid_iff.2 (hm.core.inside _ hm.cc)]; rfl
      · simp only; rw [Function.update_of_ne hne]; exact hm.cc
      · simp only; rw [Function.update_of_ne hne]; exact hm.cz
      · intro e he
        rw [pq.mem_push] at he
        rcases he with rfl | he
        · rw [hm.cz]; exact le_max_right _ _
        · exact hm.minO e he
      · intro e he; exact hm.pitz e he
      · intro _; simp
      · intro d hd
        by_cases e : d = nbr t c.2 n
        · subst e; simp
        · simp only; rw [Function.update_of_ne e]; exact hd

/-- Popping from the heap starts an expansion at a cell of minimal level. -/
theorem start_inv (pq : PQ (E × Cell) zLt) {w h : Nat} {t : Topo} {dem : Cell → E}
    {s : FState E} (hs : OInv w h t dem s) (hp : s.pitQ = []) {c : E × Cell}
    {rest : List (E × Cell)} (hpop : pq.pop s.openQ = some (c, rest)) :
    MInv w h t dem c { s with openQ := rest, processed := s.processed + 1 } := by
  obtain ⟨hperm, hmin⟩ := pq.pop_some hpop
  have hmem : c ∈ s.openQ := hperm.mem_iff.2 (by simp)
  have hq := hs.core.queued c (Or.inl hmem)
  refine ⟨?_, ⟨?_, hs.cnt.pitc, hs.cnt.safe⟩, hq.1, hq.2, ?_, ?_⟩
  · refine hs.core.start ?_
    intro f; simp only [inQ, hperm.mem_iff, List.mem_cons]; tauto
  · have := hs.cnt.count
    have hl := hperm.length_eq
    simp only [List.length_cons] at hl
    simp only; omega
  · intro e he
    have := hmin e (hperm.mem_iff.2 (by simp [he]))
    exact not_lt.1 this
  · simp [hp]

/-- Termination measure. -/
def fMeasure (w h : Nat) (s : FState E) : Nat :=
  s.openQ.length + s.pitQ.length + unflagged w h s.closed

theorem fMeasure_eq {w h : Nat} {dem : Cell → E} {s : FState E} (hc : CInv w h dem s 0) :
    s.processed + fMeasure w h s =
      (perimeter w h).length + unflagged w h (markAll (perimeter w h) (fun _ => false)) := by
  have := hc.count; unfold fMeasure; omega

theorem origStep_inv (pq : PQ (E × Cell) zLt) {w h : Nat} {t : Topo} {dem : Cell → E}
    (s s' : FState E) (hs : OInv w h t dem s ∧ s.pitQ = []) (hst : origStep pq w h t s = some s') :
    (OInv w h t dem s' ∧ s'.pitQ = []) ∧ fMeasure w h s' < fMeasure w h s := by
  unfold origStep at hst
  cases hpop : pq.pop s.openQ with
  | none => rw [hpop] at hst; cases hst
  | some cr =>
    obtain ⟨c, rest⟩ := cr
    rw [hpop] at hst
    simp only [Option.some.injEq] at hst
    have h0 := start_inv pq hs.1 hs.2 hpop
    have key := foldl_inv (f := origNbr pq w h t c.2)
      (fun s => MInv w h t dem c s ∧ s.pitQ = [])
      (fun n s => InGrid w h (nbr t c.2 n) → s.closed (nbr t c.2 n) = true) (dirs t)
      { s with openQ := rest, processed := s.processed + 1 }
      (fun s n hn hp => by
        have := origNbr_inv pq hn hp.2 hp.1
        exact ⟨this.1, this.2.1⟩)
      (fun s n m hn hp hr hg => (origNbr_inv pq hn hp.2 hp.1).2.2 _ (hr hg))
      ⟨h0, hs.2⟩
    rw [hst] at key
    have hO := key.1.1.finish key.2.1
    refine ⟨⟨hO, key.1.2⟩, ?_⟩
    have e1 := fMeasure_eq hO.cnt
    have e2 := fMeasure_eq hs.1.cnt
    have hp' : s'.processed = s.processed + 1 := by
      rw [← hst]
      refine foldl_inv' (fun r : FState E => r.processed = s.processed + 1) _ _ ?_ rfl
      intro r n _ hr
      unfold origNbr; simp only; split <;> [exact hr; split <;> exact hr]
    omega

theorem barnesNbr_inv (pq : PQ (E × Cell) zLt) {w h : Nat} {t : Topo} {dem : Cell → E}
    {c : E × Cell} {s : FState E} {n : Nat} (hn : n ∈ dirs t)
    (hm : MInv w h t dem c s) :
    MInv w h t dem c (barnesNbr pq w h t c s n) ∧
    (InGrid w h (nbr t c.2 n) → (barnesNbr pq w h t c s n).closed (nbr t c.2 n) = true) ∧
    (∀ d, s.closed d = true → (barnesNbr pq w h t c s n).closed d = true) := by
  unfold barnesNbr
  simp only
  split
  · next hg => exact ⟨hm, fun h => absurd h (inGrid_false.1 hg), fun d hd => hd⟩
  · next hg =>
    have hg' : InGrid w h (nbr t c.2 n) := by
      rw [← inGrid_iff]; simpa using hg
    split
    · next hcl => exact ⟨hm, fun _ => hcl, fun d hd => hd⟩
    · next hcl =>
      have hcl' : s.closed (nbr t c.2 n) = false := by simpa using hcl
      have hfresh := hm.core.fresh _ hcl'
      have hmin : ∀ e, inQ s.openQ s.pitQ e → s.elev c.2 ≤ e.1 := by
        rw [← hm.cz]
        rintro e (he | he)
        · exact hm.minO e he
        · rw [hm.pitz e he]
      have hne : c.2 ≠ nbr t c.2 n := by
        intro e; rw [← e, hm.cc] at hcl'; cases hcl'
      have hcl2 : ∀ d, s.closed d = true →
          Function.update s.closed (nbr t c.2 n) true d = true := by
        intro d hd
        by_cases e : d = nbr t c.2 n
        · subst e; simp
        · rw [Function.update_of_ne e]; exact hd
      have hu := unflagged_update hg' hcl'
      have hcount := hm.cnt.count
      split
      · next hle =>
        -- joins the pit queue with level `c.1`
        have hv : c.1 = max (dem (nbr t c.2 n)) (s.elev c.2) := by
          rw [← hm.cz, ← hfresh, max_eq_right hle]
        have hc := hm.core.close (v := c.1)
          (Q' := inQ s.openQ (s.pitQ ++ [(c.1, nbr t c.2 n)]))
          hm.cc hmin (nbr_adj hn) hg' hcl' hv
          (by intro e; simp only [inQ, List.mem_append, List.mem_singleton]; tauto)
        have hpit : ∀ e ∈ s.pitQ ++ [(c.1, nbr t c.2 n)], e.1 = c.1 := by
          intro e he
          rcases List.mem_append.1 he with he | he
          · exact hm.pitz e he
          · rw [List.mem_singleton.1 he]
        split
        · next hlt =>
          refine ⟨⟨hc.1, ⟨?_, ?_, ?_⟩, hcl2 _ hm.cc, ?_, hm.minO, hpit⟩, fun _ => by simp, hcl2⟩
          · simp only [List.length_append, List.length_singleton]; omega
          · simp only; rw [countP_raise hg' hfresh (by rw [← hfresh]; exact hlt), hm.cnt.pitc]
          · simp only [hm.cnt.safe, inGrid_iff.2 hg']; rfl
          · simp only; rw [Function.update_of_ne hne]; exact hm.cz
        · next hlt =>
          have heq : s.elev (nbr t c.2 n) = c.1 := le_antisymm hle (not_lt.1 hlt)
          have hself : Function.update s.elev (nbr t c.2 n) c.1 = s.elev := by
            rw [← heq]; exact Function.update_eq_self _ _
          have hc1 := hc.1
          rw [hself] at hc1
          refine ⟨⟨hc1, ⟨?_, hm.cnt.pitc, ?_⟩, hcl2 _ hm.cc, hm.cz, hm.minO, hpit⟩,
            fun _ => by simp, hcl2⟩
          · simp only [List.length_append, List.length_singleton]; omega
          · simp only [hm.cnt.safe, inGrid_iff.2 hg']; rfl
      · next hgt =>
        have hgt' : c.1 < s.elev (nbr t c.2 n) := not_le.1 hgt
        have hv : s.elev (nbr t c.2 n) = max (dem (nbr t c.2 n)) (s.elev c.2) := by
          rw [← hm.cz, ← hfresh, max_eq_left hgt'.le]
        have hc := hm.core.close (v := s.elev (nbr t c.2 n))
          (Q' := inQ (pq.push (s.elev (nbr t c.2 n), nbr t c.2 n) s.openQ) s.pitQ)
          hm.cc hmin (nbr_adj hn) hg' hcl' hv
          (by intro e; simp only [inQ, pq.mem_push]; tauto)
        have hself : Function.update s.elev (nbr t c.2 n) (s.elev (nbr t c.2 n)) = s.elev :=
          Function.update_eq_self _ _
        have hc1 := hc.1
        rw [hself] at hc1
        refine ⟨⟨hc1, ⟨?_, hm.cnt.pitc, ?_⟩, hcl2 _ hm.cc, hm.cz, ?_, hm.pitz⟩,
            fun _ => by simp, hcl2⟩
        · simp only [pq.length_push]; omega
        · simp only [hm.cnt.safe, inGrid_iff.2 hg']; rfl
        · intro e he
          rw [pq.mem_push] at he
          rcases he with rfl | he
          · exact hgt'.le
          · exact hm.minO e he

theorem barnesNext_inv (pq : PQ (E × Cell) zLt) {w h : Nat} {t : Topo} {dem : Cell → E}
    {s s1 : FState E} (hs : OInv w h t dem s) {c : E × Cell}
    (hn : barnesNext pq s = some (c, s1)) :
    MInv w h t dem c { s1 with processed := s1.processed + 1 } ∧ s1.processed = s.processed := by
  unfold barnesNext at hn
  cases hp : s.pitQ with
  | nil =>
    rw [hp] at hn
    cases hpop : pq.pop s.openQ with
    | none => rw [hpop] at hn; cases hn
    | some cr =>
      obtain ⟨c', rest⟩ := cr
      rw [hpop] at hn
      simp only [Option.some.injEq, Prod.mk.injEq] at hn
      obtain ⟨rfl, rfl⟩ := hn
      have := start_inv pq hs hp hpop
      rw [hp] at this
      exact ⟨this, rfl⟩
  | cons a rest =>
    rw [hp] at hn
    simp only [Option.some.injEq, Prod.mk.injEq] at hn
    obtain ⟨rfl, rfl⟩ := hn
    have ha : a ∈ s.pitQ := by rw [hp]; simp
    have hq := hs.core.queued a (Or.inr ha)
    have hpa := hs.pit a ha
    refine ⟨⟨?_, ⟨?_, hs.cnt.pitc, hs.cnt.safe⟩, hq.1, hq.2, hpa.2, ?_⟩, rfl⟩
    · refine hs.core.start ?_
      intro f; simp only [inQ, hp, List.mem_cons]; tauto
    · have := hs.cnt.count
      rw [hp] at this
      simp only [List.length_cons] at this
      simp only; omega
    · intro e he
      exact (hpa.1 e (by rw [hp]; simp [show e ∈ rest from he])).symm

theorem barnesStep_inv (pq : PQ (E × Cell) zLt) {w h : Nat} {t : Topo} {dem : Cell → E}
    (s s' : FState E) (hs : OInv w h t dem s) (hst : barnesStep pq w h t s = some s') :
    OInv w h t dem s' ∧ fMeasure w h s' < fMeasure w h s := by
  unfold barnesStep at hst
  cases hnx : barnesNext pq s with
  | none => rw [hnx] at hst; cases hst
  | some cr =>
    obtain ⟨c, s1⟩ := cr
    rw [hnx] at hst
    simp only [Option.some.injEq] at hst
    obtain ⟨h0, hpr⟩ := barnesNext_inv pq hs hnx
    have key := foldl_inv (f := barnesNbr pq w h t c)
      (fun s => MInv w h t dem c s)
      (fun n s => InGrid w h (nbr t c.2 n) → s.closed (nbr t c.2 n) = true) (dirs t)
      { s1 with processed := s1.processed + 1 }
      (fun s n hn hp => by
        have := barnesNbr_inv pq hn hp
        exact ⟨this.1, this.2.1⟩)
      (fun s n m hn hp hr hg => (barnesNbr_inv pq hn hp).2.2 _ (hr hg))
      h0
    rw [hst] at key
    have hO := key.1.finish key.2.1
    refine ⟨hO, ?_⟩
    have e1 := fMeasure_eq hO.cnt
    have e2 := fMeasure_eq hs.cnt
    have hp' : s'.processed = s.processed + 1 := by
      rw [← hst]
      refine foldl_inv' (fun r : FState E => r.processed = s.processed + 1) _ _ ?_ (by simp [hpr])
      intro r n _ hr
      unfold barnesNbr; simp only
      split
      · exact hr
      · split
        · exact hr
        · split
          · split <;> exact hr
          · exact hr
    omega

theorem floodInit_measure (pq : PQ (E × Cell) zLt) {w h : Nat} (dem : Cell → E) :
    fMeasure w h (floodInit pq w h dem) ≤ floodFuel w h := by
  have h1 := unflagged_le w h (floodInit pq w h dem).closed
  have h2 := length_perimeter w h
  simp only [fMeasure, floodFuel]
  have h3 : (floodInit pq w h dem).openQ.length = (perimeter w h).length := by
    simp [floodInit, pq.length_pushAll]
  have h4 : (floodInit pq w h dem).pitQ.length = 0 := rfl
  omega

theorem barnesNext_none (pq : PQ (E × Cell) zLt) {s : FState E} (h : barnesNext pq s = none) :
    s.openQ = [] ∧ s.pitQ = [] := by
  unfold barnesNext at h
  cases hp : s.pitQ with
  | cons a r => rw [hp] at h; cases h
  | nil =>
    rw [hp] at h
    cases hpop : pq.pop s.openQ with
    | none => exact ⟨pq.pop_none.1 hpop, rfl⟩
    | some cr => rw [hpop] at h; cases h

theorem origStep_none (pq : PQ (E × Cell) zLt) {w h : Nat} {t : Topo} {s : FState E}
    (h3 : origStep pq w h t s = none) : s.openQ = [] := by
  unfold origStep at h3
  cases hpop : pq.pop s.openQ with
  | none => exact pq.pop_none.1 hpop
  | some cr => rw [hpop] at h3; cases h3

theorem barnesStep_none (pq : PQ (E × Cell) zLt) {w h : Nat} {t : Topo} {s : FState E}
    (h3 : barnesStep pq w h t s = none) : barnesNext pq s = none := by
  unfold barnesStep at h3
  cases hpop : barnesNext pq s with
  | none => rfl
  | some cr => rw [hpop] at h3; cases h3

/-- Everything the end state of `PriorityFlood_Original` satisfies. -/
theorem orig_final (pq : PQ (E × Cell) zLt) {w h : Nat} (t : Topo) (dem : Cell → E)
    (hw : 0 < w) (hh : 0 < h) :
    let s := priorityFloodOriginal pq w h t dem
    OInv w h t dem s ∧ s.openQ = [] ∧ s.pitQ = [] ∧ origStep pq w h t s = none := by
  have := loop_spec (step := origStep pq w h t) (fun s => OInv w h t dem s ∧ s.pitQ = [])
    (fMeasure w h) (fun s s' hs hst => origStep_inv pq s s' hs hst)
    (floodFuel w h) (floodInit pq w h dem) ⟨floodInit_inv pq t dem hw hh, rfl⟩
    (floodInit_measure pq dem)
  obtain ⟨⟨h1, h2⟩, h3⟩ := this
  refine ⟨h1, ?_, h2, h3⟩
  exact origStep_none pq h3

/-- Everything the end state of `PriorityFlood_Barnes2014` satisfies. -/
theorem barnes_final (pq : PQ (E × Cell) zLt) {w h : Nat} (t : Topo) (dem : Cell → E)
    (hw : 0 < w) (hh : 0 < h) :
    let s := priorityFloodBarnes pq w h t dem
    OInv w h t dem s ∧ s.openQ = [] ∧ s.pitQ = [] ∧ barnesStep pq w h t s = none := by
  have := loop_spec (step := barnesStep pq w h t) (fun s => OInv w h t dem s)
    (fMeasure w h) (fun s s' hs hst => barnesStep_inv pq s s' hs hst)
    (floodFuel w h) (floodInit pq w h dem) (floodInit_inv pq t dem hw hh)
    (floodInit_measure pq dem)
  obtain ⟨h1, h3⟩ := this
  have h4 := barnesNext_none pq (barnesStep_none pq h3)
  exact ⟨h1, h4.1, h4.2, h3⟩

theorem OInv.filled {w h : Nat} {t : Topo} {dem : Cell → E} {s : FState E}
    (hs : OInv w h t dem s) (h1 : s.openQ = []) (h2 : s.pitQ = []) :
    (∀ c, InGrid w h c → s.closed c = true) ∧ IsFilled w h t dem s.elev ∧
      Drained w h t s.elev := by
  refine hs.core.final ?_
  rintro e (he | he)
  · rw [h1] at he; simp at he
  · rw [h2] at he; simp at he

/-! #### HasDepressions -/

structure HInv (w h : Nat) (t : Topo) (dem : Cell → E) (cur : Cell → Prop) (s : HState E) :
    Prop where
  core : FInv w h t dem dem s.closed (· ∈ s.openQ) cur

/-- A depression has been found: some cell's water level is above its elevation. -/
def HasDep (w h : Nat) (t : Topo) (dem : Cell → E) : Prop :=
  ∃ q z, InGrid w h q ∧ IsWaterLevel w h t dem q z ∧ dem q < z

theorem exists_waterLevel (w h : Nat) (t : Topo) (pq : PQ (E × Cell) zLt) (dem : Cell → E) {c : Cell}
    (hc : InGrid w h c) : ∃ z, IsWaterLevel w h t dem c z := by
  have hw : 0 < w := by obtain ⟨h1, h2, _, _⟩ := hc; omega
  have hh : 0 < h := by obtain ⟨_, _, h1, h2⟩ := hc; omega
  obtain ⟨h1, h2, h3, _⟩ := orig_final pq (w := w) (h := h) t dem hw hh
  exact ⟨_, (h1.filled h2 h3).2.1 c hc⟩

structure HMid (w h : Nat) (t : Topo) (dem : Cell → E) (c : E × Cell) (s : HState E) : Prop where
  run : s.found = false → FInv w h t dem dem s.closed (· ∈ s.openQ) (· = c.2) ∧
    s.closed c.2 = true ∧ c.1 = dem c.2 ∧ ∀ e ∈ s.openQ, c.1 ≤ e.1
  stop : s.found = true → HasDep w h t dem

theorem hasDepNbr_inv (pq : PQ (E × Cell) zLt) {w h : Nat} {t : Topo} {dem : Cell → E}
    {c : E × Cell} {s : HState E} {n : Nat} (hn : n ∈ dirs t) (hm : HMid w h t dem c s) :
    let s' := hasDepNbr pq w h t dem c.2 s n
    HMid w h t dem c s' ∧
    (s'.found = false → InGrid w h (nbr t c.2 n) → s'.closed (nbr t c.2 n) = true) ∧
    (s'.found = false → s.found = false) ∧
    (∀ d, s.closed d = true → s'.closed d = true) ∧
    (s'.found = false → s'.openQ.length + unflagged w h s'.closed =
      s.openQ.length + unflagged w h s.closed) := by
  unfold hasDepNbr
  simp only
  split
  · next hf => refine ⟨hm, ?_, ?_, fun _ h => h, ?_⟩ <;> (intro h; simp [hf] at h)
  · next hf =>
    have hf' : s.found = false := by simpa using hf
    obtain ⟨hI, hcc, hcz, hmin⟩ := hm.run hf'
    split
    · next hg => exact ⟨hm, fun _ h => absurd h (inGrid_false.1 hg), fun h => h, fun _ h => h, fun _ => rfl⟩
    · next hg =>
      have hg' : InGrid w h (nbr t c.2 n) := by rw [← inGrid_iff]; simpa using hg
      split
      · next hcl => exact ⟨hm, fun _ _ => hcl, fun h => h, fun _ h => h, fun _ => rfl⟩
      · next hcl =>
        have hcl' : s.closed (nbr t c.2 n) = false := by simpa using hcl
        have hcl2 : ∀ d, s.closed d = true →
            Function.update s.closed (nbr t c.2 n) true d = true := by
          intro d hd
          by_cases e : d = nbr t c.2 n
          · subst e; simp
          · rw [Function.update_of_ne e]; exact hd
        have hc := hI.close (v := max (dem (nbr t c.2 n)) (dem c.2))
          (Q' := fun e => e = (max (dem (nbr t c.2 n)) (dem c.2), nbr t c.2 n) ∨ e ∈ s.openQ)
          hcc (by rw [← hcz]; exact hmin) (nbr_adj hn) hg' hcl' rfl (fun e => Iff.rfl)
        split
        · next hlt =>
          refine ⟨⟨by simp, fun _ => ?_⟩, by simp, by simp, hcl2, by simp⟩
          refine ⟨nbr t c.2 n, max (dem (nbr t c.2 n)) (dem c.2), hg', ?_, ?_⟩
          · rw [isWaterLevel_iff]
            have h1 := hc.1.sound (nbr t c.2 n) (by simp)
            have h2 := hc.1.least (nbr t c.2 n) (by simp)
            rw [Function.update_self] at h1 h2
            exact ⟨h1, h2⟩
          · exact lt_max_of_lt_right hlt
        · next hge =>
          have hmax : max (dem (nbr t c.2 n)) (dem c.2) = dem (nbr t c.2 n) :=
            max_eq_left (not_lt.1 hge)
          rw [hmax] at hc
          rw [Function.update_eq_self] at hc
          refine ⟨⟨fun _ => ⟨?_, hcl2 _ hcc, hcz, ?_⟩, ?_⟩, fun _ _ => by simp, fun h => h, hcl2, ?_⟩
          · refine ⟨hc.1.fresh, hc.1.inside, hc.1.edges, ?_, ?_, hc.1.sound, hc.1.least, hc.1.mono⟩
            · intro e he
              exact hc.1.queued e (pq.mem_push.1 he)
            · intro d hd
              rcases hc.1.frontier d hd with h1 | h1 | h1
              · exact Or.inl h1
              · exact Or.inr (Or.inl (pq.mem_push.2 h1))
              · exact Or.inr (Or.inr h1)
          · intro e he
            rcases pq.mem_push.1 he with rfl | he
            · rw [hcz]; exact not_lt.1 hge
            · exact hmin e he
          · intro h; simp only [hf'] at h; cases h
          · intro _
            have hu := unflagged_update hg' hcl'
            simp only [pq.length_push]; omega

/-- Loop invariant of `HasDepressions`. -/
structure HOut (w h : Nat) (t : Topo) (dem : Cell → E) (s : HState E) : Prop where
  run : s.found = false → FInv w h t dem dem s.closed (· ∈ s.openQ) (fun _ => False)
  stop : s.found = true → HasDep w h t dem

/-- Termination measure of `HasDepressions`. -/
def hMeasure (w h : Nat) (s : HState E) : Nat :=
  if s.found then 0 else s.openQ.length + unflagged w h s.closed

theorem hasDepStep_inv (pq : PQ (E × Cell) zLt) {w h : Nat} {t : Topo} {dem : Cell → E}
    (s s' : HState E) (hs : HOut w h t dem s) (hst : hasDepStep pq w h t dem s = some s') :
    HOut w h t dem s' ∧ hMeasure w h s' < hMeasure w h s := by
  unfold hasDepStep at hst
  split at hst
  · cases hst
  · next hf =>
    have hf' : s.found = false := by simpa using hf
    cases hpop : pq.pop s.openQ with
    | none => rw [hpop] at hst; cases hst
    | some cr =>
      obtain ⟨c, rest⟩ := cr
      rw [hpop] at hst
      simp only [Option.some.injEq] at hst
      obtain ⟨hperm, hmin⟩ := pq.pop_some hpop
      have hmem : c ∈ s.openQ := hperm.mem_iff.2 (by simp)
      have hI := hs.run hf'
      have hq := hI.queued c hmem
      have h0 : HMid w h t dem c { s with openQ := rest } := by
        refine ⟨fun _ => ⟨?_, hq.1, hq.2, ?_⟩, fun h => by simp only at h; rw [hf'] at h; cases h⟩
        · refine hI.start ?_
          intro f; simp only [hperm.mem_iff, List.mem_cons]
        · intro e he
          exact not_lt.1 (hmin e (hperm.mem_iff.2 (by simp [show e ∈ rest from he])))
      have key := foldl_inv (f := hasDepNbr pq w h t dem c.2)
        (fun s => HMid w h t dem c s)
        (fun n s => s.found = false → InGrid w h (nbr t c.2 n) → s.closed (nbr t c.2 n) = true)
        (dirs t) { s with openQ := rest }
        (fun s n hn hp => by
          have := hasDepNbr_inv pq hn hp
          exact ⟨this.1, this.2.1⟩)
        (fun s n m hn hp hr hfd hg => by
          have := hasDepNbr_inv pq hn hp
          exact this.2.2.2.1 _ (hr (this.2.2.1 hfd) hg))
        h0
      have key2 := foldl_inv' (f := hasDepNbr pq w h t dem c.2)
        (fun r => HMid w h t dem c r ∧ (r.found = false → r.openQ.length + unflagged w h r.closed =
            rest.length + unflagged w h s.closed))
        (dirs t) { s with openQ := rest }
        (fun r n hn hp => by
          have := hasDepNbr_inv pq hn hp.1
          refine ⟨this.1, fun hfd => ?_⟩
          rw [this.2.2.2.2 hfd]; exact hp.2 (this.2.2.1 hfd))
        ⟨h0, fun _ => rfl⟩
      rw [hst] at key key2
      refine ⟨⟨fun hfd => ?_, key.1.stop⟩, ?_⟩
      · refine (key.1.run hfd).1.finish ?_
        intro d ha hd
        obtain ⟨n, hn, rfl⟩ := adj_iff_nbr.1 ha
        exact key.2.1 n hn hfd hd
      · have hl := hperm.length_eq
        simp only [List.length_cons] at hl
        unfold hMeasure
        rw [if_neg hf]
        split
        · omega
        · next hnf => have := key2.2 (by simpa using hnf); omega

theorem hasDep_final (pq : PQ (E × Cell) zLt) {w h : Nat} (t : Topo) (dem : Cell → E)
    (hw : 0 < w) (hh : 0 < h) : hasDepressions pq w h t dem = true ↔ HasDep w h t dem := by
  unfold hasDepressions
  set s0 : HState E := { closed := markAll (perimeter w h) (fun _ => false)
                         openQ := pq.pushAll ((perimeter w h).map (fun c => (dem c, c))) []
                         found := false } with hs0
  have hi : HOut w h t dem s0 := by
    refine ⟨fun _ => ?_, by simp [hs0]⟩
    have := (floodInit_inv pq t dem hw hh).core
    refine ⟨this.fresh, this.inside, this.edges, ?_, ?_, this.sound, this.least, this.mono⟩
    · intro e he; exact this.queued e (Or.inl he)
    · intro d hd
      rcases this.frontier d hd with h1 | h1 | h1
      · exact Or.inl h1
      · rcases h1 with h1 | h1
        · exact Or.inr (Or.inl h1)
        · simp [floodInit] at h1
      · exact Or.inr (Or.inr h1)
  have hms : hMeasure w h s0 ≤ floodFuel w h := by
    have := floodInit_measure pq (w := w) (h := h) dem
    simp only [hMeasure, hs0, fMeasure, floodInit] at this ⊢
    simpa using this
  have := loop_spec (step := hasDepStep pq w h t dem) (fun s => HOut w h t dem s)
    (hMeasure w h) (fun s s' hs hst => hasDepStep_inv pq s s' hs hst)
    (floodFuel w h) s0 hi hms
  obtain ⟨h1, h2⟩ := this
  set s := loop (hasDepStep pq w h t dem) (floodFuel w h) s0
  constructor
  · exact h1.stop
  · rintro ⟨q, z, hq, hz, hlt⟩
    by_contra hf
    have hf' : s.found = false := by simpa using hf
    have hI := h1.run hf'
    have hemp : s.openQ = [] := by
      unfold hasDepStep at h2
      rw [if_neg hf] at h2
      cases hpop : pq.pop s.openQ with
      | none => exact pq.pop_none.1 hpop
      | some cr => rw [hpop] at h2; cases h2
    have := (hI.final (by intro e; rw [hemp]; simp)).2.1 q hq
    rw [isWaterLevel_unique this hz] at hlt
    exact lt_irrefl _ hlt

end RichDEM
