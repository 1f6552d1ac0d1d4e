/-
Model of `pit_mask` (include/richdem/depressions/Barnes2014.hpp:593-676).
-/
import Verif.Flood

namespace RichDEM

variable {E : Type*} [LinearOrder E]

/-- State of `pit_mask`; the DEM itself is `const`. -/
structure PMState (E : Type*) where
  closed : Cell → Bool
  openQ : List (E × Cell)
  pitQ : List (E × Cell)
  mask : Cell → Nat

/-- Barnes2014.hpp:611-633: flags, mask (resized, i.e. value-initialised to 0), seeding. -/
def pmInit (pq : PQ (E × Cell) zLt) (w h : Nat) (dem : Cell → E) : PMState E where
  closed := markAll (perimeter w h) (fun _ => false)
  openQ := pq.pushAll ((perimeter w h).map (fun c => (dem c, c))) []
  pitQ := []
  mask := fun _ => 0

/-- Barnes2014.hpp:648-666: neighbour loop body. -/
def pmNbr (pq : PQ (E × Cell) zLt) (w h : Nat) (t : Topo) (dem : Cell → E) (c : E × Cell)
    (s : PMState E) (n : Nat) : PMState E :=
  let q := nbr t c.2 n
  if inGrid w h q = false then s                                          -- :651
  else if s.closed q then s                                               -- :652-653
  else
    let s := { s with closed := Function.update s.closed q true }         -- :655
    if dem q ≤ c.1 then                                                   -- :656
      let s := if dem q < c.1 then
          { s with mask := Function.update s.mask q 1 } else s            -- :657-660
      { s with pitQ := s.pitQ ++ [(c.1, q)] }                             -- :661
    else
      { s with mask := Function.update s.mask q 0                         -- :663
               openQ := pq.push (dem q, q) s.openQ }                      -- :664

/-- Barnes2014.hpp:637-646: next cell. -/
def pmNext (pq : PQ (E × Cell) zLt) (s : PMState E) : Option ((E × Cell) × PMState E) :=
  match s.pitQ with
  | c :: rest => some (c, { s with pitQ := rest })
  | [] => match pq.pop s.openQ with
    | some (c, rest) => some (c, { s with openQ := rest })
    | none => none

/-- Barnes2014.hpp:637-672: one iteration. -/
def pmStep (pq : PQ (E × Cell) zLt) (w h : Nat) (t : Topo) (nodata : E) (dem : Cell → E)
    (s : PMState E) : Option (PMState E) :=
  match pmNext pq s with
  | none => none
  | some (c, s) =>
    let s := (dirs t).foldl (pmNbr pq w h t dem c) s
    some (if dem c.2 = nodata then { s with mask := Function.update s.mask c.2 3 } else s) -- :668-669

/-- Barnes2014.hpp:593-676 `pit_mask`. -/
def pitMask (pq : PQ (E × Cell) zLt) (w h : Nat) (t : Topo) (nodata : E) (dem : Cell → E) :
    PMState E :=
  loop (pmStep pq w h t nodata dem) (floodFuel w h) (pmInit pq w h dem)

/-! ### Lockstep with `PriorityFlood_Barnes2014` -/

/-- The queues and flags agree with those of a (ghost) Barnes2014 run `s`. -/
structure PMRel (s : FState E) (p : PMState E) : Prop where
  closed : p.closed = s.closed
  openQ : p.openQ = s.openQ
  pitQ : p.pitQ = s.pitQ

/-- What the mask means. -/
structure PMMask (nodata : E) (dem : Cell → E) (s : FState E) (p : PMState E) : Prop where
  three : ∀ c, p.mask c = 3 → dem c = nodata ∧ p.closed c = true
  other : ∀ c, p.mask c ≠ 3 → p.mask c = if dem c < s.elev c then 1 else 0

theorem pmNbr_rel (pq : PQ (E × Cell) zLt) {w h : Nat} {t : Topo} {dem : Cell → E} {nodata : E}
    {c : E × Cell} {s : FState E} {p : PMState E} {n : Nat}
    (hfr : ∀ c, s.closed c = false → s.elev c = dem c)
    (hr : PMRel s p) (hk : PMMask nodata dem s p) :
    PMRel (barnesNbr pq w h t c s n) (pmNbr pq w h t dem c p n) ∧
    PMMask nodata dem (barnesNbr pq w h t c s n) (pmNbr pq w h t dem c p n) ∧
    (∀ d, p.mask d = 3 → (pmNbr pq w h t dem c p n).mask d = 3) := by
  obtain ⟨h1, h2, h3⟩ := hr
  unfold barnesNbr pmNbr
  simp only [h1]
  split
  · exact ⟨⟨h1, h2, h3⟩, hk, fun d h => h⟩
  · split
    · exact ⟨⟨h1, h2, h3⟩, hk, fun d h => h⟩
    · next hcl =>
      have hcl' : s.closed (nbr t c.2 n) = false := by simpa using hcl
      have hfresh := hfr _ hcl'
      have hm3 : ∀ d, p.mask d = 3 → d ≠ nbr t c.2 n := by
        rintro d hd rfl
        have := (hk.three _ hd).2
        rw [h1, hcl'] at this; cases this
      have hcu : ∀ d, s.closed d = true →
          Function.update s.closed (nbr t c.2 n) true d = true := by
        intro d hd
        by_cases e : d = nbr t c.2 n
        · subst e; simp
        · rw [Function.update_of_ne e]; exact hd
      rw [hfresh]
      split
      · next hle =>
        split
        · next hlt =>
          refine ⟨⟨rfl, h2, by simp [h3]⟩, ⟨?_, ?_⟩, ?_⟩
          · intro d hd
            simp only at hd
            by_cases e : d = nbr t c.2 n
            · subst e; simp at hd
            · rw [Function.update_of_ne e] at hd
              exact ⟨(hk.three d hd).1, hcu d (by rw [← h1]; exact (hk.three d hd).2)⟩
          · intro d hd
            simp only at hd ⊢
            by_cases e : d = nbr t c.2 n
            · subst e; simp [hlt]
            · rw [Function.update_of_ne e] at hd
              simp only [Function.update_of_ne e]; exact hk.other d hd
          · intro d hd; simp only; rw [Function.update_of_ne (hm3 d hd)]; exact hd
        · next hlt =>
          refine ⟨⟨rfl, h2, by simp [h3]⟩, ⟨?_, hk.other⟩, fun d hd => hd⟩
          intro d hd
          exact ⟨(hk.three d hd).1, hcu d (by rw [← h1]; exact (hk.three d hd).2)⟩
      · next hgt =>
        refine ⟨⟨rfl, by simp [h2], h3⟩, ⟨?_, ?_⟩, ?_⟩
        · intro d hd
          simp only at hd
          by_cases e : d = nbr t c.2 n
          · subst e; simp at hd
          · rw [Function.update_of_ne e] at hd
            exact ⟨(hk.three d hd).1, hcu d (by rw [← h1]; exact (hk.three d hd).2)⟩
        · intro d hd
          simp only at hd ⊢
          by_cases e : d = nbr t c.2 n
          · subst e; simp [hfresh]
          · rw [Function.update_of_ne e] at hd ⊢
            exact hk.other d hd
        · intro d hd; simp only; rw [Function.update_of_ne (hm3 d hd)]; exact hd

theorem pmNext_rel (pq : PQ (E × Cell) zLt) {s : FState E} {p : PMState E} (hr : PMRel s p) :
    (pmNext pq p = none ∧ barnesNext pq s = none) ∨
    ∃ c s1 p1, pmNext pq p = some (c, p1) ∧ barnesNext pq s = some (c, s1) ∧ PMRel s1 p1 ∧
      p1.mask = p.mask ∧ s1.elev = s.elev ∧ s1.closed = s.closed ∧
      (∀ e, e ∈ s.openQ ∨ e ∈ s.pitQ → e = c ∨ e ∈ s1.openQ ∨ e ∈ s1.pitQ) := by
  obtain ⟨h1, h2, h3⟩ := hr
  unfold pmNext barnesNext
  rw [h2, h3]
  cases hp : s.pitQ with
  | cons c rest =>
    refine Or.inr ⟨c, _, _, rfl, rfl, ⟨h1, rfl, rfl⟩, rfl, rfl, rfl, ?_⟩
    intro e he; simp only [List.mem_cons] at he ⊢; tauto
  | nil =>
    cases hpop : pq.pop s.openQ with
    | none => exact Or.inl ⟨rfl, rfl⟩
    | some cr =>
      obtain ⟨c, rest⟩ := cr
      refine Or.inr ⟨c, _, _, rfl, rfl, ⟨h1, rfl, rfl⟩, rfl, rfl, rfl, ?_⟩
      intro e he
      have := (pq.pop_some hpop).1.mem_iff (a := e)
      simp only [List.mem_cons, List.not_mem_nil, or_false] at this he ⊢
      rw [this] at he; tauto

/-- Loop invariant of `pit_mask`. -/
structure PMInv (w h : Nat) (t : Topo) (nodata : E) (dem : Cell → E) (s : FState E)
    (p : PMState E) : Prop where
  core : OInv w h t dem s
  rel : PMRel s p
  mask : PMMask nodata dem s p
  nd : ∀ c, p.closed c = true → dem c = nodata →
    p.mask c = 3 ∨ ∃ e, (e ∈ s.openQ ∨ e ∈ s.pitQ) ∧ e.2 = c

theorem barnesNbr_mem (pq : PQ (E × Cell) zLt) {w h : Nat} {t : Topo}
    {c : E × Cell} {s : FState E} {n : Nat} :
    (∀ e, e ∈ s.openQ ∨ e ∈ s.pitQ →
      e ∈ (barnesNbr pq w h t c s n).openQ ∨ e ∈ (barnesNbr pq w h t c s n).pitQ) ∧
    (∀ d, (barnesNbr pq w h t c s n).closed d = true → s.closed d = true ∨
      ∃ e, (e ∈ (barnesNbr pq w h t c s n).openQ ∨ e ∈ (barnesNbr pq w h t c s n).pitQ) ∧ e.2 = d) := by
  unfold barnesNbr
  simp only
  have hcl : ∀ d, Function.update s.closed (nbr t c.2 n) true d = true →
      s.closed d = true ∨ d = nbr t c.2 n := by
    intro d hd
    by_cases e : d = nbr t c.2 n
    · exact Or.inr e
    · rw [Function.update_of_ne e] at hd; exact Or.inl hd
  split
  · exact ⟨fun e h => h, fun d h => Or.inl h⟩
  · split
    · exact ⟨fun e h => h, fun d h => Or.inl h⟩
    · split
      · split
        · refine ⟨fun e h => ?_, fun d h => ?_⟩
          · simp only [List.mem_append]; tauto
          · rcases hcl d h with h | rfl
            · exact Or.inl h
            · exact Or.inr ⟨(c.1, nbr t c.2 n), Or.inr (by simp), rfl⟩
        · refine ⟨fun e h => ?_, fun d h => ?_⟩
          · simp only [List.mem_append]; tauto
          · rcases hcl d h with h | rfl
            · exact Or.inl h
            · exact Or.inr ⟨(c.1, nbr t c.2 n), Or.inr (by simp), rfl⟩
      · refine ⟨fun e h => ?_, fun d h => ?_⟩
        · simp only [pq.mem_push]; tauto
        · rcases hcl d h with h | rfl
          · exact Or.inl h
          · exact Or.inr ⟨_, Or.inl (pq.mem_push.2 (Or.inl rfl)), rfl⟩

theorem pmStep_inv (pq : PQ (E × Cell) zLt) {w h : Nat} {t : Topo} {nodata : E} {dem : Cell → E}
    (p p' : PMState E) (s : FState E) (hs : PMInv w h t nodata dem s p)
    (hst : pmStep pq w h t nodata dem p = some p') :
    ∃ s', PMInv w h t nodata dem s' p' ∧ fMeasure w h s' < fMeasure w h s := by
  rcases pmNext_rel pq hs.rel with ⟨h1, _⟩ | ⟨c, s1, p1, hp1, hs1, hrel, hmask, helev, hclosed, hmem⟩
  · unfold pmStep at hst; rw [h1] at hst; cases hst
  · have hb : barnesStep pq w h t s = some
        ((dirs t).foldl (barnesNbr pq w h t c) { s1 with processed := s1.processed + 1 }) := by
      unfold barnesStep; rw [hs1]
    have hbi := barnesStep_inv pq s _ hs.core hb
    unfold pmStep at hst
    rw [hp1] at hst
    simp only [Option.some.injEq] at hst
    obtain ⟨h0, _⟩ := barnesNext_inv pq hs.core hs1
    have hclc : s.closed c.2 = true := by
      have := h0.cc; simp only at this; rw [← hclosed]; exact this
    -- lockstep fold
    have key : ∀ (l : List Nat), (∀ n ∈ l, n ∈ dirs t) → ∀ (s1 : FState E) (p1 : PMState E),
        MInv w h t dem c s1 → PMRel s1 p1 → PMMask nodata dem s1 p1 →
        (∀ d, p1.closed d = true → dem d = nodata →
          p1.mask d = 3 ∨ d = c.2 ∨ ∃ e, (e ∈ s1.openQ ∨ e ∈ s1.pitQ) ∧ e.2 = d) →
        let s2 := l.foldl (barnesNbr pq w h t c) s1
        let p2 := l.foldl (pmNbr pq w h t dem c) p1
        PMRel s2 p2 ∧ PMMask nodata dem s2 p2 ∧ MInv w h t dem c s2 ∧
        (∀ d, p2.closed d = true → dem d = nodata →
          p2.mask d = 3 ∨ d = c.2 ∨ ∃ e, (e ∈ s2.openQ ∨ e ∈ s2.pitQ) ∧ e.2 = d) := by
      intro l
      induction l with
      | nil => intro _ s1 p1 hm hr hk hnd; exact ⟨hr, hk, hm, hnd⟩
      | cons n l ih =>
        intro hl s1 p1 hm hr hk hnd
        have h1 := pmNbr_rel pq (n := n) (w := w) (h := h) (t := t) (c := c) hm.core.fresh hr hk
        have h2 := barnesNbr_inv pq (hl n (by simp)) hm
        have h3 := barnesNbr_mem pq (w := w) (h := h) (t := t) (c := c) (s := s1) (n := n)
        refine ih (fun m hmm => hl m (by simp [hmm])) _ _ h2.1 h1.1 h1.2.1 ?_
        intro d hd hdn
        rw [h1.1.closed] at hd
        rcases h3.2 d hd with h4 | h4
        · rw [← hr.closed] at h4
          rcases hnd d h4 hdn with h5 | h5 | ⟨e, h5, h6⟩
          · exact Or.inl (h1.2.2 d h5)
          · exact Or.inr (Or.inl h5)
          · exact Or.inr (Or.inr ⟨e, h3.1 e h5, h6⟩)
        · exact Or.inr (Or.inr h4)
    have hk1 : PMMask nodata dem s1 p1 := by
      refine ⟨?_, ?_⟩
      · rw [hmask]; intro d hd; have := hs.mask.three d hd
        exact ⟨this.1, by rw [hrel.closed, hclosed, ← hs.rel.closed]; exact this.2⟩
      · rw [hmask, helev]; exact hs.mask.other
    have hk := key (dirs t) (fun _ h => h) { s1 with processed := s1.processed + 1 } p1 h0
      ⟨hrel.closed, hrel.openQ, hrel.pitQ⟩ ⟨hk1.three, hk1.other⟩ (by
        intro d hd hdn
        rw [hrel.closed, hclosed, ← hs.rel.closed] at hd
        rcases hs.nd d hd hdn with h5 | ⟨e, h5, h6⟩
        · rw [hmask]; exact Or.inl h5
        · rcases hmem e h5 with rfl | h7
          · exact Or.inr (Or.inl h6.symm)
          · exact Or.inr (Or.inr ⟨e, h7, h6⟩))
    refine ⟨_, ⟨hbi.1, ?_, ?_, ?_⟩, hbi.2⟩
    · rw [← hst]
      split <;> exact ⟨hk.1.closed, hk.1.openQ, hk.1.pitQ⟩
    · rw [← hst]
      split
      · next hn =>
        refine ⟨?_, ?_⟩
        · intro d hd
          simp only at hd ⊢
          by_cases e : d = c.2
          · subst e
            refine ⟨hn, ?_⟩
            rw [hk.1.closed]; exact hk.2.2.1.cc
          · rw [Function.update_of_ne e] at hd; exact hk.2.1.three d hd
        · intro d hd
          simp only at hd ⊢
          by_cases e : d = c.2
          · subst e; simp at hd
          · rw [Function.update_of_ne e] at hd ⊢; exact hk.2.1.other d hd
      · exact hk.2.1
    · rw [← hst]
      split
      · next hn =>
        intro d hd hdn
        simp only at hd ⊢
        by_cases e : d = c.2
        · subst e; simp
        · rw [Function.update_of_ne e]
          rcases hk.2.2.2 d hd hdn with h5 | h5 | h5
          · exact Or.inl h5
          · exact absurd h5 e
          · exact Or.inr h5
      · next hn =>
        intro d hd hdn
        rcases hk.2.2.2 d hd hdn with h5 | rfl | h5
        · exact Or.inl h5
        · exact absurd hdn hn
        · exact Or.inr h5

theorem pmStep_none (pq : PQ (E × Cell) zLt) {w h : Nat} {t : Topo} {nodata : E} {dem : Cell → E}
    {p : PMState E} (hst : pmStep pq w h t nodata dem p = none) : pmNext pq p = none := by
  unfold pmStep at hst
  cases hp : pmNext pq p with
  | none => rfl
  | some cr => rw [hp] at hst; cases hst

theorem pitMask_final (pq : PQ (E × Cell) zLt) {w h : Nat} (t : Topo) (nodata : E) (dem : Cell → E)
    (hw : 0 < w) (hh : 0 < h) :
    ∃ s : FState E, PMInv w h t nodata dem s (pitMask pq w h t nodata dem) ∧
      s.openQ = [] ∧ s.pitQ = [] ∧
      pmStep pq w h t nodata dem (pitMask pq w h t nodata dem) = none := by
  have hinit : PMInv w h t nodata dem (floodInit pq w h dem) (pmInit pq w h dem) := by
    refine ⟨floodInit_inv pq t dem hw hh, ⟨rfl, rfl, rfl⟩, ⟨?_, ?_⟩, ?_⟩
    · intro c hc; simp [pmInit] at hc
    · intro c _; simp [pmInit, floodInit]
    · intro c hc _
      right
      have h1 : c ∈ perimeter w h := by
        have := (markAll_iff (l := perimeter w h) (f := fun _ => false) (c := c)).1 hc
        simpa using this
      refine ⟨(dem c, c), Or.inl ?_, rfl⟩
      simp only [floodInit, pq.mem_pushAll, List.mem_map]
      exact Or.inl ⟨c, h1, rfl⟩
  obtain ⟨s, h1, h2⟩ := loop_ghost (step := pmStep pq w h t nodata dem)
    (fun s p => PMInv w h t nodata dem s p) (fMeasure w h)
    (fun g p p' hg hst => pmStep_inv pq p p' g hg hst) (floodFuel w h) _ _ hinit
    (floodInit_measure pq dem)
  have h3 := pmStep_none pq h2
  have h4 : barnesNext pq s = none := by
    rcases pmNext_rel pq h1.rel with ⟨_, h5⟩ | ⟨c, s1, p1, hp1, _⟩
    · exact h5
    · rw [hp1] at h3; cases h3
  exact ⟨s, h1, (barnesNext_none pq h4).1, (barnesNext_none pq h4).2, h2⟩

end RichDEM
