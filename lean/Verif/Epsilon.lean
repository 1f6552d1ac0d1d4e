/-
Model of `PriorityFloodEpsilon_Barnes2014`
(include/richdem/depressions/Barnes2014.hpp:336-418).

`next` stands for `std::nextafter(z, +infinity)`; the theorems assume only `z < next z`, which
holds for every finite IEEE value.
-/
import Verif.Flood

namespace RichDEM

variable {E : Type*} [LinearOrder E]

/-- State of the epsilon flood. -/
structure EState (E : Type*) where
  elev : Cell → E
  closed : Cell → Bool
  openQ : List (E × Cell)
  pitQ : List (E × Cell)
  pitTop : E
  falsePit : Nat
  pitc : Nat

/-- Barnes2014.hpp:337-369. -/
def epsInit (pq : PQ (E × Cell) zLt) (w h : Nat) (nodata : E) (dem : Cell → E) : EState E where
  elev := dem
  closed := markAll (perimeter w h) (fun _ => false)
  openQ := pq.pushAll ((perimeter w h).map (fun c => (dem c, c))) []
  pitQ := []
  pitTop := nodata
  falsePit := 0
  pitc := 0

/-- Barnes2014.hpp:391-412: neighbour loop body. -/
def epsNbr (pq : PQ (E × Cell) zLt) (w h : Nat) (t : Topo) (nodata : E) (next : E → E)
    (c : E × Cell) (s : EState E) (n : Nat) : EState E :=
  let q := nbr t c.2 n
  if inGrid w h q = false then s                                          -- :395
  else if s.closed q then s                                               -- :397-398
  else
    let cl := Function.update s.closed q true                             -- :399
    if s.elev q = nodata then                                             -- :401
      { s with closed := cl, pitQ := s.pitQ ++ [(nodata, q)] }            -- :402
    else if s.elev q ≤ next c.1 then                                      -- :404
      { s with
        closed := cl
        falsePit := if s.pitTop ≠ nodata ∧ s.pitTop < s.elev q ∧ s.elev q ≤ next c.1
          then s.falsePit + 1 else s.falsePit                             -- :405-406
        pitc := s.pitc + 1                                                -- :407
        elev := Function.update s.elev q (next c.1)                       -- :408
        pitQ := s.pitQ ++ [(next c.1, q)] }                               -- :409
    else { s with closed := cl, openQ := pq.push (s.elev q, q) s.openQ }  -- :411

/-- Barnes2014.hpp:373-388: choose the next cell. -/
def epsNext (pq : PQ (E × Cell) zLt) (nodata : E) (s : EState E) :
    Option ((E × Cell) × EState E) :=
  match s.pitQ with
  | p :: rest =>
    match pq.pop s.openQ with
    | some (c, orest) =>
      if c.1 = p.1 then some (c, { s with openQ := orest, pitTop := nodata })   -- :375-378
      else some (p, { s with
        pitQ := rest, pitTop := if s.pitTop = nodata then s.elev p.2 else s.pitTop }) -- :379-383
    | none => some (p, { s with
        pitQ := rest, pitTop := if s.pitTop = nodata then s.elev p.2 else s.pitTop })
  | [] => match pq.pop s.openQ with
    | some (c, orest) => some (c, { s with openQ := orest, pitTop := nodata })  -- :384-388
    | none => none

/-- Barnes2014.hpp:373-414: one iteration. -/
def epsStep (pq : PQ (E × Cell) zLt) (w h : Nat) (t : Topo) (nodata : E) (next : E → E)
    (s : EState E) : Option (EState E) :=
  match epsNext pq nodata s with
  | none => none
  | some (c, s) => some ((dirs t).foldl (epsNbr pq w h t nodata next c) s)

/-- Barnes2014.hpp:336-418 `PriorityFloodEpsilon_Barnes2014`. -/
def priorityFloodEpsilon (pq : PQ (E × Cell) zLt) (w h : Nat) (t : Topo) (nodata : E)
    (next : E → E) (dem : Cell → E) : EState E :=
  loop (epsStep pq w h t nodata next) (floodFuel w h) (epsInit pq w h nodata dem)

/-! ### Invariant -/

/-- `cur` is the cell being expanded. -/
structure EInv (w h : Nat) (t : Topo) (nodata : E) (dem : Cell → E) (cur : Cell → Prop)
    (s : EState E) : Prop where
  fresh : ∀ c, s.closed c = false → s.elev c = dem c
  inside : ∀ c, s.closed c = true → InGrid w h c
  edges : ∀ c, OnEdge w h c → s.closed c = true ∧ s.elev c = dem c
  queued : ∀ e, e ∈ s.openQ ∨ e ∈ s.pitQ → s.closed e.2 = true ∧ e.1 = s.elev e.2
  frontier : ∀ c, s.closed c = true → cur c ∨ (∃ e, (e ∈ s.openQ ∨ e ∈ s.pitQ) ∧ e.2 = c) ∨
    ∀ d, Adj t c d → InGrid w h d → s.closed d = true
  raised : ∀ c, dem c ≤ s.elev c
  nd : ∀ c, s.elev c = nodata ↔ dem c = nodata
  lower : ∀ c, s.closed c = true → ¬ OnEdge w h c → dem c ≠ nodata →
    ∃ d, Adj t c d ∧ InGrid w h d ∧ s.closed d = true ∧ s.elev d < s.elev c

/-- Termination measure. -/
def eMeasure (w h : Nat) (s : EState E) : Nat :=
  s.openQ.length + s.pitQ.length + unflagged w h s.closed

theorem epsNbr_inv (pq : PQ (E × Cell) zLt) {w h : Nat} {t : Topo} {nodata : E} {next : E → E}
    (hnext : ∀ z, z < next z) {dem : Cell → E} (hnd : ∀ c, nodata ≤ dem c) {c : E × Cell}
    {s : EState E} {n : Nat} (hn : n ∈ dirs t) (hs : EInv w h t nodata dem (· = c.2) s)
    (hcc : s.closed c.2 = true) (hcz : c.1 = s.elev c.2) :
    let s' := epsNbr pq w h t nodata next c s n
    EInv w h t nodata dem (· = c.2) s' ∧ (s'.closed c.2 = true ∧ c.1 = s'.elev c.2) ∧
    (InGrid w h (nbr t c.2 n) → s'.closed (nbr t c.2 n) = true) ∧
    (∀ d, s.closed d = true → s'.closed d = true) ∧ eMeasure w h s' = eMeasure w h s := by
  have hadj : Adj t (nbr t c.2 n) c.2 := (nbr_adj hn).symm
  unfold epsNbr
  simp only
  split
  · next hg => exact ⟨hs, ⟨hcc, hcz⟩, fun h => absurd h (inGrid_false.1 hg), fun d hd => hd, rfl⟩
  · next hg =>
    have hg' : InGrid w h (nbr t c.2 n) := by rw [← inGrid_iff]; simpa using hg
    generalize hq : nbr t c.2 n = q at *
    split
    · next hcl => exact ⟨hs, ⟨hcc, hcz⟩, fun _ => hcl, fun d hd => hd, rfl⟩
    · next hcl =>
      have hcl' : s.closed q = false := by simpa using hcl
      have hfresh := hs.fresh _ hcl'
      have hne : c.2 ≠ q := by intro e; rw [← e, hcc] at hcl'; cases hcl'
      have hnq : ∀ d, s.closed d = true → d ≠ q := by
        rintro d hd rfl; rw [hd] at hcl'; cases hcl'
      have hcl2 : ∀ d, s.closed d = true → Function.update s.closed q true d = true := by
        intro d hd; rw [Function.update_of_ne (hnq d hd)]; exact hd
      have hcinv : ∀ d, Function.update s.closed q true d = true → d = q ∨ s.closed d = true := by
        intro d hd
        by_cases e : d = q
        · exact Or.inl e
        · rw [Function.update_of_ne e] at hd; exact Or.inr hd
      have hofresh : ∀ d, Function.update s.closed q true d = false →
          d ≠ q ∧ s.closed d = false := by
        intro d hd
        have hdq : d ≠ q := by rintro rfl; simp at hd
        rw [Function.update_of_ne hdq] at hd; exact ⟨hdq, hd⟩
      have hinside : ∀ d, Function.update s.closed q true d = true → InGrid w h d := by
        intro d hd
        rcases hcinv d hd with rfl | hd
        · exact hg'
        · exact hs.inside d hd
      have hu := unflagged_update hg' hcl'
      have hqe : ¬ OnEdge w h q := by
        intro he; rw [(hs.edges q he).1] at hcl'; cases hcl'
      split
      · -- NoData neighbour
        next hqn =>
        refine ⟨⟨?_, hinside, ?_, ?_, ?_, hs.raised, hs.nd, ?_⟩, ⟨hcl2 _ hcc, hcz⟩,
          fun _ => by simp, hcl2, ?_⟩
        · intro d hd; exact hs.fresh d (hofresh d hd).2
        · intro d hd; exact ⟨hcl2 d (hs.edges d hd).1, (hs.edges d hd).2⟩
        · intro e he
          simp only [List.mem_append, List.mem_singleton, ← or_assoc] at he
          rcases he with he | rfl
          · obtain ⟨h1, h2⟩ := hs.queued e he; exact ⟨hcl2 _ h1, h2⟩
          · exact ⟨by simp, hqn.symm⟩
        · intro d hd
          rcases hcinv d hd with rfl | hd'
          · right; left; exact ⟨(nodata, d), by simp, rfl⟩
          · rcases hs.frontier d hd' with h1 | ⟨e, h1, h2⟩ | h1
            · exact Or.inl h1
            · right; left; refine ⟨e, ?_, h2⟩
              rcases h1 with h1 | h1
              · exact Or.inl h1
              · exact Or.inr (by simp [h1])
            · right; right; intro u hu hug; exact hcl2 u (h1 u hu hug)
        · intro d hd hde hdn
          rcases hcinv d hd with rfl | hd'
          · exact absurd ((hs.nd d).1 hqn) hdn
          · obtain ⟨u, h1, h2, h3, h4⟩ := hs.lower d hd' hde hdn
            exact ⟨u, h1, h2, hcl2 u h3, h4⟩
        · simp only [eMeasure, List.length_append, List.length_singleton]; omega
      · next hqn =>
        have hqn' : dem q ≠ nodata := fun e => hqn ((hs.nd q).2 e)
        split
        · -- raised
          next hle =>
          have eu : ∀ d, s.closed d = true →
              Function.update s.elev q (next c.1) d = s.elev d :=
            fun d hd => Function.update_of_ne (hnq d hd) _ _
          refine ⟨⟨?_, hinside, ?_, ?_, ?_, ?_, ?_, ?_⟩, ⟨hcl2 _ hcc, ?_⟩,
            fun _ => by simp, hcl2, ?_⟩
          · intro d hd
            obtain ⟨h1, h2⟩ := hofresh d hd
            simp only; rw [Function.update_of_ne h1]; exact hs.fresh d h2
          · intro d hd
            refine ⟨hcl2 d (hs.edges d hd).1, ?_⟩
            simp only; rw [eu d (hs.edges d hd).1]; exact (hs.edges d hd).2
          · intro e he
            simp only [List.mem_append, List.mem_singleton, ← or_assoc] at he
            rcases he with he | rfl
            · obtain ⟨h1, h2⟩ := hs.queued e he
              exact ⟨hcl2 _ h1, by simp only; rw [eu _ h1]; exact h2⟩
            · simp
          · intro d hd
            rcases hcinv d hd with rfl | hd'
            · right; left; exact ⟨(next c.1, d), by simp, rfl⟩
            · rcases hs.frontier d hd' with h1 | ⟨e, h1, h2⟩ | h1
              · exact Or.inl h1
              · right; left; refine ⟨e, ?_, h2⟩
                rcases h1 with h1 | h1
                · exact Or.inl h1
                · exact Or.inr (by simp [h1])
              · right; right; intro u hu hug; exact hcl2 u (h1 u hu hug)
          · intro d
            by_cases e : d = q
            · subst e; simp only [Function.update_self]; rw [← hfresh]; exact hle
            · simp only; rw [Function.update_of_ne e]; exact hs.raised d
          · intro d
            by_cases e : d = q
            · subst e
              simp only [Function.update_self]
              constructor
              · intro h1
                have h2 := hnext c.1
                rw [h1, hcz] at h2
                exact absurd ((hnd c.2).trans (hs.raised c.2)) (not_le.2 h2)
              · intro h1; exact absurd h1 hqn'
            · simp only; rw [Function.update_of_ne e]; exact hs.nd d
          · intro d hd hde hdn
            rcases hcinv d hd with rfl | hd'
            · refine ⟨c.2, hadj, hs.inside _ hcc, hcl2 _ hcc, ?_⟩
              simp only [Function.update_self]
              rw [eu _ hcc, ← hcz]; exact hnext _
            · obtain ⟨u, h1, h2, h3, h4⟩ := hs.lower d hd' hde hdn
              refine ⟨u, h1, h2, hcl2 u h3, ?_⟩
              simp only; rw [eu u h3, eu d hd']; exact h4
          · simp only; rw [eu _ hcc]; exact hcz
          · simp only [eMeasure, List.length_append, List.length_singleton]; omega
        · -- higher than the epsilon level
          next hgt =>
          refine ⟨⟨?_, hinside, ?_, ?_, ?_, hs.raised, hs.nd, ?_⟩, ⟨hcl2 _ hcc, hcz⟩,
            fun _ => by simp, hcl2, ?_⟩
          · intro d hd; exact hs.fresh d (hofresh d hd).2
          · intro d hd; exact ⟨hcl2 d (hs.edges d hd).1, (hs.edges d hd).2⟩
          · intro e he
            simp only [pq.mem_push] at he
            rcases he with (rfl | he) | he
            · simp
            · obtain ⟨h1, h2⟩ := hs.queued e (Or.inl he); exact ⟨hcl2 _ h1, h2⟩
            · obtain ⟨h1, h2⟩ := hs.queued e (Or.inr he); exact ⟨hcl2 _ h1, h2⟩
          · intro d hd
            rcases hcinv d hd with rfl | hd'
            · right; left; exact ⟨(s.elev d, d), by simp [pq.mem_push], rfl⟩
            · rcases hs.frontier d hd' with h1 | ⟨e, h1, h2⟩ | h1
              · exact Or.inl h1
              · right; left; refine ⟨e, ?_, h2⟩
                rcases h1 with h1 | h1
                · exact Or.inl (by simp [pq.mem_push, h1])
                · exact Or.inr h1
              · right; right; intro u hu hug; exact hcl2 u (h1 u hu hug)
          · intro d hd hde hdn
            rcases hcinv d hd with rfl | hd'
            · refine ⟨c.2, hadj, hs.inside _ hcc, hcl2 _ hcc, ?_⟩
              simp only
              rw [← hcz]; exact (hnext _).trans (not_le.1 hgt)
            · obtain ⟨u, h1, h2, h3, h4⟩ := hs.lower d hd' hde hdn
              exact ⟨u, h1, h2, hcl2 u h3, h4⟩
          · simp only [eMeasure, pq.length_push]; omega

theorem epsNext_inv (pq : PQ (E × Cell) zLt) {w h : Nat} {t : Topo} {nodata : E}
    {dem : Cell → E} {s s1 : EState E} {c : E × Cell}
    (hs : EInv w h t nodata dem (fun _ => False) s) (hn : epsNext pq nodata s = some (c, s1)) :
    EInv w h t nodata dem (· = c.2) s1 ∧ (s1.closed c.2 = true ∧ c.1 = s1.elev c.2) ∧
    eMeasure w h s1 + 1 = eMeasure w h s := by
  have gen : ∀ (o p : List (E × Cell)) (z : E), (∀ e, (e ∈ s.openQ ∨ e ∈ s.pitQ) ↔
      (e = c ∨ e ∈ o ∨ e ∈ p)) → o.length + p.length + 1 = s.openQ.length + s.pitQ.length →
      s1 = { s with openQ := o, pitQ := p, pitTop := z } →
      EInv w h t nodata dem (· = c.2) s1 ∧ (s1.closed c.2 = true ∧ c.1 = s1.elev c.2) ∧
      eMeasure w h s1 + 1 = eMeasure w h s := by
    rintro o p z hm hl rfl
    refine ⟨⟨hs.fresh, hs.inside, hs.edges, ?_, ?_, hs.raised, hs.nd, hs.lower⟩, ?_, ?_⟩
    · intro e he; exact hs.queued e ((hm e).2 (Or.inr he))
    · intro d hd
      rcases hs.frontier d hd with h1 | ⟨e, h1, h2⟩ | h1
      · exact h1.elim
      · rcases (hm e).1 h1 with rfl | h3
        · exact Or.inl h2.symm
        · exact Or.inr (Or.inl ⟨e, h3, h2⟩)
      · exact Or.inr (Or.inr h1)
    · exact hs.queued c ((hm c).2 (Or.inl rfl))
    · simp only [eMeasure]; omega
  have hpopq : ∀ {c' : E × Cell} {r : List (E × Cell)}, pq.pop s.openQ = some (c', r) →
      (∀ e, (e ∈ s.openQ ∨ e ∈ s.pitQ) ↔ (e = c' ∨ e ∈ r ∨ e ∈ s.pitQ)) ∧
      r.length + s.pitQ.length + 1 = s.openQ.length + s.pitQ.length := by
    intro c' r hp
    obtain ⟨h1, _⟩ := pq.pop_some hp
    refine ⟨fun e => ?_, ?_⟩
    · rw [h1.mem_iff]; simp only [List.mem_cons]; tauto
    · rw [h1.length_eq]; simp only [List.length_cons]; omega
  unfold epsNext at hn
  cases hp : s.pitQ with
  | nil =>
    simp only [hp] at hn
    cases hpop : pq.pop s.openQ with
    | none => simp only [hpop] at hn; cases hn
    | some cr =>
      obtain ⟨c', r⟩ := cr
      simp only [hpop, Option.some.injEq, Prod.mk.injEq] at hn
      obtain ⟨rfl, rfl⟩ := hn
      have := hpopq hpop
      exact gen r s.pitQ nodata this.1 this.2 (by rw [hp])
  | cons p rest =>
    simp only [hp] at hn
    have hfront : ∀ z, s1 = { s with pitQ := rest, pitTop := z } → c = p →
        EInv w h t nodata dem (· = c.2) s1 ∧ (s1.closed c.2 = true ∧ c.1 = s1.elev c.2) ∧
        eMeasure w h s1 + 1 = eMeasure w h s := by
      rintro z h1 rfl
      refine gen s.openQ rest z ?_ ?_ h1
      · intro e; rw [hp]; simp only [List.mem_cons]; tauto
      · rw [hp]; simp only [List.length_cons]; omega
    cases hpop : pq.pop s.openQ with
    | none =>
      simp only [hpop, Option.some.injEq, Prod.mk.injEq] at hn
      exact hfront _ hn.2.symm hn.1.symm
    | some cr =>
      obtain ⟨c', r⟩ := cr
      simp only [hpop] at hn
      split at hn
      · simp only [Option.some.injEq, Prod.mk.injEq] at hn
        obtain ⟨rfl, rfl⟩ := hn
        have := hpopq hpop
        exact gen r s.pitQ nodata this.1 this.2 (by rw [hp])
      · simp only [Option.some.injEq, Prod.mk.injEq] at hn
        exact hfront _ hn.2.symm hn.1.symm

theorem epsNext_none (pq : PQ (E × Cell) zLt) {nodata : E} {s : EState E}
    (hn : epsNext pq nodata s = none) : s.openQ = [] ∧ s.pitQ = [] := by
  unfold epsNext at hn
  cases hp : s.pitQ with
  | nil =>
    simp only [hp] at hn
    cases hpop : pq.pop s.openQ with
    | none => exact ⟨pq.pop_none.1 hpop, rfl⟩
    | some cr => simp only [hpop] at hn; cases hn
  | cons p rest =>
    simp only [hp] at hn
    cases hpop : pq.pop s.openQ with
    | none => simp only [hpop] at hn; cases hn
    | some cr =>
      simp only [hpop] at hn
      split at hn <;> cases hn

theorem epsStep_inv (pq : PQ (E × Cell) zLt) {w h : Nat} {t : Topo} {nodata : E} {next : E → E}
    (hnext : ∀ z, z < next z) {dem : Cell → E} (hnd : ∀ c, nodata ≤ dem c) (s s' : EState E)
    (hs : EInv w h t nodata dem (fun _ => False) s)
    (hst : epsStep pq w h t nodata next s = some s') :
    EInv w h t nodata dem (fun _ => False) s' ∧ eMeasure w h s' < eMeasure w h s := by
  unfold epsStep at hst
  cases hnx : epsNext pq nodata s with
  | none => rw [hnx] at hst; cases hst
  | some cr =>
    obtain ⟨c, s1⟩ := cr
    rw [hnx] at hst
    simp only [Option.some.injEq] at hst
    obtain ⟨h0, hc0, hm0⟩ := epsNext_inv pq hs hnx
    have key := foldl_inv (f := epsNbr pq w h t nodata next c)
      (fun s : EState E => EInv w h t nodata dem (· = c.2) s ∧
        (s.closed c.2 = true ∧ c.1 = s.elev c.2) ∧ eMeasure w h s = eMeasure w h s1)
      (fun n s => InGrid w h (nbr t c.2 n) → s.closed (nbr t c.2 n) = true) (dirs t) s1
      (fun s n hn hp => by
        have := epsNbr_inv pq hnext hnd hn hp.1 hp.2.1.1 hp.2.1.2
        exact ⟨⟨this.1, this.2.1, by rw [this.2.2.2.2]; exact hp.2.2⟩, this.2.2.1⟩)
      (fun s n m hn hp hr hg =>
        (epsNbr_inv pq hnext hnd hn hp.1 hp.2.1.1 hp.2.1.2).2.2.2.1 _ (hr hg))
      ⟨h0, hc0, rfl⟩
    rw [hst] at key
    obtain ⟨⟨k1, k2, k3⟩, k4, _⟩ := key
    refine ⟨⟨k1.fresh, k1.inside, k1.edges, k1.queued, ?_, k1.raised, k1.nd, k1.lower⟩, by omega⟩
    intro d hd
    rcases k1.frontier d hd with rfl | h1 | h1
    · right; right
      intro u hu hug
      obtain ⟨n, hn, rfl⟩ := adj_iff_nbr.1 hu
      exact k4 n hn hug
    · exact Or.inr (Or.inl h1)
    · exact Or.inr (Or.inr h1)

theorem epsStep_none (pq : PQ (E × Cell) zLt) {w h : Nat} {t : Topo} {nodata : E} {next : E → E}
    {s : EState E} (h3 : epsStep pq w h t nodata next s = none) : epsNext pq nodata s = none := by
  unfold epsStep at h3
  cases hpop : epsNext pq nodata s with
  | none => rfl
  | some cr => rw [hpop] at h3; cases h3

theorem eps_final (pq : PQ (E × Cell) zLt) {w h : Nat} (t : Topo) (nodata : E) (next : E → E)
    (hnext : ∀ z, z < next z) (dem : Cell → E) (hnd : ∀ c, nodata ≤ dem c) (hw : 0 < w)
    (hh : 0 < h) :
    let s := priorityFloodEpsilon pq w h t nodata next dem
    EInv w h t nodata dem (fun _ => False) s ∧ (∀ c, InGrid w h c → s.closed c = true) ∧
    epsStep pq w h t nodata next s = none := by
  have hcl : ∀ c, (epsInit pq w h nodata dem).closed c = true ↔ OnEdge w h c := by
    intro c; simp only [epsInit]; rw [markAll_iff, mem_perimeter hw hh]; simp
  have hinit : EInv w h t nodata dem (fun _ => False) (epsInit pq w h nodata dem) := by
    refine ⟨fun _ _ => rfl, fun c hc => ((hcl c).1 hc).1, fun c hc => ⟨(hcl c).2 hc, rfl⟩,
      ?_, ?_, fun _ => le_refl _, fun _ => Iff.rfl, ?_⟩
    · intro e he
      simp only [epsInit, pq.mem_pushAll, List.mem_map, List.not_mem_nil, or_false] at he
      obtain ⟨c, hc, rfl⟩ := he
      exact ⟨(hcl c).2 ((mem_perimeter hw hh).1 hc), rfl⟩
    · intro c hc
      right; left
      refine ⟨(dem c, c), Or.inl ?_, rfl⟩
      simp only [epsInit, pq.mem_pushAll, List.mem_map]
      exact Or.inl ⟨c, (mem_perimeter hw hh).2 ((hcl c).1 hc), rfl⟩
    · intro c hc he; exact absurd ((hcl c).1 hc) he
  have hm : eMeasure w h (epsInit pq w h nodata dem) ≤ floodFuel w h :=
    floodInit_measure pq dem
  obtain ⟨h1, h2⟩ := loop_spec (step := epsStep pq w h t nodata next)
    (EInv w h t nodata dem (fun _ => False)) (eMeasure w h)
    (fun s s' hs hst => epsStep_inv pq hnext hnd s s' hs hst) (floodFuel w h) _ hinit hm
  refine ⟨h1, ?_, h2⟩
  obtain ⟨q1, q2⟩ := epsNext_none pq (epsStep_none pq h2)
  have hclosed : ∀ c, (loop (epsStep pq w h t nodata next) (floodFuel w h)
      (epsInit pq w h nodata dem)).closed c = true → ∀ d, Adj t c d → InGrid w h d →
      (loop (epsStep pq w h t nodata next) (floodFuel w h)
      (epsInit pq w h nodata dem)).closed d = true := by
    intro c hc
    rcases h1.frontier c hc with h3 | ⟨e, h3, _⟩ | h3
    · exact h3.elim
    · rw [q1, q2] at h3; simp at h3
    · exact h3
  intro c hc
  obtain ⟨z, hz⟩ := exists_drains (t := t) dem hc
  show (loop (epsStep pq w h t nodata next) (floodFuel w h)
      (epsInit pq w h nodata dem)).closed c = true
  clear hc
  induction hz with
  | edge h3 _ => exact (h1.edges _ h3).1
  | step h3 _ h5 _ ih => exact hclosed _ ih _ h5.symm h3

end RichDEM
