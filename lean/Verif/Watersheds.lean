/-
Model of `PriorityFloodWatersheds_Barnes2014`
(include/richdem/depressions/Barnes2014.hpp:713-807).
-/
import Verif.PitMask

namespace RichDEM

variable {E : Type*} [LinearOrder E]

/-- State of `PriorityFloodWatersheds_Barnes2014`. -/
structure WState (E : Type*) where
  elev : Cell → E
  closed : Cell → Bool
  openQ : List (E × Cell)
  pitQ : List (E × Cell)
  labels : Cell → Int
  clabel : Int

/-- Barnes2014.hpp:721, 734-756: labels all -1 (`noData`), first label 1, perimeter seeded. -/
def wsInit (pq : PQ (E × Cell) zLt) (w h : Nat) (dem : Cell → E) : WState E where
  elev := dem
  closed := markAll (perimeter w h) (fun _ => false)
  openQ := pq.pushAll ((perimeter w h).map (fun c => (dem c, c))) []
  pitQ := []
  labels := fun _ => -1
  clabel := 1

/-- Barnes2014.hpp:780-798: neighbour loop body. -/
def wsNbr (pq : PQ (E × Cell) zLt) (w h : Nat) (t : Topo) (alter : Bool) (c : E × Cell)
    (s : WState E) (n : Nat) : WState E :=
  let q := nbr t c.2 n
  if inGrid w h q = false then s                                          -- :783
  else if s.closed q then s                                               -- :784-785
  else
    let s := { s with labels := Function.update s.labels q (s.labels c.2) -- :789
                      closed := Function.update s.closed q true }         -- :791
    if s.elev q ≤ c.1 then                                                -- :792
      let s := if alter then { s with elev := Function.update s.elev q c.1 } else s  -- :793-794
      { s with pitQ := s.pitQ ++ [(c.1, q)] }                             -- :795
    else { s with openQ := pq.push (s.elev q, q) s.openQ }                -- :797

/-- Barnes2014.hpp:760-771: next cell. -/
def wsNext (pq : PQ (E × Cell) zLt) (s : WState E) : Option ((E × Cell) × WState E) :=
  match s.pitQ with
  | c :: rest => some (c, { s with pitQ := rest })
  | [] => match pq.pop s.openQ with
    | some (c, rest) => some (c, { s with openQ := rest })
    | none => none

/-- Barnes2014.hpp:777-778: an unlabelled data cell starts a new watershed. -/
def wsLabel (nodata : E) (c : E × Cell) (s : WState E) : WState E :=
  if s.labels c.2 = -1 ∧ s.elev c.2 ≠ nodata then
    { s with labels := Function.update s.labels c.2 s.clabel, clabel := s.clabel + 1 }
  else s

/-- Barnes2014.hpp:760-800: one iteration. -/
def wsStep (pq : PQ (E × Cell) zLt) (w h : Nat) (t : Topo) (alter : Bool) (nodata : E)
    (s : WState E) : Option (WState E) :=
  match wsNext pq s with
  | none => none
  | some (c, s) => some ((dirs t).foldl (wsNbr pq w h t alter c) (wsLabel nodata c s))

/-- Barnes2014.hpp:713-807 `PriorityFloodWatersheds_Barnes2014`. -/
def watersheds (pq : PQ (E × Cell) zLt) (w h : Nat) (t : Topo) (alter : Bool) (nodata : E)
    (dem : Cell → E) : WState E :=
  loop (wsStep pq w h t alter nodata) (floodFuel w h) (wsInit pq w h dem)

/-! ### Invariant -/

/-- A path from a cell to `r` keeping the label and never climbing in `f`. -/
inductive LPath (w h : Nat) (t : Topo) (lab : Cell → Int) (f : Cell → E) (r : Cell) : Cell → Prop
  | root : InGrid w h r → LPath w h t lab f r r
  | step {c d} : InGrid w h c → Adj t c d → lab c = lab d → f d ≤ f c →
      LPath w h t lab f r d → LPath w h t lab f r c

theorem LPath.congr {w h : Nat} {t : Topo} {lab lab' : Cell → Int} {f f' : Cell → E} {r : Cell}
    {l : Int} (hcg : ∀ c, lab c = l → lab' c = l ∧ f' c = f c) {c : Cell}
    (hp : LPath w h t lab f r c) (hc : lab c = l) : LPath w h t lab' f' r c := by
  induction hp with
  | root h => exact .root h
  | @step c d h1 h2 h3 h4 h5 ih =>
    have hd : lab d = l := by rw [← h3]; exact hc
    refine .step h1 h2 ?_ ?_ (ih hd)
    · rw [(hcg c hc).1, (hcg d hd).1]
    · rw [(hcg c hc).2, (hcg d hd).2]; exact h4

/-- The cell may start a watershed: it is on the perimeter or borders NoData. -/
def RootOk (w h : Nat) (t : Topo) (nodata : E) (dem : Cell → E) (c : Cell) : Prop :=
  OnEdge w h c ∨ ∃ d, Adj t c d ∧ InGrid w h d ∧ dem d = nodata

/-- Relation with a ghost `PriorityFlood_Barnes2014` state. -/
structure WRel (alter : Bool) (dem : Cell → E) (s : FState E) (p : WState E) : Prop where
  closed : p.closed = s.closed
  openQ : p.openQ = s.openQ
  pitQ : p.pitQ = s.pitQ
  elev : p.elev = if alter then s.elev else dem

/-- Label invariant; `cur` is a cell exempt from the queue condition. -/
structure WLab (w h : Nat) (t : Topo) (nodata : E) (dem : Cell → E) (cur : Cell → Prop)
    (s : FState E) (p : WState E) (root : Int → Cell) : Prop where
  pos : 1 ≤ p.clabel
  unlab : ∀ c, s.closed c = false → p.labels c = -1
  range : ∀ c, p.labels c = -1 ∨ (1 ≤ p.labels c ∧ p.labels c < p.clabel)
  path : ∀ c, p.labels c ≠ -1 → LPath w h t p.labels s.elev (root (p.labels c)) c
  rootok : ∀ l, 1 ≤ l → l < p.clabel → InGrid w h (root l) ∧ p.labels (root l) = l ∧
    RootOk w h t nodata dem (root l)
  unl : ∀ c, s.closed c = true → p.labels c = -1 → RootOk w h t nodata dem c
  pending : ∀ c, s.closed c = true → p.labels c = -1 →
    dem c = nodata ∨ cur c ∨ ∃ e, (e ∈ s.openQ ∨ e ∈ s.pitQ) ∧ e.2 = c

theorem wsNbr_inv (pq : PQ (E × Cell) zLt) {w h : Nat} {t : Topo} {alter : Bool} {nodata : E}
    {dem : Cell → E} {c : E × Cell} {s : FState E} {p : WState E} {root : Int → Cell} {n : Nat}
    (hn : n ∈ dirs t) (hm : MInv w h t dem c s) (hr : WRel alter dem s p)
    (hl : WLab w h t nodata dem (· = c.2) s p root)
    (hcl : p.labels c.2 = -1 → dem c.2 = nodata) :
    WRel alter dem (barnesNbr pq w h t c s n) (wsNbr pq w h t alter c p n) ∧
    WLab w h t nodata dem (· = c.2) (barnesNbr pq w h t c s n) (wsNbr pq w h t alter c p n) root ∧
    ((wsNbr pq w h t alter c p n).labels c.2 = -1 → dem c.2 = nodata) := by
  have hmem := barnesNbr_mem pq (w := w) (h := h) (t := t) (c := c) (s := s) (n := n)
  have hbi := barnesNbr_inv pq hn hm
  by_cases hg : inGrid w h (nbr t c.2 n) = false
  · have e1 : barnesNbr pq w h t c s n = s := by unfold barnesNbr; simp [hg]
    have e2 : wsNbr pq w h t alter c p n = p := by unfold wsNbr; simp [hg]
    rw [e1, e2]; exact ⟨hr, hl, hcl⟩
  by_cases hqc : s.closed (nbr t c.2 n) = true
  · have e1 : barnesNbr pq w h t c s n = s := by unfold barnesNbr; simp [hqc]
    have e2 : wsNbr pq w h t alter c p n = p := by unfold wsNbr; simp [hr.closed, hqc]
    rw [e1, e2]; exact ⟨hr, hl, hcl⟩
  have hg' : InGrid w h (nbr t c.2 n) := by rw [← inGrid_iff]; simpa using hg
  have hqc' : s.closed (nbr t c.2 n) = false := by simpa using hqc
  have hfresh := hm.core.fresh _ hqc'
  have hpe : p.elev (nbr t c.2 n) = dem (nbr t c.2 n) := by
    rw [hr.elev]; split
    · exact hfresh
    · rfl
  have hne : c.2 ≠ nbr t c.2 n := by
    intro e; rw [← e, hm.cc] at hqc'; cases hqc'
  have hlab : (wsNbr pq w h t alter c p n).labels =
      Function.update p.labels (nbr t c.2 n) (p.labels c.2) := by
    unfold wsNbr
    simp only [hg, hr.closed, hqc', if_false, Bool.false_eq_true, Bool.true_eq_false]
    split
    · split <;> rfl
    · rfl
  have hclab : (wsNbr pq w h t alter c p n).clabel = p.clabel := by
    unfold wsNbr
    simp only [hg, hr.closed, hqc', if_false, Bool.false_eq_true, Bool.true_eq_false]
    split
    · split <;> rfl
    · rfl
  have hbcl : (barnesNbr pq w h t c s n).closed = Function.update s.closed (nbr t c.2 n) true := by
    unfold barnesNbr
    simp only [hg, hqc', if_false, Bool.false_eq_true, Bool.true_eq_false]
    split
    · split <;> rfl
    · rfl
  have hbe : ∀ d, d ≠ nbr t c.2 n → (barnesNbr pq w h t c s n).elev d = s.elev d := by
    intro d hd
    unfold barnesNbr
    simp only [hg, hqc', if_false, Bool.false_eq_true, Bool.true_eq_false]
    split
    · split
      · simp only; rw [Function.update_of_ne hd]
      · rfl
    · rfl
  have hbq : s.elev c.2 ≤ (barnesNbr pq w h t c s n).elev (nbr t c.2 n) := by
    unfold barnesNbr
    simp only [hg, hqc', if_false, Bool.false_eq_true, Bool.true_eq_false]
    rw [← hm.cz]
    split
    · split
      · simp
      · next h1 h2 => exact not_lt.1 h2
    · next h1 => exact (not_le.1 h1).le
  have hqlab : p.labels (nbr t c.2 n) = -1 := hl.unlab _ hqc'
  have hlabc : (wsNbr pq w h t alter c p n).labels c.2 = p.labels c.2 := by
    rw [hlab, Function.update_of_ne hne]
  refine ⟨⟨?_, ?_, ?_, ?_⟩, ⟨?_, ?_, ?_, ?_, ?_, ?_, ?_⟩, by rw [hlabc]; exact hcl⟩
  · rw [hbcl, ← hr.closed]
    unfold wsNbr
    simp only [hg, hr.closed, hqc', if_false, Bool.false_eq_true, Bool.true_eq_false]
    split
    · split <;> rfl
    · rfl
  · unfold wsNbr barnesNbr
    simp only [hg, hr.closed, hqc', if_false, Bool.false_eq_true, Bool.true_eq_false, hpe, hfresh]
    split
    · split <;> (split <;> exact hr.openQ)
    · simp [hr.openQ]
  · unfold wsNbr barnesNbr
    simp only [hg, hr.closed, hqc', if_false, Bool.false_eq_true, Bool.true_eq_false, hpe, hfresh]
    split
    · split <;> (split <;> simp [hr.pitQ])
    · exact hr.pitQ
  · unfold wsNbr barnesNbr
    simp only [hg, hr.closed, hqc', if_false, Bool.false_eq_true, Bool.true_eq_false, hpe, hfresh]
    have := hr.elev
    by_cases hle : dem (nbr t c.2 n) ≤ c.1
    · by_cases hlt : dem (nbr t c.2 n) < c.1
      · cases alter
        · simp only [hle, if_true, if_false, Bool.false_eq_true, Bool.true_eq_false] at this ⊢; exact this
        · simp only [hle, hlt, if_true] at this ⊢; rw [this]
      · have heq : c.1 = s.elev (nbr t c.2 n) := by
          rw [hfresh]; exact le_antisymm (not_lt.1 hlt) hle
        cases alter
        · simp only [hle, if_true, if_false, Bool.false_eq_true, Bool.true_eq_false] at this ⊢; exact this
        · simp only [hle, hlt, if_true, if_false] at this ⊢
          rw [this, heq]; exact Function.update_eq_self _ _
    · simp only [hle, if_false]; exact this
  · rw [hclab]; exact hl.pos
  · intro d hd
    rw [hbcl] at hd
    have hdq : d ≠ nbr t c.2 n := by rintro rfl; simp at hd
    rw [Function.update_of_ne hdq] at hd
    rw [hlab, Function.update_of_ne hdq]; exact hl.unlab d hd
  · intro d
    rw [hclab, hlab]
    by_cases e : d = nbr t c.2 n
    · subst e; rw [Function.update_self]; exact hl.range c.2
    · rw [Function.update_of_ne e]; exact hl.range d
  · have hold : ∀ d, p.labels d ≠ -1 → LPath w h t (wsNbr pq w h t alter c p n).labels
        (barnesNbr pq w h t c s n).elev (root (p.labels d)) d := by
      intro d hd
      refine (hl.path d hd).congr (l := p.labels d) ?_ rfl
      intro x hx
      have hxq : x ≠ nbr t c.2 n := by
        rintro rfl; rw [hqlab] at hx; exact hd hx.symm
      rw [hlab, Function.update_of_ne hxq]; exact ⟨hx, hbe x hxq⟩
    intro d hd
    rw [hlab] at hd ⊢
    by_cases e : d = nbr t c.2 n
    · subst e
      rw [Function.update_self] at hd ⊢
      have := hold c.2 hd
      rw [hlab] at this
      refine .step hg' (nbr_adj hn).symm ?_ ?_ this
      · rw [Function.update_self, Function.update_of_ne hne]
      · rw [hbe c.2 hne]; exact hbq
    · rw [Function.update_of_ne e] at hd ⊢
      have := hold d hd
      rw [hlab] at this; exact this
  · intro l h1 h2
    rw [hclab] at h2
    obtain ⟨k1, k2, k3⟩ := hl.rootok l h1 h2
    refine ⟨k1, ?_, k3⟩
    rw [hlab, Function.update_of_ne]
    · exact k2
    · intro e; rw [e, hqlab] at k2; omega
  · intro d hd hdl
    rw [hlab] at hdl
    by_cases e : d = nbr t c.2 n
    · subst e
      rw [Function.update_self] at hdl
      exact Or.inr ⟨c.2, (nbr_adj hn).symm, hm.core.inside _ hm.cc, hcl hdl⟩
    · rw [Function.update_of_ne e] at hdl
      rw [hbcl, Function.update_of_ne e] at hd
      exact hl.unl d hd hdl
  · intro d hd hdl
    rw [hlab] at hdl
    rcases hmem.2 d hd with h1 | h1
    · by_cases e : d = nbr t c.2 n
      · subst e; rw [hqc'] at h1; cases h1
      · rw [Function.update_of_ne e] at hdl
        rcases hl.pending d h1 hdl with h2 | h2 | ⟨e, h2, h3⟩
        · exact Or.inl h2
        · exact Or.inr (Or.inl h2)
        · exact Or.inr (Or.inr ⟨e, hmem.1 e h2, h3⟩)
    · exact Or.inr (Or.inr h1)

theorem wsNext_rel (pq : PQ (E × Cell) zLt) {alter : Bool} {dem : Cell → E} {s : FState E}
    {p : WState E} (hr : WRel alter dem s p) :
    (wsNext pq p = none ∧ barnesNext pq s = none) ∨
    ∃ c s1 p1, wsNext pq p = some (c, p1) ∧ barnesNext pq s = some (c, s1) ∧
      WRel alter dem s1 p1 ∧ p1.labels = p.labels ∧ p1.clabel = p.clabel ∧
      s1.elev = s.elev ∧ s1.closed = s.closed ∧
      (∀ e, e ∈ s.openQ ∨ e ∈ s.pitQ → e = c ∨ e ∈ s1.openQ ∨ e ∈ s1.pitQ) := by
  obtain ⟨h1, h2, h3, h4⟩ := hr
  unfold wsNext barnesNext
  rw [h2, h3]
  cases hp : s.pitQ with
  | cons c rest =>
    refine Or.inr ⟨c, _, _, rfl, rfl, ⟨h1, rfl, rfl, h4⟩, rfl, rfl, rfl, rfl, ?_⟩
    intro e he; simp only [List.mem_cons] at he ⊢; tauto
  | nil =>
    cases hpop : pq.pop s.openQ with
    | none => exact Or.inl ⟨rfl, rfl⟩
    | some cr =>
      obtain ⟨c, rest⟩ := cr
      refine Or.inr ⟨c, _, _, rfl, rfl, ⟨h1, rfl, rfl, h4⟩, rfl, rfl, rfl, rfl, ?_⟩
      intro e he
      have := (pq.pop_some hpop).1.mem_iff (a := e)
      simp only [List.mem_cons, List.not_mem_nil, or_false] at this he ⊢
      rw [this] at he; tauto

/-- Loop invariant. -/
structure WInv (w h : Nat) (t : Topo) (alter : Bool) (nodata : E) (dem : Cell → E)
    (s : FState E) (p : WState E) : Prop where
  core : OInv w h t dem s
  rel : WRel alter dem s p
  lab : ∃ root, WLab w h t nodata dem (fun _ => False) s p root

theorem wsLabel_inv {w h : Nat} {t : Topo} {alter : Bool} {nodata : E} {dem : Cell → E}
    (hnd : ∀ c, nodata ≤ dem c) {c : E × Cell} {s : FState E} {p : WState E} {root : Int → Cell}
    (hm : MInv w h t dem c s) (hr : WRel alter dem s p)
    (hl : WLab w h t nodata dem (· = c.2) s p root) :
    ∃ root', WRel alter dem s (wsLabel nodata c p) ∧
      WLab w h t nodata dem (· = c.2) s (wsLabel nodata c p) root' ∧
      ((wsLabel nodata c p).labels c.2 = -1 → dem c.2 = nodata) := by
  unfold wsLabel
  have hge : dem c.2 ≤ s.elev c.2 := (hm.core.sound c.2 hm.cc).le
  split
  · next hcond =>
    obtain ⟨hc1, hc2⟩ := hcond
    refine ⟨Function.update root p.clabel c.2, ⟨hr.closed, hr.openQ, hr.pitQ, hr.elev⟩,
      ⟨?_, ?_, ?_, ?_, ?_, ?_, ?_⟩, ?_⟩
    · have := hl.pos; simp only; omega
    · intro d hd
      have hdc : d ≠ c.2 := by rintro rfl; rw [hm.cc] at hd; cases hd
      simp only; rw [Function.update_of_ne hdc]; exact hl.unlab d hd
    · intro d
      simp only
      by_cases e : d = c.2
      · subst e; rw [Function.update_self]; right; have := hl.pos; omega
      · rw [Function.update_of_ne e]
        rcases hl.range d with h1 | h1
        · exact Or.inl h1
        · right; omega
    · intro d hd
      simp only at hd ⊢
      by_cases e : d = c.2
      · subst e
        rw [Function.update_self, Function.update_self]
        exact .root (hm.core.inside _ hm.cc)
      · rw [Function.update_of_ne e] at hd ⊢
        have hlt : p.labels d < p.clabel := by
          rcases hl.range d with h1 | h1
          · exact absurd h1 hd
          · exact h1.2
        rw [Function.update_of_ne (by omega)]
        refine (hl.path d hd).congr (l := p.labels d) ?_ rfl
        intro x hx
        have hxc : x ≠ c.2 := by rintro rfl; rw [hc1] at hx; exact hd hx.symm
        rw [Function.update_of_ne hxc]; exact ⟨hx, rfl⟩
    · intro l h1 h2
      simp only at h2 ⊢
      by_cases e : l = p.clabel
      · subst e
        rw [Function.update_self, Function.update_self]
        exact ⟨hm.core.inside _ hm.cc, rfl, hl.unl c.2 hm.cc hc1⟩
      · rw [Function.update_of_ne e]
        obtain ⟨k1, k2, k3⟩ := hl.rootok l h1 (by omega)
        refine ⟨k1, ?_, k3⟩
        rw [Function.update_of_ne]
        · exact k2
        · intro e'; rw [e', hc1] at k2; omega
    · intro d hd hdl
      simp only at hdl
      by_cases e : d = c.2
      · subst e; rw [Function.update_self] at hdl; have := hl.pos; omega
      · rw [Function.update_of_ne e] at hdl; exact hl.unl d hd hdl
    · intro d hd hdl
      simp only at hdl
      by_cases e : d = c.2
      · exact Or.inr (Or.inl e)
      · rw [Function.update_of_ne e] at hdl; exact hl.pending d hd hdl
    · intro h1
      simp only [Function.update_self] at h1; have := hl.pos; omega
  · next hcond =>
    refine ⟨root, hr, hl, ?_⟩
    intro h1
    have h2 : p.elev c.2 = nodata := by
      by_contra h3; exact hcond ⟨h1, h3⟩
    rw [hr.elev] at h2
    split at h2
    · rw [h2] at hge; exact le_antisymm hge (hnd _)
    · exact h2

theorem wsStep_inv (pq : PQ (E × Cell) zLt) {w h : Nat} {t : Topo} {alter : Bool} {nodata : E}
    {dem : Cell → E} (hnd : ∀ c, nodata ≤ dem c) (s : FState E) (p p' : WState E)
    (hs : WInv w h t alter nodata dem s p) (hst : wsStep pq w h t alter nodata p = some p') :
    ∃ s', WInv w h t alter nodata dem s' p' ∧ fMeasure w h s' < fMeasure w h s := by
  rcases wsNext_rel pq hs.rel with ⟨h1, _⟩ |
    ⟨c, s1, p1, hp1, hs1, hrel, hlabs, hclab, helev, hclosed, hmem⟩
  · unfold wsStep at hst; rw [h1] at hst; cases hst
  · have hb : barnesStep pq w h t s = some
        ((dirs t).foldl (barnesNbr pq w h t c) { s1 with processed := s1.processed + 1 }) := by
      unfold barnesStep; rw [hs1]
    have hbi := barnesStep_inv pq s _ hs.core hb
    unfold wsStep at hst
    rw [hp1] at hst
    simp only [Option.some.injEq] at hst
    obtain ⟨h0, _⟩ := barnesNext_inv pq hs.core hs1
    obtain ⟨root, hl⟩ := hs.lab
    have hl1 : WLab w h t nodata dem (· = c.2) { s1 with processed := s1.processed + 1 } p1 root := by
      refine ⟨by rw [hclab]; exact hl.pos, ?_, ?_, ?_, ?_, ?_, ?_⟩
      · simp only; rw [hclosed, hlabs]; exact hl.unlab
      · rw [hlabs, hclab]; exact hl.range
      · rw [hlabs]; simp only; rw [helev]; exact hl.path
      · rw [hlabs, hclab]; exact hl.rootok
      · simp only; rw [hclosed, hlabs]; exact hl.unl
      · simp only; rw [hclosed, hlabs]
        intro d hd hdl
        rcases hl.pending d hd hdl with h2 | h2 | ⟨e, h2, h3⟩
        · exact Or.inl h2
        · exact h2.elim
        · rcases hmem e h2 with rfl | h4
          · exact Or.inr (Or.inl h3.symm)
          · exact Or.inr (Or.inr ⟨e, h4, h3⟩)
    obtain ⟨root', hr2, hl2, hc2⟩ := wsLabel_inv hnd h0
      (⟨hrel.closed, hrel.openQ, hrel.pitQ, hrel.elev⟩ : WRel alter dem
        { s1 with processed := s1.processed + 1 } p1) hl1
    have key : ∀ (l : List Nat), (∀ n ∈ l, n ∈ dirs t) → ∀ (s1 : FState E) (p1 : WState E),
        MInv w h t dem c s1 → WRel alter dem s1 p1 →
        WLab w h t nodata dem (· = c.2) s1 p1 root' →
        (p1.labels c.2 = -1 → dem c.2 = nodata) →
        let s2 := l.foldl (barnesNbr pq w h t c) s1
        let p2 := l.foldl (wsNbr pq w h t alter c) p1
        WRel alter dem s2 p2 ∧ WLab w h t nodata dem (· = c.2) s2 p2 root' ∧
        (p2.labels c.2 = -1 → dem c.2 = nodata) := by
      intro l
      induction l with
      | nil => intro _ s1 p1 _ hr hk hnd; exact ⟨hr, hk, hnd⟩
      | cons n l ih =>
        intro hl s1 p1 hm hr hk hnd
        have h1 := wsNbr_inv pq (hl n (by simp)) hm hr hk hnd
        have h2 := barnesNbr_inv pq (hl n (by simp)) hm
        exact ih (fun m hmm => hl m (by simp [hmm])) _ _ h2.1 h1.1 h1.2.1 h1.2.2
    have hk := key (dirs t) (fun _ h => h) _ _ h0 hr2 hl2 hc2
    rw [hst] at hk
    refine ⟨_, ⟨hbi.1, hk.1, root', ?_⟩, hbi.2⟩
    obtain ⟨k1, k2, k3, k4, k5, k6, k7⟩ := hk.2.1
    refine ⟨k1, k2, k3, k4, k5, k6, ?_⟩
    intro d hd hdl
    rcases k7 d hd hdl with h2 | rfl | h2
    · exact Or.inl h2
    · exact Or.inl (hk.2.2 hdl)
    · exact Or.inr (Or.inr h2)

theorem wsStep_none (pq : PQ (E × Cell) zLt) {w h : Nat} {t : Topo} {alter : Bool} {nodata : E}
    {p : WState E} (hst : wsStep pq w h t alter nodata p = none) : wsNext pq p = none := by
  unfold wsStep at hst
  cases hp : wsNext pq p with
  | none => rfl
  | some cr => rw [hp] at hst; cases hst

theorem watersheds_final (pq : PQ (E × Cell) zLt) {w h : Nat} (t : Topo) (alter : Bool) (nodata : E)
    (dem : Cell → E) (hnd : ∀ c, nodata ≤ dem c) (hw : 0 < w) (hh : 0 < h) :
    ∃ s : FState E, WInv w h t alter nodata dem s (watersheds pq w h t alter nodata dem) ∧
      s.openQ = [] ∧ s.pitQ = [] ∧
      wsStep pq w h t alter nodata (watersheds pq w h t alter nodata dem) = none := by
  have hinit : WInv w h t alter nodata dem (floodInit pq w h dem) (wsInit pq w h dem) := by
    have hedge : ∀ c, (floodInit pq w h dem).closed c = true → c ∈ perimeter w h := by
      intro c hc
      have := (markAll_iff (l := perimeter w h) (f := fun _ => false) (c := c)).1 hc
      simpa using this
    refine ⟨floodInit_inv pq t dem hw hh, ⟨rfl, rfl, rfl, ?_⟩, fun _ => (0, 0), ?_⟩
    · simp [wsInit, floodInit]
    · refine ⟨by simp [wsInit], by simp [wsInit], by simp [wsInit], by simp [wsInit], ?_, ?_, ?_⟩
      · intro l h1 h2; simp [wsInit] at h2; omega
      · intro c hc _
        exact Or.inl ((mem_perimeter hw hh).1 (hedge c hc))
      · intro c hc _
        refine Or.inr (Or.inr ⟨(dem c, c), Or.inl ?_, rfl⟩)
        simp only [floodInit, pq.mem_pushAll, List.mem_map]
        exact Or.inl ⟨c, hedge c hc, rfl⟩
  obtain ⟨s, h1, h2⟩ := loop_ghost (step := wsStep pq w h t alter nodata)
    (fun s p => WInv w h t alter nodata dem s p) (fMeasure w h)
    (fun g p p' hg hst => wsStep_inv pq hnd g p p' hg hst) (floodFuel w h) _ _ hinit
    (floodInit_measure pq dem)
  have h3 := wsStep_none pq h2
  have h4 : barnesNext pq s = none := by
    rcases wsNext_rel pq h1.rel with ⟨_, h5⟩ | ⟨c, s1, p1, hp1, _⟩
    · exact h5
    · rw [hp1] at h3; cases h3
  exact ⟨s, h1, (barnesNext_none pq h4).1, (barnesNext_none pq h4).2, h2⟩

end RichDEM
