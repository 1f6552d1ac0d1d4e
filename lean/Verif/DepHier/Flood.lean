/-
Model of the flood phase of `GetDepressionHierarchy`
(include/richdem/depressions/depression_hierarchy.hpp:236-533): ocean and pit seeds, the
priority-queue search that labels every cell and records the lowest link between every two
depressions.
-/
import Verif.Loop
import Verif.Flood

namespace RichDEM

variable {E : Type*} [LinearOrder E]

/-- The variables of the flood phase: `label` (`none` is `NO_DEP`, `some 0` is `OCEAN`),
`flowdirs` (0 is `NO_FLOW`), `pq`, `depressions.size()`, `depressions[d].pit_cell` and
`outlet_database`.  Simplification: labels are unbounded naturals (`dh_label_t` is 32 bits wide,
depression_hierarchy.hpp:30), `pit_elev` is not stored separately (it is `dem(pit_cell)`, :456). -/
structure DHS (E : Type*) where
  label : Cell → Option Nat
  fd : Cell → Nat
  q : List (E × Cell)
  ndep : Nat
  pit : Nat → Cell
  outs : Nat × Nat → Option (Cell × E)

/-- depression_hierarchy.hpp:103-108 (`OutletLink`): the ordered pair of labels. -/
def outLink (a b : Nat) : Nat × Nat := if a < b then (a, b) else (b, a)

/-- depression_hierarchy.hpp:282-306: ocean cells with a non-ocean neighbour, by index (:366). -/
def oceanSeeds (w h : Nat) (t : Topo) (oc : Cell → Bool) : List Cell :=
  (allCells w h).filter (fun c => oc c && (dirs t).any (fun n =>
    inGrid w h (nbr t c n) && !(oc (nbr t c n))))

/-- depression_hierarchy.hpp:338-361: non-ocean cells without a lower neighbour, by index. -/
def landSeeds (w h : Nat) (t : Topo) (dem : Cell → E) (oc : Cell → Bool) : List Cell :=
  (allCells w h).filter (fun c => !(oc c) && !((dirs t).any (fun n =>
    inGrid w h (nbr t c n) && decide (dem (nbr t c n) < dem c))))

/-- depression_hierarchy.hpp:312-323,372-386: the ocean is depression 0; all seeds are queued. -/
def dhInit (pq : PQ (E × Cell) zLt) (w h : Nat) (t : Topo) (dem : Cell → E) (oc : Cell → Bool) :
    DHS E where
  label := fun c => if inGrid w h c && oc c then some 0 else none
  fd := fun _ => 0
  q := pq.pushAll ((landSeeds w h t dem oc).map (fun c => (dem c, c)))
    (pq.pushAll ((oceanSeeds w h t oc).map (fun c => (dem c, c))) [])
  ndep := 1
  pit := fun _ => (0, 0)
  outs := fun _ => none

/-- depression_hierarchy.hpp:436-469: label of the popped cell; an unlabelled cell starts a new
depression. -/
def dhOpen (c : Cell) (s : DHS E) : Nat × DHS E :=
  match s.label c with
  | some l => (l, s)
  | none => (s.ndep, { s with
      label := Function.update s.label c (some s.ndep)      -- :460
      pit := Function.update s.pit s.ndep c                 -- :455
      ndep := s.ndep + 1 })                                 -- :453-454

/-- depression_hierarchy.hpp:501-530: the outlet is the higher of the two cells; keep the lowest
outlet per pair of labels. -/
def dhOutlet (dem : Cell → E) (z : E) (c q : Cell) (l m : Nat) (outs : Nat × Nat → Option (Cell × E)) :
    Nat × Nat → Option (Cell × E) :=
  let oc := if dem q > z then q else c                      -- :501-507
  let oe := if dem q > z then dem q else z
  match outs (outLink l m) with                             -- :523-524
  | some o => if o.2 > oe then Function.update outs (outLink l m) (some (oc, oe)) else outs
  | none => Function.update outs (outLink l m) (some (oc, oe))                       -- :531

/-- depression_hierarchy.hpp:472-533: one neighbour of the focal cell. -/
def dhNbr (pq : PQ (E × Cell) zLt) (w h : Nat) (t : Topo) (dem : Cell → E) (e : E × Cell) (l : Nat)
    (s : DHS E) (n : Nat) : DHS E :=
  let q := nbr t e.2 n
  if inGrid w h q = false then s                            -- :475
  else match s.label q with
    | none => { s with label := Function.update s.label q (some l)                   -- :481
                       q := pq.push (dem q, q) s.q                                   -- :482
                       fd := Function.update s.fd q (dinverse t n) }                 -- :483
    | some m => if m = l then s                                                      -- :484
        else { s with outs := dhOutlet dem e.1 e.2 q l m s.outs }

/-- depression_hierarchy.hpp:429-535: one turn of the search. -/
def dhStep (pq : PQ (E × Cell) zLt) (w h : Nat) (t : Topo) (dem : Cell → E) (s : DHS E) :
    Option (DHS E) :=
  match pq.pop s.q with
  | none => none
  | some (e, rest) =>
    let o := dhOpen e.2 { s with q := rest }
    some ((dirs t).foldl (dhNbr pq w h t dem e o.1) o.2)

/-- depression_hierarchy.hpp:236-536: seeds and search.  The `runtime_error` for an input
without an ocean border (:308-310) is in `getDHFlood`. -/
def dhFlood (pq : PQ (E × Cell) zLt) (w h : Nat) (t : Topo) (dem : Cell → E) (oc : Cell → Bool) :
    DHS E :=
  loop (dhStep pq w h t dem) (2 * (w * h)) (dhInit pq w h t dem oc)

/-- depression_hierarchy.hpp:282-310: labels other than `OCEAN` (`some 0`) and `NO_DEP` (`none`),
or no ocean cell next to land, raise `std::runtime_error` (`none`). -/
def getDHFlood (pq : PQ (E × Cell) zLt) (w h : Nat) (t : Topo) (dem : Cell → E)
    (lab : Cell → Option Nat) : Option (DHS E) :=
  if (allCells w h).any (fun c => !(lab c == some 0) && !(lab c == none)) then none
  else if oceanSeeds w h t (fun c => lab c == some 0) = [] then none
  else some (dhFlood pq w h t dem (fun c => lab c == some 0))

/-! ### Invariants -/

/-- A land cell without lower neighbours. -/
def PitCell (w h : Nat) (t : Topo) (dem : Cell → E) (oc : Cell → Bool) (c : Cell) : Prop :=
  InGrid w h c ∧ oc c = false ∧ ∀ d, Adj t c d → InGrid w h d → dem c ≤ dem d

/-- Following `fd` from the cell stays in label `l`, never climbs and ends at the pit of
depression `l`, or at an ocean cell if `l` is the ocean. -/
inductive DHPath (w h : Nat) (t : Topo) (dem : Cell → E) (oc : Cell → Bool)
    (label : Cell → Option Nat) (fd : Cell → Nat) (pit : Nat → Cell) (l : Nat) : Cell → Prop
  | ocean {c} : InGrid w h c → oc c = true → l = 0 → label c = some l → fd c = 0 →
      DHPath w h t dem oc label fd pit l c
  | pit {c} : 0 < l → c = pit l → InGrid w h c → label c = some l → fd c = 0 →
      DHPath w h t dem oc label fd pit l c
  | step {c} : InGrid w h c → label c = some l → fd c ∈ dirs t → dem (nbr t c (fd c)) ≤ dem c →
      DHPath w h t dem oc label fd pit l (nbr t c (fd c)) →
      DHPath w h t dem oc label fd pit l c

/-- The link of two labelled cells is in the outlet table at most at the given height. -/
def DHRec (dem : Cell → E) (label : Cell → Option Nat) (outs : Nat × Nat → Option (Cell × E))
    (u v : Cell) : Prop :=
  ∀ a b, label u = some a → label v = some b → a ≠ b →
    ∃ x z, outs (outLink a b) = some (x, z) ∧ z ≤ max (dem u) (dem v)

structure DHInv (w h : Nat) (t : Topo) (dem : Cell → E) (oc : Cell → Bool) (D : Cell → Prop)
    (cur : Option Cell) (s : DHS E) : Prop where
  lab0 : ∀ c, InGrid w h c → oc c = true → s.label c = some 0
  inside : ∀ c, s.label c ≠ none → InGrid w h c
  lt : ∀ c l, s.label c = some l → l < s.ndep
  pos : 1 ≤ s.ndep
  queued : ∀ e ∈ s.q, e.1 = dem e.2 ∧ InGrid w h e.2 ∧ (s.label e.2 ≠ none ∨ PitCell w h t dem oc e.2)
  front : ∀ c, s.label c ≠ none → (D c ∨ cur = some c) ∨ (dem c, c) ∈ s.q ∨
    (oc c = true ∧ ∀ d, Adj t c d → InGrid w h d → oc d = true)
  seeds : ∀ c, PitCell w h t dem oc c → (D c ∨ cur = some c) ∨ (dem c, c) ∈ s.q
  order : ∀ c, D c ∨ cur = some c → ∀ e ∈ s.q, dem c ≤ e.1
  ordc : ∀ c, cur = some c → ∀ d, D d → dem d ≤ dem c
  dlab : ∀ c, D c ∨ cur = some c → s.label c ≠ none
  path : ∀ c l, s.label c = some l → DHPath w h t dem oc s.label s.fd s.pit l c
  pits : ∀ d, 1 ≤ d → d < s.ndep → PitCell w h t dem oc (s.pit d) ∧ s.label (s.pit d) = some d
  fresh : ∀ c, s.label c = none → s.fd c = 0
  sound : ∀ a b x z, s.outs (a, b) = some (x, z) → a < b ∧ ∃ u v, Adj t u v ∧ InGrid w h u ∧
    InGrid w h v ∧ s.label u = some a ∧ s.label v = some b ∧ z = max (dem u) (dem v) ∧
    (x = u ∨ x = v) ∧ dem x = z
  done : ∀ u, D u → ∀ v, Adj t u v → InGrid w h v →
    s.label v ≠ none ∧ DHRec dem s.label s.outs u v

variable {w h : Nat} {t : Topo} {dem : Cell → E} {oc : Cell → Bool}

theorem outLink_comm (a b : Nat) (hab : a ≠ b) : outLink a b = outLink b a := by
  unfold outLink
  rcases Nat.lt_or_gt_of_ne hab with h | h
  · rw [if_pos h, if_neg (by omega)]
  · rw [if_neg (by omega), if_pos h]

/-- Every cell lower than everything pending is labelled. -/
theorem dh_low {D cur} {s : DHS E} (I : DHInv w h t dem oc D cur s) (x : Cell)
    (hx : InGrid w h x) (hq : ∀ e ∈ s.q, dem x < e.1) (hc : ∀ c, cur = some c → dem x < dem c) :
    s.label x ≠ none := by
  induction hk : (allCells w h).countP (fun d => decide (dem d < dem x)) using Nat.strongRecOn
    generalizing x with
  | _ k ih =>
    by_cases ho : oc x = true
    · rw [I.lab0 x hx ho]; simp
    by_cases hp : PitCell w h t dem oc x
    · rcases I.seeds x hp with hd | hd
      · exact I.dlab x hd
      · exact absurd (hq _ hd) (lt_irrefl _)
    · have : ∃ d, Adj t x d ∧ InGrid w h d ∧ dem d < dem x := by
        by_contra hn
        push Not at hn
        exact hp ⟨hx, by simpa using ho, fun d h1 h2 => hn d h1 h2⟩
      obtain ⟨d, had, hd, hlt⟩ := this
      have hlab : s.label d ≠ none := by
        refine ih _ ?_ d hd (fun e he => hlt.trans (hq e he)) (fun c e => hlt.trans (hc c e)) rfl
        rw [← hk]
        have hsub : ∀ y ∈ allCells w h, decide (dem y < dem d) = true → decide (dem y < dem x) = true := by
          intro y _ hy; simp only [decide_eq_true_eq] at *; exact hy.trans hlt
        rw [List.countP_eq_length_filter, List.countP_eq_length_filter]
        have h1 : ((allCells w h).filter (fun y => decide (dem y < dem d))).length + 1 ≤
            ((allCells w h).filter (fun y => decide (dem y < dem x))).length := by
          have hnd : ((d :: (allCells w h).filter (fun y => decide (dem y < dem d)))).Nodup := by
            rw [List.nodup_cons]
            exact ⟨by simp, (nodup_allCells w h).filter _⟩
          have hss : (d :: (allCells w h).filter (fun y => decide (dem y < dem d))) ⊆
              (allCells w h).filter (fun y => decide (dem y < dem x)) := by
            intro y hy
            rcases List.mem_cons.1 hy with rfl | hy
            · exact List.mem_filter.2 ⟨mem_allCells.2 hd, by simpa using hlt⟩
            · obtain ⟨a, b⟩ := List.mem_filter.1 hy
              exact List.mem_filter.2 ⟨a, hsub y a b⟩
          exact (List.subperm_of_subset hnd hss).length_le
        omega
      rcases I.front d hlab with (h1 | h1) | h1 | h1
      · exact (I.done d h1 x had.symm hx).1
      · exact absurd (hlt.trans (hc d h1)) (lt_irrefl _)
      · exact absurd (hlt.trans (hq _ h1)) (lt_irrefl _)
      · exact absurd (h1.2 x had.symm hx) ho

/-- Labelling a new cell keeps paths. -/
theorem DHPath.mono {label label' : Cell → Option Nat} {fd fd' : Cell → Nat} {pit pit' : Nat → Cell}
    {l : Nat} {c : Cell} (h1 : ∀ c, label c ≠ none → label' c = label c ∧ fd' c = fd c)
    (h2 : pit' l = pit l) (p : DHPath w h t dem oc label fd pit l c) :
    DHPath w h t dem oc label' fd' pit' l c := by
  induction p with
  | ocean a b c d e =>
    have := h1 _ (by rw [d]; simp)
    exact .ocean a b c (by rw [this.1, d]) (by rw [this.2, e])
  | pit a b c d e =>
    have := h1 _ (by rw [d]; simp)
    exact .pit a (by rw [h2, b]) c (by rw [this.1, d]) (by rw [this.2, e])
  | @step c a b d e f ih =>
    have := h1 _ (by rw [b]; simp)
    refine .step a (by rw [this.1, b]) (by rw [this.2]; exact d) (by rw [this.2]; exact e) ?_
    rw [this.2]; exact ih

/-- What one neighbour step guarantees for its neighbour. -/
def DHDone (w h : Nat) (dem : Cell → E) (c d : Cell) (s : DHS E) : Prop :=
  InGrid w h d → s.label d ≠ none ∧ DHRec dem s.label s.outs c d

/-- Measure of the search. -/
def dhMeasure (w h : Nat) (s : DHS E) : Nat :=
  s.q.length + unflagged w h (fun c => (s.label c).isSome)

theorem dhRec_mono {label label' : Cell → Option Nat} {outs outs' : Nat × Nat → Option (Cell × E)}
    {u v : Cell} (hl : ∀ c, label c ≠ none → label' c = label c)
    (ho : ∀ k x z, outs k = some (x, z) → ∃ x' z', outs' k = some (x', z') ∧ z' ≤ z)
    (hu : label u ≠ none) (hv : label v ≠ none) (r : DHRec dem label outs u v) :
    DHRec dem label' outs' u v := by
  intro a b ha hb hab
  rw [hl u hu] at ha
  rw [hl v hv] at hb
  obtain ⟨x, z, h1, h2⟩ := r a b ha hb hab
  obtain ⟨x', z', h3, h4⟩ := ho _ _ _ h1
  exact ⟨x', z', h3, h4.trans h2⟩

theorem nbr_dinverse {t : Topo} {c : Cell} {n : Nat} (hn : n ∈ dirs t) :
    dinverse t n ∈ dirs t ∧ nbr t (nbr t c n) (dinverse t n) = c := by
  have hn' := mem_dirs.1 hn
  obtain ⟨x, y⟩ := c
  cases t
  · have : n = 1 ∨ n = 2 ∨ n = 3 ∨ n = 4 ∨ n = 5 ∨ n = 6 ∨ n = 7 ∨ n = 8 := by
      simp only [nmax] at hn'; omega
    rcases this with rfl | rfl | rfl | rfl | rfl | rfl | rfl | rfl <;>
      exact ⟨by decide, by simp [nbr, dx, dy, dinverse, d8x, d8y, d8_inverse]⟩
  · have : n = 1 ∨ n = 2 ∨ n = 3 ∨ n = 4 := by
      simp only [nmax] at hn'; omega
    rcases this with rfl | rfl | rfl | rfl <;>
      exact ⟨by decide, by simp [nbr, dx, dy, dinverse, d4x, d4y, d4_inverse]⟩

theorem dhOutlet_spec (z : E) (c q : Cell) (l m : Nat)
    (outs : Nat × Nat → Option (Cell × E)) (hz : z = dem c) :
    (∀ k x y, outs k = some (x, y) → ∃ x' y', dhOutlet dem z c q l m outs k = some (x', y') ∧ y' ≤ y) ∧
    (∃ x y, dhOutlet dem z c q l m outs (outLink l m) = some (x, y) ∧ y ≤ max (dem c) (dem q)) ∧
    (∀ k x y, dhOutlet dem z c q l m outs k = some (x, y) → outs k = some (x, y) ∨
      (k = outLink l m ∧ y = max (dem c) (dem q) ∧ (x = c ∨ x = q) ∧ dem x = y)) := by
  subst hz
  set oc := if dem q > dem c then q else c with hoc
  set oe := if dem q > dem c then dem q else dem c with hoe
  have e1 : oe = max (dem c) (dem q) := by
    rw [hoe]; split
    · rw [max_eq_right]; exact le_of_lt ‹_›
    · rw [max_eq_left]; exact not_lt.1 ‹_›
  have e2 : (oc = c ∨ oc = q) ∧ dem oc = oe := by
    rw [hoc, hoe]; split <;> simp
  have key : dhOutlet dem (dem c) c q l m outs = outs ∧ (∃ x y, outs (outLink l m) = some (x, y) ∧ y ≤ oe) ∨
      dhOutlet dem (dem c) c q l m outs = Function.update outs (outLink l m) (some (oc, oe)) ∧
        (∀ x y, outs (outLink l m) = some (x, y) → oe ≤ y) := by
    unfold dhOutlet
    simp only [← hoc, ← hoe]
    cases ho : outs (outLink l m) with
    | none => right; simp
    | some o =>
      by_cases h : o.2 > oe
      · right; simp only [if_pos h, true_and]
        intro x y hxy
        have : o = (x, y) := by simpa using hxy
        rw [this] at h; exact h.le
      · left; simp only [if_neg h, true_and]
        exact ⟨o.1, o.2, rfl, not_lt.1 h⟩
  rcases key with ⟨e, x0, y0, h1, h2⟩ | ⟨e, h1⟩
  · rw [e]
    exact ⟨fun k x y hk => ⟨x, y, hk, le_refl _⟩, ⟨x0, y0, h1, h2.trans e1.le⟩, fun k x y hk => .inl hk⟩
  · rw [e]
    refine ⟨?_, ⟨oc, oe, by simp, e1.le⟩, ?_⟩
    · intro k x y hk
      by_cases hkk : k = outLink l m
      · subst hkk; exact ⟨oc, oe, by simp, h1 x y hk⟩
      · exact ⟨x, y, by rw [Function.update_of_ne hkk]; exact hk, le_refl _⟩
    · intro k x y hk
      by_cases hkk : k = outLink l m
      · subst hkk
        rw [Function.update_self] at hk
        obtain ⟨rfl, rfl⟩ : oc = x ∧ oe = y := by simpa using hk
        exact .inr ⟨rfl, e1, e2.1, e2.2⟩
      · rw [Function.update_of_ne hkk] at hk; exact .inl hk

theorem dhNbr_inv (pq : PQ (E × Cell) zLt) {D : Cell → Prop} {c : Cell} {l : Nat} {s : DHS E}
    (I : DHInv w h t dem oc D (some c) s) (hl : s.label c = some l) {n : Nat} (hn : n ∈ dirs t) :
    let s' := dhNbr pq w h t dem (dem c, c) l s n
    DHInv w h t dem oc D (some c) s' ∧ s'.label c = some l ∧ DHDone w h dem c (nbr t c n) s' ∧
    (∀ d, DHDone w h dem c d s → DHDone w h dem c d s') ∧ dhMeasure w h s' ≤ dhMeasure w h s := by
  intro s'
  have hadj : Adj t c (nbr t c n) := nbr_adj hn
  by_cases hg : inGrid w h (nbr t c n) = false
  · have e : s' = s := by simp only [s', dhNbr, if_pos hg]
    rw [e]
    exact ⟨I, hl, fun hd => absurd hd (inGrid_false.1 hg), fun d hd => hd, le_refl _⟩
  have hin : InGrid w h (nbr t c n) := inGrid_iff.1 (by simpa using hg)
  cases hq : s.label (nbr t c n) with
  | none =>
    have e : s' = { s with label := Function.update s.label (nbr t c n) (some l)
                           q := pq.push (dem (nbr t c n), nbr t c n) s.q
                           fd := Function.update s.fd (nbr t c n) (dinverse t n) } := by
      simp only [s', dhNbr, if_neg hg, hq]
    set q := nbr t c n with hqdef
    have hcq : c ≠ q := by rintro e; rw [← e, hl] at hq; cases hq
    have hle : dem c ≤ dem q := by
      by_contra hlt
      have := dh_low I q hin (fun e he => lt_of_lt_of_le (not_le.1 hlt) (I.order c (.inr rfl) e he))
        (fun c' e => by cases e; exact not_le.1 hlt)
      exact this hq
    have hlab : ∀ b, s'.label b = if b = q then some l else s.label b := by
      intro b; rw [e]
      by_cases hb : b = q
      · subst hb; simp
      · simp [hb]
    have hlabn : ∀ b, s.label b ≠ none → s'.label b = s.label b := by
      intro b hb; rw [hlab]; rw [if_neg]; rintro rfl; exact hb hq
    have hmem : ∀ b, b ∈ s'.q ↔ b = (dem q, q) ∨ b ∈ s.q := by
      intro b; rw [e]; exact pq.mem_push
    have hfd : ∀ b, s.label b ≠ none → s'.label b = s.label b ∧ s'.fd b = s.fd b := by
      intro b hb
      refine ⟨hlabn b hb, ?_⟩
      rw [e]
      exact Function.update_of_ne (by rintro rfl; exact hb hq) _ _
    have hpit : s'.pit = s.pit := by rw [e]
    have hnd : s'.ndep = s.ndep := by rw [e]
    have hout : s'.outs = s.outs := by rw [e]
    have houts : ∀ k x z, s.outs k = some (x, z) → ∃ x' z', s'.outs k = some (x', z') ∧ z' ≤ z :=
      fun k x z hk => ⟨x, z, by rw [hout]; exact hk, le_refl _⟩
    have hcl : s.label c ≠ none := by rw [hl]; simp
    refine ⟨⟨?_, ?_, ?_, ?_, ?_, ?_, ?_, ?_, ?_, ?_, ?_, ?_, ?_, ?_, ?_⟩, ?_, ?_, ?_, ?_⟩
    · intro d hd ho
      have := I.lab0 d hd ho
      rw [hlabn d (by rw [this]; simp), this]
    · intro d hd
      by_cases hdq : d = q
      · rw [hdq]; exact hin
      · rw [hlab, if_neg hdq] at hd; exact I.inside d hd
    · intro d m hd
      rw [hnd]
      by_cases hdq : d = q
      · rw [hlab, if_pos hdq] at hd; cases hd; exact I.lt c l hl
      · rw [hlab, if_neg hdq] at hd; exact I.lt d m hd
    · rw [hnd]; exact I.pos
    · intro x hx
      rcases (hmem x).1 hx with rfl | hx
      · exact ⟨rfl, hin, .inl (by rw [hlab, if_pos rfl]; simp)⟩
      · obtain ⟨a, b, k⟩ := I.queued x hx
        refine ⟨a, b, k.imp_left (fun k => by rw [hlabn _ k]; exact k)⟩
    · intro d hd
      by_cases hdq : d = q
      · subst hdq; exact .inr (.inl ((hmem _).2 (.inl rfl)))
      · rw [hlab, if_neg hdq] at hd
        rcases I.front d hd with k | k | k
        · exact .inl k
        · exact .inr (.inl ((hmem _).2 (.inr k)))
        · exact .inr (.inr k)
    · intro d hd
      rcases I.seeds d hd with k | k
      · exact .inl k
      · exact .inr ((hmem _).2 (.inr k))
    · intro d hd x hx
      rcases (hmem x).1 hx with rfl | hx
      · by_contra hlt
        rw [not_le] at hlt
        rcases hd with hd | hd
        · exact absurd (hle.trans_lt hlt) (not_lt.2 (I.ordc c rfl d hd))
        · cases hd; exact absurd hle (not_le.2 hlt)
      · exact I.order d hd x hx
    · exact I.ordc
    · intro d hd
      have := I.dlab d hd
      rw [hlabn d this]; exact this
    · intro d m hd
      by_cases hdq : d = q
      · subst hdq
        rw [hlab, if_pos rfl] at hd; cases hd
        have hf : s'.fd q = dinverse t n := by rw [e]; simp
        obtain ⟨i1, i2⟩ := nbr_dinverse (c := c) hn
        refine .step hin (by rw [hlab, if_pos rfl]) (by rw [hf]; exact i1) ?_ ?_
        · rw [hf, hqdef, i2]; exact hle
        · rw [hf, hqdef, i2]
          exact (I.path c l hl).mono hfd (by rw [hpit])
      · rw [hlab, if_neg hdq] at hd
        exact (I.path d m hd).mono hfd (by rw [hpit])
    · intro d h1 h2
      rw [hnd] at h2
      obtain ⟨a, b⟩ := I.pits d h1 h2
      rw [hpit]
      exact ⟨a, by rw [hlabn _ (by rw [b]; simp)]; exact b⟩
    · intro d hd
      have hdq : d ≠ q := by rintro rfl; rw [hlab, if_pos rfl] at hd; cases hd
      rw [hlab, if_neg hdq] at hd
      rw [e]
      change Function.update s.fd q (dinverse t n) d = 0
      rw [Function.update_of_ne hdq]; exact I.fresh d hd
    · intro a b x z hx
      rw [hout] at hx
      obtain ⟨h1, u, v, h2, h3, h4, h5, h6, h7⟩ := I.sound a b x z hx
      exact ⟨h1, u, v, h2, h3, h4, by rw [hlabn _ (by rw [h5]; simp)]; exact h5,
        by rw [hlabn _ (by rw [h6]; simp)]; exact h6, h7⟩
    · intro u hu v huv hv
      obtain ⟨h1, h2⟩ := I.done u hu v huv hv
      exact ⟨by rw [hlabn v h1]; exact h1,
        dhRec_mono hlabn houts (I.dlab u (.inl hu)) h1 h2⟩
    · rw [hlabn c hcl]; exact hl
    · intro _
      refine ⟨by rw [hlab, if_pos rfl]; simp, ?_⟩
      intro a b ha hb hab
      rw [hlabn c hcl, hl] at ha
      rw [hlab, if_pos rfl] at hb
      cases ha; cases hb
      exact absurd rfl hab
    · intro d hd hg
      obtain ⟨h1, h2⟩ := hd hg
      exact ⟨by rw [hlabn d h1]; exact h1, dhRec_mono hlabn houts hcl h1 h2⟩
    · have h1 : s'.q.length = s.q.length + 1 := by rw [e]; exact pq.length_push
      have h2 := unflagged_update (f := fun c => (s.label c).isSome) hin (by simp [hq])
      have h3 : (fun c => (s'.label c).isSome) = Function.update (fun c => (s.label c).isSome) q true := by
        funext b
        by_cases hb : b = q
        · subst hb; simp [hlab]
        · simp [hlab, hb]
      unfold dhMeasure
      rw [h1, h3]; omega
  | some m =>
    by_cases hml : m = l
    · have e : s' = s := by simp only [s', dhNbr, if_neg hg, hq, if_pos hml]
      rw [e]
      refine ⟨I, hl, fun _ => ⟨by rw [hq]; simp, ?_⟩, fun d hd => hd, le_refl _⟩
      intro a b ha hb hab
      rw [hl] at ha; rw [hq] at hb; cases ha; cases hb
      exact absurd hml.symm hab
    · have e : s' = { s with outs := dhOutlet dem (dem c) c (nbr t c n) l m s.outs } := by
        simp only [s', dhNbr, if_neg hg, hq, if_neg hml]
      obtain ⟨o1, o2, o3⟩ := dhOutlet_spec (dem := dem) (dem c) c (nbr t c n) l m s.outs rfl
      have hout : s'.outs = dhOutlet dem (dem c) c (nbr t c n) l m s.outs := by rw [e]
      have hlab : s'.label = s.label := by rw [e]
      have hpit : s'.pit = s.pit := by rw [e]
      have hnd : s'.ndep = s.ndep := by rw [e]
      have hqq : s'.q = s.q := by rw [e]
      have hfd : s'.fd = s.fd := by rw [e]
      have houts : ∀ k x z, s.outs k = some (x, z) → ∃ x' z', s'.outs k = some (x', z') ∧ z' ≤ z := by
        rw [hout]; exact o1
      have hcl : s.label c ≠ none := by rw [hl]; simp
      have hlabn : ∀ b, s.label b ≠ none → s'.label b = s.label b := fun b _ => by rw [hlab]
      refine ⟨⟨?_, ?_, ?_, ?_, ?_, ?_, ?_, ?_, ?_, ?_, ?_, ?_, ?_, ?_, ?_⟩, ?_, ?_, ?_, ?_⟩
      · rw [hlab]; exact I.lab0
      · rw [hlab]; exact I.inside
      · rw [hlab, hnd]; exact I.lt
      · rw [hnd]; exact I.pos
      · rw [hqq, hlab]; exact I.queued
      · rw [hqq, hlab]; exact I.front
      · rw [hqq]; exact I.seeds
      · rw [hqq]; exact I.order
      · exact I.ordc
      · rw [hlab]; exact I.dlab
      · rw [hlab, hfd, hpit]; exact I.path
      · rw [hlab, hnd, hpit]; exact I.pits
      · rw [hlab, hfd]; exact I.fresh
      · intro a b x z hx
        rw [hout] at hx
        rw [hlab]
        rcases o3 _ _ _ hx with hx | ⟨hk, h1, h2, h3⟩
        · exact I.sound a b x z hx
        · unfold outLink at hk
          split at hk
          · obtain ⟨rfl, rfl⟩ : a = l ∧ b = m := by simpa using hk
            exact ⟨‹_›, c, nbr t c n, hadj, I.inside c hcl, hin, hl, hq, h1, h2, h3⟩
          · obtain ⟨rfl, rfl⟩ : a = m ∧ b = l := by simpa using hk
            exact ⟨by omega, nbr t c n, c, hadj.symm, hin, I.inside c hcl, hq, hl,
              by rw [max_comm]; exact h1, h2.symm, h3⟩
      · intro u hu v huv hv
        obtain ⟨h1, h2⟩ := I.done u hu v huv hv
        exact ⟨by rw [hlab]; exact h1, dhRec_mono hlabn houts (I.dlab u (.inl hu)) h1 h2⟩
      · rw [hlab]; exact hl
      · intro _
        refine ⟨by rw [hlab, hq]; simp, ?_⟩
        intro a b ha hb hab
        rw [hlab, hl] at ha
        rw [hlab, hq] at hb
        cases ha; cases hb
        rw [hout]; exact o2
      · intro d hd hg
        obtain ⟨h1, h2⟩ := hd hg
        exact ⟨by rw [hlab]; exact h1, dhRec_mono hlabn houts hcl h1 h2⟩
      · unfold dhMeasure; rw [hqq, hlab]

theorem dhOpen_inv {D : Cell → Prop} {e : E × Cell} {rest : List (E × Cell)} {s : DHS E}
    (I : DHInv w h t dem oc D none s) (hp : s.q.Perm (e :: rest))
    (hmin : ∀ f ∈ s.q, e.1 ≤ f.1) :
    let o := dhOpen e.2 { s with q := rest }
    DHInv w h t dem oc D (some e.2) o.2 ∧ o.2.label e.2 = some o.1 ∧ e = (dem e.2, e.2) ∧
      dhMeasure w h o.2 < dhMeasure w h s := by
  intro o
  have he : e ∈ s.q := hp.mem_iff.2 (by simp)
  obtain ⟨e1, e2, e3⟩ := I.queued e he
  have hee : e = (dem e.2, e.2) := by rw [← e1]
  have hmem : ∀ x, x ∈ s.q → x = (dem e.2, e.2) ∨ x ∈ rest := by
    intro x hx; rw [← hee]; simpa using hp.mem_iff.1 hx
  have hmem' : ∀ x, x ∈ rest → x ∈ s.q := fun x hx => hp.mem_iff.2 (by simp [hx])
  have hlen : s.q.length = rest.length + 1 := by rw [hp.length_eq]; simp
  -- everything except labels of the popped cell
  have hfront : ∀ c, (dem c, c) ∈ s.q → (D c ∨ some e.2 = some c) ∨ (dem c, c) ∈ rest := by
    intro c hc
    rcases hmem _ hc with h1 | h1
    · left; right
      have := congrArg Prod.snd h1
      simp only at this; rw [this]
    · exact .inr h1
  have hord : ∀ c, (D c ∨ some e.2 = some c) → ∀ x ∈ rest, dem c ≤ x.1 := by
    rintro c (hc | hc) x hx
    · exact I.order c (.inl hc) x (hmem' x hx)
    · cases hc; rw [← e1]; exact hmin x (hmem' x hx)
  have hordc : ∀ c, some e.2 = some c → ∀ d, D d → dem d ≤ dem c := by
    intro c hc d hd
    cases hc; rw [← e1]; exact I.order d (.inl hd) e he
  cases hl : s.label e.2 with
  | some l =>
    have eo : o = (l, { s with q := rest }) := by simp only [o, dhOpen, hl]
    rw [eo]
    refine ⟨⟨I.lab0, I.inside, I.lt, I.pos, fun x hx => I.queued x (hmem' x hx), ?_, ?_, hord, hordc,
      ?_, I.path, I.pits, I.fresh, I.sound, I.done⟩, hl, hee, ?_⟩
    · intro c hc
      rcases I.front c hc with (k | k) | k | k
      · exact .inl (.inl k)
      · cases k
      · exact (hfront c k).imp_right .inl
      · exact .inr (.inr k)
    · intro c hc
      rcases I.seeds c hc with (k | k) | k
      · exact .inl (.inl k)
      · cases k
      · exact hfront c k
    · rintro c (hc | hc)
      · exact I.dlab c (.inl hc)
      · cases hc; change s.label e.2 ≠ none; rw [hl]; simp
    · unfold dhMeasure; simp only [hlen]; omega
  | none =>
    have hpit : PitCell w h t dem oc e.2 := e3.resolve_left (fun k => k hl)
    set s' : DHS E := { s with q := rest, label := Function.update s.label e.2 (some s.ndep)
                               pit := Function.update s.pit s.ndep e.2, ndep := s.ndep + 1 } with hs'
    have eo : o = (s.ndep, s') := by simp only [o, dhOpen, hl, hs']
    rw [eo]
    have hlab : ∀ b, s'.label b = if b = e.2 then some s.ndep else s.label b := by
      intro b
      by_cases hb : b = e.2
      · rw [if_pos hb, hb]; simp [hs']
      · rw [if_neg hb]; simp [hs', hb]
    have hlabn : ∀ b, s.label b ≠ none → s'.label b = s.label b := by
      intro b hb; rw [hlab, if_neg]; intro hb'; rw [hb'] at hb; exact hb hl
    have hfd : ∀ b, s.label b ≠ none → s'.label b = s.label b ∧ s'.fd b = s.fd b :=
      fun b hb => ⟨hlabn b hb, rfl⟩
    have hpits : ∀ d, d < s.ndep → s'.pit d = s.pit d := by
      intro d hd; change Function.update s.pit s.ndep e.2 d = _
      rw [Function.update_of_ne (by omega)]
    refine ⟨⟨?_, ?_, ?_, ?_, ?_, ?_, ?_, hord, hordc, ?_, ?_, ?_, ?_, ?_, ?_⟩, ?_, hee, ?_⟩
    · intro d hd ho
      have := I.lab0 d hd ho
      rw [hlabn d (by rw [this]; simp), this]
    · intro d hd
      by_cases hdq : d = e.2
      · rw [hdq]; exact e2
      · rw [hlab, if_neg hdq] at hd; exact I.inside d hd
    · intro d m hd
      change m < s.ndep + 1
      by_cases hdq : d = e.2
      · rw [hlab, if_pos hdq] at hd; cases hd; omega
      · rw [hlab, if_neg hdq] at hd; have := I.lt d m hd; omega
    · change 1 ≤ s.ndep + 1; omega
    · intro x hx
      obtain ⟨a, b, k⟩ := I.queued x (hmem' x hx)
      exact ⟨a, b, k.imp_left (fun k => by rw [hlabn _ k]; exact k)⟩
    · intro c hc
      by_cases hce : c = e.2
      · exact .inl (.inr (by rw [hce]))
      · rw [hlab, if_neg hce] at hc
        rcases I.front c hc with (k | k) | k | k
        · exact .inl (.inl k)
        · cases k
        · exact (hfront c k).imp_right .inl
        · exact .inr (.inr k)
    · intro c hc
      rcases I.seeds c hc with (k | k) | k
      · exact .inl (.inl k)
      · cases k
      · exact hfront c k
    · rintro c (hc | hc)
      · have := I.dlab c (.inl hc); rw [hlabn c this]; exact this
      · cases hc; rw [hlab, if_pos rfl]; simp
    · intro d m hd
      by_cases hdq : d = e.2
      · rw [hlab, if_pos hdq] at hd; cases hd
        refine .pit (by have := I.pos; omega) ?_ (by rw [hdq]; exact e2) (by rw [hlab, if_pos hdq]) ?_
        · change d = Function.update s.pit s.ndep e.2 s.ndep
          rw [Function.update_self]; exact hdq
        · rw [hdq]; exact I.fresh _ hl
      · rw [hlab, if_neg hdq] at hd
        exact (I.path d m hd).mono hfd (hpits m (I.lt d m hd))
    · intro d h1 h2
      by_cases hdn : d = s.ndep
      · subst hdn
        have : s'.pit s.ndep = e.2 := by simp [hs']
        rw [this]
        exact ⟨hpit, by rw [hlab, if_pos rfl]⟩
      · have h2 : d < s.ndep + 1 := h2
        obtain ⟨a, b⟩ := I.pits d h1 (by omega)
        rw [hpits d (by omega)]
        exact ⟨a, by rw [hlabn _ (by rw [b]; simp)]; exact b⟩
    · intro d hd
      have hdq : d ≠ e.2 := by intro k; rw [hlab, if_pos k] at hd; cases hd
      rw [hlab, if_neg hdq] at hd
      exact I.fresh d hd
    · intro a b x z hx
      obtain ⟨h1, u, v, h2, h3, h4, h5, h6, h7⟩ := I.sound a b x z hx
      exact ⟨h1, u, v, h2, h3, h4, by rw [hlabn _ (by rw [h5]; simp)]; exact h5,
        by rw [hlabn _ (by rw [h6]; simp)]; exact h6, h7⟩
    · intro u hu v huv hv
      obtain ⟨h1, h2⟩ := I.done u hu v huv hv
      exact ⟨by rw [hlabn v h1]; exact h1,
        dhRec_mono hlabn (fun k x z hk => ⟨x, z, hk, le_refl _⟩) (I.dlab u (.inl hu)) h1 h2⟩
    · rw [hlab, if_pos rfl]
    · have h2 := unflagged_update (f := fun c => (s.label c).isSome) e2 (by simp [hl])
      have h3 : (fun c => (s'.label c).isSome) = Function.update (fun c => (s.label c).isSome) e.2 true := by
        funext b
        by_cases hb : b = e.2
        · rw [hb]; simp [hlab]
        · simp [hlab, hb]
      unfold dhMeasure
      change rest.length + unflagged w h (fun c => (s'.label c).isSome) < _
      rw [h3]; omega

theorem dhStep_inv' (pq : PQ (E × Cell) zLt) {D : Cell → Prop} {s s' : DHS E}
    (I : DHInv w h t dem oc D none s) (hs : dhStep pq w h t dem s = some s') :
    (∃ e rest, pq.pop s.q = some (e, rest) ∧ DHInv w h t dem oc (fun c => D c ∨ c = e.2) none s') ∧
      dhMeasure w h s' < dhMeasure w h s := by
  unfold dhStep at hs
  cases hp : pq.pop s.q with
  | none => rw [hp] at hs; cases hs
  | some er =>
    obtain ⟨e, rest⟩ := er
    rw [hp] at hs
    simp only [Option.some.injEq] at hs
    obtain ⟨hperm, hmin⟩ := pq.pop_some hp
    obtain ⟨I1, hl, hee, hm⟩ := dhOpen_inv I hperm (fun f hf => by
      have := hmin f hf; simpa [zLt] using this)
    set o := dhOpen e.2 { s with q := rest } with ho
    obtain ⟨⟨J, Jl, Jm⟩, Jd, _⟩ := foldl_inv (f := dhNbr pq w h t dem e o.1)
      (fun s => DHInv w h t dem oc D (some e.2) s ∧ s.label e.2 = some o.1 ∧
        dhMeasure w h s ≤ dhMeasure w h o.2)
      (fun n s => DHDone w h dem e.2 (nbr t e.2 n) s) (dirs t) o.2
      (by
        rintro s n hn ⟨J, Jl, Jm⟩
        rw [hee]
        obtain ⟨k1, k2, k3, k4, k5⟩ := dhNbr_inv pq J Jl hn
        exact ⟨⟨k1, k2, k5.trans Jm⟩, k3⟩)
      (by
        rintro s n b hn ⟨J, Jl, Jm⟩ hb
        rw [hee]
        obtain ⟨k1, k2, k3, k4, k5⟩ := dhNbr_inv pq J Jl hn
        exact k4 _ hb)
      ⟨I1, hl, le_refl _⟩
    rw [hs] at J Jl Jm Jd
    refine ⟨⟨e, rest, rfl, ⟨J.lab0, J.inside, J.lt, J.pos, J.queued, ?_, ?_, ?_, ?_, ?_, J.path,
      J.pits, J.fresh, J.sound, ?_⟩⟩, by omega⟩
    · intro c hc
      rcases J.front c hc with (k | k) | k
      · exact .inl (.inl (.inl k))
      · exact .inl (.inl (.inr (by cases k; rfl)))
      · exact .inr k
    · intro c hc
      rcases J.seeds c hc with (k | k) | k
      · exact .inl (.inl (.inl k))
      · exact .inl (.inl (.inr (by cases k; rfl)))
      · exact .inr k
    · rintro c ((hc | hc) | hc)
      · exact J.order c (.inl hc)
      · exact J.order c (.inr (by rw [hc]))
      · cases hc
    · intro c hc; cases hc
    · rintro c ((hc | hc) | hc)
      · exact J.dlab c (.inl hc)
      · exact J.dlab c (.inr (by rw [hc]))
      · cases hc
    · rintro u (hu | hu) v huv hv
      · exact J.done u hu v huv hv
      · subst hu
        obtain ⟨n, hn, rfl⟩ := adj_iff_nbr.1 huv
        exact Jd n hn hv

theorem dhStep_inv (pq : PQ (E × Cell) zLt) {D : Cell → Prop} {s s' : DHS E}
    (I : DHInv w h t dem oc D none s) (hs : dhStep pq w h t dem s = some s') :
    (∃ D', DHInv w h t dem oc D' none s') ∧ dhMeasure w h s' < dhMeasure w h s := by
  obtain ⟨⟨e, _, _, J⟩, hm⟩ := dhStep_inv' pq I hs
  exact ⟨⟨_, J⟩, hm⟩

theorem mem_landSeeds {c : Cell} : c ∈ landSeeds w h t dem oc ↔ PitCell w h t dem oc c := by
  unfold landSeeds PitCell
  rw [List.mem_filter, mem_allCells]
  refine and_congr_right (fun hc => ?_)
  simp only [Bool.and_eq_true, Bool.not_eq_true', List.any_eq_false, decide_eq_true_eq, not_and,
    not_lt]
  refine and_congr_right (fun _ => ?_)
  constructor
  · intro hk d had hd
    obtain ⟨n, hn, rfl⟩ := adj_iff_nbr.1 had
    exact hk n hn (inGrid_iff.2 hd)
  · intro hk n hn hg
    exact hk _ (nbr_adj hn) (inGrid_iff.1 hg)

theorem dhInit_inv (pq : PQ (E × Cell) zLt) :
    DHInv w h t dem oc (fun _ => False) none (dhInit pq w h t dem oc) := by
  have hl : ∀ c, (dhInit pq w h t dem oc).label c ≠ none ↔ InGrid w h c ∧ oc c = true := by
    intro c
    simp only [dhInit]
    rw [← inGrid_iff]
    split
    · rename_i k; simpa using k
    · rename_i k; simpa using k
  have hq : ∀ e, e ∈ (dhInit pq w h t dem oc).q ↔ e.1 = dem e.2 ∧
      (PitCell w h t dem oc e.2 ∨ e.2 ∈ oceanSeeds w h t oc) := by
    intro e
    obtain ⟨z, c⟩ := e
    simp only [dhInit]
    rw [pq.mem_pushAll, pq.mem_pushAll]
    simp only [List.mem_map, Prod.mk.injEq, List.not_mem_nil, or_false, mem_landSeeds]
    constructor
    · rintro (⟨a, h1, rfl, rfl⟩ | ⟨a, h1, rfl, rfl⟩)
      · exact ⟨rfl, .inl h1⟩
      · exact ⟨rfl, .inr h1⟩
    · rintro ⟨rfl, h1 | h1⟩
      · exact .inl ⟨c, h1, rfl, rfl⟩
      · exact .inr ⟨c, h1, rfl, rfl⟩
  have hos : ∀ c, c ∈ oceanSeeds w h t oc ↔ InGrid w h c ∧ oc c = true ∧
      ∃ d, Adj t c d ∧ InGrid w h d ∧ oc d = false := by
    intro c
    unfold oceanSeeds
    rw [List.mem_filter, mem_allCells]
    refine and_congr_right (fun _ => ?_)
    simp only [Bool.and_eq_true, List.any_eq_true, Bool.not_eq_true']
    refine and_congr_right (fun _ => ?_)
    constructor
    · rintro ⟨n, hn, h1, h2⟩; exact ⟨_, nbr_adj hn, inGrid_iff.1 h1, h2⟩
    · rintro ⟨d, hd, h1, h2⟩
      obtain ⟨n, hn, rfl⟩ := adj_iff_nbr.1 hd
      exact ⟨n, hn, inGrid_iff.2 h1, h2⟩
  have h0 : ∀ c l, (dhInit pq w h t dem oc).label c = some l → l = 0 ∧ InGrid w h c ∧ oc c = true := by
    intro c l hc
    have h1 := (hl c).1 (by rw [hc]; simp)
    refine ⟨?_, h1⟩
    simp only [dhInit, inGrid_iff.2 h1.1, h1.2, Bool.and_self, if_true] at hc
    cases hc; rfl
  refine ⟨?_, ?_, ?_, le_refl _, ?_, ?_, ?_, ?_, ?_, ?_, ?_, ?_, ?_, ?_, ?_⟩
  · intro c hc ho
    simp only [dhInit, inGrid_iff.2 hc, ho, Bool.and_self, if_true]
  · intro c hc; exact ((hl c).1 hc).1
  · intro c l hc; rw [(h0 c l hc).1]; exact Nat.one_pos
  · intro e he
    obtain ⟨h1, h2⟩ := (hq e).1 he
    rcases h2 with h2 | h2
    · exact ⟨h1, h2.1, .inr h2⟩
    · obtain ⟨h3, h4, _⟩ := (hos _).1 h2
      exact ⟨h1, h3, .inl ((hl _).2 ⟨h3, h4⟩)⟩
  · intro c hc
    obtain ⟨h1, h2⟩ := (hl c).1 hc
    by_cases hd : ∃ d, Adj t c d ∧ InGrid w h d ∧ oc d = false
    · exact .inr (.inl ((hq _).2 ⟨rfl, .inr ((hos c).2 ⟨h1, h2, hd⟩)⟩))
    · push Not at hd
      exact .inr (.inr ⟨h2, fun d h3 h4 => by simpa using hd d h3 h4⟩)
  · intro c hc; exact .inr ((hq _).2 ⟨rfl, .inl hc⟩)
  · rintro c (hc | hc)
    · exact hc.elim
    · cases hc
  · intro c hc; cases hc
  · rintro c (hc | hc)
    · exact hc.elim
    · cases hc
  · intro c l hc
    obtain ⟨h1, h2, h3⟩ := h0 c l hc
    exact .ocean h2 h3 h1 hc rfl
  · intro d h1 h2
    change d < 1 at h2; omega
  · intro c _; rfl
  · intro a b x z hx; cases hx
  · intro u hu; exact hu.elim

theorem dhInit_measure (pq : PQ (E × Cell) zLt) :
    dhMeasure w h (dhInit pq w h t dem oc) ≤ 2 * (w * h) := by
  have h1 : (dhInit pq w h t dem oc).q.length = (landSeeds w h t dem oc).length + (oceanSeeds w h t oc).length := by
    simp only [dhInit]
    rw [pq.length_pushAll, pq.length_pushAll]; simp
  have h2 : (landSeeds w h t dem oc).length + (oceanSeeds w h t oc).length ≤ w * h := by
    have hnd : (landSeeds w h t dem oc ++ oceanSeeds w h t oc).Nodup := by
      rw [List.nodup_append]
      refine ⟨(nodup_allCells w h).filter _, (nodup_allCells w h).filter _, ?_⟩
      rintro a ha b hb rfl
      simp only [landSeeds, oceanSeeds, List.mem_filter, Bool.and_eq_true, Bool.not_eq_true'] at ha hb
      rw [hb.2.1] at ha; exact absurd ha.2.1 (by simp)
    have hss : (landSeeds w h t dem oc ++ oceanSeeds w h t oc) ⊆ allCells w h := by
      intro a ha
      rcases List.mem_append.1 ha with ha | ha
      · exact (List.mem_filter.1 ha).1
      · exact (List.mem_filter.1 ha).1
    have := (List.subperm_of_subset hnd hss).length_le
    rw [length_allCells, List.length_append] at this
    exact this
  have h3 := unflagged_le w h (fun c => ((dhInit pq w h t dem oc).label c).isSome)
  unfold dhMeasure
  omega

/-- The search always finishes; the final state satisfies the invariant with nothing pending. -/
theorem dhFlood_final (pq : PQ (E × Cell) zLt) (w h : Nat) (t : Topo) (dem : Cell → E)
    (oc : Cell → Bool) :
    (∃ D, DHInv w h t dem oc D none (dhFlood pq w h t dem oc)) ∧ (dhFlood pq w h t dem oc).q = [] := by
  obtain ⟨h1, h2⟩ := loop_spec (step := dhStep pq w h t dem)
    (fun s => ∃ D, DHInv w h t dem oc D none s) (dhMeasure w h)
    (fun s s' ⟨D, I⟩ hs => dhStep_inv pq I hs) (2 * (w * h)) (dhInit pq w h t dem oc)
    ⟨_, dhInit_inv pq⟩ (dhInit_measure pq)
  refine ⟨h1, ?_⟩
  change dhStep pq w h t dem (dhFlood pq w h t dem oc) = none at h2
  unfold dhStep at h2
  cases hp : pq.pop (dhFlood pq w h t dem oc).q with
  | none => exact pq.pop_none.1 hp
  | some er => rw [hp] at h2; cases h2

/-- Every cell is labelled, and every pair of adjacent cells of different depressions is linked. -/
theorem dhFlood_complete (pq : PQ (E × Cell) zLt) (w h : Nat) (t : Topo) (dem : Cell → E)
    (oc : Cell → Bool) :
    (∀ c, InGrid w h c → (dhFlood pq w h t dem oc).label c ≠ none) ∧
    (∀ u v, InGrid w h u → InGrid w h v → Adj t u v →
      DHRec dem (dhFlood pq w h t dem oc).label (dhFlood pq w h t dem oc).outs u v) := by
  obtain ⟨⟨D, I⟩, hq⟩ := dhFlood_final pq w h t dem oc
  have hlab : ∀ c, InGrid w h c → (dhFlood pq w h t dem oc).label c ≠ none := by
    intro c hc
    exact dh_low I c hc (by rw [hq]; simp) (by simp)
  refine ⟨hlab, ?_⟩
  intro u v hu hv huv
  rcases I.front u (hlab u hu) with (k | k) | k | k
  · exact (I.done u k v huv hv).2
  · cases k
  · rw [hq] at k; cases k
  · intro a b ha hb hab
    rw [I.lab0 u hu k.1] at ha
    rw [I.lab0 v hv (k.2 v huv hv)] at hb
    cases ha; cases hb; exact absurd rfl hab

end RichDEM
