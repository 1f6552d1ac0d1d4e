/-
Model of `PriorityFlood_Barnes2014_max_dep`
(include/richdem/depressions/Barnes2014.hpp:844-931).
-/
import Verif.Flood

namespace RichDEM

variable {E : Type*} [LinearOrder E]

/-- State of the size-limited flood. -/
structure MDState (E : Type*) where
  elev : Cell → E
  closed : Cell → Bool
  openQ : List (E × Cell)
  pitQ : List (E × Cell)
  depElev : E
  depCells : List Cell

/-- Barnes2014.hpp:849-887 (`z0` is the initial `dep_elev = 0`). -/
def mdInit (pq : PQ (E × Cell) zLt) (w h : Nat) (z0 : E) (dem : Cell → E) : MDState E where
  elev := dem
  closed := markAll (perimeter w h) (fun _ => false)
  openQ := pq.pushAll ((perimeter w h).map (fun c => (dem c, c))) []
  pitQ := []
  depElev := z0
  depCells := []

/-- `for(pc: dep_cells) elevations(pc)=dep_elev` (Barnes2014.hpp:900-901). -/
def raiseAll (l : List Cell) (z : E) (f : Cell → E) : Cell → E :=
  l.foldl (fun f c => Function.update f c z) f

/-- Barnes2014.hpp:891-907: next cell; leaving a depression raises it if it is small. -/
def mdNext (pq : PQ (E × Cell) zLt) (maxDep : Nat) (s : MDState E) :
    Option ((E × Cell) × MDState E) :=
  match s.pitQ with
  | c :: rest => some (c, { s with pitQ := rest, depCells := s.depCells ++ [c.2] })  -- :892-895
  | [] => match pq.pop s.openQ with
    | some (c, rest) =>
      if s.depCells.length ≤ maxDep then                                             -- :899
        some (c, { s with openQ := rest
                          elev := raiseAll s.depCells s.depElev s.elev               -- :900-901
                          depCells := [] })
      else some (c, { s with openQ := rest, depCells := [] })                        -- :903-904
    | none => none

/-- Barnes2014.hpp:910-925: neighbour loop body. -/
def mdNbr (pq : PQ (E × Cell) zLt) (w h : Nat) (t : Topo) (c : E × Cell) (s : MDState E)
    (n : Nat) : MDState E :=
  let q := nbr t c.2 n
  if inGrid w h q = false then s
  else if s.closed q then s
  else
    let s := { s with closed := Function.update s.closed q true }
    if s.elev q < c.1 then                                                           -- :918
      { s with pitQ := s.pitQ ++ [(c.1, q)], depElev := c.1 }                        -- :920-921
    else { s with openQ := pq.push (s.elev q, q) s.openQ }                           -- :923

/-- Barnes2014.hpp:889-927: one iteration. -/
def mdStep (pq : PQ (E × Cell) zLt) (w h : Nat) (t : Topo) (maxDep : Nat) (s : MDState E) :
    Option (MDState E) :=
  match mdNext pq maxDep s with
  | none => none
  | some (c, s) => some ((dirs t).foldl (mdNbr pq w h t c) s)

/-- Barnes2014.hpp:844-931 `PriorityFlood_Barnes2014_max_dep`. -/
def priorityFloodMaxDep (pq : PQ (E × Cell) zLt) (w h : Nat) (t : Topo) (maxDep : Nat) (z0 : E)
    (dem : Cell → E) : MDState E :=
  loop (mdStep pq w h t maxDep) (floodFuel w h) (mdInit pq w h z0 dem)

/-! ### Invariant -/

theorem raiseAll_apply (l : List Cell) (z : E) (f : Cell → E) (c : Cell) :
    raiseAll l z f c = if c ∈ l then z else f c := by
  induction l generalizing f with
  | nil => simp [raiseAll]
  | cons a l ih =>
    simp only [raiseAll, List.foldl_cons] at ih ⊢
    rw [ih]
    by_cases h1 : c ∈ l
    · simp [h1]
    · by_cases e : c = a
      · subst e; simp [h1]
      · simp [h1, e, Function.update_of_ne e]

/-- A filled batch: at most `maxDep` cells, all at their water level, containing every raised
neighbour of its cells. -/
structure Batch (w h : Nat) (t : Topo) (maxDep : Nat) (dem L elev : Cell → E)
    (closed : Cell → Bool) (B : List Cell) : Prop where
  small : B.length ≤ maxDep
  raised : ∀ a ∈ B, closed a = true ∧ dem a < L a ∧ elev a = L a
  full : ∀ a ∈ B, ∀ b, Adj t a b → InGrid w h b → closed b = true ∧ (dem b < L b → b ∈ B)

structure MDInv (w h : Nat) (t : Topo) (maxDep : Nat) (dem : Cell → E) (cur : Option (E × Cell))
    (L : Cell → E) (s : MDState E) : Prop where
  core : FInv w h t dem L s.closed (inQ s.openQ s.pitQ) (fun c => ∃ e, cur = some e ∧ e.2 = c)
  minO : ∀ c, cur = some c → s.closed c.2 = true ∧ c.1 = L c.2 ∧ ∀ e ∈ s.openQ, c.1 ≤ e.1
  pitz : ∀ c, cur = some c → ∀ e ∈ s.pitQ, e.1 = c.1
  pit : ∀ e ∈ s.pitQ, ∀ f ∈ s.openQ, e.1 ≤ f.1
  lev : ∀ c, (c ∈ s.depCells ∨ ∃ e ∈ s.pitQ, e.2 = c) →
    s.closed c = true ∧ L c = s.depElev ∧ dem c < L c
  elevs : ∀ c, s.elev c = dem c ∨ ∃ B, c ∈ B ∧ Batch w h t maxDep dem L s.elev s.closed B
  opens : ∀ e ∈ s.openQ, e.1 = dem e.2
  dep : ∀ a ∈ s.depCells, (∀ e, cur = some e → e.2 ≠ a) → ∀ b, Adj t a b → InGrid w h b →
    s.closed b = true ∧ (dem b < L b → b ∈ s.depCells ∨ ∃ e ∈ s.pitQ, e.2 = b)
  curdep : ∀ c, cur = some c → dem c.2 < L c.2 → c.2 ∈ s.depCells
  curopen : ∀ c, cur = some c → ¬ dem c.2 < L c.2 → s.depCells = []
  old : ∀ a, s.closed a = true → dem a < L a → a ∉ s.depCells → (∀ e ∈ s.pitQ, e.2 ≠ a) →
    ∀ b, Adj t a b → InGrid w h b → s.closed b = true ∧
      (dem b < L b → b ∉ s.depCells ∧ ∀ e ∈ s.pitQ, e.2 ≠ b)
  nodup : (s.depCells ++ s.pitQ.map Prod.snd).Nodup
  big : ∀ a, s.closed a = true → dem a < L a → a ∉ s.depCells → (∀ e ∈ s.pitQ, e.2 ≠ a) →
    s.elev a = L a ∨ maxDep < w * h
  more : s.openQ ≠ [] ∨ (s.pitQ = [] ∧ s.depCells = [] ∧
    (cur ≠ none → ∀ d, InGrid w h d → s.closed d = true))

def mdMeasure (w h : Nat) (s : MDState E) : Nat :=
  s.openQ.length + s.pitQ.length + unflagged w h s.closed

theorem Batch.congr {w h : Nat} {t : Topo} {maxDep : Nat} {dem L L' elev elev' : Cell → E}
    {closed closed' : Cell → Bool} {B : List Cell} (hb : Batch w h t maxDep dem L elev closed B)
    (hc : ∀ a, closed a = true → closed' a = true ∧ L' a = L a ∧ (elev a = L a → elev' a = elev a)) :
    Batch w h t maxDep dem L' elev' closed' B where
  small := hb.small
  raised := fun a ha => by
    obtain ⟨h1, h2, h3⟩ := hb.raised a ha
    obtain ⟨k1, k2, k3⟩ := hc a h1
    exact ⟨k1, by rw [k2]; exact h2, by rw [k3 h3, k2]; exact h3⟩
  full := fun a ha b hab hb' => by
    obtain ⟨h1, h2⟩ := hb.full a ha b hab hb'
    obtain ⟨k1, k2, k3⟩ := hc b h1
    exact ⟨k1, by rw [k2]; exact h2⟩

theorem mdNbr_inv (pq : PQ (E × Cell) zLt) {w h : Nat} {t : Topo} {maxDep : Nat} {dem : Cell → E}
    {c : E × Cell} {L : Cell → E} {s : MDState E} {n : Nat} (hn : n ∈ dirs t)
    (hs : MDInv w h t maxDep dem (some c) L s) :
    let s' := mdNbr pq w h t c s n
    (∃ L', MDInv w h t maxDep dem (some c) L' s') ∧
    (InGrid w h (nbr t c.2 n) → s'.closed (nbr t c.2 n) = true) ∧
    (∀ d, s.closed d = true → s'.closed d = true) ∧ mdMeasure w h s' = mdMeasure w h s := by
  have hadj := nbr_adj hn (c := c.2)
  obtain ⟨hcc, hcz, hmO⟩ := hs.minO c rfl
  unfold mdNbr
  simp only
  split
  · next hg => exact ⟨⟨L, hs⟩, fun h => absurd h (inGrid_false.1 hg), fun d hd => hd, rfl⟩
  · next hg =>
    have hg' : InGrid w h (nbr t c.2 n) := by rw [← inGrid_iff]; simpa using hg
    generalize hq : nbr t c.2 n = q at *
    split
    · next hcl => exact ⟨⟨L, hs⟩, fun _ => hcl, fun d hd => hd, rfl⟩
    · next hcl =>
      have hcl' : s.closed q = false := by simpa using hcl
      have hne : c.2 ≠ q := by intro e; rw [← e, hcc] at hcl'; cases hcl'
      have hnq : ∀ d, s.closed d = true → d ≠ q := by
        rintro d hd rfl; rw [hd] at hcl'; cases hcl'
      have hcl2 : ∀ d, s.closed d = true → Function.update s.closed q true d = true := by
        intro d hd; rw [Function.update_of_ne (hnq d hd)]; exact hd
      have hcinv : ∀ d, Function.update s.closed q true d = true → d ≠ q → s.closed d = true := by
        intro d hd e; rw [Function.update_of_ne e] at hd; exact hd
      have helev : s.elev q = dem q := by
        rcases hs.elevs q with h1 | ⟨B, h1, h2⟩
        · exact h1
        · rw [(h2.raised q h1).1] at hcl'; cases hcl'
      have hmore : s.openQ ≠ [] := by
        rcases hs.more with h1 | ⟨_, _, h1⟩
        · exact h1
        · rw [h1 (by simp) q hg'] at hcl'; cases hcl'
      have hmin : ∀ e, inQ s.openQ s.pitQ e → L c.2 ≤ e.1 := by
        rw [← hcz]
        rintro e (he | he)
        · exact hmO e he
        · rw [hs.pitz c rfl e he]
      have hcore := hs.core
      have hcore' : FInv w h t dem L s.closed (inQ s.openQ s.pitQ) (· = c.2) :=
        ⟨hcore.fresh, hcore.inside, hcore.edges, hcore.queued, fun d hd => by
          rcases hcore.frontier d hd with ⟨e, h1, h2⟩ | h1 | h1
          · left; simp only [Option.some.injEq] at h1; rw [h1]; exact h2.symm
          · exact Or.inr (Or.inl h1)
          · exact Or.inr (Or.inr h1), hcore.sound, hcore.least, hcore.mono⟩
      have back : ∀ {L' : Cell → E} {cl : Cell → Bool} {Q : E × Cell → Prop},
          FInv w h t dem L' cl Q (· = c.2) →
          FInv w h t dem L' cl Q (fun d => ∃ e, some c = some e ∧ e.2 = d) := by
        intro L' cl Q k
        exact ⟨k.fresh, k.inside, k.edges, k.queued, fun d hd => by
          rcases k.frontier d hd with h1 | h1 | h1
          · exact Or.inl ⟨c, rfl, h1.symm⟩
          · exact Or.inr (Or.inl h1)
          · exact Or.inr (Or.inr h1), k.sound, k.least, k.mono⟩
      have hu := unflagged_update hg' hcl'
      have hpc : ∀ e ∈ s.pitQ, s.closed e.2 = true := fun e he => (hs.lev e.2 (Or.inr ⟨e, he, rfl⟩)).1
      have hdc : ∀ a ∈ s.depCells, s.closed a = true := fun a ha => (hs.lev a (Or.inl ha)).1
      rw [helev]
      split
      · next hlt =>
        have hv : c.1 = max (dem q) (L c.2) := by rw [← hcz, max_eq_right hlt.le]
        have hc := hcore'.close (v := c.1) (Q' := inQ s.openQ (s.pitQ ++ [(c.1, q)]))
          hcc hmin hadj hg' hcl' hv
          (by intro e; simp only [inQ, List.mem_append, List.mem_singleton]; tauto)
        have hLu : ∀ d, s.closed d = true → Function.update L q c.1 d = L d :=
          fun d hd => Function.update_of_ne (hnq d hd) _ _
        -- every pending batch cell has level `c.1`
        have hlev1 : ∀ a, (a ∈ s.depCells ∨ ∃ e ∈ s.pitQ, e.2 = a) → L a = c.1 := by
          intro a ha
          have h1 := (hs.lev a ha).2.1
          by_cases hraised : dem c.2 < L c.2
          · have h2 := (hs.lev c.2 (Or.inl (hs.curdep c rfl hraised))).2.1
            rw [h1, ← h2, hcz]
          · rcases ha with ha | ⟨e, he, rfl⟩
            · rw [hs.curopen c rfl hraised] at ha; simp at ha
            · have h3 := (hcore.queued e (Or.inr he)).2
              rw [← h3]; exact hs.pitz c rfl e he
        refine ⟨⟨Function.update L q c.1, ⟨back hc.1, ?_, ?_, ?_, ?_, ?_, hs.opens, ?_, ?_, ?_, ?_,
          ?_, ?_, Or.inl hmore⟩⟩, fun _ => by simp, hcl2, ?_⟩
        · intro c' hc'
          simp only [Option.some.injEq] at hc'; subst hc'
          exact ⟨hcl2 _ hcc, by rw [hLu _ hcc]; exact hcz, hmO⟩
        · intro c' hc' e he
          simp only [Option.some.injEq] at hc'; subst hc'
          rcases List.mem_append.1 he with he | he
          · exact hs.pitz c rfl e he
          · rw [List.mem_singleton.1 he]
        · intro e he f hf
          rcases List.mem_append.1 he with he | he
          · exact hs.pit e he f hf
          · rw [List.mem_singleton.1 he]; exact hmO f hf
        · intro a ha
          simp only [List.mem_append, List.mem_singleton] at ha
          have : a = q ∨ (a ∈ s.depCells ∨ ∃ e ∈ s.pitQ, e.2 = a) := by
            rcases ha with ha | ⟨e, he | rfl, rfl⟩
            · exact Or.inr (Or.inl ha)
            · exact Or.inr (Or.inr ⟨e, he, rfl⟩)
            · exact Or.inl rfl
          rcases this with rfl | h1
          · simp [hlt]
          · obtain ⟨k1, k2, k3⟩ := hs.lev a h1
            exact ⟨hcl2 a k1, by simp only; rw [hLu a k1]; exact hlev1 a h1, by
              rw [hLu a k1]; exact k3⟩
        · intro a
          rcases hs.elevs a with h1 | ⟨B, h1, h2⟩
          · exact Or.inl h1
          · exact Or.inr ⟨B, h1, h2.congr (fun b hb => ⟨hcl2 b hb, hLu b hb, fun _ => rfl⟩)⟩
        · intro a ha hne' b hab hb
          obtain ⟨h1, h2⟩ := hs.dep a ha hne' b hab hb
          refine ⟨hcl2 b h1, ?_⟩
          rw [hLu b h1]
          intro h3
          rcases h2 h3 with h4 | ⟨e, he, h4⟩
          · exact Or.inl h4
          · exact Or.inr ⟨e, by simp [he], h4⟩
        · intro c' hc'
          simp only [Option.some.injEq] at hc'; subst hc'
          rw [hLu _ hcc]; exact hs.curdep c rfl
        · intro c' hc'
          simp only [Option.some.injEq] at hc'; subst hc'
          rw [hLu _ hcc]; exact hs.curopen c rfl
        · intro a ha hra had hap b hab hb
          have haq : a ≠ q := by
            rintro rfl; exact hap (c.1, a) (by simp) rfl
          have ha' := hcinv a ha haq
          rw [hLu a ha'] at hra
          obtain ⟨h1, h2⟩ := hs.old a ha' hra had (fun e he => hap e (by simp [he])) b hab hb
          refine ⟨hcl2 b h1, ?_⟩
          rw [hLu b h1]
          intro h3
          refine ⟨(h2 h3).1, ?_⟩
          intro e he
          simp only [List.mem_append, List.mem_singleton] at he
          rcases he with he | rfl
          · exact (h2 h3).2 e he
          · exact fun e => hnq b h1 e.symm
        · simp only [List.map_append, List.map_cons, List.map_nil, ← List.append_assoc]
          rw [List.nodup_append]
          refine ⟨hs.nodup, by simp, ?_⟩
          intro a ha b hb
          rw [List.mem_singleton.1 hb]
          rcases List.mem_append.1 ha with ha | ha
          · exact hnq a (hdc a ha)
          · obtain ⟨e, he, rfl⟩ := List.mem_map.1 ha
            exact hnq _ (hpc e he)
        · intro a ha hra had hap
          have haq : a ≠ q := by
            rintro rfl; exact hap (c.1, a) (by simp) rfl
          have ha' := hcinv a ha haq
          rw [hLu a ha'] at hra ⊢
          exact hs.big a ha' hra had (fun e he => hap e (by simp [he]))
        · simp only [mdMeasure, List.length_append, List.length_singleton]; omega
      · next hge =>
        have hge' : c.1 ≤ dem q := not_lt.1 hge
        have hv : dem q = max (dem q) (L c.2) := by rw [← hcz, max_eq_left hge']
        have hc := hcore'.close (v := dem q)
          (Q' := inQ (pq.push (dem q, q) s.openQ) s.pitQ)
          hcc hmin hadj hg' hcl' hv
          (by intro e; simp only [inQ, pq.mem_push]; tauto)
        have hself : Function.update L q (dem q) = L := by
          rw [← hcore.fresh q hcl']; exact Function.update_eq_self _ _
        rw [hself] at hc
        have hqr : L q = dem q := hcore.fresh q hcl'
        refine ⟨⟨L, ⟨back hc.1, ?_, hs.pitz, ?_, ?_, ?_, ?_, ?_, hs.curdep, hs.curopen, ?_,
          hs.nodup, ?_, Or.inl ?_⟩⟩, fun _ => by simp, hcl2, ?_⟩
        · intro c' hc'
          simp only [Option.some.injEq] at hc'; subst hc'
          refine ⟨hcl2 _ hcc, hcz, ?_⟩
          intro e he
          simp only [pq.mem_push] at he
          rcases he with rfl | he
          · exact hge'
          · exact hmO e he
        · intro e he f hf
          simp only [pq.mem_push] at hf
          rcases hf with rfl | hf
          · rw [hs.pitz c rfl e he]; exact hge'
          · exact hs.pit e he f hf
        · intro a ha
          obtain ⟨k1, k2, k3⟩ := hs.lev a ha
          exact ⟨hcl2 a k1, k2, k3⟩
        · intro a
          rcases hs.elevs a with h1 | ⟨B, h1, h2⟩
          · exact Or.inl h1
          · exact Or.inr ⟨B, h1, h2.congr (fun b hb => ⟨hcl2 b hb, rfl, fun _ => rfl⟩)⟩
        · intro e he
          simp only [pq.mem_push] at he
          rcases he with rfl | he
          · rfl
          · exact hs.opens e he
        · intro a ha hne' b hab hb
          obtain ⟨h1, h2⟩ := hs.dep a ha hne' b hab hb
          exact ⟨hcl2 b h1, h2⟩
        · intro a ha hra had hap b hab hb
          have haq : a ≠ q := by
            rintro rfl; rw [hqr] at hra; exact lt_irrefl _ hra
          obtain ⟨h1, h2⟩ := hs.old a (hcinv a ha haq) hra had hap b hab hb
          exact ⟨hcl2 b h1, h2⟩
        · intro a ha hra had hap
          have haq : a ≠ q := by
            rintro rfl; rw [hqr] at hra; exact lt_irrefl _ hra
          exact hs.big a (hcinv a ha haq) hra had hap
        · intro h1
          have := pq.length_push (e := (dem q, q)) (l := s.openQ)
          simp only at h1; rw [h1] at this; simp at this
        · simp only [mdMeasure, pq.length_push]; omega

theorem MDInv.finish {w h : Nat} {t : Topo} {maxDep : Nat} {dem : Cell → E} {c : E × Cell}
    {L : Cell → E} {s : MDState E} (hs : MDInv w h t maxDep dem (some c) L s)
    (hall : ∀ d, Adj t c.2 d → InGrid w h d → s.closed d = true) :
    MDInv w h t maxDep dem none L s := by
  obtain ⟨hcc, hcz, hmO⟩ := hs.minO c rfl
  refine ⟨?_, by simp, by simp, hs.pit, hs.lev, hs.elevs, hs.opens, ?_, by simp, by simp, hs.old,
    hs.nodup, hs.big, ?_⟩
  · have k := hs.core
    refine ⟨k.fresh, k.inside, k.edges, k.queued, fun d hd => ?_, k.sound, k.least, k.mono⟩
    rcases k.frontier d hd with ⟨e, h1, h2⟩ | h1 | h1
    · simp only [Option.some.injEq] at h1
      subst h1; subst h2
      exact Or.inr (Or.inr hall)
    · exact Or.inr (Or.inl h1)
    · exact Or.inr (Or.inr h1)
  · intro a ha _ b hab hb
    by_cases e : c.2 = a
    · subst e
      refine ⟨hall b hab hb, ?_⟩
      intro hrb
      by_contra hno
      rw [not_or] at hno
      have h1 := hs.old b (hall b hab hb) hrb hno.1 (fun e he h => hno.2 ⟨e, he, h⟩) c.2 hab.symm
        (hs.core.inside _ hcc)
      exact (h1.2 (hs.lev c.2 (Or.inl ha)).2.2).1 ha
    · exact hs.dep a ha (fun e' he' => by
        simp only [Option.some.injEq] at he'; subst he'; exact e) b hab hb
  · rcases hs.more with h1 | ⟨h1, h2, _⟩
    · exact Or.inl h1
    · exact Or.inr ⟨h1, h2, by simp⟩

/-- If some cell is still open, the flood front has at least two cells. -/
theorem front_two {w h : Nat} {t : Topo} {dem L : Cell → E} {closed : Cell → Bool}
    {o : List (E × Cell)} {c : Cell}
    (hI : FInv w h t dem L closed (inQ o []) (· = c)) {u : Cell} (hu : InGrid w h u)
    (huc : closed u = false) : o ≠ [] := by
  rintro rfl
  have hfront : ∀ d, closed d = true → (∃ v, Adj t d v ∧ InGrid w h v ∧ closed v = false) →
      d = c := by
    rintro d hd ⟨v, h1, h2, h3⟩
    rcases hI.frontier d hd with h4 | h4 | h4
    · exact h4
    · simp [inQ] at h4
    · rw [h4 v h1 h2] at h3; cases h3
  have adj1 : ∀ x y : Int, Adj t (x, y) (x + 1, y) := by
    intro x y; cases t
    · refine ⟨?_, ?_, ?_⟩
      · intro e; simp only [Prod.mk.injEq] at e; omega
      · simp
      · simp
    · simp [Adj]
  have left : ∀ (x : Nat) (y : Int), InGrid w h ((x : Int), y) → closed ((x : Int), y) = false →
      c.1 < x := by
    intro x
    induction x with
    | zero =>
      intro y h1 h2
      rw [hI.edges _ ⟨h1, Or.inl rfl⟩] at h2; cases h2
    | succ x ih =>
      intro y h1 h2
      have h3 : InGrid w h ((x : Int), y) := by
        simp only [InGrid] at h1 ⊢; push_cast at h1; omega
      cases h4 : closed ((x : Int), y) with
      | false => have := ih y h3 h4; push_cast; omega
      | true =>
        have := hfront _ h4 ⟨(((x + 1 : Nat) : Int), y), by push_cast; exact adj1 x y, h1, h2⟩
        rw [← this]; push_cast; simp
  have right : ∀ (k : Nat) (x y : Int), InGrid w h (x, y) → (w : Int) - 1 - x = k →
      closed (x, y) = false → x < c.1 := by
    intro k
    induction k with
    | zero =>
      intro x y h1 h0 h2
      rw [hI.edges _ ⟨h1, Or.inr (Or.inr (Or.inl (by simp only; push_cast at h0; omega)))⟩] at h2; cases h2
    | succ k ih =>
      intro x y h1 h0 h2
      have h3 : InGrid w h (x + 1, y) := by
        simp only [InGrid] at h1 ⊢; push_cast at h0; omega
      cases h4 : closed (x + 1, y) with
      | false => have := ih (x + 1) y h3 (by push_cast at h0; omega) h4; omega
      | true =>
        have := hfront _ h4 ⟨(x, y), (adj1 x y).symm, h1, h2⟩
        rw [← this]; simp
  obtain ⟨x, y⟩ := u
  obtain ⟨n, rfl⟩ : ∃ n : Nat, x = n := ⟨x.toNat, by have := hu.1; simp only at this; omega⟩
  have h1 := left n y hu huc
  have h2 := right ((w : Int) - 1 - n).toNat n y hu (by have := hu.2.1; simp only at this; omega) huc
  omega

theorem mdNext_inv (pq : PQ (E × Cell) zLt) {w h : Nat} {t : Topo} {maxDep : Nat} {dem : Cell → E}
    {c : E × Cell} {L : Cell → E} {s s1 : MDState E} (hs : MDInv w h t maxDep dem none L s)
    (hn : mdNext pq maxDep s = some (c, s1)) :
    MDInv w h t maxDep dem (some c) L s1 ∧ mdMeasure w h s1 + 1 = mdMeasure w h s := by
  have k := hs.core
  unfold mdNext at hn
  cases hp : s.pitQ with
  | cons p rest =>
    simp only [hp, Option.some.injEq, Prod.mk.injEq] at hn
    obtain ⟨rfl, rfl⟩ := hn
    have hpm : p ∈ s.pitQ := by rw [hp]; simp
    have hrm : ∀ e ∈ rest, e ∈ s.pitQ := fun e he => by rw [hp]; simp [he]
    have hpl := hs.lev p.2 (Or.inr ⟨p, hpm, rfl⟩)
    have hpq := k.queued p (Or.inr hpm)
    have hdisj : ∀ b, (b ∈ s.depCells ∨ ∃ e ∈ s.pitQ, e.2 = b) ↔
        (b ∈ s.depCells ++ [p.2] ∨ ∃ e ∈ rest, e.2 = b) := by
      intro b
      rw [hp]
      simp only [List.mem_cons, List.mem_append, List.not_mem_nil, or_false, exists_eq_or_imp]
      tauto
    refine ⟨⟨?_, ?_, ?_, ?_, ?_, hs.elevs, hs.opens, ?_, ?_, ?_, ?_, ?_, ?_, ?_⟩, ?_⟩
    · have := (hs.core : FInv w h t dem L s.closed (inQ s.openQ s.pitQ) _)
      have h1 : FInv w h t dem L s.closed (inQ s.openQ s.pitQ) (fun _ => False) :=
        ⟨k.fresh, k.inside, k.edges, k.queued, fun d hd => by
          rcases k.frontier d hd with ⟨e, h1, _⟩ | h1 | h1
          · cases h1
          · exact Or.inr (Or.inl h1)
          · exact Or.inr (Or.inr h1), k.sound, k.least, k.mono⟩
      have h2 := h1.start (e := p) (Q' := inQ s.openQ rest) (by
        intro f; simp only [inQ, hp, List.mem_cons]; tauto)
      exact ⟨h2.fresh, h2.inside, h2.edges, h2.queued, fun d hd => by
          rcases h2.frontier d hd with h3 | h3 | h3
          · exact Or.inl ⟨p, rfl, h3.symm⟩
          · exact Or.inr (Or.inl h3)
          · exact Or.inr (Or.inr h3), h2.sound, h2.least, h2.mono⟩
    · intro c' hc'
      simp only [Option.some.injEq] at hc'; subst hc'
      exact ⟨hpq.1, hpq.2, fun e he => hs.pit p hpm e he⟩
    · intro c' hc' e he
      simp only [Option.some.injEq] at hc'; subst hc'
      rw [hpq.2, (k.queued e (Or.inr (hrm e he))).2, hpl.2.1,
        (hs.lev e.2 (Or.inr ⟨e, hrm e he, rfl⟩)).2.1]
    · intro e he f hf; exact hs.pit e (hrm e he) f hf
    · intro a ha; exact hs.lev a ((hdisj a).2 ha)
    · intro a ha hne b hab hb
      have hap : a ∈ s.depCells := by
        simp only [List.mem_append, List.mem_singleton] at ha
        rcases ha with ha | rfl
        · exact ha
        · exact absurd rfl (hne p rfl)
      obtain ⟨h1, h2⟩ := hs.dep a hap (by simp) b hab hb
      exact ⟨h1, fun h3 => (hdisj b).1 (h2 h3)⟩
    · intro c' hc' _
      simp only [Option.some.injEq] at hc'; subst hc'; simp
    · intro c' hc' hnr
      simp only [Option.some.injEq] at hc'; subst hc'
      exact absurd hpl.2.2 hnr
    · intro a ha hra had hap b hab hb
      have h0 := mt (hdisj a).1 (by
        rw [not_or]; exact ⟨had, fun ⟨e, he, h⟩ => hap e he h⟩)
      rw [not_or] at h0
      obtain ⟨h1, h2⟩ := hs.old a ha hra h0.1 (fun e he h => h0.2 ⟨e, he, h⟩) b hab hb
      refine ⟨h1, fun h3 => ?_⟩
      have h4 := mt (hdisj b).2 (by
        rw [not_or]; exact ⟨(h2 h3).1, fun ⟨e, he, h⟩ => (h2 h3).2 e he h⟩)
      rw [not_or] at h4
      exact ⟨h4.1, fun e he h => h4.2 ⟨e, he, h⟩⟩
    · have := hs.nodup
      rw [hp] at this
      simpa [List.append_assoc] using this
    · intro a ha hra had hap
      have h0 := mt (hdisj a).1 (by
        rw [not_or]; exact ⟨had, fun ⟨e, he, h⟩ => hap e he h⟩)
      rw [not_or] at h0
      exact hs.big a ha hra h0.1 (fun e he h => h0.2 ⟨e, he, h⟩)
    · rcases hs.more with h1 | ⟨h1, _⟩
      · exact Or.inl h1
      · rw [hp] at h1; cases h1
    · simp only [mdMeasure, hp, List.length_cons]; omega
  | nil =>
    simp only [hp] at hn
    cases hpop : pq.pop s.openQ with
    | none => simp only [hpop] at hn; cases hn
    | some cr =>
      obtain ⟨c', rest⟩ := cr
      simp only [hpop] at hn
      obtain ⟨hperm, hmin⟩ := pq.pop_some hpop
      have hcm : c' ∈ s.openQ := hperm.mem_iff.2 (by simp)
      have hrm : ∀ e ∈ rest, e ∈ s.openQ := fun e he => hperm.mem_iff.2 (by simp [he])
      have hcq := k.queued c' (Or.inl hcm)
      have hcnr : ¬ dem c'.2 < L c'.2 := by
        rw [← hcq.2, hs.opens c' hcm]; exact lt_irrefl _
      have h1 : FInv w h t dem L s.closed (inQ s.openQ []) (fun _ => False) := by
        rw [hp] at k
        exact ⟨k.fresh, k.inside, k.edges, k.queued, fun d hd => by
          rcases k.frontier d hd with ⟨e, h1, _⟩ | h1 | h1
          · cases h1
          · exact Or.inr (Or.inl h1)
          · exact Or.inr (Or.inr h1), k.sound, k.least, k.mono⟩
      have h2 := h1.start (e := c') (Q' := inQ rest []) (by
        intro f; simp only [inQ, hperm.mem_iff, List.mem_cons]; tauto)
      -- the state after the flush, for any new elevations satisfying `elevs` and `big`
      have gen : ∀ f : Cell → E,
          (∀ a, f a = dem a ∨ ∃ B, a ∈ B ∧ Batch w h t maxDep dem L f s.closed B) →
          (∀ a, s.closed a = true → dem a < L a → f a = L a ∨ maxDep < w * h) →
          MDInv w h t maxDep dem (some c') L
            { s with openQ := rest, pitQ := [], elev := f, depCells := [] } := by
        intro f hf1 hf2
        refine ⟨?_, ?_, by simp, by simp, by simp, hf1, fun e he => hs.opens e (hrm e he), by simp,
          ?_, by simp, ?_, by simp, fun a ha hra _ _ => hf2 a ha hra, ?_⟩
        · exact ⟨h2.fresh, h2.inside, h2.edges, h2.queued, fun d hd => by
            rcases h2.frontier d hd with h3 | h3 | h3
            · exact Or.inl ⟨c', rfl, h3.symm⟩
            · exact Or.inr (Or.inl h3)
            · exact Or.inr (Or.inr h3), h2.sound, h2.least, h2.mono⟩
        · intro c'' hc''
          simp only [Option.some.injEq] at hc''; subst hc''
          exact ⟨hcq.1, hcq.2, fun e he => not_lt.1 (hmin e (hrm e he))⟩
        · intro c'' hc'' h3
          simp only [Option.some.injEq] at hc''; subst hc''
          exact absurd h3 hcnr
        · intro a ha hra _ _ b hab hb
          refine ⟨?_, fun _ => ⟨by simp, by simp⟩⟩
          by_cases had : a ∈ s.depCells
          · exact (hs.dep a had (by simp) b hab hb).1
          · exact (hs.old a ha hra had (by simp [hp]) b hab hb).1
        · by_cases hopen : ∃ u, InGrid w h u ∧ s.closed u = false
          · obtain ⟨u, hu, huc⟩ := hopen
            exact Or.inl (front_two h2 hu huc)
          · refine Or.inr ⟨rfl, rfl, fun _ d hd => ?_⟩
            by_contra h3
            exact hopen ⟨d, hd, by simpa using h3⟩
      have hmeas : ∀ f : Cell → E, mdMeasure w h
          { s with openQ := rest, pitQ := [], elev := f, depCells := [] } + 1 = mdMeasure w h s := by
        intro f
        have := hperm.length_eq
        simp only [List.length_cons] at this
        simp only [mdMeasure, hp]; omega
      split at hn
      · next hle =>
        simp only [Option.some.injEq, Prod.mk.injEq] at hn
        obtain ⟨rfl, rfl⟩ := hn
        have hB : Batch w h t maxDep dem L (raiseAll s.depCells s.depElev s.elev) s.closed
            s.depCells := by
          refine ⟨hle, ?_, ?_⟩
          · intro a ha
            obtain ⟨k1, k2, k3⟩ := hs.lev a (Or.inl ha)
            exact ⟨k1, k3, by rw [raiseAll_apply, if_pos ha, k2]⟩
          · intro a ha b hab hb
            obtain ⟨k1, k2⟩ := hs.dep a ha (by simp) b hab hb
            exact ⟨k1, fun h3 => (k2 h3).elim id (by simp [hp])⟩
        have := gen (raiseAll s.depCells s.depElev s.elev) (by
            intro a
            by_cases ha : a ∈ s.depCells
            · exact Or.inr ⟨_, ha, hB⟩
            · rw [raiseAll_apply, if_neg ha]
              rcases hs.elevs a with h3 | ⟨B, h3, h4⟩
              · exact Or.inl h3
              · refine Or.inr ⟨B, h3, h4.congr (fun b hb => ⟨hb, rfl, fun h5 => ?_⟩)⟩
                rw [raiseAll_apply]
                split
                · next hb' => rw [h5]; exact (hs.lev b (Or.inl hb')).2.1.symm
                · rfl)
          (by
            intro a ha hra
            by_cases had : a ∈ s.depCells
            · left; rw [raiseAll_apply, if_pos had]; exact (hs.lev a (Or.inl had)).2.1.symm
            · rw [raiseAll_apply, if_neg had]
              exact hs.big a ha hra had (by simp [hp]))
        refine ⟨?_, ?_⟩
        · rw [show s.pitQ = [] from hp] at *; simpa using this
        · have := hmeas (raiseAll s.depCells s.depElev s.elev)
          simpa [hp] using this
      · next hgt =>
        simp only [Option.some.injEq, Prod.mk.injEq] at hn
        obtain ⟨rfl, rfl⟩ := hn
        have hbig : maxDep < w * h := by
          have hnd := hs.nodup
          rw [hp] at hnd
          simp only [List.map_nil, List.append_nil] at hnd
          have hsub : s.depCells ⊆ allCells w h := fun a ha =>
            mem_allCells.2 (k.inside a (hs.lev a (Or.inl ha)).1)
          have := List.Nodup.length_le_of_subset hnd hsub
          rw [length_allCells] at this
          omega
        have := gen s.elev hs.elevs (fun a _ _ => Or.inr hbig)
        refine ⟨?_, ?_⟩
        · simpa [hp] using this
        · have := hmeas s.elev
          simpa [hp] using this

theorem mdNext_none (pq : PQ (E × Cell) zLt) {maxDep : Nat} {s : MDState E}
    (hn : mdNext pq maxDep s = none) : s.openQ = [] ∧ s.pitQ = [] := by
  unfold mdNext at hn
  cases hp : s.pitQ with
  | cons p rest => simp only [hp] at hn; cases hn
  | nil =>
    simp only [hp] at hn
    cases hpop : pq.pop s.openQ with
    | none => exact ⟨pq.pop_none.1 hpop, rfl⟩
    | some cr => simp only [hpop] at hn; split at hn <;> cases hn

theorem mdStep_inv (pq : PQ (E × Cell) zLt) {w h : Nat} {t : Topo} {maxDep : Nat} {dem : Cell → E}
    (s s' : MDState E) (hs : ∃ L, MDInv w h t maxDep dem none L s)
    (hst : mdStep pq w h t maxDep s = some s') :
    (∃ L, MDInv w h t maxDep dem none L s') ∧ mdMeasure w h s' < mdMeasure w h s := by
  obtain ⟨L, hs⟩ := hs
  unfold mdStep at hst
  cases hnx : mdNext pq maxDep s with
  | none => rw [hnx] at hst; cases hst
  | some cr =>
    obtain ⟨c, s1⟩ := cr
    rw [hnx] at hst
    simp only [Option.some.injEq] at hst
    obtain ⟨h0, hm0⟩ := mdNext_inv pq hs hnx
    have key := foldl_inv (f := mdNbr pq w h t c)
      (fun s : MDState E => (∃ L, MDInv w h t maxDep dem (some c) L s) ∧
        mdMeasure w h s = mdMeasure w h s1)
      (fun n s => InGrid w h (nbr t c.2 n) → s.closed (nbr t c.2 n) = true) (dirs t) s1
      (fun s n hn hp => by
        obtain ⟨⟨L, hL⟩, hme⟩ := hp
        have := mdNbr_inv pq hn hL
        exact ⟨⟨this.1, by rw [this.2.2.2]; exact hme⟩, this.2.1⟩)
      (fun s n m hn hp hr hg => by
        obtain ⟨⟨L, hL⟩, hme⟩ := hp
        exact (mdNbr_inv pq hn hL).2.2.1 _ (hr hg))
      ⟨⟨L, h0⟩, rfl⟩
    rw [hst] at key
    obtain ⟨⟨⟨L', k1⟩, k2⟩, k3, _⟩ := key
    refine ⟨⟨L', k1.finish ?_⟩, by omega⟩
    intro d ha hd
    obtain ⟨n, hn, rfl⟩ := adj_iff_nbr.1 ha
    exact k3 n hn hd

theorem mdStep_none (pq : PQ (E × Cell) zLt) {w h : Nat} {t : Topo} {maxDep : Nat}
    {s : MDState E} (h3 : mdStep pq w h t maxDep s = none) : mdNext pq maxDep s = none := by
  unfold mdStep at h3
  cases hpop : mdNext pq maxDep s with
  | none => rfl
  | some cr => rw [hpop] at h3; cases h3

theorem maxDep_final (pq : PQ (E × Cell) zLt) {w h : Nat} (t : Topo) (maxDep : Nat) (z0 : E)
    (dem : Cell → E) (hw : 0 < w) (hh : 0 < h) :
    let s := priorityFloodMaxDep pq w h t maxDep z0 dem
    (∃ L, MDInv w h t maxDep dem none L s ∧ IsFilled w h t dem L) ∧
    (∀ c, InGrid w h c → s.closed c = true) ∧ s.openQ = [] ∧ s.pitQ = [] ∧
    mdStep pq w h t maxDep s = none := by
  intro s
  have hQ : ∀ e, inQ (mdInit pq w h z0 dem).openQ (mdInit pq w h z0 dem).pitQ e ↔
      ∃ c ∈ perimeter w h, e = (dem c, c) := by
    intro e
    simp only [inQ, mdInit, pq.mem_pushAll, List.mem_map, List.not_mem_nil, or_false]
    constructor
    · rintro ⟨c, hc, rfl⟩; exact ⟨c, hc, rfl⟩
    · rintro ⟨c, hc, rfl⟩; exact ⟨c, hc, rfl⟩
  have hinit : MDInv w h t maxDep dem none dem (mdInit pq w h z0 dem) := by
    have k := FInv.init (t := t) dem hw hh
      (closed := (mdInit pq w h z0 dem).closed)
      (by intro c; simp only [mdInit]; rw [markAll_iff]; simp) hQ
    refine ⟨⟨k.fresh, k.inside, k.edges, k.queued, fun d hd => ?_, k.sound, k.least, k.mono⟩,
      by simp, by simp, by simp [mdInit], by simp [mdInit], fun _ => Or.inl rfl, ?_,
      by simp [mdInit], by simp, by simp, ?_, by simp [mdInit], ?_,
      Or.inr ⟨rfl, rfl, by simp⟩⟩
    · rcases k.frontier d hd with h1 | h1 | h1
      · exact h1.elim
      · exact Or.inr (Or.inl h1)
      · exact Or.inr (Or.inr h1)
    · intro e he
      obtain ⟨c, _, rfl⟩ := (hQ e).1 (Or.inl he); rfl
    · intro a _ hr; exact absurd hr (lt_irrefl _)
    · intro a _ hr; exact absurd hr (lt_irrefl _)
  have := loop_spec (step := mdStep pq w h t maxDep)
    (fun s => ∃ L, MDInv w h t maxDep dem none L s) (mdMeasure w h)
    (fun s s' hs hst => mdStep_inv pq s s' hs hst) (floodFuel w h) _ ⟨dem, hinit⟩
    (floodInit_measure pq dem)
  obtain ⟨⟨L, h1⟩, h2⟩ := this
  obtain ⟨h3, h4⟩ := mdNext_none pq (mdStep_none pq h2)
  have k := h1.core
  have hfin := (⟨k.fresh, k.inside, k.edges, k.queued, fun d hd => by
      rcases k.frontier d hd with ⟨e, h1, _⟩ | h1 | h1
      · cases h1
      · exact Or.inr (Or.inl h1)
      · exact Or.inr (Or.inr h1), k.sound, k.least, k.mono⟩ :
    FInv w h t dem L _ _ (fun _ => False)).final (by
      rintro e (he | he)
      · rw [h3] at he; simp at he
      · rw [h4] at he; simp at he)
  exact ⟨⟨L, h1, hfin.2.1⟩, hfin.1, h3, h4, h2⟩

end RichDEM
