/-
Model of the tile flood of the parallel Priority-Flood,
programs/parallel_priority_flood/Zhou2016pf.hpp.

Simplifications: elevations range over a linear order (no NaN); a label is a natural number (the
code uses `uint32_t`); `vector<map<label,elev>>` is a partial function of two labels with a size and
a flag that says whether an index was ever out of range (`.at` throws).  The heap may resolve equal
elevations in any order.
-/
import Verif.Zhou
import Mathlib.Logic.Relation

namespace RichDEM

variable {E : Type*} [LinearOrder E]

/-- `std::vector<std::map<label_t, elev_t>>`; `ok` becomes false when `.at` throws. -/
structure SG (E : Type*) where
  m : Nat → Nat → Option E
  size : Nat
  ok : Bool

/-- Zhou2016pf.hpp:59-60 (and main.cpp:374-377): keep the lower spill elevation. -/
def relax (o : Option E) (e : E) : Option E :=
  match o with
  | none => some e
  | some v => if e < v then some e else some v

/-- Zhou2016pf.hpp:36-61 `WatershedsMeet`. -/
def SG.meet (g : SG E) (a b : Nat) (ea eb : E) : SG E :=
  if b = 0 then g                                                         -- :44-45
  else if a = b then g                                                    -- :46-47
  else
    { m := fun i j => if i = min a b ∧ j = max a b then relax (g.m i j) (max ea eb) else g.m i j
      size := g.size
      ok := g.ok && decide (min a b < g.size) }                           -- :49-60

/-- The variables of `Zhou2015Labels`. -/
structure ZL (E : Type*) where
  elev : Cell → E
  lbl : Cell → Nat
  pq : List (E × Cell)
  dep : List (E × Cell)
  trace : List (E × Cell)
  cur : Nat
  g : SG E

/-- Zhou2016pf.hpp:13-35 `GetNewLabelZhou`: the label and the new value of `current_label`. -/
def getNewLabel (w h : Nat) (s : ZL E) (c : Cell) : Nat × Nat :=
  if s.lbl c ≠ 0 then (s.lbl c, s.cur)                                    -- :21-22
  else
    match (dirs .D8).find? (fun n => inGrid w h (nbr .D8 c n) && (s.lbl (nbr .D8 c n) != 0) &&
        decide (s.elev (nbr .D8 c n) ≤ s.elev c)) with                    -- :24-31
    | some n => (s.lbl (nbr .D8 c n), s.cur)
    | none => (s.cur, s.cur + 1)                                          -- :33

/-- A slope cell: labelled and queued for tracing. -/
def ZL.slope (s : ZL E) (l : Nat) (q : Cell) : ZL E :=
  { s with lbl := Function.update s.lbl q l, trace := s.trace ++ [(s.elev q, q)] }

/-- A depression cell: raised, labelled and queued. -/
def ZL.pit (s : ZL E) (l : Nat) (z : E) (q : Cell) : ZL E :=
  { s with lbl := Function.update s.lbl q l, elev := Function.update s.elev q z, dep := s.dep ++ [(z, q)] }

/-- `WatershedsMeet(labels(c), labels(q), dem(c), dem(q), my_graph)`. -/
def ZL.meet (s : ZL E) (c q : Cell) : ZL E :=
  { s with g := s.g.meet (s.lbl c) (s.lbl q) (s.elev c) (s.elev q) }

/-- Zhou2016pf.hpp:117-136: body of the neighbour loop of `ProcessPit_onepass`. -/
def zlPitNbr (w h : Nat) (e : E × Cell) (s : ZL E) (n : Nat) : ZL E :=
  let q := nbr .D8 e.2 n
  if inGrid w h q = false then s                                          -- :121-122
  else if s.lbl q ≠ 0 then s.meet e.2 q                                   -- :124-127
  else if e.1 < s.elev q then (s.meet e.2 q).slope (s.lbl e.2) q          -- :129-132
  else (s.meet e.2 q).pit (s.lbl e.2) e.1 q                               -- :133-135

/-- Zhou2016pf.hpp:113-137: one iteration of the loop of `ProcessPit_onepass`. -/
def zlPitStep (w h : Nat) (s : ZL E) : Option (ZL E) :=
  match s.dep with
  | [] => none
  | e :: r => some ((dirs .D8).foldl (zlPitNbr w h e) { s with dep := r })

/-- Zhou2016pf.hpp:90-99: the test `isBoundary`, which looks in direction `n` whatever `nn` is. -/
def zlBoundary (w h : Nat) (s : ZL E) (q : Cell) (n : Nat) : Bool :=
  (dirs .D8).all fun _ =>
    let r := nbr .D8 q n                                                  -- :92-93
    !(inGrid w h r && ((s.lbl r != 0) && decide (s.elev r < s.elev q)))

/-- Zhou2016pf.hpp:70-106: body of the neighbour loop of `ProcessTraceQue_onepass`. -/
def zlTraceNbr (pq : PQ (E × Cell) zLt) (w h : Nat) (e : E × Cell) (sb : ZL E × Bool) (n : Nat) : ZL E × Bool :=
  let q := nbr .D8 e.2 n
  if inGrid w h q = false then sb                                         -- :74-75
  else if sb.1.lbl q ≠ 0 then (sb.1.meet e.2 q, sb.2)                     -- :77-80
  else if e.1 < sb.1.elev q then ((sb.1.meet e.2 q).slope (sb.1.lbl e.2) q, sb.2)   -- :83-87
  else if sb.2 then (sb.1.meet e.2 q, sb.2)                               -- :90
  else if zlBoundary w h sb.1 q n then
    ({ sb.1.meet e.2 q with pq := pq.push e sb.1.pq }, true)              -- :101-104
  else (sb.1.meet e.2 q, sb.2)

/-- Zhou2016pf.hpp:65-107: one iteration of the loop of `ProcessTraceQue_onepass`. -/
def zlTraceStep (pq : PQ (E × Cell) zLt) (w h : Nat) (s : ZL E) : Option (ZL E) :=
  match s.trace with
  | [] => none
  | e :: r => some ((dirs .D8).foldl (zlTraceNbr pq w h e) ({ s with trace := r }, false)).1

/-- Zhou2016pf.hpp:175-198: body of the neighbour loop of the main loop (`my_label` is the label of
the cell `c`). -/
def zlNbr (pq : PQ (E × Cell) zLt) (w h : Nat) (c : E × Cell) (s : ZL E) (n : Nat) : ZL E :=
  let q := nbr .D8 c.2 n
  if inGrid w h q = false then s                                          -- :179-180
  else if s.lbl q ≠ 0 then s.meet c.2 q                                   -- :182-185
  else
    let s1 := if s.elev q ≤ c.1 then
                loop (zlPitStep w h) (w * h) ((s.meet c.2 q).pit (s.lbl c.2) c.1 q)   -- :189-192
              else (s.meet c.2 q).slope (s.lbl c.2) q                     -- :193-195
    loop (zlTraceStep pq w h) (w * h) s1                                  -- :196

/-- Zhou2016pf.hpp:170-173: the popped cell receives its label. -/
def zlPop (w h : Nat) (s : ZL E) (c : Cell) (r : List (E × Cell)) : ZL E :=
  { s with pq := r, lbl := Function.update s.lbl c (getNewLabel w h s c).1, cur := (getNewLabel w h s c).2 }

/-- Zhou2016pf.hpp:168-199: one iteration of the main loop. -/
def zlStep (pq : PQ (E × Cell) zLt) (w h : Nat) (s : ZL E) : Option (ZL E) :=
  match pq.pop s.pq with
  | none => none
  | some (c, r) => some ((dirs .D8).foldl (zlNbr pq w h c) (zlPop w h s c.2 r))

/-- Zhou2016pf.hpp:140-166 with main.cpp:205 `spillover_graph.resize(2*width+2*height)`: the state
before the main loop. -/
def zlInit (pq : PQ (E × Cell) zLt) (w h : Nat) (dem : Cell → E) : ZL E :=
  { elev := dem, lbl := fun _ => 0
    pq := pq.pushAll ((zhouSeeds w h).map (fun c => (dem c, c))) []
    dep := [], trace := [], cur := 2
    g := { m := fun _ _ => none, size := 2 * w + 2 * h, ok := true } }

/-- Zhou2016pf.hpp:140-199: the flood. -/
def zlRun (pq : PQ (E × Cell) zLt) (w h : Nat) (dem : Cell → E) : ZL E :=
  loop (zlStep pq w h) (floodFuel w h) (zlInit pq w h dem)

/-- The outside edges of a tile (`GRID_TOP` … of main.cpp). -/
structure TileEdges where
  top : Bool
  bottom : Bool
  left : Bool
  right : Bool

/-- `WatershedsMeet(labels(c), 1, dem(c), dem(c), my_graph)`. -/
def ZL.outside (s : ZL E) (c : Cell) : ZL E :=
  { s with g := s.g.meet (s.lbl c) 1 (s.elev c) (s.elev c) }

/-- Zhou2016pf.hpp:205-227: the cells joined to watershed 1, in order (no flips). -/
def outsideCells (w h : Nat) (ed : TileEdges) : List Cell :=
  (if ed.top then (List.range w).map (fun x : Nat => ((x : Int), (0 : Int))) else []) ++
  (if ed.bottom then (List.range w).map (fun x : Nat => ((x : Int), (h : Int) - 1)) else []) ++
  (if ed.left then (List.range h).map (fun y : Nat => ((0 : Int), (y : Int))) else []) ++
  (if ed.right then (List.range h).map (fun y : Nat => ((w : Int) - 1, (y : Int))) else [])

/-- Zhou2016pf.hpp:229 `my_graph.resize(current_label)`. -/
def SG.resize (g : SG E) (n : Nat) : SG E :=
  { m := fun i j => if i < n then g.m i j else none, size := n, ok := g.ok }

/-- Zhou2016pf.hpp:140-230 `Zhou2015Labels`. -/
def zhouLabels (pq : PQ (E × Cell) zLt) (w h : Nat) (ed : TileEdges) (dem : Cell → E) : ZL E :=
  let s := (outsideCells w h ed).foldl ZL.outside (zlRun pq w h dem)
  { s with g := s.g.resize s.cur }

/-! ### Simulation: forgetting labels and graph gives `PriorityFlood_Zhou2016` -/

/-- Forget labels and graph. -/
def ZL.ts (s : ZL E) : TS E :=
  { elev := s.elev, lab := fun x => s.lbl x != 0, pq := s.pq, dep := s.dep, trace := s.trace, pot := [], safe := true }

omit [LinearOrder E] in
theorem ts_lab_update {f : Cell → Nat} {q : Cell} {l : Nat} (hl : l ≠ 0) :
    (fun x => Function.update f q l x != 0) = Function.update (fun x => f x != 0) q true := by
  funext x
  by_cases hx : x = q
  · subst hx; simp [hl]
  · rw [Function.update_of_ne hx, Function.update_of_ne hx]

omit [LinearOrder E] in
theorem ts_slope {s : ZL E} {l : Nat} {q : Cell} (hl : l ≠ 0) : (s.slope l q).ts = s.ts.slope q := by
  simp only [ZL.slope, ZL.ts, TS.slope, ts_lab_update hl]

omit [LinearOrder E] in
theorem ts_pit {s : ZL E} {l : Nat} {z : E} {q : Cell} (hl : l ≠ 0) : (s.pit l z q).ts = s.ts.pit z q := by
  simp only [ZL.pit, ZL.ts, TS.pit, ts_lab_update hl]

theorem ts_meet {s : ZL E} {c q : Cell} : (s.meet c q).ts = s.ts := rfl

variable {w h : Nat}

theorem ts_pitNbr {e : E × Cell} {s : ZL E} {n : Nat} (hl : s.lbl e.2 ≠ 0) :
    (zlPitNbr w h e s n).ts = zhouPitNbr w h e.1 e.2 s.ts n := by
  unfold zlPitNbr zhouPitNbr
  simp only
  set q := nbr .D8 e.2 n
  by_cases h1 : inGrid w h q = false
  · rw [if_pos h1, if_pos h1]
  rw [if_neg h1, if_neg h1]
  by_cases h2 : s.lbl q ≠ 0
  · rw [if_pos h2, if_pos (show s.ts.lab q = true by simpa [ZL.ts] using h2)]; rfl
  rw [if_neg h2, if_neg (show ¬ s.ts.lab q = true by simpa [ZL.ts] using h2)]
  by_cases h3 : e.1 < s.elev q
  · rw [if_pos h3, if_pos (show e.1 < s.ts.elev q from h3), ts_slope hl, ts_meet]
  · rw [if_neg h3, if_neg (show ¬ e.1 < s.ts.elev q from h3), ts_pit hl, ts_meet]

theorem ts_boundary {s : ZL E} {q : Cell} {n : Nat} :
    zlBoundary w h s q n = zhouBoundary (fun n _ => n) w h s.ts q n := rfl

theorem ts_traceNbr {pq : PQ (E × Cell) zLt} {e : E × Cell} {sb : ZL E × Bool} {n : Nat} (hl : sb.1.lbl e.2 ≠ 0)
    (he : e.1 = sb.1.elev e.2) :
    ((zlTraceNbr pq w h e sb n).1.ts, (zlTraceNbr pq w h e sb n).2) =
      zhouTraceNbr pq (fun n _ => n) w h e.2 (sb.1.ts, sb.2) n := by
  unfold zlTraceNbr zhouTraceNbr
  simp only
  set q := nbr .D8 e.2 n
  by_cases h1 : inGrid w h q = false
  · rw [if_pos h1, if_pos h1]
  rw [if_neg h1, if_neg h1]
  by_cases h2 : sb.1.lbl q ≠ 0
  · rw [if_pos h2, if_pos (show sb.1.ts.lab q = true by simpa [ZL.ts] using h2)]; rfl
  rw [if_neg h2, if_neg (show ¬ sb.1.ts.lab q = true by simpa [ZL.ts] using h2)]
  have hz : sb.1.ts.elev e.2 = e.1 := he.symm
  rw [hz]
  by_cases h3 : e.1 < sb.1.elev q
  · rw [if_pos h3, if_pos (show e.1 < sb.1.ts.elev q from h3)]
    simp only [ts_slope hl, ts_meet]
  rw [if_neg h3, if_neg (show ¬ e.1 < sb.1.ts.elev q from h3)]
  by_cases h4 : sb.2 = true
  · rw [if_pos h4, if_pos h4]; rfl
  rw [if_neg h4, if_neg h4, ← ts_boundary]
  by_cases h5 : zlBoundary w h sb.1 q n = true
  · rw [if_pos h5, if_pos h5]; rfl
  · rw [if_neg h5, if_neg h5]; rfl

/-! ### The invariant -/

/-- `b` is adjacent to `a`, in the same watershed and not higher. -/
def DownIn (elev : Cell → E) (lbl : Cell → Nat) (a b : Cell) : Prop :=
  Adj .D8 a b ∧ lbl a ≠ 0 ∧ lbl b = lbl a ∧ elev b ≤ elev a

/-- There is a chain of cells of one watershed from `a` to `b` that never ascends. -/
def Shed (elev : Cell → E) (lbl : Cell → Nat) : Cell → Cell → Prop := Relation.ReflTransGen (DownIn elev lbl)

/-- The graph holds the pair with an elevation of at most `e`. -/
def SG.has (g : SG E) (a b : Nat) (e : E) : Prop := ∃ v, g.m (min a b) (max a b) = some v ∧ v ≤ e

/-- The cell waits in one of the two inner queues. -/
def ZL.pend (s : ZL E) (c : Cell) : Prop := c ∈ s.dep.map Prod.snd ∨ c ∈ s.trace.map Prod.snd

/-- Invariant of the tile flood; `X` are the pairs of cells still to be compared. -/
structure ZI (w h N : Nat) (root : Nat → Cell) (X : Cell → Cell → Prop) (s : ZL E) : Prop where
  range : ∀ c, s.lbl c ≠ 0 → InGrid w h c ∧ 2 ≤ s.lbl c ∧ s.lbl c < s.cur
  shed : ∀ c, s.lbl c ≠ 0 → Shed s.elev s.lbl c (root (s.lbl c))
  gsound : ∀ a b v, s.g.m a b = some v → ∃ p q, Adj .D8 p q ∧ s.lbl p = a ∧ s.lbl q = b ∧ a ≠ 0 ∧ b ≠ 0 ∧
    s.elev p ≤ v ∧ s.elev q ≤ v
  gcomp : ∀ p q, Adj .D8 p q → s.lbl p ≠ 0 → s.lbl q ≠ 0 → s.lbl p ≠ s.lbl q →
    s.g.has (s.lbl p) (s.lbl q) (max (s.elev p) (s.elev q)) ∨ s.pend p ∨ s.pend q ∨ X p q ∨ X q p
  depok : ∀ e ∈ s.dep, e.1 = s.elev e.2 ∧ s.lbl e.2 ≠ 0
  traceok : ∀ e ∈ s.trace, e.1 = s.elev e.2 ∧ s.lbl e.2 ≠ 0
  size : N ≤ s.g.size
  ok : s.g.ok = true
  bound : s.cur + s.pq.countP (fun e => s.lbl e.2 == 0) ≤ N

theorem relax_has {o : Option E} {e : E} : ∃ v, relax o e = some v ∧ v ≤ e ∧ (v = e ∨ o = some v) := by
  cases o with
  | none => exact ⟨e, rfl, le_rfl, Or.inl rfl⟩
  | some v =>
    by_cases h : e < v
    · exact ⟨e, by simp [relax, h], le_rfl, Or.inl rfl⟩
    · exact ⟨v, by simp [relax, h], not_lt.1 h, Or.inr rfl⟩

theorem relax_le {o : Option E} {e v x : E} (ho : o = some v) (hv : v ≤ x) : ∃ u, relax o e = some u ∧ u ≤ x := by
  subst ho
  by_cases h : e < v
  · exact ⟨e, by simp [relax, h], h.le.trans hv⟩
  · exact ⟨v, by simp [relax, h], hv⟩

theorem SG.meet_keeps {g : SG E} {a b i j : Nat} {ea eb v x : E} (hg : g.m i j = some v) (hv : v ≤ x) :
    ∃ u, (g.meet a b ea eb).m i j = some u ∧ u ≤ x := by
  unfold SG.meet
  split_ifs with h1 h2
  · exact ⟨v, hg, hv⟩
  · exact ⟨v, hg, hv⟩
  · simp only
    split_ifs
    · exact relax_le hg hv
    · exact ⟨v, hg, hv⟩

theorem SG.has.meet {g : SG E} {a b i j : Nat} {ea eb x : E} (hg : g.has i j x) :
    (g.meet a b ea eb).has i j x := by
  obtain ⟨v, h1, h2⟩ := hg
  exact SG.meet_keeps h1 h2

theorem SG.meet_has {g : SG E} {a b : Nat} {ea eb : E} (hb : b ≠ 0) (hab : a ≠ b) :
    (g.meet a b ea eb).has a b (max ea eb) := by
  obtain ⟨v, h1, h2, _⟩ := relax_has (o := g.m (min a b) (max a b)) (e := max ea eb)
  refine ⟨v, ?_, h2⟩
  unfold SG.meet
  rw [if_neg hb, if_neg hab]
  simpa using h1

theorem SG.meet_sound {g : SG E} {a b i j : Nat} {ea eb v : E} (hm : (g.meet a b ea eb).m i j = some v) :
    g.m i j = some v ∨ (b ≠ 0 ∧ a ≠ b ∧ i = min a b ∧ j = max a b ∧ v = max ea eb) := by
  unfold SG.meet at hm
  split_ifs at hm with h1 h2
  · exact Or.inl hm
  · exact Or.inl hm
  · simp only at hm
    split_ifs at hm with h3
    · obtain ⟨u, h4, _, h5⟩ := relax_has (o := g.m i j) (e := max ea eb)
      rw [h4] at hm
      obtain rfl : u = v := by simpa using hm
      rcases h5 with h5 | h5
      · exact Or.inr ⟨h1, h2, h3.1, h3.2, h5⟩
      · exact Or.inl h5
    · exact Or.inl hm

theorem SG.meet_size {g : SG E} {a b : Nat} {ea eb : E} : (g.meet a b ea eb).size = g.size := by
  unfold SG.meet; split_ifs <;> rfl

theorem SG.meet_ok {g : SG E} {a b : Nat} {ea eb : E} (ho : g.ok = true) (ha : a < g.size) :
    (g.meet a b ea eb).ok = true := by
  unfold SG.meet
  split_ifs
  · exact ho
  · exact ho
  · simp [ho, ha]

theorem SG.has.comm {g : SG E} {a b : Nat} {x : E} (hh : g.has a b x) : g.has b a x := by
  obtain ⟨v, h1, h2⟩ := hh
  exact ⟨v, by rwa [min_comm, max_comm], h2⟩

variable {N : Nat} {root : Nat → Cell} {X : Cell → Cell → Prop} {s : ZL E}

omit [LinearOrder E] in
theorem pend_iff {c : Cell} : s.pend c ↔ (∃ e ∈ s.dep, e.2 = c) ∨ ∃ e ∈ s.trace, e.2 = c := by
  simp [ZL.pend]

/-- Comparing two adjacent cells. -/
theorem ZI.meet (I : ZI w h N root X s) {c q : Cell} (hc : s.lbl c ≠ 0) (ha : Adj .D8 c q) :
    ZI w h N root X (s.meet c q) := by
  have hb := I.bound
  have hr := (I.range c hc).2.2
  have hcs : s.lbl c < s.g.size := by have := I.size; omega
  refine ⟨I.range, I.shed, ?_, ?_, I.depok, I.traceok, ?_, SG.meet_ok I.ok hcs, I.bound⟩
  · intro a b v hv
    rcases SG.meet_sound hv with h1 | ⟨h1, h2, h3, h4, h5⟩
    · exact I.gsound a b v h1
    · rcases le_total (s.lbl c) (s.lbl q) with h6 | h6
      · rw [min_eq_left h6] at h3; rw [max_eq_right h6] at h4
        subst h3 h4
        exact ⟨c, q, ha, rfl, rfl, hc, h1, h5 ▸ le_max_left _ _, h5 ▸ le_max_right _ _⟩
      · rw [min_eq_right h6] at h3; rw [max_eq_left h6] at h4
        subst h3 h4
        exact ⟨q, c, ha.symm, rfl, rfl, h1, hc, h5 ▸ le_max_right _ _, h5 ▸ le_max_left _ _⟩
  · intro p r hp hlp hlr hne
    rcases I.gcomp p r hp hlp hlr hne with h1 | h1
    · exact Or.inl h1.meet
    · exact Or.inr h1
  · show N ≤ (s.g.meet _ _ _ _).size
    rw [SG.meet_size]; exact I.size

theorem Shed.mono {elev elev' : Cell → E} {lbl lbl' : Cell → Nat} {a b : Cell} (hs : Shed elev lbl a b)
    (hk : ∀ x, lbl x ≠ 0 → lbl' x = lbl x ∧ elev' x = elev x) : Shed elev' lbl' a b := by
  induction hs with
  | refl => exact Relation.ReflTransGen.refl
  | @tail x y _ hxy ih =>
    obtain ⟨h1, h2, h3, h4⟩ := hxy
    have hy : lbl y ≠ 0 := by rw [h3]; exact h2
    obtain ⟨a1, a2⟩ := hk x h2
    obtain ⟨b1, b2⟩ := hk y hy
    exact ih.tail ⟨h1, by rwa [a1], by rw [a1, b1, h3], by rw [a2, b2]; exact h4⟩

/-- A cell receives the label of an adjacent cell that is not higher, and is queued. -/
theorem ZI.label (I : ZI w h N root X s) {p q : Cell} {e : E} {dep' trace' : List (E × Cell)}
    (hp : s.lbl p ≠ 0) (hq : s.lbl q = 0) (hg : InGrid w h q) (ha : Adj .D8 p q) (he : s.elev p ≤ e)
    (hd : ∀ x, x ∈ dep' → x ∈ s.dep ∨ x = (e, q)) (ht : ∀ x, x ∈ trace' → x ∈ s.trace ∨ x = (e, q))
    (hd' : ∀ x, x ∈ s.dep → x ∈ dep') (ht' : ∀ x, x ∈ s.trace → x ∈ trace')
    (hin : (e, q) ∈ dep' ∨ (e, q) ∈ trace' ∨ ∀ y, Adj .D8 q y → X q y) :
    ZI w h N root X { s with lbl := Function.update s.lbl q (s.lbl p), elev := Function.update s.elev q e,
                             dep := dep', trace := trace' } := by
  have hk : ∀ x, s.lbl x ≠ 0 → Function.update s.lbl q (s.lbl p) x = s.lbl x ∧ Function.update s.elev q e x = s.elev x := by
    intro x hx
    have : x ≠ q := by rintro rfl; exact hx hq
    rw [Function.update_of_ne this, Function.update_of_ne this]; exact ⟨rfl, rfl⟩
  have hpq : p ≠ q := by rintro rfl; exact hp hq
  refine ⟨?_, ?_, ?_, ?_, ?_, ?_, I.size, I.ok, ?_⟩
  · intro c hc
    simp only at hc ⊢
    by_cases hcq : c = q
    · subst hcq; rw [Function.update_self]; exact ⟨hg, (I.range p hp).2⟩
    · rw [Function.update_of_ne hcq] at hc ⊢; exact I.range c hc
  · intro c hc
    simp only at hc ⊢
    by_cases hcq : c = q
    · subst hcq
      rw [Function.update_self]
      refine Relation.ReflTransGen.head (b := p) ⟨ha.symm, ?_, ?_, ?_⟩ ((I.shed p hp).mono hk)
      · rw [Function.update_self]; exact hp
      · rw [Function.update_of_ne hpq, Function.update_self]
      · rw [Function.update_of_ne hpq, Function.update_self]; exact he
    · rw [Function.update_of_ne hcq] at hc ⊢; exact (I.shed c hc).mono hk
  · intro a b v hv
    obtain ⟨x, y, h1, h2, h3, h4, h5, h6, h7⟩ := I.gsound a b v hv
    have hx := hk x (by rw [h2]; exact h4)
    have hy := hk y (by rw [h3]; exact h5)
    exact ⟨x, y, h1, by rw [← h2]; exact hx.1, by rw [← h3]; exact hy.1, h4, h5,
      by simp only; rw [hx.2]; exact h6, by simp only; rw [hy.2]; exact h7⟩
  · intro x y hxy hlx hly hne
    have pn : (q ∈ dep'.map Prod.snd ∨ q ∈ trace'.map Prod.snd) ∨ ∀ y, Adj .D8 q y → X q y := by
      rcases hin with h1 | h1 | h1
      · exact Or.inl (Or.inl (List.mem_map_of_mem (f := Prod.snd) h1))
      · exact Or.inl (Or.inr (List.mem_map_of_mem (f := Prod.snd) h1))
      · exact Or.inr h1
    have pm : ∀ z, s.pend z → z ∈ dep'.map Prod.snd ∨ z ∈ trace'.map Prod.snd := by
      intro z hz
      rcases pend_iff.1 hz with ⟨u, h1, h2⟩ | ⟨u, h1, h2⟩
      · exact Or.inl (h2 ▸ List.mem_map_of_mem (f := Prod.snd) (hd' u h1))
      · exact Or.inr (h2 ▸ List.mem_map_of_mem (f := Prod.snd) (ht' u h1))
    by_cases hxq : x = q
    · subst hxq
      rcases pn with h1 | h1
      · exact Or.inr (Or.inl h1)
      · exact Or.inr (Or.inr (Or.inr (Or.inl (h1 _ hxy))))
    by_cases hyq : y = q
    · subst hyq
      rcases pn with h1 | h1
      · exact Or.inr (Or.inr (Or.inl h1))
      · exact Or.inr (Or.inr (Or.inr (Or.inr (h1 _ hxy.symm))))
    simp only at hlx hly hne ⊢
    rw [Function.update_of_ne hxq] at hlx hne ⊢
    rw [Function.update_of_ne hyq] at hly hne ⊢
    rw [Function.update_of_ne hxq, Function.update_of_ne hyq]
    rcases I.gcomp x y hxy hlx hly hne with h1 | h1 | h1 | h1
    · exact Or.inl h1
    · exact Or.inr (Or.inl (pm _ h1))
    · exact Or.inr (Or.inr (Or.inl (pm _ h1)))
    · exact Or.inr (Or.inr (Or.inr h1))
  · intro x hx
    simp only
    rcases hd x hx with h1 | rfl
    · obtain ⟨a, b⟩ := I.depok x h1
      obtain ⟨k1, k2⟩ := hk _ b
      rw [k1, k2]; exact ⟨a, b⟩
    · simp only [Function.update_self]; exact ⟨trivial, hp⟩
  · intro x hx
    simp only
    rcases ht x hx with h1 | rfl
    · obtain ⟨a, b⟩ := I.traceok x h1
      obtain ⟨k1, k2⟩ := hk _ b
      rw [k1, k2]; exact ⟨a, b⟩
    · simp only [Function.update_self]; exact ⟨trivial, hp⟩
  · have : s.pq.countP (fun e => Function.update s.lbl q (s.lbl p) e.2 == 0) ≤ s.pq.countP (fun e => s.lbl e.2 == 0) := by
      apply List.countP_mono_left
      intro x _ hx
      by_contra hn
      rw [(hk x.2 (by simpa using hn)).1] at hx
      exact hn hx
    have := I.bound
    simp only
    omega

theorem ZI.slope (I : ZI w h N root X s) {p q : Cell} (hp : s.lbl p ≠ 0) (hq : s.lbl q = 0) (hg : InGrid w h q)
    (ha : Adj .D8 p q) (he : s.elev p ≤ s.elev q) : ZI w h N root X (s.slope (s.lbl p) q) := by
  have := I.label (dep' := s.dep) (trace' := s.trace ++ [(s.elev q, q)]) hp hq hg ha he
    (fun x hx => Or.inl hx) (fun x hx => by simpa using hx) (fun x hx => hx) (fun x hx => List.mem_append_left _ hx)
    (Or.inr (Or.inl (by simp)))
  rw [Function.update_eq_self] at this
  exact this

theorem ZI.pit (I : ZI w h N root X s) {p q : Cell} {z : E} (hp : s.lbl p ≠ 0) (hq : s.lbl q = 0) (hg : InGrid w h q)
    (ha : Adj .D8 p q) (he : s.elev p ≤ z) : ZI w h N root X (s.pit (s.lbl p) z q) :=
  I.label (dep' := s.dep ++ [(z, q)]) (trace' := s.trace) hp hq hg ha he
    (fun x hx => by simpa using hx) (fun x hx => Or.inl hx) (fun x hx => List.mem_append_left _ hx) (fun x hx => hx)
    (Or.inl (by simp))

/-- The pairs still to be compared while the neighbours `l` of `c` are to be visited. -/
def XL (X : Cell → Cell → Prop) (c : Cell) (l : List Nat) (p q : Cell) : Prop :=
  X p q ∨ (p = c ∧ ∃ n ∈ l, q = nbr .D8 c n)

theorem XL_dirs {c p q : Cell} (ha : Adj .D8 p q) (hp : p = c) : XL X c (dirs .D8) p q := by
  subst hp
  obtain ⟨n, hn, rfl⟩ := adj_iff_nbr.1 ha
  exact Or.inr ⟨rfl, n, hn, rfl⟩

/-- Retire the neighbour `n` of `c`. -/
theorem ZI.retire {c : Cell} {n : Nat} {l : List Nat} (I : ZI w h N root (XL X c (n :: l)) s)
    (hd : s.lbl (nbr .D8 c n) = 0 ∨ s.lbl (nbr .D8 c n) = s.lbl c ∨ s.pend (nbr .D8 c n) ∨
      s.g.has (s.lbl c) (s.lbl (nbr .D8 c n)) (max (s.elev c) (s.elev (nbr .D8 c n)))) :
    ZI w h N root (XL X c l) s := by
  refine ⟨I.range, I.shed, I.gsound, ?_, I.depok, I.traceok, I.size, I.ok, I.bound⟩
  intro p q ha hp hq hne
  have key : ∀ a b : Cell, XL X c (n :: l) a b → s.lbl a ≠ 0 → s.lbl b ≠ 0 → s.lbl a ≠ s.lbl b →
      XL X c l a b ∨ s.pend b ∨ s.g.has (s.lbl a) (s.lbl b) (max (s.elev a) (s.elev b)) := by
    rintro a b (hx | ⟨rfl, m, hm, rfl⟩) h1 h2 h3
    · exact Or.inl (Or.inl hx)
    · rcases List.mem_cons.1 hm with rfl | hm
      · rcases hd with h4 | h4 | h4 | h4
        · exact absurd h4 h2
        · exact absurd h4.symm h3
        · exact Or.inr (Or.inl h4)
        · exact Or.inr (Or.inr h4)
      · exact Or.inl (Or.inr ⟨rfl, m, hm, rfl⟩)
  rcases I.gcomp p q ha hp hq hne with h1 | h1 | h1 | h1 | h1
  · exact Or.inl h1
  · exact Or.inr (Or.inl h1)
  · exact Or.inr (Or.inr (Or.inl h1))
  · rcases key p q h1 hp hq hne with h2 | h2 | h2
    · exact Or.inr (Or.inr (Or.inr (Or.inl h2)))
    · exact Or.inr (Or.inr (Or.inl h2))
    · exact Or.inl h2
  · rcases key q p h1 hq hp hne.symm with h2 | h2 | h2
    · exact Or.inr (Or.inr (Or.inr (Or.inr h2)))
    · exact Or.inr (Or.inl h2)
    · exact Or.inl (by rw [max_comm]; exact h2.comm)

theorem ZI.retireNil {c : Cell} (I : ZI w h N root (XL X c []) s) : ZI w h N root X s := by
  refine ⟨I.range, I.shed, I.gsound, ?_, I.depok, I.traceok, I.size, I.ok, I.bound⟩
  intro p q ha hp hq hne
  rcases I.gcomp p q ha hp hq hne with h1 | h1 | h1 | (h1 | ⟨_, m, hm, _⟩) | (h1 | ⟨_, m, hm, _⟩)
  · exact Or.inl h1
  · exact Or.inr (Or.inl h1)
  · exact Or.inr (Or.inr (Or.inl h1))
  · exact Or.inr (Or.inr (Or.inr (Or.inl h1)))
  · exact absurd hm (by simp)
  · exact Or.inr (Or.inr (Or.inr (Or.inr h1)))
  · exact absurd hm (by simp)

/-- Labelled cells keep label and elevation. -/
def ZKeep (s s' : ZL E) : Prop := ∀ x, s.lbl x ≠ 0 → s'.lbl x = s.lbl x ∧ s'.elev x = s.elev x

omit [LinearOrder E] in
theorem ZKeep.refl (s : ZL E) : ZKeep s s := fun _ _ => ⟨rfl, rfl⟩
omit [LinearOrder E] in
theorem ZKeep.trans {a b c : ZL E} (h1 : ZKeep a b) (h2 : ZKeep b c) : ZKeep a c := fun x hx =>
  ⟨(h2 x (by rw [(h1 x hx).1]; exact hx)).1.trans (h1 x hx).1,
   (h2 x (by rw [(h1 x hx).1]; exact hx)).2.trans (h1 x hx).2⟩
omit [LinearOrder E] in
theorem zkeep_slope {l : Nat} {q : Cell} (hq : s.lbl q = 0) : ZKeep s (s.slope l q) := by
  intro x hx
  have : x ≠ q := by rintro rfl; exact hx hq
  exact ⟨Function.update_of_ne this _ _, rfl⟩
omit [LinearOrder E] in
theorem zkeep_pit {l : Nat} {z : E} {q : Cell} (hq : s.lbl q = 0) : ZKeep s (s.pit l z q) := by
  intro x hx
  have : x ≠ q := by rintro rfl; exact hx hq
  exact ⟨Function.update_of_ne this _ _, Function.update_of_ne this _ _⟩

/-! ### Depression cells -/

theorem zlPitNbr_ok {e : E × Cell} {n : Nat} {l : List Nat} (hn : n ∈ dirs .D8)
    (I : ZI w h N root (XL X e.2 (n :: l)) s) (hl : s.lbl e.2 ≠ 0) (he : e.1 = s.elev e.2) :
    ZI w h N root (XL X e.2 l) (zlPitNbr w h e s n) ∧ ZKeep s (zlPitNbr w h e s n) := by
  unfold zlPitNbr
  simp only
  set q := nbr .D8 e.2 n with hqd
  have ha : Adj .D8 e.2 q := nbr_adj hn
  by_cases h1 : inGrid w h q = false
  · rw [if_pos h1]
    refine ⟨I.retire (Or.inl ?_), ZKeep.refl s⟩
    by_contra hne
    exact inGrid_false.1 h1 (I.range q hne).1
  rw [if_neg h1]
  have hg : InGrid w h q := by rw [← inGrid_iff]; simpa using h1
  have I1 := I.meet hl ha
  by_cases h2 : s.lbl q ≠ 0
  · rw [if_pos h2]
    refine ⟨I1.retire ?_, ZKeep.refl s⟩
    by_cases h3 : s.lbl q = s.lbl e.2
    · exact Or.inr (Or.inl h3)
    · exact Or.inr (Or.inr (Or.inr (SG.meet_has h2 (fun h => h3 h.symm))))
  rw [if_neg h2]
  have h2' : s.lbl q = 0 := by simpa using h2
  have hne : e.2 ≠ q := by intro h; rw [h] at hl; exact hl h2'
  by_cases h3 : e.1 < s.elev q
  · rw [if_pos h3]
    refine ⟨(I1.slope (p := e.2) hl h2' hg ha (he ▸ h3.le)).retire (Or.inr (Or.inl ?_)), zkeep_slope (s := s.meet e.2 q) h2'⟩
    simp only [ZL.slope, ZL.meet]
    rw [Function.update_self, Function.update_of_ne hne]
  · rw [if_neg h3]
    refine ⟨(I1.pit (p := e.2) hl h2' hg ha (show s.elev e.2 ≤ e.1 from he ▸ le_rfl)).retire (Or.inr (Or.inl ?_)),
      zkeep_pit (s := s.meet e.2 q) h2'⟩
    simp only [ZL.pit, ZL.meet]
    rw [Function.update_self, Function.update_of_ne hne]

/-- A neighbour loop retires all neighbours. -/
theorem zl_fold {f : ZL E → Nat → ZL E} {e : E × Cell} (P : ZL E → Prop)
    (hf : ∀ s n l, n ∈ dirs .D8 → ZI w h N root (XL X e.2 (n :: l)) s → P s → s.lbl e.2 ≠ 0 → e.1 = s.elev e.2 →
      ZI w h N root (XL X e.2 l) (f s n) ∧ ZKeep s (f s n) ∧ P (f s n)) (l : List Nat) (hsub : ∀ n ∈ l, n ∈ dirs .D8)
    (s : ZL E) (I : ZI w h N root (XL X e.2 l) s) (hP : P s) (hl : s.lbl e.2 ≠ 0) (he : e.1 = s.elev e.2) :
    ZI w h N root X (l.foldl f s) ∧ ZKeep s (l.foldl f s) ∧ P (l.foldl f s) := by
  induction l generalizing s with
  | nil => exact ⟨I.retireNil, ZKeep.refl s, hP⟩
  | cons n l ih =>
    obtain ⟨a, b, c⟩ := hf s n l (hsub n List.mem_cons_self) I hP hl he
    obtain ⟨k1, k2⟩ := b _ hl
    obtain ⟨a', b', c'⟩ := ih (fun m hm => hsub m (List.mem_cons_of_mem _ hm)) (f s n) a c (by rw [k1]; exact hl)
      (by rw [k2]; exact he)
    exact ⟨a', b.trans b', c'⟩

theorem ZI.popDep (I : ZI w h N root X s) {e : E × Cell} {r : List (E × Cell)} (hd : s.dep = e :: r) :
    ZI w h N root (XL X e.2 (dirs .D8)) { s with dep := r } := by
  refine ⟨I.range, I.shed, I.gsound, ?_, fun x hx => I.depok x (by rw [hd]; exact List.mem_cons_of_mem _ hx),
    I.traceok, I.size, I.ok, I.bound⟩
  intro p q ha hp hq hne
  have pm : ∀ x, s.pend x → x = e.2 ∨ ZL.pend { s with dep := r } x := by
    intro x hx
    unfold ZL.pend at hx ⊢
    rw [hd] at hx
    simp only [List.map_cons, List.mem_cons] at hx
    rcases hx with (h1 | h1) | h1
    · exact Or.inl h1
    · exact Or.inr (Or.inl h1)
    · exact Or.inr (Or.inr h1)
  rcases I.gcomp p q ha hp hq hne with h1 | h1 | h1 | h1 | h1
  · exact Or.inl h1
  · rcases pm p h1 with h2 | h2
    · exact Or.inr (Or.inr (Or.inr (Or.inl (XL_dirs ha h2))))
    · exact Or.inr (Or.inl h2)
  · rcases pm q h1 with h2 | h2
    · exact Or.inr (Or.inr (Or.inr (Or.inr (XL_dirs ha.symm h2))))
    · exact Or.inr (Or.inr (Or.inl h2))
  · exact Or.inr (Or.inr (Or.inr (Or.inl (Or.inl h1))))
  · exact Or.inr (Or.inr (Or.inr (Or.inr (Or.inl h1))))

theorem ZI.popTrace (I : ZI w h N root X s) {e : E × Cell} {r : List (E × Cell)} (hd : s.trace = e :: r) :
    ZI w h N root (XL X e.2 (dirs .D8)) { s with trace := r } := by
  refine ⟨I.range, I.shed, I.gsound, ?_, I.depok, fun x hx => I.traceok x (by rw [hd]; exact List.mem_cons_of_mem _ hx),
    I.size, I.ok, I.bound⟩
  intro p q ha hp hq hne
  have pm : ∀ x, s.pend x → x = e.2 ∨ ZL.pend { s with trace := r } x := by
    intro x hx
    unfold ZL.pend at hx ⊢
    rw [hd] at hx
    simp only [List.map_cons, List.mem_cons] at hx
    rcases hx with h1 | h1 | h1
    · exact Or.inr (Or.inl h1)
    · exact Or.inl h1
    · exact Or.inr (Or.inr h1)
  rcases I.gcomp p q ha hp hq hne with h1 | h1 | h1 | h1 | h1
  · exact Or.inl h1
  · rcases pm p h1 with h2 | h2
    · exact Or.inr (Or.inr (Or.inr (Or.inl (XL_dirs ha h2))))
    · exact Or.inr (Or.inl h2)
  · rcases pm q h1 with h2 | h2
    · exact Or.inr (Or.inr (Or.inr (Or.inr (XL_dirs ha.symm h2))))
    · exact Or.inr (Or.inr (Or.inl h2))
  · exact Or.inr (Or.inr (Or.inr (Or.inl (Or.inl h1))))
  · exact Or.inr (Or.inr (Or.inr (Or.inr (Or.inl h1))))

/-- Loops commute with a projection under an invariant. -/
theorem zl_loop_sim {S T : Type*} {f : S → Option S} {g : T → Option T} (π : S → T) (Inv : S → Prop)
    (hn : ∀ s, Inv s → f s = none → g (π s) = none)
    (hs : ∀ s s', Inv s → f s = some s' → g (π s) = some (π s') ∧ Inv s') :
    ∀ n s, Inv s → π (loop f n s) = loop g n (π s) ∧ Inv (loop f n s) := by
  intro n
  induction n with
  | zero => intro s hi; exact ⟨rfl, hi⟩
  | succ n ih =>
    intro s hi
    simp only [loop]
    cases hf : f s with
    | none => rw [hn s hi hf]; exact ⟨rfl, hi⟩
    | some s' =>
      obtain ⟨h1, h2⟩ := hs s s' hi hf
      rw [h1]; exact ih s' h2

theorem zlPitStep_ok {s s' : ZL E} {z : E} (I : ZI w h N root X s) (hz : ∀ e ∈ s.dep, e.1 = z)
    (hst : zlPitStep w h s = some s') :
    ZI w h N root X s' ∧ (∀ e ∈ s'.dep, e.1 = z) ∧ ZKeep s s' ∧ zhouPitStep w h z s.ts = some s'.ts := by
  unfold zlPitStep at hst
  cases hd : s.dep with
  | nil => rw [hd] at hst; cases hst
  | cons e r =>
    rw [hd] at hst
    simp only [Option.some.injEq] at hst
    obtain ⟨e1, e2⟩ := I.depok e (by rw [hd]; exact List.mem_cons_self)
    have ez := hz e (by rw [hd]; exact List.mem_cons_self)
    have hts : ∀ (l : List Nat) (t : ZL E), t.lbl e.2 ≠ 0 → (∀ x ∈ t.dep, x.1 = z) →
        (l.foldl (zlPitNbr w h e) t).ts = l.foldl (zhouPitNbr w h z e.2) t.ts ∧
        ∀ x ∈ (l.foldl (zlPitNbr w h e) t).dep, x.1 = z := by
      intro l
      induction l with
      | nil => intro t _ h2; exact ⟨rfl, h2⟩
      | cons n l ih =>
        intro t ht h2
        rw [List.foldl_cons, List.foldl_cons]
        have hu : Function.update t.lbl (nbr .D8 e.2 n) (t.lbl e.2) e.2 ≠ 0 := by
          by_cases hh : e.2 = nbr .D8 e.2 n
          · rw [← hh, Function.update_self]; exact ht
          · rw [Function.update_of_ne hh]; exact ht
        have k : (zlPitNbr w h e t n).lbl e.2 ≠ 0 ∧ ∀ x ∈ (zlPitNbr w h e t n).dep, x.1 = z := by
          unfold zlPitNbr
          simp only
          by_cases a : inGrid w h (nbr .D8 e.2 n) = false
          · rw [if_pos a]; exact ⟨ht, h2⟩
          rw [if_neg a]
          by_cases b : t.lbl (nbr .D8 e.2 n) ≠ 0
          · rw [if_pos b]; exact ⟨ht, h2⟩
          rw [if_neg b]
          by_cases c : e.1 < t.elev (nbr .D8 e.2 n)
          · rw [if_pos c]; exact ⟨hu, h2⟩
          · rw [if_neg c]
            refine ⟨hu, ?_⟩
            intro x hx
            simp only [ZL.pit, ZL.meet, List.mem_append, List.mem_singleton] at hx
            rcases hx with hx | rfl
            · exact h2 x hx
            · exact ez
        have := ih _ k.1 k.2
        rw [this.1, ts_pitNbr ht, ez]
        exact ⟨rfl, this.2⟩
    obtain ⟨a, b, _⟩ := zl_fold (f := zlPitNbr w h e) (fun _ => True)
      (fun s n l hn hI _ hl he => ⟨(zlPitNbr_ok hn hI hl he).1, (zlPitNbr_ok hn hI hl he).2, trivial⟩) (dirs .D8) (fun _ h => h)
      _ (I.popDep hd) trivial e2 e1
    obtain ⟨c, d⟩ := hts (dirs .D8) { s with dep := r } e2
      (fun x hx => hz x (by rw [hd]; exact List.mem_cons_of_mem _ hx))
    rw [hst] at a b c d
    refine ⟨a, d, fun x hx => b x hx, ?_⟩
    unfold zhouPitStep
    have : s.ts.dep = e :: r := hd
    rw [this, c]
    rfl

theorem zlPitLoop_ok {s : ZL E} {z : E} (I : ZI w h N root X s) (hz : ∀ e ∈ s.dep, e.1 = z) (n : Nat) :
    ZI w h N root X (loop (zlPitStep w h) n s) ∧ ZKeep s (loop (zlPitStep w h) n s) ∧
    (loop (zlPitStep w h) n s).ts = loop (zhouPitStep w h z) n s.ts := by
  obtain ⟨a, b, c, d⟩ := zl_loop_sim (f := zlPitStep w h) (g := zhouPitStep w h z) ZL.ts
    (fun t => ZI w h N root X t ∧ ZKeep s t ∧ ∀ e ∈ t.dep, e.1 = z)
    (by
      rintro t _ ht
      unfold zlPitStep at ht
      unfold zhouPitStep
      show (match t.dep with | [] => _ | _ :: _ => _) = _
      cases hd : t.dep with
      | nil => rfl
      | cons e r => rw [hd] at ht; cases ht)
    (by
      rintro t t' ⟨h1, h2, h3⟩ ht
      obtain ⟨a, b, c, d⟩ := zlPitStep_ok h1 h3 ht
      exact ⟨d, a, h2.trans c, b⟩) n s ⟨I, ZKeep.refl s, hz⟩
  exact ⟨b, c, a⟩

/-! ### Slope cells -/

theorem ZI.setPQ (I : ZI w h N root X s) {q : List (E × Cell)}
    (hq : q.countP (fun e => s.lbl e.2 == 0) ≤ s.pq.countP (fun e => s.lbl e.2 == 0)) :
    ZI w h N root X { s with pq := q } :=
  ⟨I.range, I.shed, I.gsound, I.gcomp, I.depok, I.traceok, I.size, I.ok, by have := I.bound; simp only; omega⟩

theorem zlTraceNbr_ok {pq : PQ (E × Cell) zLt} {e : E × Cell} {sb : ZL E × Bool} {n : Nat} {l : List Nat}
    (hn : n ∈ dirs .D8) (I : ZI w h N root (XL X e.2 (n :: l)) sb.1) (hl : sb.1.lbl e.2 ≠ 0) (he : e.1 = sb.1.elev e.2) :
    ZI w h N root (XL X e.2 l) (zlTraceNbr pq w h e sb n).1 ∧ ZKeep sb.1 (zlTraceNbr pq w h e sb n).1 ∧
    (zlTraceNbr pq w h e sb n).1.dep = sb.1.dep := by
  unfold zlTraceNbr
  simp only
  set q := nbr .D8 e.2 n with hqd
  have ha : Adj .D8 e.2 q := nbr_adj hn
  by_cases h1 : inGrid w h q = false
  · rw [if_pos h1]
    refine ⟨I.retire (Or.inl ?_), ZKeep.refl _, rfl⟩
    by_contra hne
    exact inGrid_false.1 h1 (I.range q hne).1
  rw [if_neg h1]
  have hg : InGrid w h q := by rw [← inGrid_iff]; simpa using h1
  have I1 := I.meet hl ha
  by_cases h2 : sb.1.lbl q ≠ 0
  · rw [if_pos h2]
    refine ⟨I1.retire ?_, ZKeep.refl _, rfl⟩
    by_cases h3 : sb.1.lbl q = sb.1.lbl e.2
    · exact Or.inr (Or.inl h3)
    · exact Or.inr (Or.inr (Or.inr (SG.meet_has h2 (fun h => h3 h.symm))))
  rw [if_neg h2]
  have h2' : sb.1.lbl q = 0 := by simpa using h2
  have hne : e.2 ≠ q := by intro h; rw [h] at hl; exact hl h2'
  by_cases h3 : e.1 < sb.1.elev q
  · rw [if_pos h3]
    refine ⟨(I1.slope (p := e.2) hl h2' hg ha (he ▸ h3.le)).retire (Or.inr (Or.inl ?_)),
      zkeep_slope (s := sb.1.meet e.2 q) h2', rfl⟩
    simp only [ZL.slope, ZL.meet]
    rw [Function.update_self, Function.update_of_ne hne]
  rw [if_neg h3]
  have R : ZI w h N root (XL X e.2 l) (sb.1.meet e.2 q) := I1.retire (Or.inl h2')
  by_cases h4 : sb.2 = true
  · rw [if_pos h4]; exact ⟨R, ZKeep.refl _, rfl⟩
  rw [if_neg h4]
  by_cases h5 : zlBoundary w h sb.1 q n = true
  · rw [if_pos h5]
    refine ⟨R.setPQ ?_, fun x _ => ⟨rfl, rfl⟩, rfl⟩
    rw [(pq.push_perm e sb.1.pq).countP_eq, List.countP_cons]
    have : ((sb.1.meet e.2 q).lbl e.2 == 0) = false := by
      show (sb.1.lbl e.2 == 0) = false
      simpa using hl
    simp only [this]
    exact le_rfl
  · rw [if_neg h5]; exact ⟨R, ZKeep.refl _, rfl⟩

theorem zlTraceStep_ok {pq : PQ (E × Cell) zLt} {s s' : ZL E} (I : ZI w h N root X s)
    (hst : zlTraceStep pq w h s = some s') :
    ZI w h N root X s' ∧ ZKeep s s' ∧ s'.dep = s.dep ∧ zhouTraceStep pq (fun n _ => n) w h s.ts = some s'.ts := by
  unfold zlTraceStep at hst
  cases hd : s.trace with
  | nil => rw [hd] at hst; cases hst
  | cons e r =>
    rw [hd] at hst
    simp only [Option.some.injEq] at hst
    obtain ⟨e1, e2⟩ := I.traceok e (by rw [hd]; exact List.mem_cons_self)
    have key : ∀ (l : List Nat) (sb : ZL E × Bool), (∀ n ∈ l, n ∈ dirs .D8) → ZI w h N root (XL X e.2 l) sb.1 →
        sb.1.lbl e.2 ≠ 0 → e.1 = sb.1.elev e.2 →
        ZI w h N root X (l.foldl (zlTraceNbr pq w h e) sb).1 ∧ ZKeep sb.1 (l.foldl (zlTraceNbr pq w h e) sb).1 ∧
        (l.foldl (zlTraceNbr pq w h e) sb).1.dep = sb.1.dep ∧
        ((l.foldl (zlTraceNbr pq w h e) sb).1.ts, (l.foldl (zlTraceNbr pq w h e) sb).2) =
          l.foldl (zhouTraceNbr pq (fun n _ => n) w h e.2) (sb.1.ts, sb.2) := by
      intro l
      induction l with
      | nil => intro sb _ hI _ _; exact ⟨hI.retireNil, ZKeep.refl _, rfl, rfl⟩
      | cons n l ih =>
        intro sb hsub hI hl he
        obtain ⟨a, b, c⟩ := zlTraceNbr_ok (pq := pq) (hsub n List.mem_cons_self) hI hl he
        obtain ⟨k1, k2⟩ := b _ hl
        obtain ⟨a', b', c', d'⟩ := ih (zlTraceNbr pq w h e sb n) (fun m hm => hsub m (List.mem_cons_of_mem _ hm)) a
          (by rw [k1]; exact hl) (by rw [k2]; exact he)
        rw [ts_traceNbr hl he] at d'
        exact ⟨a', b.trans b', c'.trans c, d'⟩
    obtain ⟨a, b, c, d⟩ := key (dirs .D8) ({ s with trace := r }, false) (fun _ h => h) (I.popTrace hd) e2 e1
    have d1 := congrArg Prod.fst d
    simp only at d1
    rw [hst] at a b c d1
    refine ⟨a, fun x hx => b x hx, c, ?_⟩
    unfold zhouTraceStep
    have : s.ts.trace = e :: r := hd
    rw [this]
    simp only
    rw [d1]
    rfl

theorem zlTraceLoop_ok {pq : PQ (E × Cell) zLt} {s : ZL E} (I : ZI w h N root X s) (n : Nat) :
    ZI w h N root X (loop (zlTraceStep pq w h) n s) ∧ ZKeep s (loop (zlTraceStep pq w h) n s) ∧
    (loop (zlTraceStep pq w h) n s).ts = loop (zhouTraceStep pq (fun n _ => n) w h) n s.ts := by
  obtain ⟨a, b, c⟩ := zl_loop_sim (f := zlTraceStep pq w h) (g := zhouTraceStep pq (fun n _ => n) w h) ZL.ts
    (fun t => ZI w h N root X t ∧ ZKeep s t)
    (by
      rintro t _ ht
      unfold zlTraceStep at ht
      unfold zhouTraceStep
      show (match t.trace with | [] => _ | _ :: _ => _) = _
      cases hd : t.trace with
      | nil => rfl
      | cons e r => rw [hd] at ht; cases ht)
    (by
      rintro t t' ⟨h1, h2⟩ ht
      obtain ⟨a, b, _, d⟩ := zlTraceStep_ok h1 ht
      exact ⟨d, a, h2.trans b⟩) n s ⟨I, ZKeep.refl s⟩
  exact ⟨b, c, a⟩

/-! ### The main loop -/

theorem ZI.weaken (I : ZI w h N root X s) {X' : Cell → Cell → Prop} (hX : ∀ p q, X p q → X' p q) :
    ZI w h N root X' s := by
  refine ⟨I.range, I.shed, I.gsound, ?_, I.depok, I.traceok, I.size, I.ok, I.bound⟩
  intro p q ha hp hq hne
  rcases I.gcomp p q ha hp hq hne with h1 | h1 | h1 | h1 | h1
  · exact Or.inl h1
  · exact Or.inr (Or.inl h1)
  · exact Or.inr (Or.inr (Or.inl h1))
  · exact Or.inr (Or.inr (Or.inr (Or.inl (hX _ _ h1))))
  · exact Or.inr (Or.inr (Or.inr (Or.inr (hX _ _ h1))))

/-- A cell founds a watershed. -/
theorem ZI.found (I : ZI w h N root X s) {c : Cell} (hc : s.lbl c = 0) (hg : InGrid w h c)
    (hX : ∀ y, Adj .D8 c y → X c y) {r : List (E × Cell)} (h2 : 2 ≤ s.cur)
    (hr : r.countP (fun e => s.lbl e.2 == 0) + 1 ≤ s.pq.countP (fun e => s.lbl e.2 == 0)) :
    ZI w h N (Function.update root s.cur c) X
      { s with pq := r, lbl := Function.update s.lbl c s.cur, cur := s.cur + 1 } := by
  have hk : ∀ x, s.lbl x ≠ 0 → Function.update s.lbl c s.cur x = s.lbl x ∧ s.elev x = s.elev x := by
    intro x hx
    have : x ≠ c := by rintro rfl; exact hx hc
    rw [Function.update_of_ne this]; exact ⟨rfl, rfl⟩
  refine ⟨?_, ?_, ?_, ?_, ?_, ?_, I.size, I.ok, ?_⟩
  · intro x hx
    simp only at hx ⊢
    by_cases hxc : x = c
    · subst hxc; rw [Function.update_self]; exact ⟨hg, h2, by omega⟩
    · rw [Function.update_of_ne hxc] at hx ⊢
      have := I.range x hx
      exact ⟨this.1, this.2.1, by omega⟩
  · intro x hx
    simp only at hx ⊢
    by_cases hxc : x = c
    · subst hxc; rw [Function.update_self, Function.update_self]; exact Relation.ReflTransGen.refl
    · rw [Function.update_of_ne hxc] at hx ⊢
      rw [Function.update_of_ne (show s.lbl x ≠ s.cur by have := (I.range x hx).2.2; omega)]
      exact (I.shed x hx).mono hk
  · intro a b v hv
    obtain ⟨x, y, h1, h2, h3, h4, h5, h6, h7⟩ := I.gsound a b v hv
    have hx := hk x (by rw [h2]; exact h4)
    have hy := hk y (by rw [h3]; exact h5)
    exact ⟨x, y, h1, by rw [← h2]; exact hx.1, by rw [← h3]; exact hy.1, h4, h5, h6, h7⟩
  · intro x y hxy hlx hly hne
    by_cases hxq : x = c
    · subst hxq; exact Or.inr (Or.inr (Or.inr (Or.inl (hX _ hxy))))
    by_cases hyq : y = c
    · subst hyq; exact Or.inr (Or.inr (Or.inr (Or.inr (hX _ hxy.symm))))
    simp only at hlx hly hne ⊢
    rw [Function.update_of_ne hxq] at hlx hne ⊢
    rw [Function.update_of_ne hyq] at hly hne ⊢
    exact I.gcomp x y hxy hlx hly hne
  · intro x hx
    simp only
    obtain ⟨a, b⟩ := I.depok x hx
    rw [(hk _ b).1]; exact ⟨a, b⟩
  · intro x hx
    simp only
    obtain ⟨a, b⟩ := I.traceok x hx
    rw [(hk _ b).1]; exact ⟨a, b⟩
  · have : r.countP (fun e => Function.update s.lbl c s.cur e.2 == 0) ≤ r.countP (fun e => s.lbl e.2 == 0) := by
      apply List.countP_mono_left
      intro x _ hx
      by_contra hn
      rw [(hk x.2 (by simpa using hn)).1] at hx
      exact hn hx
    have := I.bound
    simp only
    omega

/-- No pair is exempt. -/
def X0 : Cell → Cell → Prop := fun _ _ => False

theorem zlPop_ok {pq : PQ (E × Cell) zLt} (I : ZI w h N root X0 s) {c : E × Cell} {r : List (E × Cell)}
    (h2 : 2 ≤ s.cur) (hp : pq.pop s.pq = some (c, r)) (hg : InGrid w h c.2) :
    ∃ root', ZI w h N root' (XL X0 c.2 (dirs .D8)) (zlPop w h s c.2 r) ∧ (zlPop w h s c.2 r).lbl c.2 ≠ 0 ∧
      2 ≤ (zlPop w h s c.2 r).cur := by
  have I1 : ZI w h N root (XL X0 c.2 (dirs .D8)) s := I.weaken (fun _ _ hx => Or.inl hx)
  have hX : ∀ y, Adj .D8 c.2 y → XL X0 c.2 (dirs .D8) c.2 y := fun y hy => XL_dirs hy rfl
  have hperm := (pq.pop_some hp).1
  have hcnt : s.pq.countP (fun e => s.lbl e.2 == 0) = r.countP (fun e => s.lbl e.2 == 0) +
      if (s.lbl c.2 == 0) = true then 1 else 0 := by
    rw [hperm.countP_eq, List.countP_cons]
  unfold zlPop
  by_cases hl : s.lbl c.2 ≠ 0
  · have hgl : getNewLabel w h s c.2 = (s.lbl c.2, s.cur) := by unfold getNewLabel; rw [if_pos hl]
    rw [hgl]
    simp only
    rw [Function.update_eq_self]
    exact ⟨root, I1.setPQ (by omega), hl, h2⟩
  · have hl0 : s.lbl c.2 = 0 := by simpa using hl
    have hcnt' : r.countP (fun e => s.lbl e.2 == 0) + 1 ≤ s.pq.countP (fun e => s.lbl e.2 == 0) := by
      rw [hcnt, if_pos (by simpa using hl0)]
    cases hf : (dirs .D8).find? (fun n => inGrid w h (nbr .D8 c.2 n) && (s.lbl (nbr .D8 c.2 n) != 0) &&
        decide (s.elev (nbr .D8 c.2 n) ≤ s.elev c.2)) with
    | none =>
      have hgl : getNewLabel w h s c.2 = (s.cur, s.cur + 1) := by unfold getNewLabel; rw [if_neg hl, hf]
      rw [hgl]
      exact ⟨_, I1.found hl0 hg hX h2 hcnt', by simp only [Function.update_self]; omega, by simp only; omega⟩
    | some n =>
      have hgl : getNewLabel w h s c.2 = (s.lbl (nbr .D8 c.2 n), s.cur) := by unfold getNewLabel; rw [if_neg hl, hf]
      rw [hgl]
      have hP := List.find?_some hf
      have hn := List.mem_of_find?_eq_some hf
      simp only [Bool.and_eq_true, bne_iff_ne, ne_eq, decide_eq_true_eq] at hP
      obtain ⟨⟨p1, p2⟩, p3⟩ := hP
      have J := (I1.setPQ (q := r) (by omega)).label (p := nbr .D8 c.2 n) (q := c.2) (e := s.elev c.2)
        (dep' := s.dep) (trace' := s.trace) p2 hl0 hg (nbr_adj hn).symm p3
        (fun x hx => Or.inl hx) (fun x hx => Or.inl hx) (fun x hx => hx) (fun x hx => hx) (Or.inr (Or.inr hX))
      simp only [Function.update_eq_self] at J
      exact ⟨root, J, by simp only [Function.update_self]; exact p2, h2⟩

variable {dem : Cell → E} {S M : Nat}

/-- What holds between two neighbours of a heap cell. -/
def NbrP (w h : Nat) (dem : Cell → E) (c : E × Cell) (S M : Nat) (s : ZL E) : Prop :=
  Ph w h (InGrid w h) (OnEdge w h) dem c.1 [c.2] S M s.ts ∧ s.dep = [] ∧ s.trace = [] ∧ 2 ≤ s.cur

omit [LinearOrder E] in
theorem zkeep_ts {a b : ZL E} (hk : ZKeep a b) : Keep a.ts b.ts := by
  intro x hx
  have : a.lbl x ≠ 0 := by simpa [ZL.ts] using hx
  obtain ⟨k1, k2⟩ := hk x this
  exact ⟨by simpa [ZL.ts, k1] using this, k2⟩

theorem sel_ok : ∀ n nn, n ∈ dirs .D8 → nn ∈ dirs .D8 → (fun n _ => n : Nat → Nat → Nat) n nn ∈ dirs .D8 :=
  fun _ _ h _ => h

theorem zlPitStep_cur {s s' : ZL E} (hst : zlPitStep w h s = some s') : s'.cur = s.cur := by
  unfold zlPitStep at hst
  cases hd : s.dep with
  | nil => rw [hd] at hst; cases hst
  | cons e r =>
    rw [hd] at hst
    simp only [Option.some.injEq] at hst
    have : ∀ (l : List Nat) (t : ZL E), (l.foldl (zlPitNbr w h e) t).cur = t.cur := by
      intro l
      induction l with
      | nil => intro t; rfl
      | cons n l ih =>
        intro t
        rw [List.foldl_cons, ih]
        unfold zlPitNbr
        simp only [ZL.slope, ZL.pit, ZL.meet]
        repeat' split
        all_goals rfl
    rw [← hst, this]

theorem zlTraceStep_cur {pq : PQ (E × Cell) zLt} {s s' : ZL E} (hst : zlTraceStep pq w h s = some s') :
    s'.cur = s.cur := by
  unfold zlTraceStep at hst
  cases hd : s.trace with
  | nil => rw [hd] at hst; cases hst
  | cons e r =>
    rw [hd] at hst
    simp only [Option.some.injEq] at hst
    have : ∀ (l : List Nat) (t : ZL E × Bool), (l.foldl (zlTraceNbr pq w h e) t).1.cur = t.1.cur := by
      intro l
      induction l with
      | nil => intro t; rfl
      | cons n l ih =>
        intro t
        rw [List.foldl_cons, ih]
        unfold zlTraceNbr
        simp only [ZL.slope, ZL.meet]
        repeat' split
        all_goals rfl
    rw [← hst, this]

theorem zlNbr_ok {pq : PQ (E × Cell) zLt} {c : E × Cell} {n : Nat} {l : List Nat} (hn : n ∈ dirs .D8)
    (hc : InGrid w h c.2)
    (I : ZI w h N root (XL X0 c.2 (n :: l)) s) (P : NbrP w h dem c S M s) (hl : s.lbl c.2 ≠ 0) (he : c.1 = s.elev c.2) :
    ZI w h N root (XL X0 c.2 l) (zlNbr pq w h c s n) ∧ ZKeep s (zlNbr pq w h c s n) ∧
    NbrP w h dem c S M (zlNbr pq w h c s n) ∧ (zlNbr pq w h c s n).ts = zhouNbr pq (fun n _ => n) w h c s.ts n := by
  obtain ⟨P1, P2, P3, P4⟩ := P
  suffices H : ZI w h N root (XL X0 c.2 l) (zlNbr pq w h c s n) ∧ ZKeep s (zlNbr pq w h c s n) ∧
      (zlNbr pq w h c s n).ts = zhouNbr pq (fun n _ => n) w h c s.ts n ∧ 2 ≤ (zlNbr pq w h c s n).cur by
    obtain ⟨a, b, d, e⟩ := H
    have Z := zhouNbr_ok (pq := pq) (sel := fun n _ => n) sel_ok (fun _ hx => hx) (c := c) hn P1 ⟨P2, P3⟩ hc
      (show s.ts.lab c.2 = true by simpa [ZL.ts] using hl) he.symm
    rw [← d] at Z
    exact ⟨a, b, ⟨Z.1.1, Z.1.2.1, Z.1.2.2, e⟩, d⟩
  unfold zlNbr zhouNbr
  simp only
  set q := nbr .D8 c.2 n with hqd
  have ha : Adj .D8 c.2 q := nbr_adj hn
  by_cases h1 : inGrid w h q = false
  · rw [if_pos h1, if_pos h1]
    refine ⟨I.retire (Or.inl ?_), ZKeep.refl s, rfl, P4⟩
    by_contra hne
    exact inGrid_false.1 h1 (I.range q hne).1
  rw [if_neg h1, if_neg h1]
  have hg : InGrid w h q := by rw [← inGrid_iff]; simpa using h1
  have I1 := I.meet hl ha
  by_cases h2 : s.lbl q ≠ 0
  · rw [if_pos h2, if_pos (show s.ts.lab q = true by simpa [ZL.ts] using h2)]
    refine ⟨I1.retire ?_, ZKeep.refl s, rfl, P4⟩
    by_cases h3 : s.lbl q = s.lbl c.2
    · exact Or.inr (Or.inl h3)
    · exact Or.inr (Or.inr (Or.inr (SG.meet_has h2 (fun h => h3 h.symm))))
  rw [if_neg h2, if_neg (show ¬ s.ts.lab q = true by simpa [ZL.ts] using h2)]
  have h2' : s.lbl q = 0 := by simpa using h2
  have hne : c.2 ≠ q := by intro hh; rw [hh] at hl; exact hl h2'
  have curL : ∀ (m : Nat) (t : ZL E), (loop (zlTraceStep pq w h) m t).cur = t.cur := by
    intro m t
    exact loop_inv (step := zlTraceStep pq w h) (fun u => u.cur = t.cur)
      (fun a b hab hst => (zlTraceStep_cur hst).trans hab) m t rfl
  by_cases h3 : s.elev q ≤ c.1
  · rw [if_pos h3, if_pos (show s.ts.elev q ≤ c.1 from h3)]
    have J := (I1.pit (p := c.2) (z := c.1) hl h2' hg ha (show s.elev c.2 ≤ c.1 from he ▸ le_rfl)).retire (Or.inr (Or.inl (by
      simp only [ZL.pit, ZL.meet]
      rw [Function.update_self, Function.update_of_ne hne])))
    obtain ⟨a1, a2, a3⟩ := zlPitLoop_ok (z := c.1) J (by
      intro x hx
      simp only [ZL.pit, ZL.meet, P2, List.nil_append, List.mem_singleton] at hx
      rw [hx]) (w * h)
    obtain ⟨b1, b2, b3⟩ := zlTraceLoop_ok (pq := pq) a1 (w * h)
    refine ⟨b1, ((zkeep_pit (s := s.meet c.2 q) h2').trans a2).trans b2, ?_, ?_⟩
    · have : (ZL.pit (s.meet c.2 q) ((s.meet c.2 q).lbl c.2) c.1 q).ts = s.ts.pit c.1 q := by
        rw [ts_pit (show (s.meet c.2 q).lbl c.2 ≠ 0 from hl), ts_meet]
      rw [this] at a3
      rw [a3] at b3
      exact b3
    · rw [curL]
      have : (loop (zlPitStep w h) (w * h) ((s.meet c.2 q).pit (s.lbl c.2) c.1 q)).cur = s.cur :=
        loop_inv (step := zlPitStep w h) (fun u => u.cur = s.cur)
          (fun a b hab hst => (zlPitStep_cur hst).trans hab) (w * h) _ rfl
      rw [this]; exact P4
  · rw [if_neg h3, if_neg (show ¬ s.ts.elev q ≤ c.1 from h3)]
    have J := (I1.slope (p := c.2) hl h2' hg ha (show s.elev c.2 ≤ s.elev q from he ▸ (not_le.1 h3).le)).retire
      (Or.inr (Or.inl (by
      simp only [ZL.slope, ZL.meet]
      rw [Function.update_self, Function.update_of_ne hne])))
    obtain ⟨b1, b2, b3⟩ := zlTraceLoop_ok (pq := pq) J (w * h)
    refine ⟨b1, (zkeep_slope (s := s.meet c.2 q) h2').trans b2, ?_, by rw [curL]; exact P4⟩
    have : (ZL.slope (s.meet c.2 q) ((s.meet c.2 q).lbl c.2) q).ts = s.ts.slope q := by
      rw [ts_slope (show (s.meet c.2 q).lbl c.2 ≠ 0 from hl), ts_meet]
    rw [this] at b3
    exact b3

/-- The invariant between heap cells. -/
structure ZLTop (w h N : Nat) (dem : Cell → E) (s : ZL E) : Prop where
  top : ZTop w h (InGrid w h) (OnEdge w h) dem s.ts
  inv : ∃ root, ZI w h N root X0 s
  cur : 2 ≤ s.cur

theorem zlStep_ok {pq : PQ (E × Cell) zLt} {s s' : ZL E} (Z : ZLTop w h N dem s) (hst : zlStep pq w h s = some s') :
    ZLTop w h N dem s' ∧ s'.ts.size w h < s.ts.size w h := by
  unfold zlStep at hst
  cases hp : pq.pop s.pq with
  | none => rw [hp] at hst; cases hst
  | some cr =>
    obtain ⟨c, r⟩ := cr
    rw [hp] at hst
    simp only [Option.some.injEq] at hst
    obtain ⟨root, I⟩ := Z.inv
    obtain ⟨T1, T2, hsz, hc, he⟩ := Z.top.I.popPQ (pq := pq) hp Z.top.dep Z.top.trace Z.top.pot
    obtain ⟨root', J, hl, hcur⟩ := zlPop_ok I Z.cur hp hc
    have hgl : (getNewLabel w h s c.2).1 ≠ 0 := by
      have := hl
      simp only [zlPop, Function.update_self] at this
      exact this
    have hts : (zlPop w h s c.2 r).ts = { s.ts with pq := r, lab := Function.update s.ts.lab c.2 true } := by
      simp only [zlPop, ZL.ts, ts_lab_update hgl]
    set t0 : TS E := { s.ts with pq := r, lab := Function.update s.ts.lab c.2 true } with ht0
    have P0 : NbrP w h dem c (t0.size w h) (t0.mu w h) (zlPop w h s c.2 r) :=
      ⟨by rw [hts]; exact ⟨T1, T2, le_rfl, le_rfl⟩, Z.top.dep, Z.top.trace, hcur⟩
    have key : ∀ (l : List Nat) (t : ZL E), (∀ n ∈ l, n ∈ dirs .D8) → ZI w h N root' (XL X0 c.2 l) t →
        NbrP w h dem c (t0.size w h) (t0.mu w h) t → t.lbl c.2 ≠ 0 → c.1 = t.elev c.2 →
        ZI w h N root' X0 (l.foldl (zlNbr pq w h c) t) ∧
        (l.foldl (zlNbr pq w h c) t).ts = l.foldl (zhouNbr pq (fun n _ => n) w h c) t.ts ∧
        2 ≤ (l.foldl (zlNbr pq w h c) t).cur := by
      intro l
      induction l with
      | nil => intro t _ hI hP _ _; exact ⟨hI.retireNil, rfl, hP.2.2.2⟩
      | cons n l ih =>
        intro t hsub hI hP hlt het
        obtain ⟨a, b, d, e⟩ := zlNbr_ok (pq := pq) (hsub n List.mem_cons_self) hc hI hP hlt het
        obtain ⟨k1, k2⟩ := b _ hlt
        obtain ⟨a', b', d'⟩ := ih (zlNbr pq w h c t n) (fun m hm => hsub m (List.mem_cons_of_mem _ hm)) a d
          (by rw [k1]; exact hlt) (by rw [k2]; exact het)
        rw [e] at b'
        exact ⟨a', b', d'⟩
    obtain ⟨a, b, d⟩ := key (dirs .D8) (zlPop w h s c.2 r) (fun _ hx => hx) J P0 hl he
    rw [hst] at a b d
    rw [hts] at b
    have hz : zhouStep pq (fun n _ => n) w h s.ts = some s'.ts := by
      unfold zhouStep
      have : pq.pop s.ts.pq = some (c, r) := hp
      rw [this]
      simp only
      rw [b]
    obtain ⟨z1, z2⟩ := zhouStep_ok sel_ok (fun _ hx => hx) Z.top hz
    exact ⟨⟨z1, ⟨root', a⟩, d⟩, z2⟩

/-- Everything known about the flood of a tile. -/
structure TileSpec (w h : Nat) (dem : Cell → E) (s : ZL E) : Prop where
  filled : IsFilled w h .D8 dem s.elev
  range : ∀ c, InGrid w h c → 2 ≤ s.lbl c ∧ s.lbl c < s.cur
  shed : ∃ root : Nat → Cell, ∀ c, InGrid w h c → Shed s.elev s.lbl c (root (s.lbl c))
  inside : ∀ c, s.lbl c ≠ 0 → InGrid w h c
  gsound : ∀ a b v, s.g.m a b = some v → ∃ p q, Adj .D8 p q ∧ InGrid w h p ∧ InGrid w h q ∧
    s.lbl p = a ∧ s.lbl q = b ∧ s.elev p ≤ v ∧ s.elev q ≤ v
  gcomp : ∀ p q, Adj .D8 p q → InGrid w h p → InGrid w h q → s.lbl p ≠ s.lbl q →
    s.g.has (s.lbl p) (s.lbl q) (max (s.elev p) (s.elev q))
  ok : s.g.ok = true
  size : s.cur ≤ s.g.size

theorem zlRun_spec (pq : PQ (E × Cell) zLt) (dem : Cell → E) (hw : 0 < w) (hh : 0 < h) :
    zlStep pq w h (zlRun pq w h dem) = none ∧ TileSpec w h dem (zlRun pq w h dem) := by
  unfold zlRun
  set s0 := zlInit pq w h dem with hs0
  have hmem : ∀ e, e ∈ s0.pq ↔ ∃ c, OnEdge w h c ∧ (dem c, c) = e := by
    intro e
    rw [hs0]
    simp only [zlInit, pq.mem_pushAll, List.mem_map, mem_zhouSeeds hw hh, List.not_mem_nil, or_false]
  have Z0 : ZTop w h (InGrid w h) (OnEdge w h) dem s0.ts := by
    refine ⟨⟨⟨?_, ?_, ?_⟩, ?_, ?_, ?_, ?_, ?_, ?_, fun _ h => h, fun c h _ => h⟩, rfl, rfl, rfl⟩
    · intro v _ h; cases h
    · intro v _ _; rfl
    · intro v u _ _ h; cases h
    · intro e he
      obtain ⟨c, hc, rfl⟩ := (hmem e).1 he
      exact ⟨hc.1, rfl, Or.inr hc⟩
    · intro c _ ho _; exact (hmem _).2 ⟨c, ho, rfl⟩
    · intro e he; cases he
    · intro e he; cases he
    · intro e he; cases he
    · have := unflagged_le w h s0.ts.lab
      simpa [hs0, zlInit, ZL.ts] using this
  have h1 : s0.pq.length = 2 * w + 2 * (h - 2) := by
    rw [hs0]; simp only [zlInit, pq.length_pushAll]; simp [zhouSeeds]; omega
  have hf : s0.ts.size w h ≤ floodFuel w h := by
    have := unflagged_le w h s0.ts.lab
    have h2 : s0.ts.size w h = s0.pq.length + unflagged w h s0.ts.lab := by simp [TS.size, hs0, zlInit, ZL.ts]
    unfold floodFuel; omega
  have T0 : ZLTop w h (2 * w + 2 * h) dem s0 := by
    refine ⟨Z0, ⟨fun _ => (0, 0), ?_⟩, le_rfl⟩
    have hl : ∀ c, s0.lbl c = 0 := fun _ => rfl
    refine ⟨fun c hc => absurd (hl c) hc, fun c hc => absurd (hl c) hc, ?_, fun p q _ hp => absurd (hl p) hp, ?_, ?_,
      le_rfl, rfl, ?_⟩
    · intro a b v hv; cases hv
    · intro e he; cases he
    · intro e he; cases he
    · have := List.countP_le_length (p := fun e : E × Cell => s0.lbl e.2 == 0) (l := s0.pq)
      have hcur : s0.cur = 2 := rfl
      omega
  obtain ⟨Z, hn⟩ := loop_spec (step := zlStep pq w h) (ZLTop w h (2 * w + 2 * h) dem)
    (fun s => s.ts.size w h) (fun s s' => zlStep_ok) (floodFuel w h) s0 T0 hf
  refine ⟨hn, ?_⟩
  set s := loop (zlStep pq w h) (floodFuel w h) s0 with hs
  have hq : s.pq = [] := by
    unfold zlStep at hn
    split at hn
    · next h => exact pq.pop_none.1 h
    · cases hn
  have fin : ∀ c, InGrid w h c → s.lbl c ≠ 0 ∧ IsLvl (InGrid w h) (OnEdge w h) dem c (s.elev c) := by
    intro c hc
    obtain ⟨z, hz⟩ := exists_drains (t := .D8) dem hc
    obtain ⟨k0, k1⟩ := Z.top.final hq (sdrains_iff.2 hz)
    exact ⟨by simpa [ZL.ts] using k0, k1⟩
  obtain ⟨root, I⟩ := Z.inv
  have np : ∀ c, ¬ s.pend c := by
    intro c hc
    have d1 : s.dep = [] := Z.top.dep
    have d2 : s.trace = [] := Z.top.trace
    unfold ZL.pend at hc
    rw [d1, d2] at hc
    simp at hc
  refine ⟨?_, fun c hc => (I.range c (fin c hc).1).2, ⟨root, fun c hc => I.shed c (fin c hc).1⟩,
    fun c hc => (I.range c hc).1, ?_, ?_, I.ok, by have := I.bound; have := I.size; omega⟩
  · intro c hc
    obtain ⟨k1, k2⟩ := (fin c hc).2
    rw [isWaterLevel_iff]
    exact ⟨sdrains_iff.1 k1, fun z' hz' => k2 z' (sdrains_iff.2 hz')⟩
  · intro a b v hv
    obtain ⟨p, q, a1, a2, a3, a4, a5, a6, a7⟩ := I.gsound a b v hv
    exact ⟨p, q, a1, (I.range p (by rw [a2]; exact a4)).1, (I.range q (by rw [a3]; exact a5)).1, a2, a3, a6, a7⟩
  · intro p q ha hp hq hne
    rcases I.gcomp p q ha (fin p hp).1 (fin q hq).1 hne with h1 | h1 | h1 | h1 | h1
    · exact h1
    · exact absurd h1 (np p)
    · exact absurd h1 (np q)
    · exact h1.elim
    · exact h1.elim

/-! ### Joining the outside -/

/-- What a tile hands on: `e` is the flooded tile. -/
structure LabelSpec (w h : Nat) (ed : TileEdges) (dem : Cell → E) (s : ZL E) : Prop where
  filled : IsFilled w h .D8 dem s.elev
  range : ∀ c, InGrid w h c → 2 ≤ s.lbl c ∧ s.lbl c < s.cur
  shed : ∃ root : Nat → Cell, ∀ c, InGrid w h c → Shed s.elev s.lbl c (root (s.lbl c))
  inside : ∀ c, s.lbl c ≠ 0 → InGrid w h c
  gsound : ∀ a b v, s.g.m a b = some v → a < b ∧
    ((∃ p q, Adj .D8 p q ∧ InGrid w h p ∧ InGrid w h q ∧ s.lbl p = a ∧ s.lbl q = b ∧ s.elev p ≤ v ∧ s.elev q ≤ v) ∨
     (a = 1 ∧ ∃ c ∈ outsideCells w h ed, InGrid w h c ∧ s.lbl c = b ∧ s.elev c ≤ v))
  gcomp : ∀ p q, Adj .D8 p q → InGrid w h p → InGrid w h q → s.lbl p ≠ s.lbl q →
    s.g.has (s.lbl p) (s.lbl q) (max (s.elev p) (s.elev q))
  gout : ∀ c ∈ outsideCells w h ed, s.g.has 1 (s.lbl c) (s.elev c)
  ok : s.g.ok = true
  size : s.g.size = s.cur

theorem outside_inGrid (hw : 0 < w) (hh : 0 < h) {ed : TileEdges} {c : Cell} (hc : c ∈ outsideCells w h ed) :
    InGrid w h c := by
  obtain ⟨x, y⟩ := c
  unfold outsideCells at hc
  simp only [List.mem_append] at hc
  rcases hc with ((hc | hc) | hc) | hc <;> split_ifs at hc <;>
    simp only [List.mem_map, List.mem_range, Prod.mk.injEq, List.not_mem_nil] at hc
  all_goals obtain ⟨a, h1, h2, h3⟩ := hc; simp only [InGrid]; omega

/-- The stored key is ordered. -/
def SG.Ord (g : SG E) : Prop := ∀ a b v, g.m a b = some v → a < b

theorem SG.Ord.meet {g : SG E} (ho : g.Ord) {a b : Nat} {x y : E} : (g.meet a b x y).Ord := by
  intro i j v hv
  rcases SG.meet_sound hv with h1 | ⟨_, h2, h3, h4, _⟩
  · exact ho _ _ _ h1
  · omega

theorem zlRun_ord (pq : PQ (E × Cell) zLt) (dem : Cell → E) : (zlRun pq w h dem).g.Ord := by
  have pitN : ∀ (e : E × Cell) (s : ZL E) n, s.g.Ord → (zlPitNbr w h e s n).g.Ord := by
    intro e s n ho
    unfold zlPitNbr
    simp only
    repeat' split
    all_goals first | exact ho | exact ho.meet
  have pitS : ∀ s s' : ZL E, s.g.Ord → zlPitStep w h s = some s' → s'.g.Ord := by
    intro s s' ho hst
    unfold zlPitStep at hst
    split at hst
    · cases hst
    · obtain rfl := Option.some.inj hst
      exact List.foldlRecOn (motive := fun t : ZL E => t.g.Ord) _ _ ho (fun t ht n _ => pitN _ t n ht)
  have trN : ∀ (e : E × Cell) (s : ZL E × Bool) n, s.1.g.Ord → (zlTraceNbr pq w h e s n).1.g.Ord := by
    intro e s n ho
    unfold zlTraceNbr
    simp only
    repeat' split
    all_goals first | exact ho | exact ho.meet
  have trS : ∀ s s' : ZL E, s.g.Ord → zlTraceStep pq w h s = some s' → s'.g.Ord := by
    intro s s' ho hst
    unfold zlTraceStep at hst
    split at hst
    · cases hst
    · obtain rfl := Option.some.inj hst
      exact List.foldlRecOn (motive := fun t : ZL E × Bool => t.1.g.Ord) _ _ ho (fun t ht n _ => trN _ t n ht)
  have nb : ∀ (c : E × Cell) (s : ZL E) n, s.g.Ord → (zlNbr pq w h c s n).g.Ord := by
    intro c s n ho
    unfold zlNbr
    simp only
    split
    · exact ho
    split
    · exact ho.meet
    · refine loop_inv (fun t : ZL E => t.g.Ord) (fun a b ha hb => trS a b ha hb) _ _ ?_
      split
      · exact loop_inv (fun t : ZL E => t.g.Ord) (fun a b ha hb => pitS a b ha hb) _ _ ho.meet
      · exact ho.meet
  refine loop_inv (fun t : ZL E => t.g.Ord) ?_ _ _ ?_
  · intro s s' ho hst
    unfold zlStep at hst
    split at hst
    · cases hst
    · obtain rfl := Option.some.inj hst
      exact List.foldlRecOn (motive := fun t : ZL E => t.g.Ord) _ _ ho (fun t ht n _ => nb _ t n ht)
  · intro a b v hv; cases hv

theorem zhouLabels_spec (pq : PQ (E × Cell) zLt) (ed : TileEdges) (dem : Cell → E) (hw : 0 < w) (hh : 0 < h) :
    LabelSpec w h ed dem (zhouLabels pq w h ed dem) := by
  obtain ⟨_, T⟩ := zlRun_spec pq dem hw hh
  have O := zlRun_ord (w := w) (h := h) pq dem
  set s := zlRun pq w h dem with hs
  have key : ∀ l : List Cell, (∀ c ∈ l, c ∈ outsideCells w h ed) →
      let t := l.foldl ZL.outside s
      t.elev = s.elev ∧ t.lbl = s.lbl ∧ t.cur = s.cur ∧ t.g.size = s.g.size ∧ t.g.ok = true ∧ t.g.Ord ∧
      (∀ a b x, s.g.has a b x → t.g.has a b x) ∧ (∀ c ∈ l, t.g.has 1 (s.lbl c) (s.elev c)) ∧
      (∀ a b v, t.g.m a b = some v → s.g.m a b = some v ∨
        (a = 1 ∧ ∃ c ∈ outsideCells w h ed, InGrid w h c ∧ s.lbl c = b ∧ s.elev c ≤ v)) := by
    intro l
    induction l using List.reverseRecOn with
    | nil => intro _; exact ⟨rfl, rfl, rfl, rfl, T.ok, O, fun _ _ _ hx => hx, fun c hc => by simp at hc, fun _ _ _ hv => Or.inl hv⟩
    | append_singleton l c ih =>
      intro hl
      obtain ⟨a1, a2, a3, a4, a5, a6, a7, a8, a9⟩ := ih (fun d hd => hl d (List.mem_append_left _ hd))
      simp only [List.foldl_append, List.foldl_cons, List.foldl_nil]
      set t := l.foldl ZL.outside s with ht
      have hcg := outside_inGrid hw hh (hl c (by simp))
      have hcl := T.range c hcg
      have hsz := T.size
      refine ⟨a1, a2, a3, ?_, ?_, a6.meet, fun a b x hx => (a7 a b x hx).meet, ?_, ?_⟩
      · show (t.g.meet _ _ _ _).size = _
        rw [SG.meet_size, a4]
      · exact SG.meet_ok a5 (by rw [a2, a4]; omega)
      · intro d hd
        rcases List.mem_append.1 hd with hd | hd
        · exact (a8 d hd).meet
        · obtain rfl : d = c := by simpa using hd
          have := SG.meet_has (g := t.g) (a := t.lbl d) (b := 1) (ea := t.elev d) (eb := t.elev d) (by omega)
            (by rw [a2]; omega)
          rw [max_self, a1, a2] at this
          show SG.has (t.g.meet (t.lbl d) 1 (t.elev d) (t.elev d)) 1 (s.lbl d) (s.elev d)
          rw [a1, a2]
          exact this.comm
      · intro a b v hv
        rcases SG.meet_sound hv with h1 | ⟨_, h2, h3, h4, h5⟩
        · exact a9 a b v h1
        · rw [a2] at h3 h4
          rw [min_eq_right (by omega)] at h3
          rw [max_eq_left (by omega)] at h4
          refine Or.inr ⟨h3, c, hl c (by simp), hcg, h4.symm, ?_⟩
          rw [h5, max_self, a1]
  obtain ⟨a1, a2, a3, a4, a5, a6, a7, a8, a9⟩ := key (outsideCells w h ed) (fun _ hc => hc)
  have hz : zhouLabels pq w h ed dem = { (outsideCells w h ed).foldl ZL.outside s with
      g := ((outsideCells w h ed).foldl ZL.outside s).g.resize ((outsideCells w h ed).foldl ZL.outside s).cur } := rfl
  rw [hz]
  set t := (outsideCells w h ed).foldl ZL.outside s with ht
  have hres : ∀ a b x, a < s.cur → t.g.has a b x → (t.g.resize t.cur).has a b x := by
    rintro a b x ha ⟨v, h1, h2⟩
    refine ⟨v, ?_, h2⟩
    simp only [SG.resize]
    rw [if_pos (by rw [a3]; omega)]
    exact h1
  have hgin : ∀ c ∈ outsideCells w h ed, InGrid w h c := fun c hc => outside_inGrid hw hh hc
  refine ⟨by simp only; rw [a1]; exact T.filled, by simp only; rw [a2, a3]; exact T.range,
    by simp only; rw [a1, a2]; exact T.shed, by simp only; rw [a2]; exact T.inside, ?_, ?_, ?_, a5, rfl⟩
  · intro a b v hv
    simp only [SG.resize] at hv
    split_ifs at hv with h1
    refine ⟨a6 _ _ _ hv, ?_⟩
    simp only
    rw [a1, a2]
    rcases a9 a b v hv with h2 | h2
    · exact Or.inl (T.gsound a b v h2)
    · exact Or.inr h2
  · intro p q ha hp hq hne
    simp only at hne ⊢
    rw [a1, a2] at *
    exact hres _ _ _ (T.range p hp).2 (a7 _ _ _ (T.gcomp p q ha hp hq hne))
  · intro c hc
    simp only
    rw [a1, a2]
    have := T.range c (hgin c hc)
    exact hres _ _ _ (by omega) (a8 c hc)

end RichDEM
