/-
Model of the producer's computation in the parallel Priority-Flood,
programs/parallel_priority_flood/main.cpp: merging the tiles' graphs, joining tile edges and
corners, and the aggregated Priority-Flood on the graph.

Simplifications: edge rows are functions of the position with a length; maps with label keys are
partial functions; `graph_elev` and `visited` are functions of the label.  No tile is null.
-/
import Verif.Par.Tile

namespace RichDEM

variable {E : Type*} [LinearOrder E]

/-- One edge of a tile: main.cpp:161-162 `top_elev`/`top_label` and so on. -/
structure EdgeRow (E : Type*) where
  len : Nat
  elev : Nat → E
  lbl : Nat → Nat

/-- main.cpp:141-166 `Job1`. -/
structure PJob (E : Type*) where
  top : EdgeRow E
  bot : EdgeRow E
  left : EdgeRow E
  right : EdgeRow E
  graph : SG E

/-- main.cpp:360,367 (and 388-389, 434-435): `if(l>1) l += offset`. -/
def ren (off l : Nat) : Nat := if 1 < l then l + off else l

/-- main.cpp:440-441 `mastergraph.at(a)[b] = v; mastergraph.at(b)[a] = v`. -/
def SG.setBoth (g : SG E) (a b : Nat) (v : E) : SG E :=
  { m := fun i j => if (i = b ∧ j = a) ∨ (i = a ∧ j = b) then some v else g.m i j
    size := g.size
    ok := g.ok && decide (a < g.size) && decide (b < g.size) }

/-- main.cpp:374 `mastergraph.at(a).count(b)==0 || v<mastergraph.at(a)[b]`. -/
def lower (o : Option E) (v : E) : Bool :=
  match o with
  | none => true
  | some u => decide (v < u)

/-- main.cpp:373-377 and 390-394: note a lower spill elevation between two watersheds.  The second
assignment uses unchecked `[]`; the model flags an index out of range there as well. -/
def SG.join (g : SG E) (a b : Nat) (v : E) : SG E :=
  if lower (g.m a b) v then g.setBoth a b v
  else { g with ok := g.ok && decide (a < g.size) }

/-- main.cpp:344-380 `HandleEdge`: the pairs of positions compared. -/
def edgePairs (len : Nat) : List (Nat × Nat) :=
  (List.range len).flatMap fun i : Nat =>
    (([(i : Int) - 1, (i : Int), (i : Int) + 1].filter (fun ni : Int => !(decide (ni < 0) || decide (ni = (len : Int))))).map
      (fun ni : Int => (i, ni.toNat)))                                          -- :359-365

/-- main.cpp:344-380 `HandleEdge`. -/
def handleEdge (a b : EdgeRow E) (oa ob : Nat) (g : SG E) : SG E :=
  (edgePairs a.len).foldl (fun g p =>
    let cl := ren oa (a.lbl p.1)
    let nl := ren ob (b.lbl p.2)
    if cl = nl then g else g.join cl nl (max (a.elev p.1) (b.elev p.2))) g

/-- main.cpp:382-396 `HandleCorner`. -/
def handleCorner (ea eb : E) (la lb oa ob : Nat) (g : SG E) : SG E :=
  g.join (ren oa la) (ren ob lb) (max ea eb)

/-- main.cpp:430-443: the graph of one tile is added to the master graph. -/
def mergeTile (off : Nat) (tg : SG E) (g : SG E) : SG E :=
  (List.range tg.size ×ˢ List.range tg.size).foldl (fun g lk =>
    match tg.m lk.1 lk.2 with
    | none => g
    | some v => g.setBoth (ren off lk.1) (ren off lk.2) v) g

/-- The variables of the loop main.cpp:423-448. -/
structure MG (E : Type*) where
  g : SG E
  offs : Nat × Nat → Nat
  off : Nat

/-- main.cpp:423-448: one tile.  Tiles are addressed `(row, column)`. -/
def mergeStep (jobs : Nat × Nat → PJob E) (st : MG E) (t : Nat × Nat) : MG E :=
  { g := mergeTile st.off (jobs t).graph st.g
    offs := Function.update st.offs t st.off
    off := st.off + (jobs t).graph.size }

/-- main.cpp:412-416, 423-424: the tiles row by row. -/
def tileList (gh gw : Nat) : List (Nat × Nat) := List.range gh ×ˢ List.range gw

/-- main.cpp:413-421: an empty graph with room for all labels. -/
def emptyMaster (jobs : Nat × Nat → PJob E) (gh gw : Nat) : SG E :=
  { m := fun _ _ => none, size := ((tileList gh gw).map (fun t => (jobs t).graph.size)).sum, ok := true }

/-- main.cpp:409-448. -/
def mergeAll (jobs : Nat × Nat → PJob E) (gh gw : Nat) : MG E :=
  (tileList gh gw).foldl (mergeStep jobs) { g := emptyMaster jobs gh gw, offs := fun _ => 0, off := 0 }

section join
variable (jobs : Nat × Nat → PJob E) (offs : Nat × Nat → Nat) (gh gw : Nat) (t : Nat × Nat) (g : SG E)

/-- main.cpp:459-460. -/
def joinTop : SG E :=
  if 0 < t.1 then handleEdge (jobs t).top (jobs (t.1 - 1, t.2)).bot (offs t) (offs (t.1 - 1, t.2)) g else g

/-- main.cpp:462-463. -/
def joinBot : SG E :=
  if t.1 + 1 < gh then handleEdge (jobs t).bot (jobs (t.1 + 1, t.2)).top (offs t) (offs (t.1 + 1, t.2)) g else g

/-- main.cpp:465-466. -/
def joinLeft : SG E :=
  if 0 < t.2 then handleEdge (jobs t).left (jobs (t.1, t.2 - 1)).right (offs t) (offs (t.1, t.2 - 1)) g else g

/-- main.cpp:468-469. -/
def joinRight : SG E :=
  if t.2 + 1 < gw then handleEdge (jobs t).right (jobs (t.1, t.2 + 1)).left (offs t) (offs (t.1, t.2 + 1)) g else g

/-- The elevation and label at the front of a row. -/
def EdgeRow.front (r : EdgeRow E) : E × Nat := (r.elev 0, r.lbl 0)
/-- The elevation and label at the back of a row. -/
def EdgeRow.back (r : EdgeRow E) : E × Nat := (r.elev (r.len - 1), r.lbl (r.len - 1))

/-- `HandleCorner` on two row ends. -/
def corner (p q : E × Nat) (oa ob : Nat) (g : SG E) : SG E := handleCorner p.1 q.1 p.2 q.2 oa ob g

/-- main.cpp:474-475. -/
def joinTL : SG E :=
  if 0 < t.1 ∧ 0 < t.2 then
    corner (jobs t).top.front (jobs (t.1 - 1, t.2 - 1)).bot.back (offs t) (offs (t.1 - 1, t.2 - 1)) g else g

/-- main.cpp:478-479. -/
def joinBR : SG E :=
  if t.1 + 1 < gh ∧ t.2 + 1 < gw then
    corner (jobs t).bot.back (jobs (t.1 + 1, t.2 + 1)).top.front (offs t) (offs (t.1 + 1, t.2 + 1)) g else g

/-- main.cpp:482-483. -/
def joinTR : SG E :=
  if 0 < t.1 ∧ t.2 + 1 < gw then
    corner (jobs t).top.back (jobs (t.1 - 1, t.2 + 1)).bot.front (offs t) (offs (t.1 - 1, t.2 + 1)) g else g

/-- main.cpp:486-487. -/
def joinBL : SG E :=
  if 0 < t.2 ∧ t.1 + 1 < gh then
    corner (jobs t).bot.front (jobs (t.1 + 1, t.2 - 1)).top.back (offs t) (offs (t.1 + 1, t.2 - 1)) g else g

end join

/-- main.cpp:451-488: the edges and corners of one tile. -/
def joinTile (jobs : Nat × Nat → PJob E) (offs : Nat × Nat → Nat) (gh gw : Nat) (g : SG E) (t : Nat × Nat) : SG E :=
  let g1 := joinTop jobs offs t g
  let g2 := joinBot jobs offs gh t g1
  let g3 := joinLeft jobs offs t g2
  let g4 := joinRight jobs offs gw t g3
  let g5 := joinTL jobs offs t g4
  let g6 := joinBR jobs offs gh gw t g5
  let g7 := joinTR jobs offs gw t g6
  joinBL jobs offs gh t g7

/-- main.cpp:409-487: the master graph and the tiles' label offsets. -/
def masterGraph (jobs : Nat × Nat → PJob E) (gh gw : Nat) : MG E :=
  let st := mergeAll jobs gh gw
  { st with g := (tileList gh gw).foldl (joinTile jobs st.offs gh gw) st.g }

/-! ### The aggregated flood -/

/-- An entry is popped before another if its elevation is lower.  (`std::greater<pair>` orders by
elevation and then by label; the model allows every order of equal elevations.) -/
def vLt (a b : E × Nat) : Prop := a.1 < b.1

/-- The variables of main.cpp:499-541. -/
structure VF (E : Type*) where
  opn : List (E × Nat)
  visited : Nat → Bool
  gelev : Nat → E
  safe : Bool

/-- main.cpp:525-530: queue the neighbours that have not been visited. -/
def vfPush (pq : PQ (E × Nat) vLt) (g : SG E) (z : E) (v : Nat) (s : VF E) : VF E :=
  { s with
    opn := pq.pushAll ((List.range g.size).filterMap (fun n =>
      match g.m v n with
      | none => none
      | some e => if s.visited n then none else some (max z e, n))) s.opn }

/-- main.cpp:507-541: one iteration (the queue `pit` is never filled). -/
def vfStep (pq : PQ (E × Nat) vLt) (g : SG E) (s : VF E) : Option (VF E) :=
  match pq.pop s.opn with
  | none => none
  | some (c, r) =>
    if s.visited c.2 then some { s with opn := r, safe := s.safe && decide (c.2 < g.size) }   -- :518-519
    else some (vfPush pq g c.1 c.2
      { opn := r, visited := Function.update s.visited c.2 true, gelev := Function.update s.gelev c.2 c.1
        safe := s.safe && decide (c.2 < g.size) })                        -- :521-530

/-- main.cpp:499-541: `lo` is `numeric_limits<elev_t>::lowest()`, `zero` what `graph_elev.resize`
fills in. -/
def vFlood (pq : PQ (E × Nat) vLt) (lo zero : E) (g : SG E) : VF E :=
  loop (vfStep pq g) (1 + g.size * g.size)
    { opn := pq.push (lo, 1) [], visited := fun _ => false, gelev := fun _ => zero, safe := true }

/-- Vertex `v` is reached from vertex 1 over edges not above `z`. -/
inductive GD (g : SG E) (lo : E) (z : E) : Nat → Prop
  | start : lo ≤ z → GD g lo z 1
  | step {u v : Nat} {e : E} : GD g lo z u → g.m u v = some e → e ≤ z → GD g lo z v

theorem GD.mono {g : SG E} {lo z z' : E} {v : Nat} (hd : GD g lo z v) (hz : z ≤ z') : GD g lo z' v := by
  induction hd with
  | start h => exact .start (h.trans hz)
  | step _ h1 h2 ih => exact .step ih h1 (h2.trans hz)

/-- Invariant of the aggregated flood. -/
structure VInv (g : SG E) (lo : E) (s : VF E) : Prop where
  done : ∀ v, s.visited v = true → GD g lo (s.gelev v) v ∧ ∀ z, GD g lo z v → s.gelev v ≤ z
  opn : ∀ e ∈ s.opn, GD g lo e.1 e.2 ∧ e.2 < g.size
  front : ∀ u v e, s.visited u = true → g.m u v = some e → s.visited v = false → (max (s.gelev u) e, v) ∈ s.opn
  seed : s.visited 1 = true ∨ (lo, 1) ∈ s.opn
  safe : s.safe = true

theorem VInv.low {g : SG E} {lo : E} {s : VF E} (I : VInv g lo s) {z : E} {v : Nat} (hd : GD g lo z v)
    (hv : s.visited v = false) : ∃ e ∈ s.opn, e.1 ≤ z := by
  induction hd with
  | start h1 =>
    rcases I.seed with h2 | h2
    · rw [hv] at h2; cases h2
    · exact ⟨_, h2, h1⟩
  | @step u v e hu h1 h2 ih =>
    by_cases hvu : s.visited u = true
    · exact ⟨_, I.front u v e hvu h1 hv, max_le ((I.done u hvu).2 z hu) h2⟩
    · exact ih (by simpa using hvu)

theorem countP_update' {A : Type*} {l : List A} (hl : l.Nodup) {p q : A → Bool} {c : A}
    (hc : c ∈ l) (hp : p c = true) (hq : q c = false) (hne : ∀ d, d ≠ c → q d = p d) :
    l.countP q + 1 = l.countP p := by
  induction l with
  | nil => simp at hc
  | cons a l ih =>
    rw [List.nodup_cons] at hl
    rcases List.mem_cons.1 hc with rfl | hc
    · have : l.countP q = l.countP p := by
        apply List.countP_congr
        intro x hx
        rw [hne x (by rintro rfl; exact hl.1 hx)]
      rw [List.countP_cons, List.countP_cons, this, hp, hq]; simp
    · have hac : a ≠ c := by rintro rfl; exact hl.1 hc
      rw [List.countP_cons, List.countP_cons, hne a hac, ← ih hl.2 hc]; omega

theorem vfStep_ok {pq : PQ (E × Nat) vLt} {g : SG E} {lo : E} (hk : ∀ a b v, g.m a b = some v → b < g.size)
    {s s' : VF E} (I : VInv g lo s) (hst : vfStep pq g s = some s') :
    VInv g lo s' ∧ s'.opn.length + (List.range g.size).countP (fun v => !s'.visited v) * g.size <
      s.opn.length + (List.range g.size).countP (fun v => !s.visited v) * g.size := by
  unfold vfStep at hst
  cases hp : pq.pop s.opn with
  | none => rw [hp] at hst; cases hst
  | some cr =>
    obtain ⟨c, r⟩ := cr
    rw [hp] at hst
    simp only at hst
    obtain ⟨hperm, hmin⟩ := pq.pop_some hp
    have hmem : ∀ e, e ∈ s.opn ↔ e = c ∨ e ∈ r := by
      intro e; rw [hperm.mem_iff, List.mem_cons]
    have hlen : s.opn.length = r.length + 1 := by rw [hperm.length_eq]; rfl
    obtain ⟨c1, c2⟩ := I.opn c ((hmem c).2 (Or.inl rfl))
    by_cases hv : s.visited c.2 = true
    · rw [if_pos hv] at hst
      obtain rfl := Option.some.inj hst
      refine ⟨⟨I.done, fun e he => I.opn e ((hmem e).2 (Or.inr he)), ?_, ?_, by simp [I.safe, c2]⟩, by simp only; omega⟩
      · intro u v e hu h1 h2
        rcases (hmem _).1 (I.front u v e hu h1 h2) with h3 | h3
        · have : v = c.2 := congrArg Prod.snd h3
          simp only at h2
          rw [this, hv] at h2; cases h2
        · exact h3
      · rcases I.seed with h1 | h1
        · exact Or.inl h1
        · rcases (hmem _).1 h1 with h2 | h2
          · left; simp only; rw [← h2] at hv; exact hv
          · exact Or.inr h2
    · rw [if_neg hv] at hst
      have hvf : s.visited c.2 = false := by simpa using hv
      obtain rfl := Option.some.inj hst
      have hleast : ∀ z, GD g lo z c.2 → c.1 ≤ z := by
        intro z hz
        obtain ⟨e, he, hez⟩ := I.low hz hvf
        exact (not_lt.1 (hmin e he)).trans hez
      set vis := Function.update s.visited c.2 true with hvis
      set L := (List.range g.size).filterMap (fun n => match g.m c.2 n with
        | none => none
        | some e => if vis n then none else some (max c.1 e, n)) with hL
      have hmL : ∀ x, x ∈ L ↔ x.2 < g.size ∧ ∃ e, g.m c.2 x.2 = some e ∧ vis x.2 = false ∧ x.1 = max c.1 e := by
        rintro ⟨z, n⟩
        rw [hL, List.mem_filterMap]
        constructor
        · rintro ⟨m, hm, hx⟩
          cases hg : g.m c.2 m with
          | none => rw [hg] at hx; cases hx
          | some e =>
            rw [hg] at hx
            simp only at hx
            by_cases hvm : vis m = true
            · rw [if_pos hvm] at hx; cases hx
            · rw [if_neg hvm] at hx
              simp only [Option.some.injEq, Prod.mk.injEq] at hx
              obtain ⟨h1, h2⟩ := hx
              subst h2
              exact ⟨List.mem_range.1 hm, e, hg, by simpa using hvm, h1.symm⟩
        · rintro ⟨h1, e, h2, h3, h4⟩
          simp only at h1 h2 h3 h4
          exact ⟨n, List.mem_range.2 h1, by rw [h2]; simp [h3, h4]⟩
      have hmo : ∀ x, x ∈ pq.pushAll L r ↔ x ∈ L ∨ x ∈ r := fun x => pq.mem_pushAll
      show VInv g lo { opn := pq.pushAll L r, visited := vis, gelev := Function.update s.gelev c.2 c.1
                       safe := s.safe && decide (c.2 < g.size) } ∧ (pq.pushAll L r).length +
        (List.range g.size).countP (fun v => !vis v) * g.size < _
      have hge : ∀ u, u ≠ c.2 → vis u = s.visited u ∧ Function.update s.gelev c.2 c.1 u = s.gelev u := by
        intro u hu
        rw [hvis, Function.update_of_ne hu, Function.update_of_ne hu]; exact ⟨rfl, rfl⟩
      refine ⟨⟨?_, ?_, ?_, ?_, by simp [I.safe, c2]⟩, ?_⟩
      · intro v hvv
        simp only at hvv ⊢
        by_cases hvc : v = c.2
        · subst hvc; rw [Function.update_self]; exact ⟨c1, hleast⟩
        · rw [(hge v hvc).1] at hvv; rw [(hge v hvc).2]; exact I.done v hvv
      · intro e he
        rcases (hmo e).1 he with h1 | h1
        · obtain ⟨a1, w, a2, _, a3⟩ := (hmL e).1 h1
          rw [a3]
          exact ⟨.step (c1.mono (le_max_left _ _)) a2 (le_max_right _ _), a1⟩
        · exact I.opn e ((hmem e).2 (Or.inr h1))
      · intro u v e hu h1 h2
        simp only at hu h2 ⊢
        have hvc : v ≠ c.2 := by rintro rfl; rw [hvis, Function.update_self] at h2; cases h2
        by_cases huc : u = c.2
        · subst huc
          rw [Function.update_self]
          exact (hmo _).2 (Or.inl ((hmL _).2 ⟨hk _ _ _ h1, e, h1, h2, rfl⟩))
        · rw [(hge u huc).1] at hu
          rw [(hge u huc).2]
          rcases (hmem _).1 (I.front u v e hu h1 (by rw [← (hge v hvc).1]; exact h2)) with h3 | h3
          · exact absurd (congrArg Prod.snd h3) hvc
          · exact (hmo _).2 (Or.inr h3)
      · simp only
        by_cases h1c : (1 : Nat) = c.2
        · left; rw [hvis, h1c, Function.update_self]
        · rw [(hge 1 h1c).1]
          rcases I.seed with h1 | h1
          · exact Or.inl h1
          · rcases (hmem _).1 h1 with h2 | h2
            · exact absurd (congrArg Prod.snd h2) h1c
            · exact Or.inr ((hmo _).2 (Or.inr h2))
      · have hLl : L.length ≤ g.size := by
          rw [hL]; exact (List.length_filterMap_le _ _).trans (by simp)
        have hcnt : (List.range g.size).countP (fun v => !vis v) + 1 ≤ (List.range g.size).countP (fun v => !s.visited v) := by
          have := countP_update' List.nodup_range (p := fun v => !s.visited v) (q := fun v => !vis v) (c := c.2)
            (List.mem_range.2 c2) (by simp [hvf]) (by simp [hvis]) (fun d hd => by rw [(hge d hd).1])
          omega
        rw [pq.length_pushAll]
        have : (List.range g.size).countP (fun v => !vis v) * g.size + g.size ≤
            (List.range g.size).countP (fun v => !s.visited v) * g.size := by
          have := Nat.mul_le_mul_right g.size hcnt
          rw [Nat.succ_mul] at this
          exact this
        omega

/-- The aggregated flood gives every vertex the lowest level at which it is connected to vertex 1. -/
theorem vFlood_spec (pq : PQ (E × Nat) vLt) {lo zero : E} {g : SG E} (hk : ∀ a b v, g.m a b = some v → b < g.size)
    (h1 : 1 < g.size) :
    vfStep pq g (vFlood pq lo zero g) = none ∧ (vFlood pq lo zero g).safe = true ∧
    ∀ v z, GD g lo z v → GD g lo ((vFlood pq lo zero g).gelev v) v ∧ ∀ z, GD g lo z v → (vFlood pq lo zero g).gelev v ≤ z := by
  unfold vFlood
  set s0 : VF E := { opn := pq.push (lo, 1) [], visited := fun _ => false, gelev := fun _ => zero, safe := true } with hs0
  have hm : ∀ e, e ∈ s0.opn ↔ e = (lo, 1) := by
    intro e; rw [hs0]; simp only [pq.mem_push, List.not_mem_nil, or_false]
  have I0 : VInv g lo s0 := by
    refine ⟨fun v hv => absurd hv (by simp [hs0]), ?_, fun u v e hu => absurd hu (by simp [hs0]), Or.inr ((hm _).2 rfl), rfl⟩
    intro e he
    rw [(hm e).1 he]
    exact ⟨.start le_rfl, h1⟩
  obtain ⟨I, hn⟩ := loop_spec (step := vfStep pq g) (VInv g lo)
    (fun s => s.opn.length + (List.range g.size).countP (fun v => !s.visited v) * g.size)
    (fun s s' hi hst => vfStep_ok hk hi hst) (1 + g.size * g.size) s0 I0 (by
      have a1 : s0.opn.length = 1 := by rw [hs0]; simp only [pq.length_push]; rfl
      have a2 : (List.range g.size).countP (fun v => !s0.visited v) ≤ g.size := by
        have := List.countP_le_length (p := fun v => !s0.visited v) (l := List.range g.size)
        simpa using this
      have := Nat.mul_le_mul_right g.size a2
      omega)
  refine ⟨hn, I.safe, ?_⟩
  intro v z hd
  by_cases hv : (loop (vfStep pq g) (1 + g.size * g.size) s0).visited v = true
  · exact I.done v hv
  · obtain ⟨e, he, _⟩ := I.low hd (by simpa using hv)
    have hq : (loop (vfStep pq g) (1 + g.size * g.size) s0).opn = [] := by
      unfold vfStep at hn
      split at hn
      · next h => exact pq.pop_none.1 h
      · split at hn <;> cases hn
    rw [hq] at he; simp at he

/-! ### Gluing -/

/-- What the merged graph has to satisfy: `F` is the raster of the separately flooded tiles, `L` the
raster of the globally numbered watersheds. -/
structure Glue (W H : Nat) (dem F : Cell → E) (L : Cell → Nat) (g : SG E) : Prop where
  ge : ∀ x, InGrid W H x → dem x ≤ F x
  lbl : ∀ x, InGrid W H x → 2 ≤ L x
  conn : ∀ x y, InGrid W H x → InGrid W H y → L x = L y → ∀ z, Drains W H .D8 dem z y → F y ≤ z →
    Drains W H .D8 dem (max (F x) z) x
  step : ∀ x y, InGrid W H x → InGrid W H y → Adj .D8 x y → F x ≤ max (dem x) (F y)
  edge : ∀ x, OnEdge W H x → F x = dem x
  sound : ∀ a b v, g.m a b = some v →
    (∃ x y, InGrid W H x ∧ InGrid W H y ∧ Adj .D8 x y ∧ L x = a ∧ L y = b ∧ F x ≤ v ∧ F y ≤ v) ∨
    (a = 1 ∧ ∃ x, OnEdge W H x ∧ L x = b ∧ F x ≤ v) ∨ (b = 1 ∧ ∃ x, OnEdge W H x ∧ L x = a ∧ F x ≤ v)
  comp : ∀ x y, InGrid W H x → InGrid W H y → Adj .D8 x y → L x ≠ L y → ∃ v, g.m (L x) (L y) = some v ∧ v ≤ max (F x) (F y)
  out : ∀ x, OnEdge W H x → ∃ v, g.m 1 (L x) = some v ∧ v ≤ F x

theorem Glue.upper {W H : Nat} {dem F : Cell → E} {L : Cell → Nat} {g : SG E} (G : Glue W H dem F L g) {lo z : E}
    {v : Nat} (hd : GD g lo z v) : ∀ x, InGrid W H x → L x = v → Drains W H .D8 dem (max (F x) z) x := by
  induction hd with
  | start _ => intro x hx h1; have := G.lbl x hx; omega
  | @step u v e hu h1 h2 ih =>
    intro c hc hL
    rcases G.sound u v e h1 with ⟨x, y, hx, hy, ha, h3, h4, h5, h6⟩ | ⟨_, y, hy, h4, h6⟩ | ⟨h3, _⟩
    · have dx := ih x hx h3
      rw [max_eq_right (h5.trans h2)] at dx
      have dy : Drains W H .D8 dem z y := .step hy ((G.ge y hy).trans (h6.trans h2)) ha.symm dx
      exact G.conn c y hc hy (hL.trans h4.symm) z dy (h6.trans h2)
    · have dy : Drains W H .D8 dem z y := .edge hy ((G.ge y hy.1).trans (h6.trans h2))
      exact G.conn c y hc hy.1 (hL.trans h4.symm) z dy (h6.trans h2)
    · have := G.lbl c hc; omega

theorem Glue.lowerB {W H : Nat} {dem F : Cell → E} {L : Cell → Nat} {g : SG E} (G : Glue W H dem F L g) {lo z : E}
    (hlo : ∀ x, InGrid W H x → lo ≤ dem x) {x : Cell} (hd : Drains W H .D8 dem z x) :
    InGrid W H x ∧ F x ≤ z ∧ GD g lo z (L x) := by
  induction hd with
  | @edge c a b =>
    have hF := G.edge c a
    obtain ⟨v, h1, h2⟩ := G.out c a
    exact ⟨a.1, by rw [hF]; exact b, .step (.start ((hlo c a.1).trans b)) h1 (h2.trans (by rw [hF]; exact b))⟩
  | @step c d a b ha _ ih =>
    obtain ⟨i1, i2, i3⟩ := ih
    have hF : F c ≤ z := (G.step c d a i1 ha).trans (max_le b i2)
    refine ⟨a, hF, ?_⟩
    by_cases hL : L c = L d
    · rw [hL]; exact i3
    · obtain ⟨v, h1, h2⟩ := G.comp d c i1 a ha.symm (fun h => hL h.symm)
      exact .step i3 h1 (h2.trans (max_le i2 hF))

/-- Raising every watershed to its level in the graph gives the filled raster. -/
theorem Glue.filled {W H : Nat} {dem F : Cell → E} {L : Cell → Nat} {g : SG E} (G : Glue W H dem F L g) {lo zero : E}
    (pq : PQ (E × Nat) vLt) (hlo : ∀ x, InGrid W H x → lo ≤ dem x) (hk : ∀ a b v, g.m a b = some v → b < g.size)
    (h1 : 1 < g.size) :
    IsFilled W H .D8 dem (fun x => max (F x) ((vFlood pq lo zero g).gelev (L x))) := by
  obtain ⟨_, _, S⟩ := vFlood_spec pq (lo := lo) (zero := zero) hk h1
  intro x hx
  rw [isWaterLevel_iff]
  obtain ⟨z, hz⟩ := exists_drains (t := .D8) dem hx
  obtain ⟨s1, s2⟩ := S (L x) z (G.lowerB hlo hz).2.2
  refine ⟨G.upper s1 x hx rfl, ?_⟩
  intro z' hz'
  obtain ⟨_, b1, b2⟩ := G.lowerB hlo hz'
  exact max_le b1 (s2 z' b2)

end RichDEM
