/-
Property theorems C74-C75 (programs/parallel_d8_accum).
-/
import Verif.ParD8.Main
import Verif.Examples

namespace RichDEM

open Relation

/-! ## C74 -/

theorem foldlM_none {A B : Type*} {f : B → A → Option B} {a : A} : ∀ {L : List A}, a ∈ L → (∀ b, f b a = none) →
    ∀ b, L.foldlM f b = none := by
  intro L
  induction L with
  | nil => intro hL; cases hL
  | cons x L ih =>
    intro hL hf b
    rw [List.foldlM_cons]
    rcases List.mem_cons.1 hL with rfl | hL
    · rw [hf]; rfl
    · cases f b x with
      | none => rfl
      | some b' => exact ih hL hf b'

section
variable {T : Tiling} {null : Nat × Nat → Bool} {fd : Cell → Nat} {nd : Nat}

/-- Folding updates by tile whose values never fail. -/
theorem foldlM_tiles {A : Type*} (f : Nat × Nat → Option A) (v : Nat × Nat → A) (d : Nat × Nat → A) :
    ∀ (L : List (Nat × Nat)) (m : Nat × Nat → A), (∀ t ∈ L, f t = some (v t)) →
      ∃ m', L.foldlM (fun m t => (f t).map (fun j => Function.update m t j)) m = some m' ∧
        (∀ t ∈ L, m' t = v t) ∧ ∀ t, t ∉ L → m' t = m t := by
  intro L
  induction L with
  | nil => intro m _; exact ⟨m, rfl, by simp, fun _ _ => rfl⟩
  | cons t L ih =>
    intro m hf
    obtain ⟨m', h1, h2, h3⟩ := ih (Function.update m t (v t)) (fun a ha => hf a (by simp [ha]))
    refine ⟨m', ?_, ?_, ?_⟩
    · rw [List.foldlM_cons, hf t (by simp)]
      exact h1
    · intro a ha
      by_cases haL : a ∈ L
      · exact h2 a haL
      · rw [h3 a haL]
        rcases List.mem_cons.1 ha with rfl | h4
        · rw [Function.update_self]
        · exact absurd h4 haL
    · intro a ha
      rw [List.mem_cons, not_or] at ha
      rw [h3 a ha.2, Function.update_of_ne ha.1]

theorem pdLoad_part (t : Nat × Nat) : pdLoad T (fun t c => fd (T.stored t c)) t = T.part fd t := by
  funext c
  show fd (T.stored t _) = fd (T.glob t c)
  unfold Tiling.stored
  rw [flipCell_inv]

theorem pdCollect_ok (P : PDOk T null fd nd) {order : List (Nat × Nat)}
    (ho : order.Perm ((tileList T.gh T.gw).filter (fun t => !null t))) :
    ∃ jobs, pdCollect T null (fun t c => fd (T.stored t c)) nd order = some jobs ∧ JobsOk T null fd nd jobs := by
  have hmem : ∀ t, t ∈ order ↔ (t.1 < T.gh ∧ t.2 < T.gw) ∧ null t = false := by
    intro t
    rw [ho.mem_iff, List.mem_filter, mem_tileList]
    simp
  have hj : ∀ t ∈ order, ∃ j, pdJob T null (fun t c => fd (T.stored t c)) nd t = some j ∧
      JobOk (T.tw t.2) (T.th t.1) (T.part fd t) nd (nullEdges T.gh T.gw null t) j := by
    intro t ht
    obtain ⟨h1, h2⟩ := (hmem t).1 ht
    unfold pdJob
    rw [pdLoad_part]
    exact pdFirst_ok (P.tw_pos h1) (P.rows _ h1.1) (P.small _ _ h1.1 h1.2) (P.acyc_tile h1) _
  classical
  let v : Nat × Nat → PDJob := fun t => if ht : t ∈ order then (hj t ht).choose else PDJob.empty
  obtain ⟨m, h1, h2, _⟩ := foldlM_tiles (fun t => pdJob T null (fun t c => fd (T.stored t c)) nd t) v (fun _ => PDJob.empty)
    order (fun _ => PDJob.empty) (fun t ht => by
      simp only [v, dif_pos ht]
      exact (hj t ht).choose_spec.1)
  refine ⟨m, h1, ?_⟩
  intro t ht hn
  have hto : t ∈ order := (hmem t).2 ⟨ht, hn⟩
  rw [h2 t hto]
  simp only [v, dif_pos hto]
  exact (hj t hto).choose_spec.2

/-- C74 (partial): the tiled program gives every cell the accumulation that `d8_flow_accum` gives it on the
whole raster.  For every raster of directions without cycles, every block size, every choice of tiles that
are stored mirrored or left out because all their cells are NoData, every order in which the results of the
tiles arrive and every order in which the producer's stack is served.  It ends, throws nothing and its
16-bit counters do not overflow.  Missing (all refuted below, `PDOk`): tiles of one row, tiles with more than
65526 perimeter cells, tiles between which others are missing so that they touch only at a corner. -/
theorem C74_equals_sequential_partial (q : AnyQ PNode) (qs : AnyQ Cell) (order : List (Nat × Nat)) (P : PDOk T null fd nd)
    (ho : order.Perm ((tileList T.gh T.gw).filter (fun t => !null t))) (t : Nat × Nat) (ht : t.1 < T.gh ∧ t.2 < T.gw)
    (hn : null t = false) :
    ∃ out, parallelAccum q T null (fun t c => fd (T.stored t c)) nd order t = some out ∧
      ∀ c, T.InTile t c → out c = d8FlowAccum qs T.W T.H fd nd (T.stored t c) := by
  obtain ⟨jobs, h1, J⟩ := pdCollect_ok P ho
  obtain ⟨out, h2, h3⟩ := second_ok P J q qs ht hn
  refine ⟨fun c => out (flipCell (T.fh t) (T.fv t) (T.tw t.2) (T.th t.1) c), ?_, ?_⟩
  · unfold parallelAccum
    rw [h1]
    simp only [Option.bind_some]
    rw [pdLoad_part, h2]
    rfl
  · intro c hc
    exact h3 _ (flipCell_inGrid hc.2.2)

/-- C74 (partial, as above): every data cell gets the number of data cells of the whole raster whose flow
passes through it, every other cell the NoData value. -/
theorem C74_counts_upstream_partial (q : AnyQ PNode) (order : List (Nat × Nat)) (P : PDOk T null fd nd)
    (valid : ∀ a, InGrid T.W T.H a → fd a ≠ nd → fd a ≤ 8)
    (ho : order.Perm ((tileList T.gh T.gw).filter (fun t => !null t))) (t : Nat × Nat) (ht : t.1 < T.gh ∧ t.2 < T.gw)
    (hn : null t = false) :
    ∃ out, parallelAccum q T null (fun t c => fd (T.stored t c)) nd order t = some out ∧
      ∀ c, T.InTile t c →
        (fd (T.stored t c) ≠ nd → out c = upstreamCount T.W T.H fd nd (T.stored t c)) ∧
        (fd (T.stored t c) = nd → out c = -1) := by
  obtain ⟨out, h1, h2⟩ := C74_equals_sequential_partial q (lifo Cell) order P ho t ht hn
  refine ⟨out, h1, fun c hc => ⟨fun hd => ?_, fun hd => ?_⟩⟩
  · have hin : InGrid T.W T.H (T.stored t c) := Tiling.InTile.inGrid ⟨hc.1, hc.2.1, flipCell_inGrid hc.2.2⟩
    rw [h2 c hc]
    exact C21_counts_upstream (lifo Cell) T.W T.H fd nd valid _ hin hd (fun a _ => P.acyc a)
  · rw [h2 c hc]
    exact C21_noData _ _ _ _ _ _ hd

theorem acyclic_of_rank {w h : Nat} {fd : Cell → Nat} {nd : Nat} (rank : Cell → Int)
    (hr : ∀ a b, D8FlowsTo w h fd nd a b → rank b < rank a) : Acyclic8 w h fd nd := by
  have key : ∀ a b, TransGen (D8FlowsTo w h fd nd) a b → rank b < rank a := by
    intro a b hab
    induction hab with
    | single h1 => exact hr _ _ h1
    | tail _ h1 ih => exact (hr _ _ h1).trans ih
  exact fun a ha => lt_irrefl _ (key a a ha)

/-- Directions on a 6 by 6 raster. -/
def pdFd : Cell → Nat := ofRows 255
  [[5, 5, 5, 6, 255, 255], [3, 5, 6, 1, 255, 255], [5, 4, 7, 7, 7, 7], [5, 5, 6, 7, 1, 1], [3, 0, 5, 5, 5, 5], [3, 3, 4, 5, 5, 5]]

/-- Blocks of 2 by 2; some tiles are stored mirrored, the one in the upper right corner is missing. -/
def pdT : Tiling := { W := 6, H := 6, bw := 2, bh := 2, fh := fun t => decide (t.1 = 1), fv := fun t => decide (t = (0, 1)) }

def pdNull (t : Nat × Nat) : Bool := decide (t = (0, 2))

theorem pdT_ok : PDOk pdT pdNull pdFd 255 := by
  refine ⟨by decide, by decide, by decide +kernel, ?_, ?_, ?_, ?_⟩
  · have : ∀ j < pdT.gh, ∀ i < pdT.gw, perimLen (pdT.tw i) (pdT.th j) ≤ 65526 := by decide +kernel
    exact fun j i hj hi => this j hj i hi
  · intro t c hc hn
    have e : t = (0, 2) := by simpa [pdNull] using hn
    subst e
    have : ∀ c ∈ allCells (pdT.tw 2) (pdT.th 0), pdFd (pdT.glob (0, 2) c) = 255 := by decide +kernel
    exact this c (mem_allCells.2 hc.2.2)
  · intro j i hj hi
    have e1 : pdT.gh = 3 := by decide +kernel
    have e2 : pdT.gw = 3 := by decide +kernel
    obtain rfl | rfl : j = 0 ∨ j = 1 := by omega
    all_goals
      obtain rfl | rfl : i = 0 ∨ i = 1 := by omega
      all_goals decide
  · refine acyclic_of_rank (fun c => - d8FlowAccum (lifo Cell) 6 6 pdFd 255 c) ?_
    have : ∀ a ∈ allCells 6 6, pdFd a ≠ 255 → pdFd a ≠ 0 → InGrid 6 6 (nbr .D8 a (pdFd a)) → pdFd (nbr .D8 a (pdFd a)) ≠ 255 →
        - d8FlowAccum (lifo Cell) 6 6 pdFd 255 (nbr .D8 a (pdFd a)) < - d8FlowAccum (lifo Cell) 6 6 pdFd 255 a := by
      decide +kernel
    rintro a b ⟨⟨h1, h2⟩, ⟨h3, h4⟩, h5, h6⟩
    subst h6
    exact this a (mem_allCells.2 h1) h2 h5 h3 h4

/-- The theorem applies to it, and the whole program run in the kernel agrees. -/
example : ∃ out, parallelAccum (lifo PNode) pdT pdNull (fun t c => pdFd (pdT.stored t c)) 255
    [(2, 2), (1, 1), (0, 0), (1, 0), (2, 1), (0, 1), (2, 0), (1, 2)] (2, 1) = some out ∧
    ∀ c, pdT.InTile (2, 1) c → out c = d8FlowAccum (fifo Cell) pdT.W pdT.H pdFd 255 (pdT.stored (2, 1) c) :=
  C74_equals_sequential_partial _ _ _ pdT_ok (by decide +kernel) (2, 1) (by decide +kernel) (by decide)

example : (parallelAccum (lifo PNode) pdT pdNull (fun t c => pdFd (pdT.stored t c)) 255
    [(2, 2), (1, 1), (0, 0), (1, 0), (2, 1), (0, 1), (2, 0), (1, 2)] (2, 1)).map (toRows 2 2) = some [[1, 20], [1, 1]] := by
  decide +kernel

/-- C74: a path of a tile that never ends makes `FollowPath` throw, so nothing is written. -/
theorem C74_cycle_throws (q : AnyQ PNode) (order : List (Nat × Nat)) (file : Nat × Nat → Cell → Nat) (t u : Nat × Nat)
    (hu : u ∈ order) (c : Cell) (hc : c ∈ pdStarts (T.tw u.2) (T.th u.1) (nullEdges T.gh T.gw null u))
    (hcyc : ∀ e, ReflTransGen (PathStep (T.tw u.2) (T.th u.1) (pdLoad T file u) nd) c e →
      ∃ e', PathStep (T.tw u.2) (T.th u.1) (pdLoad T file u) nd e e') :
    parallelAccum q T null file nd order t = none := by
  have hf : followPath (T.tw u.2) (T.th u.1) (pdLoad T file u) nd c = none := by
    have key : ∀ k e, ReflTransGen (PathStep (T.tw u.2) (T.th u.1) (pdLoad T file u) nd) c e →
        followFrom (T.tw u.2) (T.th u.1) (pdLoad T file u) nd c k e = none := by
      intro k
      induction k with
      | zero => intro e _; rfl
      | succ k ih =>
        intro e he
        obtain ⟨e', h1⟩ := hcyc e he
        unfold followFrom
        rw [if_neg (not_or.2 ⟨h1.2.1, h1.2.2.1⟩)]
        have : inGrid (T.tw u.2) (T.th u.1) (nbr .D8 e (pdLoad T file u e)) = true := by
          rw [inGrid_iff, ← h1.2.2.2.2]; exact h1.2.2.2.1
        rw [if_neg (by rw [this]; simp), ← h1.2.2.2.2]
        exact ih e' (he.tail h1)
    exact key _ c .refl
  have hl : pdLinks (T.tw u.2) (T.th u.1) (pdLoad T file u) nd (nullEdges T.gh T.gw null u) = none := by
    unfold pdLinks
    exact foldlM_none hc (fun l => by rw [hf]; rfl) _
  unfold parallelAccum pdCollect
  rw [foldlM_none hu (fun m => ?_) _]
  · rfl
  · unfold pdJob pdFirst
    rw [hl]; rfl

/-- C74 is refuted for tiles of one row: if any tile has a single row, nothing is written. -/
theorem C74_one_row_refuted (q : AnyQ PNode) (order : List (Nat × Nat)) (file : Nat × Nat → Cell → Nat) (t u : Nat × Nat)
    (hu : u ∈ order) (hrow : T.th u.1 = 1) : parallelAccum q T null file nd order t = none := by
  unfold parallelAccum pdCollect
  rw [foldlM_none hu (fun m => ?_) _]
  · rfl
  · unfold pdJob pdFirst
    have hg : ∀ g : Cell → Nat, gridPerim (T.tw u.2) (T.th u.1) g = none := by
      intro g; unfold gridPerim; rw [if_pos (.inl (by omega))]
    cases pdLinks (T.tw u.2) (T.th u.1) (pdLoad T file u) nd (nullEdges T.gh T.gw null u) with
    | none => rfl
    | some l => simp [hg]

end

/-- A raster of 5 by 5 in blocks of 3 by 2 has a last row of tiles of one row. -/
example (q : AnyQ PNode) (file : Nat × Nat → Cell → Nat) (t : Nat × Nat) :
    parallelAccum q { W := 5, H := 5, bw := 3, bh := 2 } (fun _ => false) file 255 (tileList 3 2) t = none :=
  C74_one_row_refuted q _ file t (2, 0) (by decide +kernel) (by decide +kernel)

/-- Two cells that flow into each other. -/
def pdLoop : Cell → Nat := ofRows 255 [[5, 1], [3, 3]]

example (q : AnyQ PNode) : parallelAccum q { W := 4, H := 2, bw := 2, bh := 2 } (fun _ => false)
    (fun t => if t = (0, 0) then pdLoop else fun _ => 0) 255 [(0, 1), (0, 0)] (0, 1) = none := by
  refine C74_cycle_throws q _ _ _ (0, 0) (by simp) (1, 0) (by decide +kernel) ?_
  intro e he
  have : e = (0, 0) ∨ e = (1, 0) := by
    induction he with
    | refl => exact .inr rfl
    | tail _ h1 ih =>
      have h2 := h1.2.2.2.2
      rcases ih with rfl | rfl
      · right; rw [h2]; decide +kernel
      · left; rw [h2]; decide +kernel
  rcases this with rfl | rfl
  · exact ⟨(1, 0), by unfold PathStep; decide +kernel⟩
  · exact ⟨(0, 0), by unfold PathStep; decide +kernel⟩

/-- Six by six cells of which only the tiles (1, 1) and (2, 2) have data; the flow of the first enters the
second at its corner. -/
def cornerFd : Cell → Nat := ofRows 255
  [[255, 255, 255, 255, 255, 255], [255, 255, 255, 255, 255, 255], [255, 255, 5, 7, 255, 255], [255, 255, 5, 6, 255, 255],
   [255, 255, 255, 255, 5, 0], [255, 255, 255, 255, 3, 3]]

def cornerT : Tiling := { W := 6, H := 6, bw := 2, bh := 2 }

def cornerNull (t : Nat × Nat) : Bool := !(decide (t = (1, 1)) || decide (t = (2, 2)))

/-- C74 is refuted when tiles are missing so that two others touch at a corner only: the flow from one to the
other is lost.  Every missing tile is all NoData, and there is no cycle. -/
theorem C74_corner_refuted :
    (parallelAccum (lifo PNode) cornerT cornerNull (fun t c => cornerFd (cornerT.stored t c)) 255 [(1, 1), (2, 2)] (2, 2)).map
        (toRows 2 2) = some [[2, 4], [1, 1]] ∧
    toRows 2 2 (fun c => d8FlowAccum (lifo Cell) 6 6 cornerFd 255 (cornerT.stored (2, 2) c)) = [[6, 8], [1, 1]] ∧
    (∀ t ∈ tileList cornerT.gh cornerT.gw, cornerNull t = true → ∀ c ∈ allCells 2 2, cornerFd (cornerT.stored t c) = 255) := by
  decide +kernel

/-! ## C75 -/

/-- C75: numbering the perimeter cells of a tile of at least two rows and columns is a bijection onto
`0 .. 2*width+2*height-5`: `xyToSerial` and `serialToXY` are inverse to each other. -/
theorem C75_numbering (w h : Nat) (hw : 2 ≤ w) (hh : 2 ≤ h) :
    (∀ c, OnEdge w h c → 0 ≤ xyToSerial w h c ∧ xyToSerial w h c < 2 * w + 2 * h - 4 ∧ serialToXY w h (xyToSerial w h c) = c) ∧
    (∀ s : Int, 0 ≤ s → s < 2 * w + 2 * h - 4 → OnEdge w h (serialToXY w h s) ∧ xyToSerial w h (serialToXY w h s) = s) := by
  have hp : (perimLen w h : Int) = 2 * w + 2 * h - 4 := by unfold perimLen; omega
  refine ⟨fun c hc => ?_, fun s h0 h1 => ?_⟩
  · obtain ⟨h1, h2⟩ := xyToSerial_range hh hc
    exact ⟨h1, by omega, serialToXY_xyToSerial hc⟩
  · exact ⟨serialToXY_onEdge (by omega) hh h0 (by omega), xyToSerial_serialToXY hw hh h0 (by omega)⟩

/-- C75: `GridPerimToArray` lists the values of the perimeter cells by that number. -/
theorem C75_perimeter {A : Type*} (w h : Nat) (hw : 1 ≤ w) (hh : 2 ≤ h) (g : Cell → A) :
    ∃ l, gridPerim w h g = some l ∧ l.length = 2 * w + 2 * h - 4 ∧
      ∀ c, OnEdge w h c → l[(xyToSerial w h c).toNat]? = some (g c) := by
  obtain ⟨l, h1, h2, h3⟩ := gridPerim_spec hw hh g
  refine ⟨l, h1, h2, fun c hc => ?_⟩
  obtain ⟨k1, k2⟩ := xyToSerial_range hh hc
  rw [h3 _ (by omega), Int.toNat_of_nonneg k1, serialToXY_xyToSerial hc]

example : OnEdge 4 3 (2, 2) ∧ xyToSerial 4 3 (2, 2) = 8 ∧ gridPerim 4 3 (fun c => 10 * c.1 + c.2) =
    some [0, 10, 20, 30, 31, 32, 2, 12, 22, 1] := by
  refine ⟨by unfold OnEdge InGrid; decide, by decide, by decide⟩

/-- C75 is refuted for a tile of one column: two numbers stand for the same cell. -/
theorem C75_one_column_refuted (h : Nat) (hh : 3 ≤ h) :
    serialToXY 1 h 1 = serialToXY 1 h h ∧ (1 : Int) ≠ h ∧ (h : Int) < perimLen 1 h := by
  unfold serialToXY perimLen
  split_ifs <;> simp <;> omega

/-- C75 is refuted for large tiles: numbers are kept in 16 bits, of which three values have other meanings.
In a tile of 16385 by 16385 cells a perimeter cell has the number that means that the flow leaves at once, and in a tile of
20000 by 20000 cells two perimeter cells have the same number. -/
theorem C75_large_refuted :
    (∃ e, OnEdge 16385 16385 e ∧ toLink (xyToSerial 16385 16385 e) = FLOW_EXTERNAL) ∧
    (∃ a b, OnEdge 20000 20000 a ∧ OnEdge 20000 20000 b ∧ a ≠ b ∧
      toLink (xyToSerial 20000 20000 a) = toLink (xyToSerial 20000 20000 b)) := by
  refine ⟨⟨(0, 16381), ?_⟩, ⟨(0, 0), (0, 5539), ?_⟩⟩
  · unfold OnEdge InGrid; decide +kernel
  · unfold OnEdge InGrid; decide +kernel

end RichDEM
