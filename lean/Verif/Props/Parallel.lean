/-
Property theorems C49 and C67-C69 (programs/parallel_priority_flood).
-/
import Verif.Par.Whole
import Verif.Par.Prep
import Verif.Props.Flood

namespace RichDEM

variable {E : Type*} [LinearOrder E]

/-! ## C49 -/

/-- C49: every tile the program writes holds, at each position, the water level of the whole raster
in the cell stored there: the lowest possible highest point on a path to the raster's edge.  For
every raster, block size, choice of mirrored tiles, order of equal elevations in any heap and order
in which first-round results arrive.  Also: both floods end, every checked index is in range, and
the second round finds every label in the slice it is sent. -/
theorem C49_parallel_is_fill (T : Tiling) (pq : Nat × Nat → PQ (E × Cell) zLt) (vq : PQ (E × Nat) vLt) (lo zero : E)
    (order : List (Nat × Nat)) (junk : PJob E) (dem : Cell → E) (hW : 0 < T.W) (hH : 0 < T.H) (hbw : 0 < T.bw)
    (hbh : 0 < T.bh) (ho : order.Perm (tileList T.gh T.gw)) (hlo : ∀ c, InGrid T.W T.H c → lo ≤ dem c) :
    let R := parallelFill T pq vq lo zero order junk dem
    R.master.g.ok = true ∧ R.flood.safe = true ∧ vfStep vq R.master.g R.flood = none ∧
    ∀ t c, T.InTile t c →
      (tileFile T pq dem t).lbl c < (tileJob T pq dem t).graph.size ∧
      R.master.offs t + (tileJob T pq dem t).graph.size ≤ R.master.g.size ∧
      IsWaterLevel T.W T.H .D8 dem (T.stored t c) (R.out t c) :=
  parallelFill_spec T pq vq lo zero order junk dem hW hH hbw hbh ho hlo

/-- C49: the tiles together hold exactly what `PriorityFlood_Original` makes of the whole raster. -/
theorem C49_equals_sequential (T : Tiling) (pq : Nat × Nat → PQ (E × Cell) zLt) (vq : PQ (E × Nat) vLt) (lo zero : E)
    (order : List (Nat × Nat)) (junk : PJob E) (dem : Cell → E) (hW : 0 < T.W) (hH : 0 < T.H) (hbw : 0 < T.bw)
    (hbh : 0 < T.bh) (ho : order.Perm (tileList T.gh T.gw)) (hlo : ∀ c, InGrid T.W T.H c → lo ≤ dem c)
    (spq : PQ (E × Cell) zLt) (t : Nat × Nat) (c : Cell) (ht : T.InTile t c) :
    (parallelFill T pq vq lo zero order junk dem).out t c =
      (priorityFloodOriginal spq T.W T.H .D8 dem).elev (T.stored t c) := by
  have h1 := ((parallelFill_spec T pq vq lo zero order junk dem hW hH hbw hbh ho hlo).2.2.2 t c ht).2.2
  have hin : InGrid T.W T.H (T.stored t c) := Tiling.InTile.inGrid ⟨ht.1, ht.2.1, flipCell_inGrid ht.2.2⟩
  exact isWaterLevel_unique h1 (C04_original_is_fill spq T.W T.H .D8 dem hW hH _ hin)

/-- C49: every cell of the raster is stored in exactly one place. -/
theorem C49_cover (T : Tiling) (hbw : 0 < T.bw) (hbh : 0 < T.bh) (x : Cell) (hx : InGrid T.W T.H x) :
    ∃! p : (Nat × Nat) × Cell, T.InTile p.1 p.2 ∧ T.stored p.1 p.2 = x := by
  obtain ⟨t, c, ht, rfl⟩ := Tiling.cover hbw hbh hx
  refine ⟨(t, flipCell (T.fh t) (T.fv t) (T.tw t.2) (T.th t.1) c), ⟨⟨ht.1, ht.2.1, flipCell_inGrid ht.2.2⟩, ?_⟩, ?_⟩
  · simp only [Tiling.stored, flipCell_inv]
  · rintro ⟨t', c'⟩ ⟨h1, h2⟩
    obtain ⟨e1, e2⟩ := Tiling.glob_inj hbw hbh (c := flipCell (T.fh t') (T.fv t') (T.tw t'.2) (T.th t'.1) c')
      ⟨h1.1, h1.2.1, flipCell_inGrid h1.2.2⟩ ht h2
    simp only at e1 h1 h2
    subst e1
    rw [← e2, flipCell_inv]

/-- An executable heap of graph vertices. -/
def vPQ : PQ (E × Nat) (vLt (E := E)) :=
  let p := scanPQ (A := E × Nat) (fun a b => decide (a.1 < b.1))
    (fun a b c h1 h2 => by simp only [decide_eq_true_eq, not_lt] at *; exact h1.trans h2)
    (fun a => by simp) (fun a b h => by simp only [decide_eq_true_eq, not_lt] at *; exact h.le)
  { push := p.push, pop := p.pop, push_perm := p.push_perm, pop_nil := p.pop_nil
    pop_cons := fun l hl => by
      obtain ⟨e, r, h1, h2, h3⟩ := p.pop_cons l hl
      exact ⟨e, r, h1, h2, fun x hx => by have := h3 x hx; simpa [vLt] using this⟩ }

/-- A 5 by 4 raster in 3 by 2 blocks; the second tile of the first row is stored mirrored. -/
def parT : Tiling := { W := 5, H := 4, bw := 3, bh := 2, fh := fun t => decide (t = (0, 1)), fv := fun t => decide (t = (1, 0)) }

def parR : ParResult Int :=
  parallelFill parT (fun _ => zPQ) vPQ (-1000) 0 [(1, 1), (0, 0), (1, 0), (0, 1)] (tileJob parT (fun _ => zPQ) exDem (0, 0)) exDem

example : toRows 3 2 (parR.out (0, 0)) = [[9, 9, 9], [9, 6, 6]] ∧ toRows 2 2 (parR.out (0, 1)) = [[3, 9], [9, 7]] ∧
    toRows 3 2 (parR.out (1, 0)) = [[9, 9, 9], [9, 6, 6]] ∧ toRows 2 2 (parR.out (1, 1)) = [[6, 9], [9, 4]] := by
  decide +kernel

example : [(1, 1), (0, 0), (1, 0), (0, 1)].Perm (tileList parT.gh parT.gw) := by decide +kernel

/-! ## C67 -/

/-- C67 (partial): a tile kept in memory comes back as it was, whatever other tiles are stored and
taken out in between.  For tiles kept on disk the property fails, see below. -/
theorem C67_retain_partial {D L : Type*} (t : Nat × Nat) (k : Kept D L) (m : Storage D L)
    (ops : List ((Nat × Nat) × Kept D L)) (hops : ∀ o ∈ ops, o.1 ≠ t) (moved : Kept D L) :
    ∃ m', loadRetain t moved (ops.foldl (fun m o => saveRetain o.1 o.2 m) (saveRetain t k m)) = some (k, m') := by
  have key : ∀ (l : List ((Nat × Nat) × Kept D L)) (m : Storage D L), (∀ o ∈ l, o.1 ≠ t) → m t = some k →
      (l.foldl (fun m o => saveRetain o.1 o.2 m) m) t = some k := by
    intro l
    induction l with
    | nil => intro m _ h; exact h
    | cons o l ih =>
      intro m h1 h2
      refine ih _ (fun o ho => h1 o (List.mem_cons_of_mem _ ho)) ?_
      show Function.update m o.1 (some o.2) t = some k
      rw [Function.update_of_ne (fun h => h1 o List.mem_cons_self h.symm), h2]
  unfold loadRetain
  rw [key ops _ hops (by unfold saveRetain; rw [Function.update_self])]
  exact ⟨_, rfl⟩

example : ∃ m', loadRetain (0, 1) ⟨0, 0⟩ ([((1, 1), ⟨5, 6⟩)].foldl (fun m o => saveRetain o.1 o.2 m)
    (saveRetain (0, 1) (⟨3, 4⟩ : Kept Nat Nat) (fun _ => none))) = some (⟨3, 4⟩, m') :=
  C67_retain_partial (0, 1) ⟨3, 4⟩ _ _ (by simp) _

/-- C67 is refuted for tiles kept on disk: unless a file ending in "labels.dat" happens to exist, the
second round throws for every tile: `SaveToCache` never writes it. -/
theorem C67_cache_fails {D L : Type*} (asDem : L → D) (asLabels : D → L) (ret : String) (k : Kept D L) (fs : Disk D L)
    (hfs : fs (ret ++ "labels.dat") = none) : loadTile asDem asLabels ret (saveTile ret k fs) = none := by
  have hne : ret ++ "labels.dat" ≠ ret ++ "dem.dat" := by
    intro h
    have := congrArg String.toList h
    simp at this
  unfold loadTile readLabels saveTile
  simp only
  rw [Function.update_of_ne hne, Function.update_of_ne hne, hfs]
  split
  · next h => cases h
  · rfl

/-- C67: and the elevations are overwritten by the labels. -/
theorem C67_cache_overwrites {D L : Type*} (asDem : L → D) (ret : String) (k : Kept D L) (fs : Disk D L) :
    readDem asDem (saveTile ret k fs) (ret ++ "dem.dat") = some (asDem k.labels) := by
  unfold readDem saveTile
  rw [Function.update_self]

/-! ## C68 -/

/-- C68: a side is only marked when it lies on the edge of the grid or faces a missing tile. -/
theorem C68_sound (gh gw : Nat) (null : Nat × Nat → Bool) (t : Nat × Nat) :
    ((nullEdges gh gw null t).top = true → t.1 = 0 ∨ null (t.1 - 1, t.2) = true) ∧
    ((nullEdges gh gw null t).bottom = true → t.1 + 1 = gh ∨ null (t.1 + 1, t.2) = true) ∧
    ((nullEdges gh gw null t).left = true → t.2 = 0 ∨ null (t.1, t.2 - 1) = true) ∧
    ((nullEdges gh gw null t).right = true → t.2 + 1 = gw ∨ null (t.1, t.2 + 1) = true) := by
  refine ⟨?_, ?_, ?_, ?_⟩ <;> intro h <;> simp [nullEdges] at h <;> tauto

/-- C68 (partial): away from the first two rows and columns, every side that faces a missing tile or
lies on the edge of the grid is marked.  Missing: the first two rows and columns, where it fails. -/
theorem C68_partial (gh gw : Nat) (null : Nat × Nat → Bool) (t : Nat × Nat) (hy : 2 ≤ t.1) (hx : 2 ≤ t.2)
    (hyg : t.1 < gh) (hxg : t.2 < gw) :
    (null (t.1 - 1, t.2) = true → (nullEdges gh gw null t).top = true) ∧
    (t.1 + 1 = gh ∨ null (t.1 + 1, t.2) = true → (nullEdges gh gw null t).bottom = true) ∧
    (null (t.1, t.2 - 1) = true → (nullEdges gh gw null t).left = true) ∧
    (t.2 + 1 = gw ∨ null (t.1, t.2 + 1) = true → (nullEdges gh gw null t).right = true) := by
  have a1 : (1 : Int) < t.1 := by omega
  have a2 : 0 < t.2 := by omega
  have a3 : 0 < t.1 := by omega
  have a4 : (1 : Int) < t.2 := by omega
  have b1 : t.1 + 1 < gh ∨ t.1 + 1 = gh := by omega
  have b2 : t.2 + 1 < gw ∨ t.2 + 1 = gw := by omega
  refine ⟨?_, ?_, ?_, ?_⟩ <;> intro h <;> simp [nullEdges] <;> tauto

example : (nullEdges 4 4 (fun t => decide (t = (1, 2))) (2, 2)).top = true :=
  (C68_partial 4 4 _ (2, 2) (by decide) (by decide) (by decide) (by decide)).1 (by decide)

/-- C68 is refuted: no tile of the second row is marked below a missing tile, no tile of the second
column right of one, and no tile of the first column (row) above or below (beside) one. -/
theorem C68_missed (gh gw : Nat) (null : Nat × Nat → Bool) (x y : Nat) :
    (nullEdges gh gw null (1, x)).top = false ∧ (nullEdges gh gw null (y, 1)).left = false ∧
    (0 < y → (nullEdges gh gw null (y, 0)).top = false) ∧ (y + 1 < gh → (nullEdges gh gw null (y, 0)).bottom = false) ∧
    (0 < x → (nullEdges gh gw null (0, x)).left = false) ∧ (x + 1 < gw → (nullEdges gh gw null (0, x)).right = false) := by
  refine ⟨by simp [nullEdges], by simp [nullEdges], ?_, ?_, ?_, ?_⟩ <;> intro h <;> simp [nullEdges] <;> omega

/-! ## C69 -/

/-- C69 (partial): a suggestion other than the initial value leaves a last block of more than `min`
cells and is a possible block size.  Missing: that it is the nearest one, which fails. -/
theorem C69_admissible_partial (selected : Int) (size : Nat) (min : Int) :
    suggestTileSize selected size min = 999999999 ∨
    (1 ≤ suggestTileSize selected size min ∧ suggestTileSize selected size min < size ∧
      min < (size : Int) % suggestTileSize selected size min) := by
  unfold suggestTileSize
  refine foldl_inv' (P := fun b => b = 999999999 ∨ (1 ≤ b ∧ b < (size : Int) ∧ min < (size : Int) % b)) _ _ ?_ (Or.inl rfl)
  intro b x hx hb
  obtain ⟨i, hi, rfl⟩ := List.mem_map.1 hx
  rw [List.mem_range] at hi
  unfold suggestStep
  split_ifs with hc
  · right; exact ⟨by omega, by omega, hc.1⟩
  · exact hb

/-- C69 is refuted: for a raster of 205 cells and a requested block of 105 the program suggests 103
although 104 serves as well and is nearer. -/
theorem C69_not_nearest : suggestTileSize 105 205 100 = 103 ∧ (100 : Int) < 205 % 104 ∧ |(104 : Int) - 105| < |103 - 105| := by
  decide +kernel

/-- C69: a size that divides the raster evenly is never suggested. -/
theorem C69_never_divides (selected : Int) (size : Nat) (min : Int) (hmin : 0 ≤ min) (hs : size < 999999999)
    (hd : suggestTileSize selected size min ∣ (size : Int)) : size = 0 := by
  rcases C69_admissible_partial selected size min with h | ⟨h1, _, h3⟩
  · rw [h] at hd
    obtain ⟨k, hk⟩ := hd
    omega
  · rw [Int.emod_eq_zero_of_dvd hd] at h3; omega

end RichDEM
