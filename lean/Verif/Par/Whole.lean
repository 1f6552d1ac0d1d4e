/-
The parallel Priority-Flood gives the filled raster: the tiles' graphs and joined edges describe
the raster's watersheds (`Glue`, Par/Graph.lean).
-/
import Verif.Par.Main

namespace RichDEM

variable {E : Type*} [LinearOrder E] {T : Tiling}
variable {pq : Nat × Nat → PQ (E × Cell) zLt} {dem : Cell → E} {jobs : Nat × Nat → PJob E}

namespace ParCtx
variable (K : ParCtx T pq dem jobs)
include K

theorem twp {i : Nat} (hi : i < T.gw) : 0 < T.tw i := blockLen_pos K.hbw hi
theorem thp {i : Nat} (hi : i < T.gh) : 0 < T.th i := blockLen_pos K.hbh hi

theorem front {t : Nat × Nat} (ht : t ∈ tileList T.gh T.gw) :
    (jobs t).top.front = ((tileFlood T pq dem t).elev (0, 0), (tileFlood T pq dem t).lbl (0, 0)) ∧
    (jobs t).bot.front = ((tileFlood T pq dem t).elev (0, (T.th t.1 : Int) - 1),
      (tileFlood T pq dem t).lbl (0, (T.th t.1 : Int) - 1)) := by
  have J := K.hj t ht
  have hw := K.twp (mem_tileList.1 ht).2
  have a := J.top.2 0 hw
  have b := J.bot.2 0 hw
  simp only [EdgeRow.front, a.1, a.2, b.1, b.2]
  exact ⟨rfl, rfl⟩

theorem back {t : Nat × Nat} (ht : t ∈ tileList T.gh T.gw) :
    (jobs t).top.back = ((tileFlood T pq dem t).elev ((T.tw t.2 : Int) - 1, 0),
      (tileFlood T pq dem t).lbl ((T.tw t.2 : Int) - 1, 0)) ∧
    (jobs t).bot.back = ((tileFlood T pq dem t).elev ((T.tw t.2 : Int) - 1, (T.th t.1 : Int) - 1),
      (tileFlood T pq dem t).lbl ((T.tw t.2 : Int) - 1, (T.th t.1 : Int) - 1)) := by
  have J := K.hj t ht
  have hw := K.twp (mem_tileList.1 ht).2
  have e : ((T.tw t.2 - 1 : Nat) : Int) = (T.tw t.2 : Int) - 1 := by omega
  have a := J.top.2 (T.tw t.2 - 1) (by omega)
  have b := J.bot.2 (T.tw t.2 - 1) (by omega)
  simp only [EdgeRow.back, J.top.1, J.bot.1, a.1, a.2, b.1, b.2, e]
  exact ⟨trivial, trivial⟩

/-- All edges and corners of one tile. -/
theorem joinTile_joined {t : Nat × Nat} (ht : t ∈ tileList T.gh T.gw) {g : SG E} (hg : g.Sym) (hN : g.size = K.N) :
    GJoined (Spill T (flF T pq dem) K.L) (fun a b v => ∃ t', t' ≠ t ∧ K.Pair t t' a b v) g
      (joinTile jobs (mergeAll jobs T.gh T.gw).offs T.gh T.gw g t) := by
  obtain ⟨y, x⟩ := t
  obtain ⟨hy, hx⟩ := mem_tileList.1 ht
  simp only at hy hx
  unfold joinTile
  simp only
  -- the four edges
  have j1 : GJoined (Spill T (flF T pq dem) K.L) (fun a b v => 0 < y ∧ K.Pair (y, x) (y - 1, x) a b v) g
      (joinTop jobs (mergeAll jobs T.gh T.gw).offs (y, x) g) := by
    refine ite_joined hg (fun hp => ?_)
    obtain ⟨y, rfl⟩ : ∃ k, y = k + 1 := ⟨y - 1, by omega⟩
    exact K.jTop hy hx hg hN
  set g1 := joinTop jobs (mergeAll jobs T.gh T.gw).offs (y, x) g
  have n1 : g1.size = K.N := j1.size.trans hN
  have j2 : GJoined (Spill T (flF T pq dem) K.L) (fun a b v => y + 1 < T.gh ∧ K.Pair (y, x) (y + 1, x) a b v) g1
      (joinBot jobs (mergeAll jobs T.gh T.gw).offs T.gh (y, x) g1) :=
    ite_joined j1.sym (fun hp => K.jBot hp hx j1.sym n1)
  set g2 := joinBot jobs (mergeAll jobs T.gh T.gw).offs T.gh (y, x) g1
  have n2 : g2.size = K.N := j2.size.trans n1
  have j3 : GJoined (Spill T (flF T pq dem) K.L) (fun a b v => 0 < x ∧ K.Pair (y, x) (y, x - 1) a b v) g2
      (joinLeft jobs (mergeAll jobs T.gh T.gw).offs (y, x) g2) := by
    refine ite_joined j2.sym (fun hp => ?_)
    obtain ⟨x, rfl⟩ : ∃ k, x = k + 1 := ⟨x - 1, by omega⟩
    exact K.jLeft hy hx j2.sym n2
  set g3 := joinLeft jobs (mergeAll jobs T.gh T.gw).offs (y, x) g2
  have n3 : g3.size = K.N := j3.size.trans n2
  have j4 : GJoined (Spill T (flF T pq dem) K.L) (fun a b v => x + 1 < T.gw ∧ K.Pair (y, x) (y, x + 1) a b v) g3
      (joinRight jobs (mergeAll jobs T.gh T.gw).offs T.gw (y, x) g3) :=
    ite_joined j3.sym (fun hp => K.jRight hy hp j3.sym n3)
  set g4 := joinRight jobs (mergeAll jobs T.gh T.gw).offs T.gw (y, x) g3
  have n4 : g4.size = K.N := j4.size.trans n3
  -- the four corners
  have j5 : GJoined (Spill T (flF T pq dem) K.L) (fun a b v => (0 < y ∧ 0 < x) ∧ K.Pair (y, x) (y - 1, x - 1) a b v) g4
      (joinTL jobs (mergeAll jobs T.gh T.gw).offs (y, x) g4) := by
    refine ite_joined j4.sym (fun hp => ?_)
    obtain ⟨y, rfl⟩ : ∃ k, y = k + 1 := ⟨y - 1, by omega⟩
    obtain ⟨x, rfl⟩ : ∃ k, x = k + 1 := ⟨x - 1, by omega⟩
    have wx : 0 < T.tw x := K.twp (by omega)
    have wy : 0 < T.th y := K.thp (by omega)
    have wx' := K.twp hx
    have wy' := K.thp hy
    obtain ⟨s1, s2⟩ := Tiling.seamH K.hbh hy
    obtain ⟨s3, s4⟩ := Tiling.seamW K.hbw hx
    have e1 := ht
    have e2 : (y, x) ∈ tileList T.gh T.gw := (mem_tileList.2 ⟨by simp only; omega, by simp only; omega⟩)
    have := K.jCorner (t := (y + 1, x + 1)) (t' := (y, x)) (ca := (0, 0)) (cb := ((T.tw x : Int) - 1, (T.th y : Int) - 1))
      ⟨hy, hx, by simp only [InGrid]; omega⟩ ⟨by simp only; omega, by simp only; omega, by simp only [InGrid]; omega⟩
      (by simp only [Tiling.glob]; refine adj_mk ?_ ?_ (Or.inr ?_) <;> omega) (by simp) (by simp) j4.sym n4
    rw [← (K.front e1).1, ← (K.back e2).2] at this
    exact this
  set g5 := joinTL jobs (mergeAll jobs T.gh T.gw).offs (y, x) g4
  have n5 : g5.size = K.N := j5.size.trans n4
  have j6 : GJoined (Spill T (flF T pq dem) K.L) (fun a b v => (y + 1 < T.gh ∧ x + 1 < T.gw) ∧ K.Pair (y, x) (y + 1, x + 1) a b v)
      g5 (joinBR jobs (mergeAll jobs T.gh T.gw).offs T.gh T.gw (y, x) g5) := by
    refine ite_joined j5.sym (fun hp => ?_)
    obtain ⟨hp1, hp2⟩ := hp
    have wx := K.twp hx
    have wy := K.thp hy
    have wx' := K.twp hp2
    have wy' := K.thp hp1
    obtain ⟨s1, s2⟩ := Tiling.seamH K.hbh hp1
    obtain ⟨s3, s4⟩ := Tiling.seamW K.hbw hp2
    have e1 := ht
    have e2 : (y + 1, x + 1) ∈ tileList T.gh T.gw := (mem_tileList.2 ⟨hp1, hp2⟩)
    have := K.jCorner (t := (y, x)) (t' := (y + 1, x + 1)) (ca := ((T.tw x : Int) - 1, (T.th y : Int) - 1)) (cb := (0, 0))
      ⟨hy, hx, by simp only [InGrid]; omega⟩ ⟨hp1, hp2, by simp only [InGrid]; omega⟩
      (by simp only [Tiling.glob]; refine adj_mk ?_ ?_ (Or.inr ?_) <;> omega) (by simp) (by simp) j5.sym n5
    rw [← (K.front e2).1, ← (K.back e1).2] at this
    exact this
  set g6 := joinBR jobs (mergeAll jobs T.gh T.gw).offs T.gh T.gw (y, x) g5
  have n6 : g6.size = K.N := j6.size.trans n5
  have j7 : GJoined (Spill T (flF T pq dem) K.L) (fun a b v => (0 < y ∧ x + 1 < T.gw) ∧ K.Pair (y, x) (y - 1, x + 1) a b v)
      g6 (joinTR jobs (mergeAll jobs T.gh T.gw).offs T.gw (y, x) g6) := by
    refine ite_joined j6.sym (fun hp => ?_)
    obtain ⟨hp1, hp2⟩ := hp
    obtain ⟨y, rfl⟩ : ∃ k, y = k + 1 := ⟨y - 1, by omega⟩
    have wx := K.twp hx
    have wy : 0 < T.th y := K.thp (by omega)
    have wx' := K.twp hp2
    have wy' := K.thp hy
    obtain ⟨s1, s2⟩ := Tiling.seamH K.hbh hy
    obtain ⟨s3, s4⟩ := Tiling.seamW K.hbw hp2
    have e1 := ht
    have e2 : (y, x + 1) ∈ tileList T.gh T.gw := (mem_tileList.2 ⟨by simp only; omega, hp2⟩)
    have := K.jCorner (t := (y + 1, x)) (t' := (y, x + 1)) (ca := ((T.tw x : Int) - 1, 0)) (cb := (0, (T.th y : Int) - 1))
      ⟨hy, hx, by simp only [InGrid]; omega⟩ ⟨by simp only; omega, hp2, by simp only [InGrid]; omega⟩
      (by simp only [Tiling.glob]; refine adj_mk ?_ ?_ (Or.inr ?_) <;> omega) (by simp) (by simp) j6.sym n6
    rw [← (K.front e2).2, ← (K.back e1).1] at this
    exact this
  set g7 := joinTR jobs (mergeAll jobs T.gh T.gw).offs T.gw (y, x) g6
  have n7 : g7.size = K.N := j7.size.trans n6
  have j8 : GJoined (Spill T (flF T pq dem) K.L) (fun a b v => (0 < x ∧ y + 1 < T.gh) ∧ K.Pair (y, x) (y + 1, x - 1) a b v)
      g7 (joinBL jobs (mergeAll jobs T.gh T.gw).offs T.gh (y, x) g7) := by
    refine ite_joined j7.sym (fun hp => ?_)
    obtain ⟨hp1, hp2⟩ := hp
    obtain ⟨x, rfl⟩ : ∃ k, x = k + 1 := ⟨x - 1, by omega⟩
    have wx : 0 < T.tw x := K.twp (by omega)
    have wy := K.thp hy
    have wx' := K.twp hx
    have wy' := K.thp hp2
    obtain ⟨s1, s2⟩ := Tiling.seamH K.hbh hp2
    obtain ⟨s3, s4⟩ := Tiling.seamW K.hbw hx
    have e1 := ht
    have e2 : (y + 1, x) ∈ tileList T.gh T.gw := (mem_tileList.2 ⟨hp2, by simp only; omega⟩)
    have := K.jCorner (t := (y, x + 1)) (t' := (y + 1, x)) (ca := (0, (T.th y : Int) - 1)) (cb := ((T.tw x : Int) - 1, 0))
      ⟨hy, hx, by simp only [InGrid]; omega⟩ ⟨hp2, by simp only; omega, by simp only [InGrid]; omega⟩
      (by simp only [Tiling.glob]; refine adj_mk ?_ ?_ (Or.inr ?_) <;> omega) (by simp) (by simp) j7.sym n7
    rw [← (K.front e1).2, ← (K.back e2).1] at this
    exact this
  refine (((((((j1.trans j2).trans j3).trans j4).trans j5).trans j6).trans j7).trans j8).weaken ?_
  rintro a b v ⟨⟨y', x'⟩, hne, hP⟩
  have hP' := hP
  obtain ⟨⟨c1, c2⟩, ⟨d1, d2⟩, hc, hd, ha, _⟩ := hP'
  have b1 := hc.1
  have b2 := hc.2.1
  have b3 := hd.1
  have b4 := hd.2.1
  obtain ⟨m1, m2⟩ := K.near hc hd ha
  simp only [ne_eq, Prod.mk.injEq] at m1 m2 hne b1 b2 b3 b4
  have m1' : x' = x ∨ x' = x + 1 ∨ x = x' + 1 := by omega
  have m2' : y' = y ∨ y' = y + 1 ∨ y = y' + 1 := by omega
  rcases m1' with rfl | rfl | rfl <;> rcases m2' with rfl | rfl | rfl
  · exact absurd ⟨rfl, rfl⟩ hne
  · exact Or.inl <| Or.inl <| Or.inl <| Or.inl <| Or.inl <| Or.inl <| Or.inr ⟨b3, hP⟩
  · exact Or.inl <| Or.inl <| Or.inl <| Or.inl <| Or.inl <| Or.inl <| Or.inl ⟨by omega, hP⟩
  · exact Or.inl <| Or.inl <| Or.inl <| Or.inl <| Or.inr ⟨b4, hP⟩
  · exact Or.inl <| Or.inl <| Or.inr ⟨⟨b3, b4⟩, hP⟩
  · exact Or.inl <| Or.inr ⟨⟨by omega, b4⟩, hP⟩
  · exact Or.inl <| Or.inl <| Or.inl <| Or.inl <| Or.inl <| Or.inr ⟨by omega, hP⟩
  · exact Or.inr ⟨⟨by omega, b3⟩, hP⟩
  · exact Or.inl <| Or.inl <| Or.inl <| Or.inr ⟨⟨by omega, by omega⟩, hP⟩

theorem mergeAll_sym : (mergeAll jobs T.gh T.gw).g.Sym := by
  intro a b
  have hsw : ∀ a b v, (mergeAll jobs T.gh T.gw).g.m a b = some v → (mergeAll jobs T.gh T.gw).g.m b a = some v := by
    intro a b v hv
    rw [K.merged.iff] at hv ⊢
    obtain ⟨t, ht, l, k, h1, h2⟩ := hv
    exact ⟨t, ht, l, k, h1, h2.symm.imp And.symm And.symm |>.imp And.symm And.symm⟩
  cases h1 : (mergeAll jobs T.gh T.gw).g.m a b with
  | some v => rw [hsw a b v h1]
  | none =>
    cases h2 : (mergeAll jobs T.gh T.gw).g.m b a with
    | none => rfl
    | some v => rw [hsw b a v h2] at h1; cases h1

/-- The joined graph. -/
theorem joined : GJoined (Spill T (flF T pq dem) K.L)
    (fun a b v => ∃ t ∈ tileList T.gh T.gw, ∃ t', t' ≠ t ∧ K.Pair t t' a b v) (mergeAll jobs T.gh T.gw).g
    (masterGraph jobs T.gh T.gw).g :=
  foldl_joined (N := K.N) _ (fun _ hg hN _ ht => K.joinTile_joined ht hg hN) _ K.mergeAll_sym K.merged.size

theorem ok : (masterGraph jobs T.gh T.gw).g.ok = true := K.joined.ok K.merged.ok

theorem gsize : (masterGraph jobs T.gh T.gw).g.size = K.N := K.joined.size.trans K.merged.size

/-- The tile's surface is below the raster's. -/
theorem ge_of {t : Nat × Nat} {c : Cell} (ht : T.InTile t c) : dem (T.glob t c) ≤ (tileFlood T pq dem t).elev c :=
  isWaterLevel_ge (dem := fun c => dem (T.glob t c)) ((K.spec ⟨ht.1, ht.2.1⟩).filled c ht.2.2)

theorem L_lt {x : Cell} (hx : InGrid T.W T.H x) : 2 ≤ K.L x ∧ K.L x < K.N := by
  obtain ⟨t, c, ht, rfl⟩ := Tiling.cover K.hbw K.hbh hx
  have := K.lbl_lt ht
  unfold ParCtx.L
  rw [K.L_glob ht]
  exact ⟨this.2, this.1⟩

theorem one_lt : 1 < K.N := by
  have := K.L_lt (x := (0, 0)) ⟨le_rfl, by have := K.hW; simp only; omega, le_rfl, by have := K.hH; simp only; omega⟩
  omega

/-- Raster edge cells are on the tile's outer edges. -/
theorem outside_iff {t : Nat × Nat} {c : Cell} (ht : T.InTile t c) :
    OnEdge T.W T.H (T.glob t c) ↔ c ∈ outsideCells (T.tw t.2) (T.th t.1) (T.edges t) := by
  obtain ⟨y, x⟩ := t
  obtain ⟨c1, c2⟩ := c
  obtain ⟨h1, h2, h3, h4, h5, h6⟩ := id ht
  have hg := ht.inGrid
  simp only at h1 h2 h3 h4 h5 h6
  have l1 := (blockLen_le (W := T.W) (b := T.bw) (i := x))
  have l2 := (blockLen_le (W := T.H) (b := T.bh) (i := y))
  have wx := K.twp h2
  have wy := K.thp h1
  have fx : x + 1 < T.gw → T.tw x = T.bw ∧ (x + 1) * T.bw < T.W :=
    fun h => ⟨blockLen_full K.hbw h, (blocks_iff K.hbw).1 h⟩
  have fy : y + 1 < T.gh → T.th y = T.bh ∧ (y + 1) * T.bh < T.H :=
    fun h => ⟨blockLen_full K.hbh h, (blocks_iff K.hbh).1 h⟩
  have gx : ¬ x + 1 < T.gw → T.W ≤ (x + 1) * T.bw := fun h => by
    have := mt (blocks_iff (W := T.W) (i := x + 1) K.hbw).2 h; omega
  have gy : ¬ y + 1 < T.gh → T.H ≤ (y + 1) * T.bh := fun h => by
    have := mt (blocks_iff (W := T.H) (i := y + 1) K.hbh).2 h; omega
  have tx : ¬ x + 1 < T.gw → T.tw x = T.W - x * T.bw := by
    intro h
    have := gx h
    rw [Nat.succ_mul] at this
    unfold Tiling.tw blockLen
    split_ifs <;> omega
  have ty : ¬ y + 1 < T.gh → T.th y = T.H - y * T.bh := by
    intro h
    have := gy h
    rw [Nat.succ_mul] at this
    unfold Tiling.th blockLen
    split_ifs <;> omega
  have x0 : x = 0 → x * T.bw = 0 := by rintro rfl; simp
  have y0 : y = 0 → y * T.bh = 0 := by rintro rfl; simp
  have x1 : x ≠ 0 → 0 < x * T.bw := fun h => Nat.mul_pos (by omega) K.hbw
  have y1 : y ≠ 0 → 0 < y * T.bh := fun h => Nat.mul_pos (by omega) K.hbh
  have sx : (x + 1) * T.bw = x * T.bw + T.bw := by rw [Nat.succ_mul]
  have sy : (y + 1) * T.bh = y * T.bh + T.bh := by rw [Nat.succ_mul]
  have hmem : (c1, c2) ∈ outsideCells (T.tw x) (T.th y) (T.edges (y, x)) ↔
      (y = 0 ∧ c2 = 0) ∨ (y + 1 = T.gh ∧ c2 = (T.th y : Int) - 1) ∨ (x = 0 ∧ c1 = 0) ∨
      (x + 1 = T.gw ∧ c1 = (T.tw x : Int) - 1) := by
    rw [mem_outside ht.2.2]
    simp only [Tiling.edges, decide_eq_true_eq]
  rw [hmem]
  have hE : OnEdge T.W T.H (T.glob (y, x) (c1, c2)) ↔ (c1 + ((x * T.bw : Nat) : Int) = 0 ∨ c2 + ((y * T.bh : Nat) : Int) = 0 ∨
      c1 + ((x * T.bw : Nat) : Int) = (T.W : Int) - 1 ∨ c2 + ((y * T.bh : Nat) : Int) = (T.H : Int) - 1) :=
    ⟨fun h => h.2, fun h => ⟨hg, h⟩⟩
  rw [hE]
  constructor
  · rintro (h | h | h | h)
    · right; right; left
      by_cases hx0 : x = 0
      · exact ⟨hx0, by rw [x0 hx0] at h; omega⟩
      · have := x1 hx0; omega
    · left
      by_cases hy0 : y = 0
      · exact ⟨hy0, by rw [y0 hy0] at h; omega⟩
      · have := y1 hy0; omega
    · right; right; right
      by_cases hx1 : x + 1 < T.gw
      · have := fx hx1; omega
      · have := tx hx1; exact ⟨by omega, by omega⟩
    · right; left
      by_cases hy1 : y + 1 < T.gh
      · have := fy hy1; omega
      · have := ty hy1; exact ⟨by omega, by omega⟩
  · rintro (⟨a, b⟩ | ⟨a, b⟩ | ⟨a, b⟩ | ⟨a, b⟩)
    · right; left; rw [y0 a]; omega
    · right; right; right; have := ty (by rw [a]; exact lt_irrefl _); clear * - this b wy; omega
    · left; rw [x0 a]; omega
    · right; right; left; have := tx (by rw [a]; exact lt_irrefl _); clear * - this b wx; omega

/-- A cell with a neighbour in another tile lies on its tile's edge. -/
theorem onEdge_of_near {t t' : Nat × Nat} {c c' : Cell} (ht : T.InTile t c) (ht' : T.InTile t' c')
    (ha : Adj .D8 (T.glob t c) (T.glob t' c')) (hne : t ≠ t') : OnEdge (T.tw t.2) (T.th t.1) c := by
  obtain ⟨n1, n2⟩ := K.near ht ht' ha
  refine ⟨ht.2.2, ?_⟩
  obtain ⟨y, x⟩ := t
  obtain ⟨y', x'⟩ := t'
  simp only [ne_eq, Prod.mk.injEq] at *
  omega

/-- An edge cell of the raster is an edge cell of its tile. -/
theorem onEdge_tile {t : Nat × Nat} {c : Cell} (ht : T.InTile t c) (ho : OnEdge T.W T.H (T.glob t c)) :
    OnEdge (T.tw t.2) (T.th t.1) c := by
  refine ⟨ht.2.2, ?_⟩
  have := (K.outside_iff ht).1 ho
  unfold outsideCells at this
  simp only [List.mem_append] at this
  rcases this with ((h | h) | h) | h <;> split_ifs at h <;>
    simp only [List.mem_map, List.mem_range, List.not_mem_nil] at h
  all_goals obtain ⟨n, _, rfl⟩ := h; simp

/-- Down a watershed: every cell of the chain drains at `z`. -/
theorem shed_down {t : Nat × Nat} {c d : Cell} (hs : Shed (tileFlood T pq dem t).elev (tileFlood T pq dem t).lbl c d)
    (hin : ∀ e, (tileFlood T pq dem t).lbl e ≠ 0 → T.InTile t e) {z : E} (hz : (tileFlood T pq dem t).elev c ≤ z)
    (hd : Drains T.W T.H .D8 dem z (T.glob t c)) :
    Drains T.W T.H .D8 dem z (T.glob t d) ∧ (tileFlood T pq dem t).elev d ≤ z := by
  induction hs with
  | refl => exact ⟨hd, hz⟩
  | tail _ h1 ih =>
    obtain ⟨a1, a2, a3, a4⟩ := h1
    have hd' := hin _ (a3 ▸ a2)
    refine ⟨.step hd'.inGrid ((K.ge_of hd').trans (a4.trans ih.2)) (Tiling.adj_glob.2 a1.symm) ih.1, a4.trans ih.2⟩

/-- Up a watershed. -/
theorem shed_up {t : Nat × Nat} {c d : Cell} (hs : Shed (tileFlood T pq dem t).elev (tileFlood T pq dem t).lbl c d)
    (hin : ∀ e, (tileFlood T pq dem t).lbl e ≠ 0 → T.InTile t e) {z : E}
    (hd : Drains T.W T.H .D8 dem z (T.glob t d)) :
    Drains T.W T.H .D8 dem (max ((tileFlood T pq dem t).elev c) z) (T.glob t c) := by
  induction hs using Relation.ReflTransGen.head_induction_on with
  | refl => exact hd.mono (le_max_right _ _)
  | head h1 _ ih =>
    obtain ⟨a1, a2, a3, a4⟩ := h1
    have hc' := hin _ a2
    exact .step hc'.inGrid ((K.ge_of hc').trans (le_max_left _ _)) (Tiling.adj_glob.2 a1)
      (ih.mono (max_le_max_right _ a4))

/-- The whole graph describes the raster. -/
theorem glue : Glue T.W T.H dem (flF T pq dem) K.L (masterGraph jobs T.gh T.gw).g := by
  have hL : ∀ {t : Nat × Nat} {c : Cell}, T.InTile t c →
      K.L (T.glob t c) = ren ((mergeAll jobs T.gh T.gw).offs t) ((tileFlood T pq dem t).lbl c) :=
    fun ht => K.L_glob ht
  have hmem : ∀ {t : Nat × Nat} {c : Cell}, T.InTile t c → t ∈ tileList T.gh T.gw :=
    fun ht => mem_tileList.2 ⟨ht.1, ht.2.1⟩
  have hkeep : ∀ {t : Nat × Nat}, t ∈ tileList T.gh T.gw → ∀ {l k : Nat} {v x : E},
      (tileFlood T pq dem t).g.m l k = some v → v ≤ x → ∀ {a b : Nat}, Match ((mergeAll jobs T.gh T.gw).offs t) l k a b →
      ∃ u, (masterGraph jobs T.gh T.gw).g.m a b = some u ∧ u ≤ x := by
    intro t ht l k v x hv hx a b hm
    refine K.joined.keeps a b v x ((K.merged.iff a b v).2 ⟨t, ht, l, k, ?_, hm⟩) hx
    rw [(K.hj t ht).graph]; exact hv
  refine ⟨?_, fun x hx => (K.L_lt hx).1, ?_, ?_, ?_, ?_, ?_, ?_⟩
  · intro x hx
    obtain ⟨t, c, ht, rfl⟩ := Tiling.cover K.hbw K.hbh hx
    rw [K.F_glob ht]; exact K.ge_of ht
  · intro x y hx hy hxy z hd hz
    obtain ⟨t, c, ht, rfl⟩ := Tiling.cover K.hbw K.hbh hx
    obtain ⟨t', c', ht', rfl⟩ := Tiling.cover K.hbw K.hbh hy
    rw [hL ht, hL ht'] at hxy
    obtain ⟨rfl, hl⟩ := K.same ht ht' hxy
    rw [K.F_glob ht'] at hz
    rw [K.F_glob ht]
    have S := K.spec ⟨ht.1, ht.2.1⟩
    have hin : ∀ e, (tileFlood T pq dem t).lbl e ≠ 0 → T.InTile t e := fun e he => ⟨ht.1, ht.2.1, S.inside e he⟩
    obtain ⟨root, hr⟩ := S.shed
    have h1 := hr c ht.2.2
    have h2 := hr c' ht'.2.2
    rw [← hl] at h2
    exact K.shed_up h1 hin (K.shed_down h2 hin hz hd).1
  · intro x y hx hy ha
    obtain ⟨t, c, ht, rfl⟩ := Tiling.cover K.hbw K.hbh hx
    obtain ⟨t', c', ht', rfl⟩ := Tiling.cover K.hbw K.hbh hy
    rw [K.F_glob ht, K.F_glob ht']
    have S := K.spec ⟨ht.1, ht.2.1⟩
    by_cases htt : t = t'
    · subst htt
      have w1 := isWaterLevel_iff.1 (S.filled c ht.2.2)
      have w2 := isWaterLevel_iff.1 (S.filled c' ht'.2.2)
      exact w1.2 _ (.step ht.2.2 (le_max_left _ _) (Tiling.adj_glob.1 ha) (w2.1.mono (le_max_right _ _)))
    · have := isWaterLevel_edge (K.onEdge_of_near ht ht' ha htt) (S.filled c ht.2.2)
      rw [this]; exact le_max_left _ _
  · intro x hx
    obtain ⟨t, c, ht, rfl⟩ := Tiling.cover K.hbw K.hbh hx.1
    rw [K.F_glob ht]
    exact isWaterLevel_edge (dem := fun c => dem (T.glob t c)) (K.onEdge_tile ht hx) ((K.spec ⟨ht.1, ht.2.1⟩).filled c ht.2.2)
  · intro a b v hv
    rcases K.joined.sound a b v hv with h1 | h1 | ⟨x, y, h1, h2, h3, h4, h5, h6, h7⟩
    · obtain ⟨t, ht, l, k, h2, h3⟩ := (K.merged.iff a b v).1 h1
      rw [(K.hj t ht).graph] at h2
      have ht' := mem_tileList.1 ht
      have S := K.spec ht'
      obtain ⟨_, ⟨p, q, q1, q2, q3, rfl, rfl, q4, q5⟩ | ⟨rfl, c, c1, c2, rfl, c3⟩⟩ := S.gsound l k v h2
      · have tp : T.InTile t p := ⟨ht'.1, ht'.2, q2⟩
        have tq : T.InTile t q := ⟨ht'.1, ht'.2, q3⟩
        left
        rcases h3 with ⟨rfl, rfl⟩ | ⟨rfl, rfl⟩
        · exact ⟨T.glob t p, T.glob t q, tp.inGrid, tq.inGrid, Tiling.adj_glob.2 q1, hL tp, hL tq,
            by rw [K.F_glob tp]; exact q4, by rw [K.F_glob tq]; exact q5⟩
        · exact ⟨T.glob t q, T.glob t p, tq.inGrid, tp.inGrid, Tiling.adj_glob.2 q1.symm, hL tq, hL tp,
            by rw [K.F_glob tq]; exact q5, by rw [K.F_glob tp]; exact q4⟩
      · have tc : T.InTile t c := ⟨ht'.1, ht'.2, c2⟩
        right
        have ho := (K.outside_iff tc).2 c1
        rcases h3 with ⟨rfl, rfl⟩ | ⟨rfl, rfl⟩
        · exact Or.inl ⟨ren_le le_rfl, _, ho, hL tc, by rw [K.F_glob tc]; exact c3⟩
        · exact Or.inr ⟨ren_le le_rfl, _, ho, hL tc, by rw [K.F_glob tc]; exact c3⟩
    · exact Or.inl h1
    · exact Or.inl ⟨y, x, h2, h1, h3.symm, h5, h4, h7, h6⟩
  · intro x y hx hy ha hne
    obtain ⟨t, c, ht, rfl⟩ := Tiling.cover K.hbw K.hbh hx
    obtain ⟨t', c', ht', rfl⟩ := Tiling.cover K.hbw K.hbh hy
    rw [hL ht, hL ht', K.F_glob ht, K.F_glob ht'] at *
    by_cases htt : t = t'
    · subst htt
      have S := K.spec ⟨ht.1, ht.2.1⟩
      obtain ⟨v, h1, h2⟩ := S.gcomp c c' (Tiling.adj_glob.1 ha) ht.2.2 ht'.2.2 (fun h => hne (by rw [h]))
      refine hkeep (hmem ht) h1 h2 ?_
      rcases le_total ((tileFlood T pq dem t).lbl c) ((tileFlood T pq dem t).lbl c') with h | h
      · rw [min_eq_left h, max_eq_right h]; exact Or.inl ⟨rfl, rfl⟩
      · rw [min_eq_right h, max_eq_left h]; exact Or.inr ⟨rfl, rfl⟩
    · exact K.joined.has _ _ _ ⟨t, hmem ht, t', fun h => htt h.symm, c, c', ht, ht', ha, rfl, rfl, rfl⟩
  · intro x hx
    obtain ⟨t, c, ht, rfl⟩ := Tiling.cover K.hbw K.hbh hx.1
    rw [hL ht, K.F_glob ht]
    have S := K.spec ⟨ht.1, ht.2.1⟩
    obtain ⟨v, h1, h2⟩ := S.gout c ((K.outside_iff ht).1 hx)
    have hr := (S.range c ht.2.2).1
    rw [min_eq_left (by omega), max_eq_right (by omega)] at h1
    exact hkeep (hmem ht) h1 h2 (Or.inl ⟨(ren_le le_rfl).symm, rfl⟩)

/-- The keys of the graph are labels. -/
theorem keys {a b : Nat} {v : E} (hv : (masterGraph jobs T.gh T.gw).g.m a b = some v) :
    b < (masterGraph jobs T.gh T.gw).g.size := by
  rw [K.gsize]
  rcases K.glue.sound a b v hv with ⟨x, y, _, hy, _, _, rfl, _⟩ | ⟨_, x, hx, rfl, _⟩ | ⟨rfl, _⟩
  · exact (K.L_lt hy).2
  · exact (K.L_lt hx.1).2
  · exact K.one_lt

end ParCtx

/-- The order in which the results arrive does not matter. -/
theorem collect_eq {A : Type*} {order l : List (Nat × Nat)} (hp : order.Perm l) (f : Nat × Nat → A) (d : A)
    {t : Nat × Nat} (ht : t ∈ l) : collect order f d t = f t := by
  have key : ∀ (o : List (Nat × Nat)) (m : Nat × Nat → A), (m t = f t ∨ t ∈ o) →
      (o.foldl (fun m t => Function.update m t (f t)) m) t = f t := by
    intro o
    induction o with
    | nil => rintro m (h | h); exact h; simp at h
    | cons u o ih =>
      intro m h
      rw [List.foldl_cons]
      apply ih
      by_cases hu : t = u
      · subst hu; left; rw [Function.update_self]
      · rw [Function.update_of_ne hu]
        rcases h with h | h
        · exact Or.inl h
        · rcases List.mem_cons.1 h with h | h
          · exact absurd h hu
          · exact Or.inr h
  exact key order _ (Or.inr (hp.mem_iff.2 ht))

/-- The parallel program fills the raster. -/
theorem parallelFill_spec (T : Tiling) (pq : Nat × Nat → PQ (E × Cell) zLt) (vq : PQ (E × Nat) vLt) (lo zero : E)
    (order : List (Nat × Nat)) (junk : PJob E) (dem : Cell → E) (hW : 0 < T.W) (hH : 0 < T.H) (hbw : 0 < T.bw)
    (hbh : 0 < T.bh) (ho : order.Perm (tileList T.gh T.gw)) (hlo : ∀ c, InGrid T.W T.H c → lo ≤ dem c) :
    (parallelFill T pq vq lo zero order junk dem).master.g.ok = true ∧
    (parallelFill T pq vq lo zero order junk dem).flood.safe = true ∧
    vfStep vq (parallelFill T pq vq lo zero order junk dem).master.g (parallelFill T pq vq lo zero order junk dem).flood = none ∧
    ∀ t c, T.InTile t c →
      (tileFile T pq dem t).lbl c < (tileJob T pq dem t).graph.size ∧
      (parallelFill T pq vq lo zero order junk dem).master.offs t + (tileJob T pq dem t).graph.size ≤
        (parallelFill T pq vq lo zero order junk dem).master.g.size ∧
      IsWaterLevel T.W T.H .D8 dem (T.stored t c) ((parallelFill T pq vq lo zero order junk dem).out t c) := by
  set jobs := collect order (tileJob T pq dem) junk with hjobs
  have K : ParCtx T pq dem jobs := ⟨hbw, hbh, hW, hH, fun t ht => by rw [hjobs, collect_eq ho _ _ ht]; exact firstRound_ok⟩
  have hk : ∀ a b v, (masterGraph jobs T.gh T.gw).g.m a b = some v → b < (masterGraph jobs T.gh T.gw).g.size :=
    fun a b v hv => K.keys hv
  have h1 : 1 < (masterGraph jobs T.gh T.gw).g.size := by rw [K.gsize]; exact K.one_lt
  have V := vFlood_spec vq (lo := lo) (zero := zero) hk h1
  refine ⟨K.ok, V.2.1, V.1, ?_⟩
  intro t c0 ht0
  obtain ⟨c, hc⟩ : ∃ c, c = flipCell (T.fh t) (T.fv t) (T.tw t.2) (T.th t.1) c0 := ⟨_, rfl⟩
  have ht : T.InTile t c := ⟨ht0.1, ht0.2.1, by rw [hc]; exact flipCell_inGrid ht0.2.2⟩
  have hst : T.stored t c0 = T.glob t c := by rw [hc]; rfl
  have hel : (tileFile T pq dem t).elev c0 = (tileFlood T pq dem t).elev c := by
    rw [hc]; simp only [tileFlood, flipCell_inv]
  have hlb : (tileFile T pq dem t).lbl c0 = (tileFlood T pq dem t).lbl c := by
    rw [hc]; simp only [tileFlood, flipCell_inv]
  rw [hst, hlb]
  have hr := (K.spec ⟨ht.1, ht.2.1⟩).range c ht.2.2
  have hL : K.L (T.glob t c) = (mergeAll jobs T.gh T.gw).offs t + (tileFlood T pq dem t).lbl c := by
    have := K.L_glob (offs := (mergeAll jobs T.gh T.gw).offs) ht
    rw [ren_pos hr.1, Nat.add_comm] at this
    exact this
  have hm : t ∈ tileList T.gh T.gw := mem_tileList.2 ⟨ht.1, ht.2.1⟩
  have hgr : (tileJob T pq dem t).graph.size = (jobs t).graph.size := by rw [hjobs, collect_eq ho _ _ hm]
  refine ⟨?_, ?_, ?_⟩
  · rw [hgr, K.size hm]; exact hr.2
  · show (mergeAll jobs T.gh T.gw).offs t + _ ≤ (masterGraph jobs T.gh T.gw).g.size
    rw [K.gsize, hgr]
    have a := K.merged.below t hm
    have b := K.merged.off
    unfold ParCtx.N; omega
  · have F := K.glue.filled (zero := zero) vq hlo hk h1 (T.glob t c) ht.inGrid
    simp only at F
    rw [K.F_glob ht, hL] at F
    convert F using 1
    show secondRound (tileFile T pq dem t) ((mergeAll jobs T.gh T.gw).offs t) (vFlood vq lo zero (masterGraph jobs T.gh T.gw).g).gelev c0 = _
    unfold secondRound
    rw [hel, hlb]
    split_ifs with hc
    · exact (max_eq_right hc.2.le).symm
    · rw [not_and] at hc
      exact (max_eq_left (not_lt.1 (hc (by omega)))).symm

end RichDEM
