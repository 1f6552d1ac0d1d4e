/-
Flow from tile to tile.
-/
import Verif.ParD8.TileRound
import Verif.ParD8.Graph

namespace RichDEM

open Relation Finset

/-- Crossing into the next block along one axis. -/
theorem axis_cross {W b i : Nat} (hb : 0 < b) (hi : i < blocks W b) {c d : Int} (c0 : 0 ≤ c) (c1 : c < blockLen W b i)
    (d0 : -1 ≤ d) (d1 : d ≤ 1) :
    (((i : Int) + gridStep (c + d) (blockLen W b i) < 0 ∨ (i : Int) + gridStep (c + d) (blockLen W b i) = blocks W b) ↔
      ¬ (0 ≤ c + d + ((i * b : Nat) : Int) ∧ c + d + ((i * b : Nat) : Int) < W)) ∧
    (¬ ((i : Int) + gridStep (c + d) (blockLen W b i) < 0 ∨ (i : Int) + gridStep (c + d) (blockLen W b i) = blocks W b) →
      ∃ i' : Nat, (i : Int) + gridStep (c + d) (blockLen W b i) = i' ∧ i' < blocks W b ∧
        0 ≤ enterAt (c + d) (blockLen W b i) (blockLen W b i') ∧
        enterAt (c + d) (blockLen W b i) (blockLen W b i') < blockLen W b i' ∧
        enterAt (c + d) (blockLen W b i) (blockLen W b i') + ((i' * b : Nat) : Int) = c + d + ((i * b : Nat) : Int) ∧
        ((i' = i ∧ 0 ≤ c + d ∧ c + d < blockLen W b i) ∨
         (i' ≠ i ∧ ¬ (0 ≤ c + d ∧ c + d < blockLen W b i) ∧
          (enterAt (c + d) (blockLen W b i) (blockLen W b i') = 0 ∨
           enterAt (c + d) (blockLen W b i) (blockLen W b i') = (blockLen W b i' : Int) - 1)))) := by
  have hle := blockLen_le (W := W) (b := b) (i := i)
  have hiW := (blocks_iff hb).1 hi
  by_cases a1 : c + d = blockLen W b i
  · have g : gridStep (c + d) (blockLen W b i) = 1 := by unfold gridStep; rw [if_pos a1]
    have en : ∀ k, enterAt (c + d) (blockLen W b i) k = 0 := by intro k; unfold enterAt; rw [if_pos a1]
    rw [g]
    by_cases hl : i + 1 < blocks W b
    · have f := blockLen_full hb hl
      have l2 := (blocks_iff hb).1 hl
      have p2 := blockLen_pos hb hl
      have e : (i + 1) * b = i * b + b := Nat.succ_mul i b
      refine ⟨⟨fun h1 => by omega, fun h1 => by omega⟩, fun _ => ⟨i + 1, by omega, hl, ?_⟩⟩
      rw [en]
      refine ⟨le_refl _, by omega, by omega, .inr ⟨by omega, by omega, .inl rfl⟩⟩
    · have hW : W ≤ (i + 1) * b := by
        by_contra hn
        exact hl ((blocks_iff hb).2 (by omega))
      rw [Nat.succ_mul] at hW
      have f : blockLen W b i = W - i * b := by unfold blockLen; split_ifs <;> omega
      refine ⟨⟨fun h1 => by omega, fun h1 => by omega⟩, fun h1 => by omega⟩
  by_cases a2 : c + d = -1
  · have g : gridStep (c + d) (blockLen W b i) = -1 := by unfold gridStep; rw [if_neg a1, if_pos a2]
    have en : ∀ k : Nat, enterAt (c + d) (blockLen W b i) k = (k : Int) - 1 := by
      intro k; unfold enterAt; rw [if_neg a1, if_pos a2]
    rw [g]
    rcases i with _ | i
    · refine ⟨⟨fun h1 => by omega, fun h1 => by omega⟩, fun h1 => by omega⟩
    · have f := blockLen_full hb hi
      have e : (i + 1) * b = i * b + b := Nat.succ_mul i b
      refine ⟨⟨fun h1 => by omega, fun h1 => by omega⟩, fun _ => ⟨i, by omega, by omega, ?_⟩⟩
      rw [en]
      refine ⟨by omega, by omega, by omega, .inr ⟨by omega, by omega, .inr rfl⟩⟩
  · have g : gridStep (c + d) (blockLen W b i) = 0 := by unfold gridStep; rw [if_neg a1, if_neg a2]
    have en : ∀ k : Nat, enterAt (c + d) (blockLen W b i) k = c + d := by
      intro k; unfold enterAt; rw [if_neg a1, if_neg a2]
    rw [g]
    refine ⟨⟨fun h1 => by omega, fun h1 => by omega⟩, fun _ => ⟨i, by omega, hi, ?_⟩⟩
    rw [en]
    refine ⟨by omega, by omega, rfl, .inl ⟨rfl, by omega, by omega⟩⟩

/-- No two tiles touch at a corner only, both of the tiles between them being missing. -/
def NoBareCorner (gh gw : Nat) (null : Nat × Nat → Bool) : Prop :=
  ∀ j i, j + 1 < gh → i + 1 < gw →
    (null (j, i) = false → null (j + 1, i + 1) = false → null (j, i + 1) = false ∨ null (j + 1, i) = false) ∧
    (null (j, i + 1) = false → null (j + 1, i) = false → null (j, i) = false ∨ null (j + 1, i + 1) = false)

/-- The circumstances in which the program is right. -/
structure PDOk (T : Tiling) (null : Nat × Nat → Bool) (fd : Cell → Nat) (nd : Nat) : Prop where
  bw : 0 < T.bw
  bh : 0 < T.bh
  rows : ∀ j, j < T.gh → 2 ≤ T.th j
  room : ∀ j i, j < T.gh → i < T.gw → perimLen (T.tw i) (T.th j) ≤ 65526
  nulls : ∀ t c, T.InTile t c → null t = true → fd (T.glob t c) = nd
  corner : NoBareCorner T.gh T.gw null
  acyc : Acyclic8 T.W T.H fd nd

section
variable {T : Tiling} {null : Nat × Nat → Bool} {fd : Cell → Nat} {nd : Nat}

theorem PDOk.small (P : PDOk T null fd nd) (j i : Nat) (hj : j < T.gh) (hi : i < T.gw) :
    perimLen (T.tw i) (T.th j) ≤ 65533 := (P.room j i hj hi).trans (by omega)

theorem glob_nbr (t : Nat × Nat) (c : Cell) (n : Nat) : T.glob t (nbr .D8 c n) = nbr .D8 (T.glob t c) n := by
  unfold Tiling.glob nbr
  ext <;> dsimp only <;> ring

theorem glob_cancel {t : Nat × Nat} {a b : Cell} (he : T.glob t a = T.glob t b) : a = b := by
  have e1 : a.1 + _ = b.1 + _ := congrArg Prod.fst he
  have e2 : a.2 + _ = b.2 + _ := congrArg Prod.snd he
  exact Prod.ext (by omega) (by omega)

/-- Directions of a tile. -/
abbrev Tiling.part (T : Tiling) (fd : Cell → Nat) (t : Nat × Nat) : Cell → Nat := fun c => fd (T.glob t c)

theorem pathStep_glob {t : Nat × Nat} (ht : t.1 < T.gh ∧ t.2 < T.gw) {a b : Cell}
    (hs : PathStep (T.tw t.2) (T.th t.1) (T.part fd t) nd a b) : PathStep T.W T.H fd nd (T.glob t a) (T.glob t b) := by
  obtain ⟨h1, h2, h3, h4, h5⟩ := hs
  refine ⟨Tiling.InTile.inGrid ⟨ht.1, ht.2, h1⟩, h2, h3, Tiling.InTile.inGrid ⟨ht.1, ht.2, h4⟩, ?_⟩
  rw [h5, glob_nbr]

theorem flows_glob {t : Nat × Nat} (ht : t.1 < T.gh ∧ t.2 < T.gw) {a b : Cell} (ha : InGrid (T.tw t.2) (T.th t.1) a)
    (hb : InGrid (T.tw t.2) (T.th t.1) b) :
    D8FlowsTo (T.tw t.2) (T.th t.1) (T.part fd t) nd a b ↔ D8FlowsTo T.W T.H fd nd (T.glob t a) (T.glob t b) := by
  constructor
  · rintro ⟨⟨h1, h2⟩, ⟨h3, h4⟩, h5, h6⟩
    refine ⟨⟨Tiling.InTile.inGrid ⟨ht.1, ht.2, h1⟩, h2⟩, ⟨Tiling.InTile.inGrid ⟨ht.1, ht.2, h3⟩, h4⟩, h5, ?_⟩
    rw [h6, glob_nbr]
  · rintro ⟨⟨h1, h2⟩, ⟨h3, h4⟩, h5, h6⟩
    refine ⟨⟨ha, h2⟩, ⟨hb, h4⟩, h5, ?_⟩
    rw [← glob_nbr] at h6
    exact glob_cancel h6

theorem PDOk.acyc_tile (P : PDOk T null fd nd) {t : Nat × Nat} (ht : t.1 < T.gh ∧ t.2 < T.gw) :
    Acyclic8 (T.tw t.2) (T.th t.1) (T.part fd t) nd := by
  intro a ha
  have : ∀ x y, TransGen (D8FlowsTo (T.tw t.2) (T.th t.1) (T.part fd t) nd) x y →
      TransGen (D8FlowsTo T.W T.H fd nd) (T.glob t x) (T.glob t y) := by
    intro x y hxy
    induction hxy with
    | single h1 => exact .single ((flows_glob ht h1.1.1 h1.2.1.1).1 h1)
    | tail _ h1 ih => exact ih.tail ((flows_glob ht h1.1.1 h1.2.1.1).1 h1)
  exact P.acyc _ (this a a ha)

theorem PDOk.tw_pos (P : PDOk T null fd nd) {t : Nat × Nat} (ht : t.1 < T.gh ∧ t.2 < T.gw) : 1 ≤ T.tw t.2 :=
  blockLen_pos P.bw ht.2

/-- Where the flow of an edge cell that leaves its tile goes. -/
theorem downCell_external (P : PDOk T null fd nd) {jobs : Nat × Nat → PDJob} {t : Nat × Nat} {c : Cell}
    (ht : T.InTile t c) (he : ExitCell (T.tw t.2) (T.th t.1) (T.part fd t) nd c)
    (hl : (jobs t).links (ser (T.tw t.2) (T.th t.1) c) = FLOW_EXTERNAL)
    (hf : (jobs t).fd (ser (T.tw t.2) (T.th t.1) c) = fd (T.glob t c)) :
    (∀ m, downCell T null jobs (t, ser (T.tw t.2) (T.th t.1) c) = some m →
      ∃ c', T.InTile m.1 c' ∧ null m.1 = false ∧ OnEdge (T.tw m.1.2) (T.th m.1.1) c' ∧
        m.2 = ser (T.tw m.1.2) (T.th m.1.1) c' ∧ T.glob m.1 c' = nbr .D8 (T.glob t c) (fd (T.glob t c)) ∧ m.1 ≠ t) ∧
    (∀ t' c', T.InTile t' c' → null t' = false → T.glob t' c' = nbr .D8 (T.glob t c) (fd (T.glob t c)) →
      downCell T null jobs (t, ser (T.tw t.2) (T.th t.1) c) = some (t', ser (T.tw t'.2) (T.th t'.1) c') ∧
      OnEdge (T.tw t'.2) (T.th t'.1) c') := by
  have hrow := P.rows t.1 ht.1
  have hu : serialToXY (T.tw t.2) (T.th t.1) (ser (T.tw t.2) (T.th t.1) c : Nat) = c := unser_ser he.onEdge hrow
  have h0 : fd (T.glob t c) ≠ 0 := he.2.2.1
  have hout : ¬ InGrid (T.tw t.2) (T.th t.1) (nbr .D8 c (fd (T.glob t c))) := he.2.2.2
  obtain ⟨ht1, ht2, g1, g2, g3, g4⟩ := ht
  have bx := dx_bound (fd (T.glob t c))
  have by' := dy_bound (fd (T.glob t c))
  obtain ⟨ax1, ax2⟩ := axis_cross P.bw ht2 g1 g2 bx.1 bx.2
  obtain ⟨ay1, ay2⟩ := axis_cross P.bh ht1 g3 g4 by'.1 by'.2
  change (((t.2 : Int) + gridStep (c.1 + dx .D8 (fd (T.glob t c))) (T.tw t.2) < 0 ∨ _ = (T.gw : Int)) ↔ _) at ax1
  change (((t.1 : Int) + gridStep (c.2 + dy .D8 (fd (T.glob t c))) (T.th t.1) < 0 ∨ _ = (T.gh : Int)) ↔ _) at ay1
  change (¬ ((t.2 : Int) + gridStep (c.1 + dx .D8 (fd (T.glob t c))) (T.tw t.2) < 0 ∨ _ = (T.gw : Int)) → _) at ax2
  change (¬ ((t.1 : Int) + gridStep (c.2 + dy .D8 (fd (T.glob t c))) (T.th t.1) < 0 ∨ _ = (T.gh : Int)) → _) at ay2
  have hdown : downCell T null jobs (t, ser (T.tw t.2) (T.th t.1) c) =
      if (t.2 : Int) + gridStep (c.1 + dx .D8 (fd (T.glob t c))) (T.tw t.2) < 0 ∨
         (t.1 : Int) + gridStep (c.2 + dy .D8 (fd (T.glob t c))) (T.th t.1) < 0 ∨
         (t.2 : Int) + gridStep (c.1 + dx .D8 (fd (T.glob t c))) (T.tw t.2) = T.gw ∨
         (t.1 : Int) + gridStep (c.2 + dy .D8 (fd (T.glob t c))) (T.th t.1) = T.gh then none
      else
        let t' := (((t.1 : Int) + gridStep (c.2 + dy .D8 (fd (T.glob t c))) (T.th t.1)).toNat,
          ((t.2 : Int) + gridStep (c.1 + dx .D8 (fd (T.glob t c))) (T.tw t.2)).toNat)
        if null t' then none
        else
          let ns := toLink (xyToSerial (T.tw t'.2) (T.th t'.1)
            (enterAt (c.1 + dx .D8 (fd (T.glob t c))) (T.tw t.2) (T.tw t'.2),
             enterAt (c.2 + dy .D8 (fd (T.glob t c))) (T.th t.1) (T.th t'.1)))
          if ns = FLOW_NO_DOWNSTREAM then none else some (t', ns) := by
    unfold downCell
    simp only
    rw [hl, hf, hu]
    rw [if_neg (not_or.2 ⟨by decide, h0⟩), if_pos rfl]
    rfl
  -- the raster cell the flow goes to
  have hin : ∀ (hx : InGrid T.W T.H (nbr .D8 (T.glob t c) (fd (T.glob t c)))),
      ∃ t' c', T.InTile t' c' ∧ T.glob t' c' = nbr .D8 (T.glob t c) (fd (T.glob t c)) ∧ t' ≠ t ∧
        OnEdge (T.tw t'.2) (T.th t'.1) c' ∧ downCell T null jobs (t, ser (T.tw t.2) (T.th t.1) c) =
          if null t' then none else some (t', ser (T.tw t'.2) (T.th t'.1) c') := by
    intro hx
    obtain ⟨x1, x2, x3, x4⟩ := hx
    have ex : (nbr .D8 (T.glob t c) (fd (T.glob t c))).1 = c.1 + dx .D8 (fd (T.glob t c)) + ((t.2 * T.bw : Nat) : Int) := by
      show (c.1 + _) + dx .D8 (fd (T.glob t c)) = _; ring
    have ey : (nbr .D8 (T.glob t c) (fd (T.glob t c))).2 = c.2 + dy .D8 (fd (T.glob t c)) + ((t.1 * T.bh : Nat) : Int) := by
      show (c.2 + _) + dy .D8 (fd (T.glob t c)) = _; ring
    have nx := mt ax1.1 (not_not.2 ⟨ex ▸ x1, ex ▸ x2⟩)
    have ny := mt ay1.1 (not_not.2 ⟨ey ▸ x3, ey ▸ x4⟩)
    obtain ⟨i, i1, i2, i3, i4, i5, i6⟩ := ax2 nx
    obtain ⟨j, j1, j2, j3, j4, j5, j6⟩ := ay2 ny
    have hedge : OnEdge (T.tw i) (T.th j) (enterAt (c.1 + dx .D8 (fd (T.glob t c))) (T.tw t.2) (T.tw i),
        enterAt (c.2 + dy .D8 (fd (T.glob t c))) (T.th t.1) (T.th j)) := by
      refine ⟨⟨i3, i4, j3, j4⟩, ?_⟩
      rcases i6 with ⟨_, k1, k2⟩ | ⟨_, _, k3⟩
      · rcases j6 with ⟨_, l1, l2⟩ | ⟨_, _, l3⟩
        · exact absurd ⟨k1, k2, l1, l2⟩ hout
        · rcases l3 with l3 | l3
          · exact .inr (.inl l3)
          · exact .inr (.inr (.inr l3))
      · rcases k3 with k3 | k3
        · exact .inl k3
        · exact .inr (.inr (.inl k3))
    refine ⟨(j, i), _, ⟨j2, i2, hedge.1⟩, ?_, ?_, hedge, ?_⟩
    · refine Prod.ext ?_ ?_
      · rw [ex]; exact i5
      · rw [ey]; exact j5
    · intro heq
      have e1 : j = t.1 := congrArg Prod.fst heq
      have e2 : i = t.2 := congrArg Prod.snd heq
      rcases i6 with ⟨_, k1, k2⟩ | ⟨k1, _⟩
      · rcases j6 with ⟨_, l1, l2⟩ | ⟨l1, _⟩
        · exact absurd ⟨k1, k2, l1, l2⟩ hout
        · exact l1 e1
      · exact k1 e2
    · have hno : ¬ ((t.2 : Int) + gridStep (c.1 + dx .D8 (fd (T.glob t c))) (T.tw t.2) < 0 ∨
         (t.1 : Int) + gridStep (c.2 + dy .D8 (fd (T.glob t c))) (T.th t.1) < 0 ∨
         (t.2 : Int) + gridStep (c.1 + dx .D8 (fd (T.glob t c))) (T.tw t.2) = T.gw ∨
         (t.1 : Int) + gridStep (c.2 + dy .D8 (fd (T.glob t c))) (T.th t.1) = T.gh) := by
        rintro (h1 | h1 | h1 | h1)
        · exact nx (.inl h1)
        · exact ny (.inl h1)
        · exact nx (.inr h1)
        · exact ny (.inr h1)
      change (t.2 : Int) + gridStep (c.1 + dx .D8 (fd (T.glob t c))) (T.tw t.2) = i at i1
      change (t.1 : Int) + gridStep (c.2 + dy .D8 (fd (T.glob t c))) (T.th t.1) = j at j1
      rw [hdown, if_neg hno]
      simp only
      rw [i1, j1, Int.toNat_natCast, Int.toNat_natCast]
      by_cases hnull : null (j, i) = true
      · rw [if_pos hnull, if_pos hnull]
      · rw [if_neg hnull, if_neg hnull, toLink_ser hedge (P.rows j j2) (P.small j i j2 i2), if_neg]
        have := ser_lt hedge (P.rows j j2)
        have := P.small j i j2 i2
        unfold FLOW_NO_DOWNSTREAM
        omega
  constructor
  · intro m hm
    by_cases hx : InGrid T.W T.H (nbr .D8 (T.glob t c) (fd (T.glob t c)))
    · obtain ⟨t', c', k1, k2, k3, k4, k5⟩ := hin hx
      rw [k5] at hm
      split_ifs at hm with hnull
      cases hm
      exact ⟨c', k1, by simpa using hnull, k4, rfl, k2, k3⟩
    · exfalso
      rw [hdown, if_pos] at hm
      · cases hm
      · by_contra hn
        apply hx
        have nx := not_not.1 (mt ax1.2 (fun h1 => hn (by
          rcases h1 with h1 | h1
          · exact .inl h1
          · exact .inr (.inr (.inl h1)))))
        have ny := not_not.1 (mt ay1.2 (fun h1 => hn (by
          rcases h1 with h1 | h1
          · exact .inr (.inl h1)
          · exact .inr (.inr (.inr h1)))))
        clear hn hm
        have ex : (nbr .D8 (T.glob t c) (fd (T.glob t c))).1 = c.1 + dx .D8 (fd (T.glob t c)) + ((t.2 * T.bw : Nat) : Int) := by
          show (c.1 + _) + dx .D8 (fd (T.glob t c)) = _; ring
        have ey : (nbr .D8 (T.glob t c) (fd (T.glob t c))).2 = c.2 + dy .D8 (fd (T.glob t c)) + ((t.1 * T.bh : Nat) : Int) := by
          show (c.2 + _) + dy .D8 (fd (T.glob t c)) = _; ring
        exact ⟨ex ▸ nx.1, ex ▸ nx.2, ey ▸ ny.1, ey ▸ ny.2⟩
  · intro t' c' ht' hnull heq
    obtain ⟨t1, c1, k1, k2, k3, k4, k5⟩ := hin (heq ▸ ht'.inGrid)
    obtain ⟨rfl, rfl⟩ := Tiling.glob_inj P.bw P.bh k1 ht' (k2.trans heq.symm)
    rw [k5, if_neg (by simp [hnull])]
    exact ⟨rfl, k4⟩

/-- The links of cells at which flow can enter or leave a tile are worked out. -/
theorem start_of_cross (P : PDOk T null fd nd) {t t' : Nat × Nat} {c c' : Cell} (ht : T.InTile t c) (ht' : T.InTile t' c')
    (hn : null t = false) (hn' : null t' = false) (hne : t ≠ t')
    (hx : ((T.glob t' c').1 - (T.glob t c).1).natAbs ≤ 1) (hy : ((T.glob t' c').2 - (T.glob t c).2).natAbs ≤ 1) :
    c ∈ pdStarts (T.tw t.2) (T.th t.1) (nullEdges T.gh T.gw null t) := by
  obtain ⟨a1, a2, a3, a4, a5, a6⟩ := ht
  obtain ⟨b1, b2, b3, b4, b5, b6⟩ := ht'
  have hw := P.tw_pos ⟨a1, a2⟩
  rw [mem_pdStarts hw (P.rows _ a1)]
  refine ⟨⟨a3, a4, a5, a6⟩, ?_⟩
  have fR : t.2 + 1 < T.gw → null (t.1, t.2 + 1) = false → (nullEdges T.gh T.gw null t).right = false := by
    intro h1 h2; simp [nullEdges, h2]; omega
  have fL : ∀ i, t.2 = i + 1 → null (t.1, i) = false → (nullEdges T.gh T.gw null t).left = false := by
    intro i h1 h2; simp [nullEdges, h1, h2]
  have fB : t.1 + 1 < T.gh → null (t.1 + 1, t.2) = false → (nullEdges T.gh T.gw null t).bottom = false := by
    intro h1 h2; simp [nullEdges, h2]; omega
  have fT : ∀ j, t.1 = j + 1 → null (j, t.2) = false → (nullEdges T.gh T.gw null t).top = false := by
    intro j h1 h2; simp [nullEdges, h1, h2]
  obtain ⟨tj, ti⟩ := t
  obtain ⟨sj, si⟩ := t'
  simp only at a1 a2 b1 b2 fR fL fB fT
  rcases block_near P.bw a2 b2 a3 a4 b3 b4 hx with ⟨rfl, _⟩ | ⟨rfl, x1, _⟩ | ⟨rfl, _, x1⟩ <;>
    rcases block_near P.bh a1 b1 a5 a6 b5 b6 hy with ⟨rfl, _⟩ | ⟨rfl, y1, _⟩ | ⟨rfl, _, y1⟩
  · exact absurd rfl hne
  · exact .inr (.inl ⟨fB b1 hn', y1⟩)
  · exact .inl ⟨fT _ rfl hn', y1⟩
  · exact .inr (.inr (.inr ⟨fR b2 hn', x1⟩))
  · rcases (P.corner tj ti b1 b2).1 hn hn' with k | k
    · exact .inr (.inr (.inr ⟨fR b2 k, x1⟩))
    · exact .inr (.inl ⟨fB b1 k, y1⟩)
  · rcases (P.corner sj ti a1 b2).2 hn' hn with k | k
    · exact .inl ⟨fT _ rfl k, y1⟩
    · exact .inr (.inr (.inr ⟨fR b2 k, x1⟩))
  · exact .inr (.inr (.inl ⟨fL _ rfl hn', x1⟩))
  · rcases (P.corner tj si b1 a2).2 hn hn' with k | k
    · exact .inr (.inr (.inl ⟨fL _ rfl k, x1⟩))
    · exact .inr (.inl ⟨fB b1 k, y1⟩)
  · rcases (P.corner sj si a1 a2).1 hn' hn with k | k
    · exact .inl ⟨fT _ rfl k, y1⟩
    · exact .inr (.inr (.inl ⟨fL _ rfl k, x1⟩))

end

end RichDEM
