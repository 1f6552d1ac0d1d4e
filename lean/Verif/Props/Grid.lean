/-
Property theorems C01-C03.
-/
import Verif.Grid

namespace RichDEM

/-! ## C01 -/

/-- C01: `xyToI` and `iToxy` are mutually inverse bijections between in-grid coordinates and
`[0, width*height)`. -/
theorem C01_index_bijection (w h : Nat) :
    (∀ c, InGrid w h c → 0 ≤ xyToI w c ∧ xyToI w c < (w * h : Nat) ∧
        iToxy w (xyToI w c).toNat = c) ∧
    (∀ i, i < w * h → InGrid w h (iToxy w i) ∧ xyToI w (iToxy w i) = i) :=
  ⟨fun _ hc => ⟨(xyToI_bounds hc).1, (xyToI_bounds hc).2, iToxy_xyToI hc⟩,
   fun i hi => ⟨iToxy_inGrid hi, xyToI_iToxy i⟩⟩

/-- C01: distinct in-grid cells have distinct indices. -/
theorem C01_index_injective (w h : Nat) (c d : Cell) (hc : InGrid w h c) (hd : InGrid w h d)
    (e : xyToI w c = xyToI w d) : c = d := by
  rw [← iToxy_xyToI hc, ← iToxy_xyToI hd, e]

example : InGrid 3 2 (2, 1) ∧ xyToI 3 (2, 1) = 5 ∧ iToxy 3 5 = (2, 1) := by decide

/-- C01: the 32-bit computation (`i_t = uint32_t`) agrees with the mathematical index, and
never equals the sentinel `NO_I = 2^32-1`, as long as `width*height < 2^32`. -/
theorem C01_index_uint32 (w h x y : Nat) (hx : x < w) (hy : y < h) (hs : w * h < 2 ^ 32) :
    (xyToI32 (BitVec.ofNat 32 w) (BitVec.ofNat 32 x) (BitVec.ofNat 32 y)).toNat = y * w + x ∧
    xyToI32 (BitVec.ofNat 32 w) (BitVec.ofNat 32 x) (BitVec.ofNat 32 y) ≠ BitVec.allOnes 32 := by
  have hlt : y * w + x < w * h := by nlinarith
  have key : (xyToI32 (BitVec.ofNat 32 w) (BitVec.ofNat 32 x) (BitVec.ofNat 32 y)).toNat
      = y * w + x := by
    simp only [xyToI32, BitVec.toNat_add, BitVec.toNat_mul, BitVec.toNat_ofNat]
    rw [← Nat.mul_mod, ← Nat.add_mod]
    exact Nat.mod_eq_of_lt (by omega)
  refine ⟨key, fun e => ?_⟩
  rw [e, BitVec.toNat_allOnes] at key
  omega

example : (2:Nat) < 3 ∧ 1 < 2 ∧ 3 * 2 < 2 ^ 32 := by decide

/-- C01, limit of the claim: at 65536 x 65537 cells the 32-bit index wraps, so two different
in-grid cells share an index (the code has no guard against this). -/
theorem C01_uint32_wraps_at_2_32 :
    xyToI32 65536 0 0 = xyToI32 65536 0 65536 ∧
      InGrid 65536 65537 (0, 0) ∧ InGrid 65536 65537 (0, 65536) := by
  refine ⟨by decide, ?_, ?_⟩ <;> (unfold InGrid; decide)

/-! ## C02 -/

/-- C02: `nToI` answers `NO_I` exactly for coordinates outside the raster, and otherwise the
index of exactly the requested cell. -/
theorem C02_nToI (w h : Nat) (i : Nat) (ddx ddy : Int) :
    let c := iToxy w i
    let q : Cell := (c.1 + ddx, c.2 + ddy)
    (InGrid w h q → nToI w h i ddx ddy = some (xyToI w q)) ∧
    (¬ InGrid w h q → nToI w h i ddx ddy = none) := by
  simp only [iToxy, nToI, InGrid]
  constructor
  · rintro ⟨h1, h2, h3, h4⟩
    rw [if_neg (by omega)]
  · intro hn
    rw [if_pos]
    by_contra hc
    exact hn ⟨by omega, by omega, by omega, by omega⟩

/-- C02: `getN` reports the neighbour in direction `n` (1..8): the value, if any, is the index
of an adjacent in-grid cell, `NO_I` is reported exactly if that cell is outside, and every
adjacent in-grid cell is reported for some `n`. -/
theorem C02_getN (w h : Nat) (i : Nat) (n : Nat) (hn : 1 ≤ n ∧ n ≤ 8) :
    let c := iToxy w i
    let q := nbr .D8 c n
    Adj .D8 c q ∧
    (InGrid w h q → getN w h i n = some (xyToI w q)) ∧
    (¬ InGrid w h q → getN w h i n = none) := by
  refine ⟨nbr_adj (mem_dirs.2 hn), ?_, ?_⟩
  · exact (C02_nToI w h i (d8x.getD n 0) (d8y.getD n 0)).1
  · exact (C02_nToI w h i (d8x.getD n 0) (d8y.getD n 0)).2

theorem C02_getN_complete (w h : Nat) (i : Nat) (q : Cell) (ha : Adj .D8 (iToxy w i) q)
    (hq : InGrid w h q) : ∃ n, 1 ≤ n ∧ n ≤ 8 ∧ getN w h i n = some (xyToI w q) := by
  obtain ⟨n, hn, rfl⟩ := adj_iff_nbr.1 ha
  obtain ⟨h1, h2⟩ := mem_dirs.1 hn
  exact ⟨n, h1, h2, (C02_getN w h i n ⟨h1, h2⟩).2.1 hq⟩

example : Adj .D8 (iToxy 3 4) (0, 0) ∧ InGrid 3 3 (0, 0) ∧ getN 3 3 4 2 = some 0 ∧
    getN 3 3 2 5 = none := by decide

/-- C02: adding the cached shift `nshift n` to a cell's index gives the index of the neighbour
in direction `n`, whenever that neighbour is in the raster (in particular for every interior
cell). -/
theorem C02_nshift (w : Nat) (c : Cell) (n : Nat) (hn : 1 ≤ n ∧ n ≤ 8) :
    xyToI w c + nshift w n = xyToI w (nbr .D8 c n) := by
  obtain ⟨h1, h2⟩ := hn
  interval_cases n <;> simp [xyToI, nshift, nbr, dx, dy, d8x, d8y] <;> ring

/-- C02: all neighbours of an interior cell are in the raster, and conversely a cell all of
whose D4 neighbours are in the raster is not an edge cell (`isEdgeCell`). -/
theorem C02_interior (w h : Nat) (c : Cell) (hc : InGrid w h c) (t : Topo) :
    isEdgeCell w h c = false ↔ ∀ q, Adj t c q → InGrid w h q := by
  obtain ⟨x, y⟩ := c
  obtain ⟨h1, h2, h3, h4⟩ := hc
  simp only at h1 h2 h3 h4
  constructor
  · intro he q ha
    simp [isEdgeCell] at he
    obtain ⟨qx, qy⟩ := q
    cases t
    · obtain ⟨_, h5, h6⟩ := ha
      simp only [InGrid] at *; omega
    · simp only [Adj, InGrid] at *; omega
  · intro hq
    by_contra hne
    simp only [Bool.not_eq_false, isEdgeCell, Bool.or_eq_true, decide_eq_true_eq] at hne
    have key : ∀ q, Adj .D4 (x, y) q → InGrid w h q := by
      intro q hq'
      apply hq
      cases t
      · obtain ⟨qx, qy⟩ := q
        simp only [Adj] at *
        refine ⟨?_, by omega, by omega⟩
        intro e; simp only [Prod.mk.injEq] at e; omega
      · exact hq'
    have a := key (x - 1, y) (by simp only [Adj]; omega)
    have b := key (x + 1, y) (by simp only [Adj]; omega)
    have c := key (x, y - 1) (by simp only [Adj]; omega)
    have d := key (x, y + 1) (by simp only [Adj]; omega)
    simp only [InGrid] at a b c d
    omega

example : InGrid 3 3 (1, 1) ∧ isEdgeCell 3 3 (1, 1) = false ∧ isEdgeCell 3 3 (2, 1) = true := by
  decide

/-! ## C03 -/

/-- C03: the direction tables list exactly the adjacent cells, each once. -/
theorem C03_directions (t : Topo) (a b : Cell) :
    (Adj t a b ↔ ∃ n, 1 ≤ n ∧ n ≤ nmax t ∧ nbr t a n = b) ∧
    (∀ m n, 1 ≤ m → m ≤ nmax t → 1 ≤ n → n ≤ nmax t → nbr t a m = nbr t a n → m = n) := by
  constructor
  · rw [adj_iff_nbr]
    simp only [mem_dirs, and_assoc]
  · intro m n h1 h2 h3 h4 e
    simp only [nbr, Prod.mk.injEq, add_right_inj] at e
    obtain ⟨e1, e2⟩ := e
    cases t
    · simp only [nmax] at h2 h4
      interval_cases m <;> interval_cases n <;> first | rfl | (revert e1 e2; decide)
    · simp only [nmax] at h2 h4
      interval_cases m <;> interval_cases n <;> first | rfl | (revert e1 e2; decide)

/-- C03: going in direction `n` and then in the inverse direction returns to the start; the
inverse of the inverse is the direction itself. -/
theorem C03_inverse (t : Topo) (c : Cell) (n : Nat) (h1 : 1 ≤ n) (h2 : n ≤ nmax t) :
    nbr t (nbr t c n) (dinverse t n) = c ∧ dinverse t (dinverse t n) = n ∧
      1 ≤ dinverse t n ∧ dinverse t n ≤ nmax t := by
  obtain ⟨x, y⟩ := c
  cases t
  · simp only [nmax] at h2
    interval_cases n <;> simp [nbr, dinverse, dx, dy, d8x, d8y, d8_inverse, nmax]
  · simp only [nmax] at h2
    interval_cases n <;> simp [nbr, dinverse, dx, dy, d4x, d4y, d4_inverse, nmax]

/-- C03: the `n8_diag` table flags exactly the directions changing both coordinates. -/
theorem C03_diag (n : Nat) (h1 : 1 ≤ n) (h2 : n ≤ 8) (c : Cell) :
    n8_diag.getD n false = true ↔ ((nbr .D8 c n).1 ≠ c.1 ∧ (nbr .D8 c n).2 ≠ c.2) := by
  interval_cases n <;> simp [n8_diag, nbr, dx, dy, d8x, d8y]

/-- C03: converting a RichDEM direction to its ArcGIS code and back is the identity, for the
whole raster. -/
theorem C03_arcgis_roundtrip (l : List Nat) (h : ∀ n ∈ l, n ≤ 8) :
    arcToRdAll (l.map (fun n => d8_arcgis.getD n 0)) = some l := by
  induction l with
  | nil => rfl
  | cons a l ih =>
    have ha : a ≤ 8 := h a (by simp)
    have e : arcToRd (d8_arcgis.getD a 0) = some a := by interval_cases a <;> rfl
    have ih' := ih (fun n hn => h n (by simp [hn]))
    simp only [arcToRdAll, List.map_cons, List.mapM_cons, e] at ih' ⊢
    rw [ih']; rfl

/-- C03: a code is accepted exactly if it is one of the nine ArcGIS codes, and then the result
is the direction having that code. -/
theorem C03_arcgis_reject (a : Nat) :
    (arcToRd a = none ↔ a ∉ d8_arcgis) ∧
    (∀ n, arcToRd a = some n → n ≤ 8 ∧ d8_arcgis.getD n 0 = a) := by
  constructor
  · unfold arcToRd
    split <;> simp_all [d8_arcgis]
  · intro n hn
    unfold arcToRd at hn
    split at hn <;> simp_all [d8_arcgis] <;> subst hn <;> simp

/-- C03: a raster containing any other code makes the conversion throw. -/
theorem C03_arcgis_reject_all (l : List Nat) : arcToRdAll l = none ↔ ∃ a ∈ l, a ∉ d8_arcgis := by
  induction l with
  | nil => simp [arcToRdAll]
  | cons a l ih =>
    simp only [arcToRdAll] at ih
    simp only [arcToRdAll, List.mapM_cons, List.mem_cons, exists_eq_or_imp]
    rw [← ih, ← (C03_arcgis_reject a).1]
    cases h1 : arcToRd a with
    | none => simp
    | some v => cases h2 : List.mapM arcToRd l <;> simp

example : arcToRdAll [1, 16, 0] = some [5, 1, 0] ∧ arcToRdAll [1, 3] = none := by decide

end RichDEM
