/-
Property theorems C55: surface area of a DEM.
-/
import Verif.Terrain.SurfaceArea
import Verif.Props.Fill

namespace RichDEM

variable (w h : Nat) (dem : Cell → ℝ) (nd zscale xd yd : ℝ)

/-- C55: one triangle contributes a quarter of the area (half the length of the cross product of
two sides) of the triangle in space with corners `(0,0,my)`, `(a,0,ndn)` and `(a,b,dn)`. -/
theorem C55_triangle (a b my dn ndn : ℝ) (hab : (a = xd ∧ b = yd) ∨ (a = yd ∧ b = xd)) :
    let u : ℝ × ℝ × ℝ := (a, 0, ndn - my)
    let v : ℝ × ℝ × ℝ := (a, b, dn - my)
    let cross : ℝ × ℝ × ℝ := (u.2.1 * v.2.2 - u.2.2 * v.2.1, u.2.2 * v.1 - u.1 * v.2.2,
      u.1 * v.2.1 - u.2.1 * v.1)
    triArea xd yd a b my dn ndn =
      (Real.sqrt (cross.1 ^ 2 + cross.2.1 ^ 2 + cross.2.2 ^ 2) / 2) / 4 := by
  intro u v cross
  rw [triArea_eq _ _ _ _ _ _ _ hab]
  have : cross.1 ^ 2 + cross.2.1 ^ 2 + cross.2.2 ^ 2 =
      (b * (ndn - my)) ^ 2 + (a * (ndn - dn)) ^ 2 + (a * b) ^ 2 := by
    simp only [cross, u, v]; ring
  rw [this]; ring

theorem cellSurface_sum (c : Cell) : cellSurface w h dem nd zscale xd yd c =
    dirArea w h dem nd zscale xd yd c 1 + dirArea w h dem nd zscale xd yd c 2 +
    dirArea w h dem nd zscale xd yd c 3 + dirArea w h dem nd zscale xd yd c 4 +
    dirArea w h dem nd zscale xd yd c 5 + dirArea w h dem nd zscale xd yd c 6 +
    dirArea w h dem nd zscale xd yd c 7 + dirArea w h dem nd zscale xd yd c 8 := by
  have hd : dirs .D8 = [1, 2, 3, 4, 5, 6, 7, 8] := by decide
  unfold cellSurface
  rw [hd]
  simp only [List.foldl_cons, List.foldl_nil, zero_add]

/-- The area of a triangle in space: half the length of the cross product of two sides. -/
noncomputable def triangleArea (o p q : ℝ × ℝ × ℝ) : ℝ :=
  Real.sqrt (((p.2.1 - o.2.1) * (q.2.2 - o.2.2) - (p.2.2 - o.2.2) * (q.2.1 - o.2.1)) ^ 2 +
    ((p.2.2 - o.2.2) * (q.1 - o.1) - (p.1 - o.1) * (q.2.2 - o.2.2)) ^ 2 +
    ((p.1 - o.1) * (q.2.1 - o.2.1) - (p.2.1 - o.2.1) * (q.1 - o.1)) ^ 2) / 2

open Classical in
/-- The point of the surface over the cell at distance `(i, j)` from `c`, seen from `c`; a cell that does not exist or is
NoData is taken to be as high as `c`. -/
noncomputable def surfacePoint (c : Cell) (i j : Int) : ℝ × ℝ × ℝ :=
  (i * xd, j * yd, zscale * (if InGrid w h (c.1 + i, c.2 + j) ∧ dem (c.1 + i, c.2 + j) ≠ nd then dem (c.1 + i, c.2 + j) else dem c))

/-- The two triangles spanned by the cell, the cell diagonal to it in direction `(i, j)` and the two cells between. -/
noncomputable def cornerArea (c : Cell) (i j : Int) : ℝ :=
  triangleArea (0, 0, zscale * dem c) (surfacePoint w h dem nd zscale xd yd c i 0) (surfacePoint w h dem nd zscale xd yd c i j) +
  triangleArea (0, 0, zscale * dem c) (surfacePoint w h dem nd zscale xd yd c 0 j) (surfacePoint w h dem nd zscale xd yd c i j)

/-- C55: the surface area of a cell is a quarter of the area of the eight triangles that join it to its neighbours (the
quarter of each that lies over the cell). -/
theorem C55_cell (c : Cell) : cellSurface w h dem nd zscale xd yd c =
    (cornerArea w h dem nd zscale xd yd c (-1) (-1) + cornerArea w h dem nd zscale xd yd c 1 (-1) +
      cornerArea w h dem nd zscale xd yd c (-1) 1 + cornerArea w h dem nd zscale xd yd c 1 1) / 4 := by
  rw [cellSurface_sum]
  have hz : ∀ n, nbrElev w h dem nd zscale c n =
      (surfacePoint w h dem nd zscale xd yd c (dx .D8 n) (dy .D8 n)).2.2 := by
    intro n
    unfold nbrElev surfacePoint nbr
    split <;> rfl
  have key : ∀ n, 1 ≤ n → n ≤ 8 → dirArea w h dem nd zscale xd yd c n =
      (let nn := if n + 1 = 9 then 1 else n + 1
       let p := if n % 2 = 0 then (n, nn) else (nn, n)
       triangleArea (0, 0, zscale * dem c) (surfacePoint w h dem nd zscale xd yd c (dx .D8 p.2) (dy .D8 p.2))
        (surfacePoint w h dem nd zscale xd yd c (dx .D8 p.1) (dy .D8 p.1))) / 4 := by
    intro n h1 h2
    have hdim := dirArea_dims n xd yd
    unfold dirArea
    dsimp only at hdim ⊢
    rw [triArea_eq _ _ _ _ _ _ _ hdim, hz, hz]
    clear hdim
    generalize zscale * dem c = my
    obtain ⟨Z, hZ⟩ : ∃ Z : Int → Int → ℝ, surfacePoint w h dem nd zscale xd yd c = fun (i j : Int) => ((i : ℝ) * xd, (j : ℝ) * yd, Z i j) :=
      ⟨fun i j => (surfacePoint w h dem nd zscale xd yd c i j).2.2, rfl⟩
    rw [hZ]
    unfold triangleArea
    interval_cases n <;> simp [n8diag, n8_diag, dx, dy, d8x, d8y] <;> ring_nf
  rw [key 1 (by omega) (by omega), key 2 (by omega) (by omega), key 3 (by omega) (by omega), key 4 (by omega) (by omega),
    key 5 (by omega) (by omega), key 6 (by omega) (by omega), key 7 (by omega) (by omega), key 8 (by omega) (by omega)]
  simp [dx, dy, d8x, d8y, cornerArea]
  ring

/-- C55: a cell's surface area is at least its planar area. -/
theorem C55_cell_at_least_planar (hx : 0 ≤ xd) (hy : 0 ≤ yd) (c : Cell) :
    xd * yd ≤ cellSurface w h dem nd zscale xd yd c := by
  rw [cellSurface_sum]
  have := fun n => dirArea_ge (w := w) (h := h) (dem := dem) (nd := nd) (zscale := zscale) hx hy c n
  linarith [this 1, this 2, this 3, this 4, this 5, this 6, this 7, this 8]

open Classical in
theorem surface_fold (hx : 0 ≤ xd) (hy : 0 ≤ yd) (l : List Cell) (a : ℝ) :
    l.foldlM (fun a c => if dem c = nd then some a
      else (checkArea (cellSurface w h dem nd zscale xd yd c) (xd * yd)).map (fun v => a + v)) a =
    some (a + (l.map (fun c => if dem c = nd then 0 else
      cellSurface w h dem nd zscale xd yd c)).sum) := by
  induction l generalizing a with
  | nil => simp
  | cons c l ih =>
    rw [List.foldlM_cons, List.map_cons, List.sum_cons]
    by_cases hc : dem c = nd
    · rw [if_pos hc, if_pos hc]
      show l.foldlM _ a = _
      rw [ih]; simp
    · rw [if_neg hc, if_neg hc]
      have h1 := C55_cell_at_least_planar w h dem nd zscale xd yd hx hy c
      have h2 : checkArea (cellSurface w h dem nd zscale xd yd c) (xd * yd) =
          some (cellSurface w h dem nd zscale xd yd c) := by
        unfold checkArea; rw [if_neg (not_lt.2 h1)]
      rw [h2]
      show l.foldlM _ (a + cellSurface w h dem nd zscale xd yd c) = _
      rw [ih, add_assoc]

open Classical in
theorem sum_planar_le (hx : 0 ≤ xd) (hy : 0 ≤ yd) (l : List Cell) :
    (l.countP (fun c => decide (dem c ≠ nd)) : ℝ) * (xd * yd) ≤
    (l.map (fun c => if dem c = nd then 0 else cellSurface w h dem nd zscale xd yd c)).sum := by
  induction l with
  | nil => simp
  | cons c l ih =>
    rw [List.countP_cons, List.map_cons, List.sum_cons]
    by_cases hc : dem c = nd
    · simpa [hc] using ih
    · have := C55_cell_at_least_planar w h dem nd zscale xd yd hx hy c
      rw [if_neg hc, if_pos (by simpa using hc)]
      push_cast
      linarith

open Classical in
/-- C55: over the reals `dem_surface_area` never throws; its result is the sum of the areas of the
data cells and is at least their planar area. -/
theorem C55_total (hx : 0 ≤ xd) (hy : 0 ≤ yd) :
    ∃ A, surfaceArea w h dem nd zscale xd yd = some A ∧
      A = ∑ c ∈ (gridCells w h).filter (fun c => dem c ≠ nd),
        cellSurface w h dem nd zscale xd yd c ∧
      (((gridCells w h).filter (fun c => dem c ≠ nd)).card : ℝ) * (xd * yd) ≤ A := by
  refine ⟨_, ?_, rfl, ?_⟩
  · unfold surfaceArea
    rw [surface_fold w h dem nd zscale xd yd hx hy]
    simp only [Option.map_some, zero_add]
    rw [if_neg (not_lt.2 (sum_planar_le w h dem nd zscale xd yd hx hy _))]
    congr 1
    rw [← List.sum_toFinset _ (nodup_allCells w h), toFinset_allCells, Finset.sum_filter]
    refine Finset.sum_congr rfl fun c _ => ?_
    by_cases hc : dem c = nd <;> simp [hc]
  · rw [← nsmul_eq_mul]
    exact Finset.card_nsmul_le_sum _ _ _
      (fun c _ => C55_cell_at_least_planar w h dem nd zscale xd yd hx hy c)

/-- C55: the area of a cell whose data neighbours are all at its own elevation is exactly its
planar area. -/
theorem C55_level_cell (hx : 0 ≤ xd) (hy : 0 ≤ yd) (c : Cell)
    (hl : ∀ b, Adj .D8 c b → InGrid w h b → dem b ≠ nd → dem b = dem c) :
    cellSurface w h dem nd zscale xd yd c = xd * yd := by
  have hn : ∀ n ∈ dirs .D8, nbrElev w h dem nd zscale c n = zscale * dem c := by
    intro n hn
    unfold nbrElev
    split
    · rename_i h1; rw [hl _ (nbr_adj hn) h1.1 h1.2]
    · rfl
  have key : ∀ n ∈ dirs .D8, dirArea w h dem nd zscale xd yd c n = xd * yd / 8 := by
    intro n hnd
    unfold dirArea
    have hdim := dirArea_dims n xd yd
    dsimp only at hdim ⊢
    rw [triArea_eq _ _ _ _ _ _ _ hdim]
    have h8 : 1 ≤ n ∧ n ≤ 8 := mem_dirs.1 hnd
    have m1 : (if n8diag n then (n, if n + 1 = 9 then 1 else n + 1) else
        (if n + 1 = 9 then 1 else n + 1, n)).1 ∈ dirs .D8 := by
      refine mem_dirs.2 ?_
      show 1 ≤ _ ∧ _ ≤ 8
      split <;> dsimp only <;> (try split) <;> omega
    have m2 : (if n8diag n then (n, if n + 1 = 9 then 1 else n + 1) else
        (if n + 1 = 9 then 1 else n + 1, n)).2 ∈ dirs .D8 := by
      refine mem_dirs.2 ?_
      show 1 ≤ _ ∧ _ ≤ 8
      split <;> dsimp only <;> (try split) <;> omega
    rw [hn _ m1, hn _ m2]
    rcases hdim with ⟨e1, e2⟩ | ⟨e1, e2⟩ <;> rw [e1, e2] <;>
      simp only [sub_self, mul_zero, ne_eq, OfNat.ofNat_ne_zero, not_false_eq_true, zero_pow,
        zero_add]
    · rw [Real.sqrt_sq (by positivity)]
    · rw [Real.sqrt_sq (by positivity), mul_comm]
  rw [cellSurface_sum]
  have hd : ∀ n, 1 ≤ n → n ≤ 8 → n ∈ dirs .D8 := fun n h1 h2 => mem_dirs.2 ⟨h1, h2⟩
  rw [key 1 (hd 1 (by omega) (by omega)), key 2 (hd 2 (by omega) (by omega)),
    key 3 (hd 3 (by omega) (by omega)), key 4 (hd 4 (by omega) (by omega)),
    key 5 (hd 5 (by omega) (by omega)), key 6 (hd 6 (by omega) (by omega)),
    key 7 (hd 7 (by omega) (by omega)), key 8 (hd 8 (by omega) (by omega))]
  ring

open Classical in
/-- C55: level ground: the surface area of a DEM with a single elevation is its planar area. -/
theorem C55_level (hx : 0 ≤ xd) (hy : 0 ≤ yd) (z : ℝ)
    (hz : ∀ c, InGrid w h c → dem c ≠ nd → dem c = z) :
    surfaceArea w h dem nd zscale xd yd =
      some ((((gridCells w h).filter (fun c => dem c ≠ nd)).card : ℝ) * (xd * yd)) := by
  obtain ⟨A, h1, h2, _⟩ := C55_total w h dem nd zscale xd yd hx hy
  rw [h1, h2]
  congr 1
  rw [Finset.sum_congr rfl (g := fun _ => xd * yd), Finset.sum_const, nsmul_eq_mul]
  intro c hc
  rw [Finset.mem_filter] at hc
  have hcg : InGrid w h c := by
    have := hc.1
    rw [← toFinset_allCells, List.mem_toFinset, mem_allCells] at this; exact this
  refine C55_level_cell w h dem nd zscale xd yd hx hy c ?_
  intro b _ hb hbd
  rw [hz b hb hbd, hz c hcg hc.2]

/-- C55: raising the whole DEM by a constant (NoData with it) changes no cell's area. -/
theorem C55_shift (k : ℝ) (c : Cell) :
    cellSurface w h (fun c => dem c + k) (nd + k) zscale xd yd c =
      cellSurface w h dem nd zscale xd yd c := by
  have hE : ∀ n, nbrElev w h (fun c => dem c + k) (nd + k) zscale c n =
      nbrElev w h dem nd zscale c n + zscale * k := by
    intro n
    unfold nbrElev
    by_cases h1 : InGrid w h (nbr .D8 c n) ∧ dem (nbr .D8 c n) ≠ nd
    · rw [if_pos h1, if_pos ⟨h1.1, by simpa using h1.2⟩]; ring
    · rw [if_neg h1, if_neg (fun e => h1 ⟨e.1, by simpa using e.2⟩)]; ring
  have key : ∀ n, dirArea w h (fun c => dem c + k) (nd + k) zscale xd yd c n =
      dirArea w h dem nd zscale xd yd c n := by
    intro n
    unfold dirArea
    simp only [hE]
    unfold triArea
    have e1 : ∀ p q : ℝ, p + zscale * k - zscale * (q + k) = p - zscale * q := by intros; ring
    have e2 : ∀ p q : ℝ, p + zscale * k - (q + zscale * k) = p - q := by intros; ring
    simp only [e1, e2]
  rw [cellSurface_sum, cellSurface_sum]
  simp only [key]

/-- Non-vacuity: a one-cell raster and a two-cell slope. -/
example : surfaceArea 1 1 (fun _ => 5) (-1) 1 2 3 = some 6 := by
  have := C55_level 1 1 (fun _ => 5) (-1) 1 2 3 (by norm_num) (by norm_num) 5 (fun _ _ _ => rfl)
  rw [this]
  have hc : gridCells 1 1 = {((0 : Int), (0 : Int))} := by decide +kernel
  rw [hc]
  norm_num

end RichDEM
