import Verif.Raster
import Verif.Grid

/-!
C34 (flips, transpose), C35 (resize, expand), C36 (rows, columns, edges, counts).
-/

namespace RichDEM

open Raster
variable {T : Type}

/-! ### C34 -/

/-- **C34 (flipVert).** For every raster, `flipVert` succeeds and moves the value of cell
`(x, h-1-y)` to `(x, y)`; dimensions stay. -/
theorem C34_flipVert (r : Raster T) (hr : r.WF) :
    ∃ r', r.flipVert = some r' ∧ r'.WF ∧ r'.w = r.w ∧ r'.h = r.h ∧
      ∀ x y, x < r.w → y < r.h → r'.cell x y = r.cell x (r.h - 1 - y) := by
  have hr' : r.data.length = r.w * r.h := hr
  rcases Nat.eq_zero_or_pos r.w with hw0 | hw
  · refine ⟨r, ?_, hr, rfl, rfl, ?_⟩
    · have : rowMajor r.w (r.h / 2) = [] := by
        rw [List.eq_nil_iff_forall_not_mem]
        intro k hk; rw [mem_rowMajor, hw0] at hk; simp at hk
      simp [flipVert, this, swaps]
    · intro x y hx; omega
  · have hdiv : ∀ k, k < r.w * r.h → k / r.w < r.h := fun k hk =>
      (Nat.div_lt_iff_lt_mul hw).2 (by rw [Nat.mul_comm]; exact hk)
    have hσ : ∀ k, k < r.w * r.h → (r.h - 1 - k / r.w) * r.w + k % r.w < r.w * r.h := by
      intro k hk
      have := hdiv k hk
      exact idx_lt (Nat.mod_lt _ hw) (by generalize k / r.w = q at *; omega)
    have hinv : ∀ k, k < r.w * r.h →
        (r.h - 1 - ((r.h - 1 - k / r.w) * r.w + k % r.w) / r.w) * r.w +
          ((r.h - 1 - k / r.w) * r.w + k % r.w) % r.w = k := by
      intro k hk
      have := hdiv k hk
      rw [idx_div (Nat.mod_lt _ hw), idx_mod (Nat.mod_lt _ hw),
        show r.h - 1 - (r.h - 1 - k / r.w) = k / r.w by generalize k / r.w = q at *; omega]
      exact Nat.div_add_mod' k r.w
    obtain ⟨l', e, hlen, hs⟩ := swaps_spec (T := T) hσ hinv (rowMajor r.w (r.h / 2)) r.data hr'
      (nodup_rowMajor _ _) (by
        intro i hi; rw [mem_rowMajor] at hi
        have : r.h / 2 * r.w ≤ r.h * r.w := Nat.mul_le_mul_right _ (Nat.div_le_self _ _)
        rw [Nat.mul_comm r.w]; omega)
    refine ⟨{ r with data := l' }, by simp [flipVert, e], hlen, rfl, rfl, ?_⟩
    intro x y hx hy
    rw [cell_eq _ (by exact hx) (by exact hy), cell_eq r hx (by omega)]
    simp only
    rw [hs _ (idx_lt hx hy), idx_div hx, idx_mod hx]
    simp only [mem_rowMajor]
    have m1 : y * r.w + x < r.h / 2 * r.w ↔ y < r.h / 2 := by
      rw [← Nat.div_lt_iff_lt_mul hw, idx_div hx]
    have m2 : (r.h - 1 - y) * r.w + x < r.h / 2 * r.w ↔ r.h - 1 - y < r.h / 2 := by
      rw [← Nat.div_lt_iff_lt_mul hw, idx_div hx]
    simp only [m1, m2]
    by_cases h1 : y < r.h / 2
    · have h2 : ¬ (r.h - 1 - y < r.h / 2) := by omega
      simp [h1, h2]
    · by_cases h2 : r.h - 1 - y < r.h / 2
      · simp [h1, h2]
      · have : r.h - 1 - y = y := by omega
        simp [h1, this]

/-- **C34 (flipVert).** Flipping twice restores the raster. -/
theorem C34_flipVert_twice (r : Raster T) (hr : r.WF) :
    ∃ r', r.flipVert = some r' ∧ r'.flipVert = some r := by
  obtain ⟨r1, e1, wf1, w1, h1, c1⟩ := C34_flipVert r hr
  obtain ⟨r2, e2, wf2, w2, h2, c2⟩ := C34_flipVert r1 wf1
  refine ⟨r1, e1, ?_⟩
  rw [e2]
  congr 1
  have hd : r2.data = r.data := by
    apply List.ext_getElem?
    intro k
    by_cases hk : k < r.w * r.h
    · have hw : 0 < r.w := by
        rcases Nat.eq_zero_or_pos r.w with h | h
        · rw [h] at hk; simp at hk
        · exact h
      have hx := Nat.mod_lt k hw
      have hy : k / r.w < r.h := (Nat.div_lt_iff_lt_mul hw).2 (by rw [Nat.mul_comm]; exact hk)
      have a := c2 (k % r.w) (k / r.w) (by omega) (by omega)
      have hr1 : r1.h - 1 - k / r.w < r.h := by rw [h1]; generalize k / r.w = q at *; omega
      rw [c1 _ _ (by omega) hr1, h1,
        show r.h - 1 - (r.h - 1 - k / r.w) = k / r.w by
          clear hr1 a; generalize k / r.w = q at *; omega,
        cell_eq r hx hy, cell_eq r2 (by omega) (by omega), w2, w1, Nat.div_add_mod' k r.w] at a
      exact a
    · unfold WF at wf2 hr
      rw [w2, h2, w1, h1] at wf2
      rw [List.getElem?_eq_none (by omega), List.getElem?_eq_none (by omega)]
  have keep : ∀ (a b : Raster T), a.flipVert = some b →
      b.noData = a.noData ∧ b.ndc = a.ndc ∧ b.owned = a.owned ∧ b.nshiftW = a.nshiftW := by
    intro a b h
    simp only [flipVert, Option.map_eq_some_iff] at h
    obtain ⟨d, _, rfl⟩ := h
    exact ⟨rfl, rfl, rfl, rfl⟩
  obtain ⟨k1, k2, k3, k4⟩ := keep _ _ e1
  obtain ⟨j1, j2, j3, j4⟩ := keep _ _ e2
  cases r; cases r2
  simp_all

/-- **C34 is false of flipHorz**: on every non-empty raster it touches memory outside the
raster (it starts from the cell one past the end of the row). -/
theorem C34_flipHorz_out_of_bounds (r : Raster T) (hr : r.WF) (hw : 0 < r.w) (hh : 0 < r.h) :
    r.flipHorz = none := by
  unfold flipHorz
  have hr' : r.data.length = r.w * r.h := hr
  obtain ⟨h', hh'⟩ : ∃ h', r.h = h' + 1 := ⟨r.h - 1, by omega⟩
  have keepLen : ∀ f s e (l l' : List T), flipRow f s e l = some l' → l'.length = l.length := by
    intro f
    induction f with
    | zero => intro s e l l' h; simp only [flipRow, Option.some.injEq] at h; rw [h]
    | succ f ih =>
      intro s e l l' h
      simp only [flipRow] at h
      split at h
      · cases hsw : swapAt l s e with
        | none => rw [hsw] at h; simp at h
        | some l1 =>
          rw [hsw, Option.bind_some] at h
          rw [ih _ _ _ _ h]
          unfold swapAt at hsw
          split at hsw
          · cases hsw; simp
          · cases hsw
      · simp only [Option.some.injEq] at h; rw [h]
  have hfold : ∀ n (d : Option (List T)), (∀ l, d = some l → l.length = r.w * r.h) →
      ∀ l, (List.range n).foldl (fun d y => d.bind (flipRow (r.w + 1) (y * r.w) (y * r.w + r.w))) d
        = some l → l.length = r.w * r.h := by
    intro n
    induction n with
    | zero => intro d hd l h; exact hd l h
    | succ n ih =>
      intro d hd l h
      rw [List.range_succ, List.foldl_append, List.foldl_cons, List.foldl_nil] at h
      cases hq : (List.range n).foldl
          (fun d y => d.bind (flipRow (r.w + 1) (y * r.w) (y * r.w + r.w))) d with
      | none => rw [hq] at h; simp at h
      | some l0 =>
        rw [hq, Option.bind_some] at h
        rw [keepLen _ _ _ _ _ h]; exact ih d hd l0 hq
  rw [hh', List.range_succ, List.foldl_append, List.foldl_cons, List.foldl_nil]
  cases hq : (List.range h').foldl
      (fun d y => d.bind (flipRow (r.w + 1) (y * r.w) (y * r.w + r.w))) (some r.data) with
  | none => rfl
  | some l0 =>
    have hlen := hfold h' (some r.data) (by intro l h; cases h; exact hr') l0 hq
    rw [Option.bind_some, flipRow, if_pos (by omega)]
    have : l0[h' * r.w + r.w]? = none := by
      apply List.getElem?_eq_none
      rw [hlen, hh', Nat.mul_add, Nat.mul_one, Nat.mul_comm]
    simp [swapAt, this]

/-- **C34 is false of transpose**: on every square raster it leaves every cell where it was. -/
theorem C34_transpose_square_is_identity (r : Raster T) (hr : r.WF) (hsq : r.w = r.h) :
    r.transpose = some r := by
  have hr' : r.data.length = r.w * r.w := by rw [hsq]; rw [WF, hsq] at hr; exact hr
  rcases Nat.eq_zero_or_pos r.w with hw0 | hw
  · have : rowMajor r.w r.h = [] := by
      rw [List.eq_nil_iff_forall_not_mem]
      intro k hk; rw [mem_rowMajor, hw0] at hk; simp at hk
    cases r
    simp_all [transpose, swaps]
  · have hdiv : ∀ k, k < r.w * r.w → k / r.w < r.w := fun k hk => (Nat.div_lt_iff_lt_mul hw).2 hk
    obtain ⟨l', e, hlen, hs⟩ := swaps_spec (T := T) (σ := fun k => (k % r.w) * r.w + k / r.w)
      (n := r.w * r.w) (fun k hk => idx_lt (hdiv k hk) (Nat.mod_lt _ hw)) (by
        intro k hk
        rw [idx_mod (hdiv k hk), idx_div (hdiv k hk)]
        exact Nat.div_add_mod' k r.w) (rowMajor r.w r.w) r.data hr' (nodup_rowMajor _ _)
      (by intro i hi; rwa [mem_rowMajor] at hi)
    have : l' = r.data := by
      apply List.ext_getElem?
      intro k
      by_cases hk : k < r.w * r.w
      · rw [hs k hk]
        have h1 : k ∈ rowMajor r.w r.w := mem_rowMajor.2 hk
        have h2 : (k % r.w) * r.w + k / r.w ∈ rowMajor r.w r.w :=
          mem_rowMajor.2 (idx_lt (hdiv k hk) (Nat.mod_lt _ hw))
        simp [h1, h2]
      · rw [List.getElem?_eq_none (by omega), List.getElem?_eq_none (by omega)]
    unfold transpose
    rw [← hsq, e, this]
    cases r; simp_all

/-- **C34 is false of transpose**: a 3×2 raster whose transposed cells are not where the
operation puts them, and whose neighbour shifts are those of the old width. -/
theorem C34_transpose_wrong :
    let r : Raster Int := ⟨3, 2, [1, 2, 3, 4, 5, 6], -1, none, true, 3⟩
    r.WF ∧ ∃ r', r.transpose = some r' ∧ r'.w = 2 ∧ r'.h = 3 ∧ r'.nshiftW = 3 ∧
      r'.data ≠ [1, 4, 2, 5, 3, 6] := by
  refine ⟨rfl, ⟨2, 3, [1, 4, 5, 2, 3, 6], -1, none, true, 3⟩, ?_, rfl, rfl, rfl, by decide⟩
  decide +kernel

/-- Non-vacuity: a 3×3 raster, flipped. -/
example : (Raster.flipVert (⟨3, 3, [1, 2, 3, 4, 5, 6, 7, 8, 9], -1, none, true, 3⟩ : Raster Int)).map
    (·.data) = some [7, 8, 9, 4, 5, 6, 1, 2, 3] := by decide +kernel

/-! ### C35 -/

/-- **C35 (resize).** Whenever `resize` returns, the raster has the requested size, every cell
has the given value, and the neighbour shifts are those of the new width.  It returns exactly when
the raster owns its memory or the number of cells stays the same. -/
theorem C35_resize (r : Raster T) (w h : Nat) (v : T) :
    (∀ r', r.resize w h v = some r' → r'.WF ∧ r'.w = w ∧ r'.h = h ∧ r'.nshiftW = w ∧
      ∀ x y, x < w → y < h → r'.cell x y = some v) ∧
    ((∃ r', r.resize w h v = some r') ↔ r.owned = true ∨ r.data.length = w * h) := by
  constructor
  · intro r' he
    unfold Raster.resize at he
    split at he
    · cases he
    · simp only [Option.some.injEq] at he
      subst he
      refine ⟨by simp [WF], rfl, rfl, rfl, ?_⟩
      intro x y hx hy
      rw [cell_eq _ (by exact hx) (by exact hy)]
      simp only [List.getElem?_replicate, idx_lt hx hy, if_true]
  · unfold Raster.resize
    by_cases ho : r.owned = true <;> by_cases hl : r.data.length = w * h <;> simp [ho, hl]

theorem expandCopy_inner (oldW newW y : Nat) (old : List T) (hW : oldW ≤ newW)
    (hold : (y + 1) * oldW ≤ old.length) :
    ∀ n, n ≤ oldW → ∀ d : List T, (y + 1) * newW ≤ d.length →
      let d' := (List.range n).foldl (fun d x =>
        match old[y * oldW + x]? with
        | some v => d.set (y * newW + x) v
        | none => d) d
      d'.length = d.length ∧ ∀ k, d'[k]? =
        if y * newW ≤ k ∧ k < y * newW + n then old[y * oldW + (k - y * newW)]? else d[k]? := by
  intro n
  induction n with
  | zero =>
    intro _ d _
    refine ⟨rfl, ?_⟩
    intro k
    have : ¬ (y * newW ≤ k ∧ k < y * newW + 0) := by omega
    simp
  | succ n ih =>
    intro hn d hd
    obtain ⟨h1, h2⟩ := ih (by omega) d hd
    simp only [List.range_succ, List.foldl_append, List.foldl_cons, List.foldl_nil]
    have ho : y * oldW + n < old.length := by rw [Nat.add_mul] at hold; omega
    rw [List.getElem?_eq_getElem ho]
    simp only
    generalize List.foldl _ d (List.range n) = d1 at h1 h2
    refine ⟨by simpa using h1, ?_⟩
    intro k
    rw [List.getElem?_set, h2 k]
    have hn' : y * newW + n < d1.length := by rw [h1]; rw [Nat.add_mul] at hd; omega
    by_cases hk : y * newW + n = k
    · subst hk
      have e1 : ¬ (y * newW ≤ y * newW + n ∧ y * newW + n < y * newW + n) := by omega
      have e2 : (y * newW ≤ y * newW + n ∧ y * newW + n < y * newW + (n + 1)) := by omega
      rw [if_pos rfl, if_pos hn', if_pos e2, Nat.add_sub_cancel_left,
        List.getElem?_eq_getElem ho]
    · rw [if_neg hk]
      by_cases hc : y * newW ≤ k ∧ k < y * newW + n
      · rw [if_pos hc, if_pos (by omega)]
      · rw [if_neg hc, if_neg (by omega)]

theorem expandCopy_spec (oldW newW oldH : Nat) (old : List T) (hW : oldW ≤ newW)
    (hold : old.length = oldW * oldH) :
    ∀ n, n ≤ oldH → ∀ d : List T, n * newW ≤ d.length →
      let d' := expandCopy oldW newW n old d
      d'.length = d.length ∧ ∀ x y, x < newW → d'[y * newW + x]? =
        if x < oldW ∧ y < n then old[y * oldW + x]? else d[y * newW + x]? := by
  intro n
  induction n with
  | zero => intro _ d _; refine ⟨rfl, ?_⟩; intro x y _; simp [expandCopy]
  | succ n ih =>
    intro hn d hd
    have hd' : n * newW ≤ d.length := by rw [Nat.add_mul] at hd; omega
    obtain ⟨h1, h2⟩ := ih (by omega) d hd'
    have e : expandCopy oldW newW (n + 1) old d =
        (List.range oldW).foldl (fun d x =>
          match old[n * oldW + x]? with
          | some v => d.set (n * newW + x) v
          | none => d) (expandCopy oldW newW n old d) := by
      unfold expandCopy
      rw [List.range_succ, List.foldl_append]; rfl
    have hold' : (n + 1) * oldW ≤ old.length := by
      rw [hold, Nat.mul_comm oldW]; exact Nat.mul_le_mul_right _ hn
    obtain ⟨g1, g2⟩ := expandCopy_inner oldW newW n old hW hold' oldW (Nat.le_refl _)
      (expandCopy oldW newW n old d) (by rw [h1]; exact hd)
    simp only at g1 g2 ⊢
    rw [e]
    refine ⟨by rw [g1, h1], ?_⟩
    intro x y hx
    rw [g2]
    by_cases hy : y = n
    · subst hy
      by_cases hxo : x < oldW
      · have c1 : y * newW ≤ y * newW + x ∧ y * newW + x < y * newW + oldW := by omega
        rw [if_pos c1, if_pos ⟨hxo, by omega⟩, Nat.add_sub_cancel_left]
      · have c1 : ¬ (y * newW ≤ y * newW + x ∧ y * newW + x < y * newW + oldW) := by omega
        rw [if_neg c1, if_neg (by omega), h2 x y hx, if_neg (by omega)]
    · have c1 : ¬ (n * newW ≤ y * newW + x ∧ y * newW + x < n * newW + oldW) := by
        rintro ⟨a, b⟩
        rcases Nat.lt_or_gt_of_ne hy with hlt | hgt
        · have : (y + 1) * newW ≤ n * newW := Nat.mul_le_mul_right _ hlt
          rw [Nat.add_mul] at this; omega
        · have : (n + 1) * newW ≤ y * newW := Nat.mul_le_mul_right _ hgt
          rw [Nat.add_mul] at this; omega
      rw [if_neg c1, h2 x y hx]
      by_cases hxo : x < oldW ∧ y < n
      · rw [if_pos hxo, if_pos ⟨hxo.1, by omega⟩]
      · rw [if_neg hxo, if_neg (by omega)]

/-- **C35 (expand).** Expanding an owned raster to a size at least as large keeps every old
cell at its coordinates and gives every new cell the fill value. -/
theorem C35_expand (r : Raster T) (hr : r.WF) (ho : r.owned = true) (w h : Nat) (v : T)
    (hw : r.w ≤ w) (hh : r.h ≤ h) (hn : r.nshiftW = r.w) :
    ∃ r', r.expand w h v = some r' ∧ r'.WF ∧ r'.w = w ∧ r'.h = h ∧ r'.nshiftW = w ∧
      ∀ x y, x < w → y < h →
        r'.cell x y = if x < r.w ∧ y < r.h then r.cell x y else some v := by
  unfold Raster.expand
  by_cases hsame : w = r.w ∧ h = r.h
  · rw [if_pos hsame]
    refine ⟨r, rfl, hr, hsame.1.symm, hsame.2.symm, by rw [hn, hsame.1], ?_⟩
    intro x y hx hy
    rw [if_pos (by omega)]
  · rw [if_neg hsame, if_neg (by simp [ho]), if_neg (by omega), if_neg (by omega)]
    simp only [Raster.resize, Bool.true_eq_false, and_false, if_false]
    have hsp := expandCopy_spec r.w w r.h r.data hw hr r.h (Nat.le_refl _)
      (List.replicate (w * h) v) (by
        rw [List.length_replicate, Nat.mul_comm w]; exact Nat.mul_le_mul_right _ hh)
    simp only at hsp
    refine ⟨_, rfl, ?_, rfl, rfl, rfl, ?_⟩
    · unfold WF; simp only; rw [hsp.1, List.length_replicate]
    · intro x y hx hy
      rw [cell_eq _ (by exact hx) (by exact hy)]
      simp only
      rw [hsp.2 x y hx]
      by_cases hc : x < r.w ∧ y < r.h
      · rw [if_pos hc, if_pos hc, cell_eq r hc.1 hc.2]
      · rw [if_neg hc, if_neg hc, List.getElem?_replicate, if_pos (idx_lt hx hy)]

/-- **C35 (expand).** It refuses, changing nothing, to shrink or to expand memory it does not
own. -/
theorem C35_expand_refuses (r : Raster T) (w h : Nat) (v : T) (hne : ¬ (w = r.w ∧ h = r.h))
    (hbad : r.owned = false ∨ w < r.w ∨ h < r.h) : r.expand w h v = none := by
  unfold Raster.expand
  rw [if_neg hne]
  rcases hbad with h1 | h1 | h1
  · simp [h1]
  · simp [h1]
  · simp only [h1, if_true]; split <;> simp

/-- Non-vacuity. -/
example : ((⟨2, 2, [1, 2, 3, 4], -1, none, true, 2⟩ : Raster Int).expand 3 3 9).map (·.data) =
    some [1, 2, 9, 3, 4, 9, 9, 9, 9] := by decide +kernel

/-! ### C36 -/

theorem setRow_spec (r : Raster T) (hr : r.WF) (y0 : Nat) (v : T) :
    (r.setRow y0 v).WF ∧ (r.setRow y0 v).w = r.w ∧ (r.setRow y0 v).h = r.h ∧
      ∀ x y, x < r.w → y < r.h →
        (r.setRow y0 v).cell x y = if y = y0 then some v else r.cell x y := by
  obtain ⟨h1, h2⟩ := foldl_set_const (T := T) (fun x => y0 * r.w + x) v (List.range r.w) r.data
  refine ⟨?_, rfl, rfl, ?_⟩
  · unfold WF setRow; simp only; rw [h1]; exact hr
  · intro x y hx hy
    have hr' : r.data.length = r.w * r.h := hr
    rw [cell_eq _ (by exact hx) (by exact hy), cell_eq r hx hy]
    unfold setRow; simp only
    rw [h2 _ (by rw [hr']; exact idx_lt hx hy)]
    have : y * r.w + x ∈ (List.range r.w).map (fun x => y0 * r.w + x) ↔ y = y0 := by
      simp only [List.mem_map, List.mem_range]
      constructor
      · rintro ⟨x', hx', e⟩
        have h3 : (y0 * r.w + x') / r.w = (y * r.w + x) / r.w := congrArg (· / r.w) e
        rw [idx_div hx', idx_div hx] at h3; exact h3.symm
      · rintro rfl; exact ⟨x, hx, rfl⟩
    simp only [this]

theorem setCol_spec (r : Raster T) (hr : r.WF) (x0 : Nat) (v : T) (hx0 : x0 < r.w) :
    (r.setCol x0 v).WF ∧ (r.setCol x0 v).w = r.w ∧ (r.setCol x0 v).h = r.h ∧
      ∀ x y, x < r.w → y < r.h →
        (r.setCol x0 v).cell x y = if x = x0 then some v else r.cell x y := by
  obtain ⟨h1, h2⟩ := foldl_set_const (T := T) (fun y => y * r.w + x0) v (List.range r.h) r.data
  refine ⟨?_, rfl, rfl, ?_⟩
  · unfold WF setCol; simp only; rw [h1]; exact hr
  · intro x y hx hy
    have hr' : r.data.length = r.w * r.h := hr
    rw [cell_eq _ (by exact hx) (by exact hy), cell_eq r hx hy]
    unfold setCol; simp only
    rw [h2 _ (by rw [hr']; exact idx_lt hx hy)]
    have : y * r.w + x ∈ (List.range r.h).map (fun y => y * r.w + x0) ↔ x = x0 := by
      simp only [List.mem_map, List.mem_range]
      constructor
      · rintro ⟨y', hy', e⟩
        have h3 : (y' * r.w + x0) % r.w = (y * r.w + x) % r.w := congrArg (· % r.w) e
        rw [idx_mod hx0, idx_mod hx] at h3; exact h3.symm
      · rintro rfl; exact ⟨y, hy, rfl⟩
    simp only [this]

/-- **C36 (setRow, setCol).** Exactly the cells of the named row/column get the value. -/
theorem C36_setRow_setCol (r : Raster T) (hr : r.WF) (x0 y0 : Nat) (hx0 : x0 < r.w)
    (v : T) (x y : Nat) (hx : x < r.w) (hy : y < r.h) :
    (r.setRow y0 v).cell x y = (if y = y0 then some v else r.cell x y) ∧
      (r.setCol x0 v).cell x y = (if x = x0 then some v else r.cell x y) :=
  ⟨(setRow_spec r hr y0 v).2.2.2 x y hx hy, (setCol_spec r hr x0 v hx0).2.2.2 x y hx hy⟩

/-- **C36 (setEdges).** Exactly the border cells get the value. -/
theorem C36_setEdges (r : Raster T) (hr : r.WF) (v : T) (x y : Nat) (hx : x < r.w) (hy : y < r.h) :
    (r.setEdges v).cell x y =
      if x = 0 ∨ y = 0 ∨ x = r.w - 1 ∨ y = r.h - 1 then some v else r.cell x y := by
  unfold setEdges
  obtain ⟨w1, a1, b1, c1⟩ := setRow_spec r hr 0 v
  obtain ⟨w2, a2, b2, c2⟩ := setRow_spec (r.setRow 0 v) w1 (r.h - 1) v
  obtain ⟨w3, a3, b3, c3⟩ := setCol_spec ((r.setRow 0 v).setRow (r.h - 1) v) w2 0 v (by omega)
  obtain ⟨w4, a4, b4, c4⟩ := setCol_spec (((r.setRow 0 v).setRow (r.h - 1) v).setCol 0 v) w3
    (r.w - 1) v (by omega)
  rw [c4 x y (by omega) (by omega), c3 x y (by omega) (by omega), c2 x y (by omega) (by omega),
    c1 x y hx hy]
  by_cases h1 : x = r.w - 1
  · simp [h1]
  · by_cases h2 : x = 0
    · simp [h2]
    · by_cases h3 : y = r.h - 1
      · simp [h3]
      · by_cases h4 : y = 0 <;> simp [h1, h2, h3, h4]

/-- **C36 (getRowData, getColData).** The returned vectors are the cells of the row (left to
right) and of the column (top to bottom). -/
theorem C36_getRow_getCol (r : Raster T) (hr : r.WF) :
    (∀ y, y < r.h → (r.getRowData y).length = r.w ∧
      ∀ x, x < r.w → (r.getRowData y)[x]? = r.cell x y) ∧
    (∀ x, x < r.w → ∃ l, r.getColData x = some l ∧ l.length = r.h ∧
      ∀ y, y < r.h → l[y]? = r.cell x y) := by
  have hr' : r.data.length = r.w * r.h := hr
  constructor
  · intro y hy
    unfold getRowData
    have hle : (y + 1) * r.w ≤ r.h * r.w := Nat.mul_le_mul_right _ hy
    rw [Nat.add_mul, Nat.mul_comm r.h] at hle
    refine ⟨?_, ?_⟩
    · rw [List.length_take, List.length_drop]; omega
    · intro x hx
      rw [List.getElem?_take, if_pos hx, List.getElem?_drop, cell_eq r hx hy]
  · intro x hx
    unfold getColData
    have : ∀ n, n ≤ r.h → ∃ l, (List.range n).mapM (fun y => r.data[y * r.w + x]?) = some l ∧
        l.length = n ∧ ∀ y, y < n → l[y]? = r.data[y * r.w + x]? := by
      intro n
      induction n with
      | zero => intro _; exact ⟨[], rfl, rfl, by simp⟩
      | succ n ih =>
        intro hn
        obtain ⟨l, e, hl, hc⟩ := ih (by omega)
        have hlt : n * r.w + x < r.data.length := by rw [hr']; exact idx_lt hx (by omega)
        refine ⟨l ++ [r.data[n * r.w + x]], ?_, by simp [hl], ?_⟩
        · rw [List.range_succ, List.mapM_append, e]
          simp [List.getElem?_eq_getElem hlt]
        · intro y hy
          by_cases h : y < n
          · rw [List.getElem?_append_left (by omega)]; exact hc y h
          · have : y = n := by omega
            subst this
            rw [List.getElem?_append_right (by omega), hl, Nat.sub_self]
            simp [List.getElem?_eq_getElem hlt]
    obtain ⟨l, e, hl, hc⟩ := this r.h (Nat.le_refl _)
    refine ⟨l, e, hl, ?_⟩
    intro y hy
    rw [hc y hy, cell_eq r hx hy]

section
variable [DecidableEq T]

omit [DecidableEq T] in
theorem foldl_count (p : T → Prop) [DecidablePred p] :
    ∀ (l : List T) (c : Nat), l.foldl (fun c z => if p z then c + 1 else c) c =
      c + l.countP (fun z => decide (p z)) := by
  intro l
  induction l with
  | nil => intro c; rfl
  | cons a l ih =>
    intro c
    rw [List.foldl_cons, ih, List.countP_cons]
    by_cases h : p a <;> simp [h] <;> omega

/-- **C36 (counting).** `countval` is the number of cells with the value; a fresh
`numDataCells` is the number of cells that are not NoData. -/
theorem C36_counts (r : Raster T) (v : T) :
    r.countval v = r.data.count v ∧
      (r.ndc = none → r.numDataCells.1 = r.data.countP (fun z => decide (z ≠ r.noData))) ∧
      r.numDataCells.2.data = r.data := by
  refine ⟨?_, ?_, ?_⟩
  · unfold countval
    rw [foldl_count (fun z => z = v), Nat.zero_add, List.count]
    apply List.countP_congr
    intro z _; simp
  · intro h
    unfold numDataCells countDataCells
    rw [h]
    simp only [Option.getD_some]
    rw [foldl_count (fun z => z ≠ r.noData), Nat.zero_add]
  · unfold numDataCells; split
    · rfl
    · rfl

/-- **C36 is false of `numDataCells` after an edit**: the count is cached and no operation
resets it. -/
theorem C36_numDataCells_stale :
    ∃ r : Raster Int, r.WF ∧ r.ndc = none ∧
      ((r.numDataCells.2).setAll r.noData).numDataCells.1 = 4 ∧
      ((r.numDataCells.2).setAll r.noData).data.countP (fun z => decide (z ≠ r.noData)) = 0 :=
  ⟨⟨2, 2, [1, 2, 3, 4], -1, none, true, 2⟩, rfl, rfl, by decide, by decide⟩

/-- **C36 (replace, setAll, operator==).** Cell-wise meaning. -/
theorem C36_replace_setAll_eq (r o : Raster T) (a b v : T) :
    (∀ x y, (r.replace a b).cell x y = (r.cell x y).map fun z => if z = a then b else z) ∧
    (∀ x y, (r.setAll v).cell x y = (r.cell x y).map fun _ => v) ∧
    (r.eqb o = true ↔ r.w = o.w ∧ r.h = o.h ∧ r.noData = o.noData ∧ r.data = o.data) := by
  refine ⟨?_, ?_, ?_⟩
  · intro x y
    by_cases hc : x < r.w ∧ y < r.h <;>
      simp only [cell, replace, hc, and_self, if_true, if_false, List.getElem?_map,
        Option.map_none]
  · intro x y
    by_cases hc : x < r.w ∧ y < r.h <;>
      simp only [cell, setAll, hc, and_self, if_true, if_false, List.getElem?_map,
        Option.map_none]
  · unfold eqb
    by_cases h1 : r.w = o.w <;> by_cases h2 : r.h = o.h <;> by_cases h3 : r.noData = o.noData <;>
      simp [h1, h2, h3]

end

/-- Non-vacuity: borders of a 4×3 raster. -/
example : ((⟨4, 3, [1, 1, 1, 1, 1, 5, 6, 1, 1, 1, 1, 1], -1, none, true, 4⟩ : Raster Int).setEdges 0).data
    = [0, 0, 0, 0, 0, 5, 6, 0, 0, 0, 0, 0] := by decide +kernel

end RichDEM
