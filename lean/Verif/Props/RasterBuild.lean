/-
Property theorems C118: rasters built from lists and templates; extremes and scaling.
-/
import Verif.RasterBuild
import Verif.Props.PyGdal
import Verif.Props.Rounded
import Mathlib.Order.WithBot

namespace RichDEM

open Raster
variable {T U : Type}

/-! ### Lists -/

theorem putRow_spec (w : Nat) (d : List T) (y : Nat) (row : List T) (hr : row.length ≤ w) :
    (putRow w d y row).length = d.length ∧
    ∀ i, (putRow w d y row)[i]? =
      if y * w ≤ i ∧ i < y * w + row.length ∧ i < d.length then row[i - y * w]? else d[i]? := by
  have main : ∀ (row : List T),
      (row.foldl (fun (s : List T × Nat) v => (s.1.set (y * w + s.2) v, s.2 + 1)) (d, 0)).2 = row.length ∧
      (row.foldl (fun (s : List T × Nat) v => (s.1.set (y * w + s.2) v, s.2 + 1)) (d, 0)).1.length = d.length ∧
      ∀ i, (row.foldl (fun (s : List T × Nat) v => (s.1.set (y * w + s.2) v, s.2 + 1)) (d, 0)).1[i]? =
        if y * w ≤ i ∧ i < y * w + row.length ∧ i < d.length then row[i - y * w]? else d[i]? := by
    intro row
    induction row using List.reverseRecOn with
    | nil => exact ⟨rfl, rfl, fun i => by rw [if_neg (by simp; omega)]; rfl⟩
    | append_singleton rs v ih =>
      obtain ⟨h1, h2, h3⟩ := ih
      rw [List.foldl_append, List.foldl_cons, List.foldl_nil]
      refine ⟨by simp [h1], by simp [h2], fun i => ?_⟩
      dsimp only
      rw [h1, List.getElem?_set, h2, h3 i]
      by_cases hi : y * w + rs.length = i
      · rw [if_pos hi]
        by_cases hd : i < d.length
        · rw [if_pos (by omega), if_pos (by simp; omega)]
          rw [List.getElem?_append_right (by omega), show i - y * w - rs.length = 0 by omega]
          rfl
        · rw [if_neg (by omega), if_neg (by omega), List.getElem?_eq_none (by omega)]
      · rw [if_neg hi]
        by_cases hc : y * w ≤ i ∧ i < y * w + rs.length ∧ i < d.length
        · rw [if_pos hc, if_pos (by simp; omega), List.getElem?_append_left (by omega)]
        · rw [if_neg hc, if_neg (by simp; omega)]
  exact ⟨(main row).2.1, (main row).2.2⟩

theorem putRows_spec (w : Nat) (rows : List (List T)) (d : List T) (hr : ∀ row ∈ rows, row.length = w)
    (hd : w * rows.length ≤ d.length) :
    let s := rows.foldl (fun (s : List T × Nat) row => (putRow w s.1 s.2 row, s.2 + 1)) (d, 0)
    s.2 = rows.length ∧ s.1.length = d.length ∧
      ∀ x y, x < w → y < rows.length → s.1[y * w + x]? = (rows[y]?).bind fun row => row[x]? := by
  induction rows using List.reverseRecOn with
  | nil => exact ⟨rfl, rfl, fun x y _ hy => absurd hy (by simp)⟩
  | append_singleton rs row ih =>
    rw [List.length_append, List.length_singleton] at hd
    have hd' : w * rs.length + w ≤ d.length := by rw [← Nat.mul_succ]; exact hd
    obtain ⟨h1, h2, h3⟩ := ih (fun r hm => hr r (by simp [hm])) (by omega)
    have hrow : row.length = w := hr row (by simp)
    dsimp only
    rw [List.foldl_append, List.foldl_cons, List.foldl_nil]
    dsimp only
    rw [h1]
    obtain ⟨p1, p2⟩ := putRow_spec w (rs.foldl (fun (s : List T × Nat) row => (putRow w s.1 s.2 row, s.2 + 1)) (d, 0)).1
      rs.length row hrow.le
    refine ⟨by simp, by rw [p1, h2], fun x y hx hy => ?_⟩
    rw [p2, h2]
    rw [List.length_append, List.length_singleton] at hy
    rcases Nat.lt_or_ge y rs.length with hlt | hge
    · have hyx : y * w + x < rs.length * w := by
        calc y * w + x < y * w + w := by omega
          _ = (y + 1) * w := by ring
          _ ≤ _ := Nat.mul_le_mul_right _ hlt
      rw [if_neg (by omega), h3 x y hx hlt, List.getElem?_append_left hlt]
    · obtain rfl : y = rs.length := by omega
      have hc : rs.length * w = w * rs.length := Nat.mul_comm _ _
      rw [if_pos ⟨by omega, by omega, by omega⟩, List.getElem?_append_right le_rfl, Nat.sub_self,
        show rs.length * w + x - rs.length * w = x by omega]
      rfl

/-- C118 (lists): a list of rows of equal length gives the raster of these rows; rows of different lengths raise. -/
theorem C118_list (m z : T) (rows : List (List T)) (hne : rows ≠ []) :
    ((∀ a ∈ rows, ∀ b ∈ rows, a.length = b.length) →
      ∃ r, fromList m z rows = .ok r ∧ r.WF ∧ r.h = rows.length ∧ (∀ row ∈ rows, r.w = row.length) ∧
        r.nshiftW = r.w ∧ r.noData = m ∧ r.ndc = none ∧ r.owned = true ∧
        ∀ x y, r.cell x y = (rows[y]?).bind fun row => row[x]?) ∧
    ((∃ a ∈ rows, ∃ b ∈ rows, a.length ≠ b.length) → fromList m z rows = .throws) := by
  obtain ⟨r0, rest, rfl⟩ : ∃ r0 rest, rows = r0 :: rest := by
    cases rows with
    | nil => exact absurd rfl hne
    | cons a l => exact ⟨a, l, rfl⟩
  constructor
  · intro heq
    have hw : ∀ row ∈ r0 :: rest, row.length = r0.length := fun row hm => heq row hm r0 (by simp)
    have hany : ((r0 :: rest).any fun x => x.length ≠ r0.length) = false := by
      rw [List.any_eq_false]
      intro x hx
      simp [hw x hx]
    have hlen : (List.replicate (r0.length * (r0 :: rest).length) z).length = r0.length * (r0 :: rest).length :=
      List.length_replicate
    obtain ⟨-, s2, s3⟩ := putRows_spec r0.length (r0 :: rest) _ hw hlen.ge
    unfold fromList
    dsimp only
    rw [hany]
    refine ⟨_, rfl, ?_, rfl, fun row hm => (hw row hm).symm, rfl, rfl, rfl, rfl, fun x y => ?_⟩
    · show List.length _ = _
      rw [s2, hlen]
    · unfold cell
      dsimp only
      by_cases hx : x < r0.length ∧ y < (r0 :: rest).length
      · rw [if_pos hx]
        exact s3 x y hx.1 hx.2
      · rw [if_neg hx]
        cases hy : (r0 :: rest)[y]? with
        | none => rfl
        | some row =>
          have hm := List.mem_of_getElem? hy
          have : y < (r0 :: rest).length := by
            by_contra hge
            rw [List.getElem?_eq_none (by omega)] at hy
            cases hy
          show none = row[x]?
          rw [List.getElem?_eq_none]
          rw [hw row hm]
          omega
  · rintro ⟨a, ha, b, hb, hab⟩
    have hany : ((r0 :: rest).any fun x => x.length ≠ r0.length) = true := by
      rw [List.any_eq_true]
      by_cases h1 : a.length = r0.length
      · exact ⟨b, hb, by simp; omega⟩
      · exact ⟨a, ha, by simp [h1]⟩
    unfold fromList
    dsimp only
    rw [hany]
    rfl

/-- C118 (lists), refuted: a list without rows is not rejected but undefined behaviour. -/
theorem C118_empty_list_refuted (m z : T) : fromList m z [] = .ub := rfl

example : fromList (-1 : Int) 0 [[1, 2, 3], [4, 5, 6]] = .ok ⟨3, 2, [1, 2, 3, 4, 5, 6], -1, none, true, 3⟩ := by decide
example : fromList (-1 : Int) 0 [[1, 2, 3], [4, 5]] = .throws := by decide
example : fromList (-1 : Int) 0 [[], []] = .ok ⟨0, 2, [], -1, none, true, 0⟩ := by decide

/-! ### Templates -/

/-- C118 (templates): a raster made from another one has its dimensions, placement, projection, name and metadata, its own
memory, and every cell is `val`. -/
theorem C118_template_partial (m val : T) (o : Raster U) (g : Georef) :
    (fromTemplate m (o, g) val).2 = g ∧ (fromTemplate m (o, g) val).1.w = o.w ∧ (fromTemplate m (o, g) val).1.h = o.h ∧
    (fromTemplate m (o, g) val).1.WF ∧ (fromTemplate m (o, g) val).1.owned = true ∧
    (fromTemplate m (o, g) val).1.nshiftW = o.w ∧ (fromTemplate m (o, g) val).1.noData = m ∧
    ∀ x y, (fromTemplate m (o, g) val).1.cell x y = if x < o.w ∧ y < o.h then some val else none := by
  refine ⟨rfl, rfl, rfl, by simp [fromTemplate, WF], rfl, rfl, rfl, fun x y => ?_⟩
  unfold cell
  show (if x < o.w ∧ y < o.h then (List.replicate (o.w * o.h) val)[y * o.w + x]? else none) = _
  by_cases hx : x < o.w ∧ y < o.h
  · rw [if_pos hx, if_pos hx, List.getElem?_replicate, if_pos]
    exact idx_lt hx.1 hx.2
  · rw [if_neg hx, if_neg hx]

/-- C118 (templates), refuted: not all properties are those of the template; the NoData value is `-1` whatever it was. -/
theorem C118_template_noData_refuted :
    ∃ (o : Raster Int) (g : Georef), o.WF ∧ (fromTemplate (-1 : Int) (o, g) 0).1.noData ≠ o.noData :=
  ⟨⟨1, 1, [-9999], -9999, none, true, 1⟩, ⟨0, 0, [], "", "", []⟩, rfl, by decide⟩

/-! ### Extremes -/

section
variable [LinearOrder T]

def eqB (a b : T) : Bool := decide (a = b)
def ltB (a b : T) : Bool := decide (a < b)

theorem min_fold (nd top : T) (l : List T) :
    l.foldl (fun m v => if eqB v nd then m else if ltB v m then v else m) top =
      (l.filter fun v => v ≠ nd).foldl min top := by
  induction l using List.reverseRecOn with
  | nil => rfl
  | append_singleton l v ih =>
    rw [List.foldl_append, List.foldl_cons, List.foldl_nil, ih, List.filter_append, List.foldl_append]
    by_cases hv : v = nd
    · simp [eqB, hv]
    · have e : (List.filter (fun v => decide (v ≠ nd)) [v]) = [v] := by simp [hv]
      rw [e, List.foldl_cons, List.foldl_nil]
      generalize (l.filter fun v => decide (v ≠ nd)).foldl min top = m
      simp only [eqB, hv, decide_false, ltB]
      rcases lt_or_ge v m with h1 | h1
      · simp [h1, min_eq_right h1.le]
      · simp [not_lt.2 h1, min_eq_left h1]

theorem foldl_min_spec (l : List T) (top : T) :
    (l.foldl min top = top ∨ l.foldl min top ∈ l) ∧ l.foldl min top ≤ top ∧ ∀ v ∈ l, l.foldl min top ≤ v := by
  induction l using List.reverseRecOn with
  | nil => exact ⟨Or.inl rfl, le_rfl, fun v hv => absurd hv (by simp)⟩
  | append_singleton l v ih =>
    obtain ⟨h1, h2, h3⟩ := ih
    rw [List.foldl_append, List.foldl_cons, List.foldl_nil]
    refine ⟨?_, (min_le_left _ _).trans h2, fun u hu => ?_⟩
    · rcases min_choice (l.foldl min top) v with h | h
      · rw [h]
        rcases h1 with h1 | h1
        · exact Or.inl h1
        · exact Or.inr (by simp [h1])
      · rw [h]; exact Or.inr (by simp)
    · rw [List.mem_append, List.mem_singleton] at hu
      rcases hu with hu | rfl
      · exact (min_le_left _ _).trans (h3 u hu)
      · exact min_le_right _ _

/-- C118 (minimum): the least value of the data cells, if one of them is not above the largest number of the type (for
integers: if there is a data cell); otherwise that largest number. -/
theorem C118_min_partial (top : T) (r : Raster T) :
    ((∃ v ∈ r.data, v ≠ r.noData ∧ v ≤ top) →
      minOf eqB ltB top r ∈ r.data ∧ minOf eqB ltB top r ≠ r.noData ∧
      ∀ v ∈ r.data, v ≠ r.noData → minOf eqB ltB top r ≤ v) ∧
    ((∀ v ∈ r.data, v ≠ r.noData → top < v) → minOf eqB ltB top r = top) := by
  unfold minOf
  rw [min_fold]
  obtain ⟨h1, h2, h3⟩ := foldl_min_spec (r.data.filter fun v => v ≠ r.noData) top
  have hmem : ∀ v, v ∈ (r.data.filter fun v => v ≠ r.noData) ↔ v ∈ r.data ∧ v ≠ r.noData := by
    intro v; simp
  constructor
  · rintro ⟨v, hv, hn, hle⟩
    have hin : (r.data.filter fun v => v ≠ r.noData).foldl min top ∈ (r.data.filter fun v => v ≠ r.noData) := by
      rcases h1 with h1 | h1
      · have := h3 v ((hmem v).2 ⟨hv, hn⟩)
        rw [h1] at this ⊢
        rw [le_antisymm this hle]
        exact (hmem v).2 ⟨hv, hn⟩
      · exact h1
    exact ⟨((hmem _).1 hin).1, ((hmem _).1 hin).2, fun u hu hun => h3 u ((hmem u).2 ⟨hu, hun⟩)⟩
  · intro hall
    rcases h1 with h1 | h1
    · exact h1
    · exact absurd (hall _ ((hmem _).1 h1).1 ((hmem _).1 h1).2) (not_lt.2 h2)

end

/-- C118 (maximum): as for the minimum, turned round. -/
theorem C118_max_partial [LinearOrder T] (bot : T) (r : Raster T) :
    ((∃ v ∈ r.data, v ≠ r.noData ∧ bot ≤ v) →
      maxOf eqB ltB bot r ∈ r.data ∧ maxOf eqB ltB bot r ≠ r.noData ∧
      ∀ v ∈ r.data, v ≠ r.noData → v ≤ maxOf eqB ltB bot r) ∧
    ((∀ v ∈ r.data, v ≠ r.noData → v < bot) → maxOf eqB ltB bot r = bot) :=
  C118_min_partial (T := Tᵒᵈ) bot ⟨r.w, r.h, r.data, r.noData, r.ndc, r.owned, r.nshiftW⟩

/-- C118 (minimum), refuted: without a data cell it is a number no cell has, and the minimum is above the maximum. -/
theorem C118_no_data_refuted :
    ∃ r : Raster Int, r.WF ∧ 0 < r.w * r.h ∧ minOf eqB ltB (2 ^ 31 - 1) r ∉ r.data ∧
      maxOf eqB ltB (-2 ^ 31) r < minOf eqB ltB (2 ^ 31 - 1) r :=
  ⟨⟨2, 1, [-9999, -9999], -9999, none, true, 2⟩, rfl, by decide, by decide, by decide⟩

/-- C118 (minimum), refuted: with infinite elevations only (floats; `⊤` is infinity), it is a finite number. -/
theorem C118_infinite_refuted :
    ∃ r : Raster (WithTop ℚ), r.WF ∧ (∃ v ∈ r.data, v ≠ r.noData) ∧
      minOf eqB ltB (((2 ^ 24 - 1) * 2 ^ 104 : ℚ) : WithTop ℚ) r ∉ r.data := by
  refine ⟨⟨1, 1, [⊤], ((-1 : ℚ) : WithTop ℚ), none, true, 1⟩, rfl, ⟨⊤, by simp, (WithTop.coe_ne_top).symm⟩, ?_⟩
  have : minOf eqB ltB (((2 ^ 24 - 1) * 2 ^ 104 : ℚ) : WithTop ℚ) (⟨1, 1, [⊤], ((-1 : ℚ) : WithTop ℚ), none, true, 1⟩ : Raster (WithTop ℚ)) =
      (((2 ^ 24 - 1) * 2 ^ 104 : ℚ) : WithTop ℚ) := (C118_min_partial _ _).2 (by
    intro v hv _
    simp only [List.mem_singleton] at hv
    subst hv
    exact WithTop.coe_lt_top _)
  rw [this]
  simp

/-- `==` and `<` on floating-point numbers with NaN (`none`): false whenever one side is NaN. -/
def eqNaN (a b : Option ℚ) : Bool := match a, b with
  | some a, some b => decide (a = b)
  | _, _ => false
def ltNaN (a b : Option ℚ) : Bool := match a, b with
  | some a, some b => decide (a < b)
  | _, _ => false

/-- C118 (NaN): cells that are NaN are ignored, whether or not NaN is the NoData value. -/
theorem C118_nan (top : ℚ) (r : Raster (Option ℚ)) (nums : List ℚ)
    (hn : nums = r.data.filterMap fun v => if v = r.noData then none else v) :
    minOf eqNaN ltNaN (some top) r = some (nums.foldl min top) ∧
    ∀ bot, maxOf eqNaN ltNaN (some bot) r = some (nums.foldl max bot) := by
  subst hn
  unfold minOf maxOf
  constructor
  · induction r.data using List.reverseRecOn with
    | nil => rfl
    | append_singleton l v ih =>
      rw [List.foldl_append, List.foldl_cons, List.foldl_nil, ih, List.filterMap_append, List.foldl_append]
      cases v with
      | none =>
        simp [eqNaN, ltNaN]
      | some v =>
        cases hnd : r.noData with
        | none => 
          simp only [eqNaN, ltNaN, List.filterMap_cons, List.filterMap_nil]
          rcases lt_or_ge v ((List.filterMap (fun v => if v = none then none else v) l).foldl min top) with h1 | h1
          · simp [h1, min_eq_right h1.le]
          · simp [not_lt.2 h1, min_eq_left h1]
        | some nd =>
          by_cases hv : v = nd
          · simp [eqNaN, hv]
          · simp only [eqNaN, hv, ltNaN, List.filterMap_cons, List.filterMap_nil]
            rcases lt_or_ge v ((List.filterMap (fun v => if v = some nd then none else v) l).foldl min top) with h1 | h1
            · simp [hv, h1, min_eq_right h1.le]
            · simp [hv, not_lt.2 h1, min_eq_left h1]
  · intro bot
    induction r.data using List.reverseRecOn with
    | nil => rfl
    | append_singleton l v ih =>
      rw [List.foldl_append, List.foldl_cons, List.foldl_nil, ih, List.filterMap_append, List.foldl_append]
      cases v with
      | none =>
        simp [eqNaN, ltNaN]
      | some v =>
        cases hnd : r.noData with
        | none => 
          simp only [eqNaN, ltNaN, List.filterMap_cons, List.filterMap_nil]
          rcases lt_or_ge ((List.filterMap (fun v => if v = none then none else v) l).foldl max bot) v with h1 | h1
          · simp [h1, max_eq_right h1.le]
          · simp [not_lt.2 h1, max_eq_left h1]
        | some nd =>
          by_cases hv : v = nd
          · simp [eqNaN, hv]
          · simp only [eqNaN, hv, ltNaN, List.filterMap_cons, List.filterMap_nil]
            rcases lt_or_ge ((List.filterMap (fun v => if v = some nd then none else v) l).foldl max bot) v with h1 | h1
            · simp [hv, h1, max_eq_right h1.le]
            · simp [hv, not_lt.2 h1, max_eq_left h1]

example : minOf eqB ltB (2 ^ 31 - 1) (⟨2, 2, [5, -9999, 3, 7], -9999, none, true, 2⟩ : Raster Int) = 3 := by decide
example : maxOf eqB ltB (-2 ^ 31) (⟨2, 2, [5, -9999, 3, 7], -9999, none, true, 2⟩ : Raster Int) = 7 := by decide

/-! ### Scaling -/

theorem mapM_some {A B : Type} (f : A → Option B) (l : List A) (l' : List B) (he : l.mapM f = some l') :
    l'.length = l.length ∧ ∀ (i : Nat) (v : A), l[i]? = some v → ∃ u, l'[i]? = some u ∧ f v = some u := by
  induction l generalizing l' with
  | nil => simp at he; subst he; exact ⟨rfl, fun i v hv => by simp at hv⟩
  | cons a l ih =>
    rw [List.mapM_cons] at he
    cases ha : f a with
    | none => rw [ha] at he; cases he
    | some u =>
      rw [ha] at he
      cases hl : l.mapM f with
      | none => rw [hl] at he; cases he
      | some us =>
        rw [hl] at he
        cases he
        obtain ⟨h1, h2⟩ := ih us hl
        refine ⟨by simp [h1], fun i v hv => ?_⟩
        cases i with
        | zero => cases hv; exact ⟨u, rfl, ha⟩
        | succ i => exact h2 i v hv

theorem mapM_none {A B : Type} (f : A → Option B) (l : List A) : l.mapM f = none ↔ ∃ v ∈ l, f v = none := by
  induction l with
  | nil => simp
  | cons a l ih =>
    rw [List.mapM_cons]
    cases ha : f a with
    | none => simp [ha]
    | some u =>
      cases hl : l.mapM f with
      | none => simp [ha, ih.1 hl]
      | some us =>
        have : ¬ ∃ v ∈ l, f v = none := fun h => by rw [ih.2 h] at hl; cases hl
        simp only [List.mem_cons, exists_eq_or_imp, ha]
        simp [this]

/-- C118 (scaling): undefined exactly if the product of some data cell is; otherwise NoData cells stay as they are and every
data cell becomes the stored product; nothing else changes. -/
theorem C118_scale [LinearOrder T] (mul : T → Option T) (r : Raster T) :
    (scale eqB mul r = none ↔ ∃ v ∈ r.data, v ≠ r.noData ∧ mul v = none) ∧
    ∀ r', scale eqB mul r = some r' →
      r' = { r with data := r'.data } ∧ r'.data.length = r.data.length ∧
      ∀ x y v, r.cell x y = some v → ∃ u, r'.cell x y = some u ∧ (v = r.noData → u = v) ∧ (v ≠ r.noData → mul v = some u) := by
  unfold scale
  constructor
  · rw [Option.map_eq_none_iff, mapM_none]
    constructor
    · rintro ⟨v, hv, he⟩
      by_cases hn : v = r.noData
      · simp [eqB, hn] at he
      · exact ⟨v, hv, hn, by simpa [eqB, hn] using he⟩
    · rintro ⟨v, hv, hn, he⟩
      exact ⟨v, hv, by simpa [eqB, hn] using he⟩
  · intro r' he
    rw [Option.map_eq_some_iff] at he
    obtain ⟨d, hd, rfl⟩ := he
    obtain ⟨h1, h2⟩ := mapM_some _ _ _ hd
    refine ⟨rfl, h1, fun x y v hv => ?_⟩
    unfold cell at hv ⊢
    dsimp only
    split at hv
    · next hx =>
      rw [if_pos hx]
      obtain ⟨u, hu, hf⟩ := h2 _ v hv
      refine ⟨u, hu, fun hn => ?_, fun hn => ?_⟩
      · simp [eqB, hn] at hf; rw [hn]; exact hf.symm
      · simpa [eqB, hn] using hf
    · cases hv

/-- C118 (scaling of doubles): the nearest double of the product. -/
theorem C118_scale_double (x v u : ℚ) (he : mulDouble x v = some u) : |u - v * x| ≤ 1 / 2 ^ 53 * |v * x| := by
  cases he
  exact roundBits_rel 53 _

/-- C118 (scaling of floats): a float, within little more than half a unit in the last place of the product. -/
theorem C118_scale_float (x v u : ℚ) (he : mulFloat x v = some u) :
    Py.IsFloat 24 u ∧ |u - v * x| ≤ (1 / 2 ^ 24 + 1 / 2 ^ 52) * |v * x| := by
  cases he
  refine ⟨Py.roundBits_isFloat 24 (by norm_num) _, ?_⟩
  have h1 := roundBits_rel 53 (v * x)
  have h2 := roundBits_rel 24 (Py.roundBits 53 (v * x))
  have h3 : |Py.roundBits 53 (v * x)| ≤ (1 + 1 / 2 ^ 53) * |v * x| := by
    have := abs_add_le (Py.roundBits 53 (v * x) - v * x) (v * x)
    rw [sub_add_cancel] at this
    linarith
  have h4 := abs_add_le (Py.roundBits 24 (Py.roundBits 53 (v * x)) - Py.roundBits 53 (v * x)) (Py.roundBits 53 (v * x) - v * x)
  rw [sub_add_sub_cancel] at h4
  have h5 := mul_le_mul_of_nonneg_left h3 (show (0 : ℚ) ≤ 1 / 2 ^ 24 by positivity)
  have h0 := abs_nonneg (v * x)
  nlinarith

/-- C118 (scaling of integers): the rounded product cut off towards zero. -/
theorem C118_scale_int (lo hi : Int) (x : ℚ) (v z : Int) :
    mulInt lo hi x v = some z ↔ Py.IsTrunc (Py.roundBits 53 (v * x)) z ∧ lo ≤ z ∧ z ≤ hi := by
  have ht := Py.truncQ_isTrunc (Py.roundBits 53 (v * x))
  unfold mulInt
  dsimp only
  constructor
  · intro he
    split at he
    · next hc => cases he; exact ⟨ht, hc⟩
    · cases he
  · rintro ⟨h1, h2⟩
    have : Py.truncQ (Py.roundBits 53 (v * x)) = z := Py.isTrunc_unique ht h1
    rw [this, if_pos h2]

/-- C118 (scaling), refuted: a data cell can become NoData; scaling by -1 twice does not give the raster back; halving and
doubling does not either; and a large product is undefined behaviour. -/
theorem C118_scale_refuted :
    (∃ r r' : Raster Int, scale eqB (mulInt (-2 ^ 31) (2 ^ 31 - 1) (-1)) r = some r' ∧
      r.cell 0 0 = some 1 ∧ r.noData ≠ 1 ∧ r'.cell 0 0 = some r'.noData ∧
      scale eqB (mulInt (-2 ^ 31) (2 ^ 31 - 1) (-1)) r' ≠ some r) ∧
    (∃ r r' : Raster Int, scale eqB (mulInt (-2 ^ 31) (2 ^ 31 - 1) (1 / 2)) r = some r' ∧
      scale eqB (mulInt (-2 ^ 31) (2 ^ 31 - 1) 2) r' ≠ some r) ∧
    (∃ r : Raster Int, r.WF ∧ scale eqB (mulInt (-2 ^ 31) (2 ^ 31 - 1) 2) r = none) :=
  ⟨⟨⟨2, 1, [1, 5], -1, none, true, 2⟩, ⟨2, 1, [-1, -5], -1, none, true, 2⟩, by decide +kernel, by decide, by decide, by decide, by decide +kernel⟩,
   ⟨⟨2, 1, [3, 5], -1, none, true, 2⟩, ⟨2, 1, [1, 2], -1, none, true, 2⟩, by decide +kernel, by decide +kernel⟩,
   ⟨⟨1, 1, [2 ^ 30], -1, none, true, 1⟩, rfl, by decide +kernel⟩⟩

end RichDEM
