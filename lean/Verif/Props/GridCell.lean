import Verif.DS.GridCell
import Mathlib.Order.WithBot
import Mathlib.Tactic.Linarith
import Mathlib.Algebra.Order.Ring.Abs
import Mathlib.Algebra.Order.Ring.Rat
import Mathlib.Algebra.Order.Field.Basic
import Mathlib.Data.List.Basic
import Mathlib.Tactic.NormNum

/-!
C32: orderings of queued cells.  C50: tolerant comparisons.
-/

namespace RichDEM

variable {α : Type} [LinearOrder α]

/-- Specification: elevations with NaN below every number are the linear order
`WithBot α`, NaN being `⊥`. -/
def elev : Option α → WithBot α := id

/-- **C32.** Each comparison operator of a `float`/`double` cell is the comparison of that
linear order; in particular they are total, transitive and consistent with one another. -/
theorem C32_cell_comparisons (z a : Option α) :
    (cellLt z a = true ↔ elev z < elev a) ∧ (cellGt z a = true ↔ elev z > elev a) ∧
      (cellLe z a = true ↔ elev z ≤ elev a) ∧ (cellGe z a = true ↔ elev z ≥ elev a) ∧
      (cellEq z a = true ↔ elev z = elev a) ∧ (cellNe z a = true ↔ elev z ≠ elev a) := by
  have bot : ∀ x : α, ((⊥ : WithBot α) < (x : WithBot α)) := WithBot.bot_lt_coe
  have nl : ∀ x : α, ¬ ((x : WithBot α) ≤ ⊥) := fun x h => absurd (bot x) (not_lt.2 h)
  cases z with
  | none =>
    cases a with
    | none =>
      have h1 : elev (none : Option α) = ⊥ := rfl
      rw [h1]
      simp [cellLt, cellGt, cellLe, cellGe, cellEq, cellNe, fLt, fLe, fEq, fNe]
    | some a =>
      have h1 : elev (none : Option α) = ⊥ := rfl
      have h2 : elev (some a) = (a : WithBot α) := rfl
      rw [h1, h2]
      simp [cellLt, cellGt, cellLe, cellGe, cellEq, cellNe, fLt, fLe, fEq, fNe]
  | some z =>
    cases a with
    | none =>
      have h1 : elev (none : Option α) = ⊥ := rfl
      have h2 : elev (some z) = (z : WithBot α) := rfl
      rw [h1, h2]
      simp [cellLt, cellGt, cellLe, cellGe, cellEq, cellNe, fLt, fLe, fEq, fNe]
    | some a =>
      have h1 : elev (some a) = (a : WithBot α) := rfl
      have h2 : elev (some z) = (z : WithBot α) := rfl
      rw [h1, h2]
      simp [cellLt, cellGt, cellLe, cellGe, cellEq, cellNe, fLt, fLe, fEq, fNe]

/-- **C32.** `operator>` of the queue cells compares elevations (NaN lowest) first and breaks
ties by the insertion number: `_low` puts the earlier one first, `_high` the later one. -/
theorem C32_zk_lexicographic (c a : Option α × Int) :
    (zkLowGt c a = true ↔ elev c.1 > elev a.1 ∨ (elev c.1 = elev a.1 ∧ c.2 > a.2)) ∧
      (zkHighGt c a = true ↔ elev c.1 > elev a.1 ∨ (elev c.1 = elev a.1 ∧ c.2 < a.2)) := by
  obtain ⟨z, k⟩ := c
  obtain ⟨b, l⟩ := a
  obtain ⟨-, h2, -, -, h5, -⟩ := C32_cell_comparisons z b
  simp only
  rw [← h2, ← h5]
  cases z <;> cases b <;> simp [zkLowGt, zkHighGt, cellGt, cellEq, fLt, fEq]

/-- **C32.** Both queue orderings are strict total orders on cells with distinct insertion
numbers: irreflexive, transitive, and any two cells are comparable. -/
theorem C32_zk_strict_total (c a b : Option α × Int) :
    zkLowGt c c = false ∧ zkHighGt c c = false ∧
      (zkLowGt c a = true → zkLowGt a b = true → zkLowGt c b = true) ∧
      (zkHighGt c a = true → zkHighGt a b = true → zkHighGt c b = true) ∧
      (c.2 ≠ a.2 → (zkLowGt c a = true ↔ ¬ zkLowGt a c = true)) ∧
      (c.2 ≠ a.2 → (zkHighGt c a = true ↔ ¬ zkHighGt a c = true)) := by
  have L := fun c a : Option α × Int => (C32_zk_lexicographic c a).1
  have H := fun c a : Option α × Int => (C32_zk_lexicographic c a).2
  refine ⟨?_, ?_, ?_, ?_, ?_, ?_⟩
  · rw [← Bool.not_eq_true, L]; simp
  · rw [← Bool.not_eq_true, H]; simp
  · rw [L, L, L]
    rintro (h | ⟨h, hk⟩) (h' | ⟨h', hk'⟩)
    · exact Or.inl (lt_trans h' h)
    · exact Or.inl (h' ▸ h)
    · exact Or.inl (h ▸ h')
    · exact Or.inr ⟨h.trans h', by omega⟩
  · rw [H, H, H]
    rintro (h | ⟨h, hk⟩) (h' | ⟨h', hk'⟩)
    · exact Or.inl (lt_trans h' h)
    · exact Or.inl (h' ▸ h)
    · exact Or.inl (h ▸ h')
    · exact Or.inr ⟨h.trans h', by omega⟩
  · intro hk
    rw [L, L]
    rcases lt_trichotomy (elev c.1) (elev a.1) with h | h | h
    · simp [h, not_lt_of_gt h, ne_of_lt h]
    · simp only [h, gt_iff_lt, lt_irrefl, true_and, false_or]; omega
    · simp [h, not_lt_of_gt h, ne_of_lt h]
  · intro hk
    rw [H, H]
    rcases lt_trichotomy (elev c.1) (elev a.1) with h | h | h
    · simp [h, not_lt_of_gt h, ne_of_lt h]
    · simp only [h, gt_iff_lt, lt_irrefl, true_and, false_or]; omega
    · simp [h, not_lt_of_gt h, ne_of_lt h]

theorem kOf_eq {n : Nat} (h : n < 2 ^ 31) : kOf n = n := by
  unfold kOf
  rw [BitVec.toInt_eq_toNat_cond, BitVec.toNat_ofNat, Nat.mod_eq_of_lt (by omega)]
  rw [if_pos (by omega)]

/-- What any priority queue over `std::greater` may return from `top()`: a stored cell that is
not greater than any stored cell. -/
def IsTop (gt : Option α × Int → Option α × Int → Bool) (q : List (Option α × Int))
    (t : Option α × Int) : Prop := t ∈ q ∧ ∀ c ∈ q, gt t c = false

/-- **C32.** As long as fewer than `2^31` cells have been queued, a queue holding cells
inserted as numbers `n` (each once) returns a determined cell: the one of least elevation
and, among those, the one inserted first (`_low`) or last (`_high`). -/
theorem C32_queue_deterministic (q : List (Option α × Nat)) (hk : ∀ c ∈ q, c.2 < 2 ^ 31)
    (t : Option α × Nat) (ht : t ∈ q) :
    (IsTop zkLowGt (q.map fun c => (c.1, kOf c.2)) (t.1, kOf t.2) ↔
      ∀ c ∈ q, elev t.1 < elev c.1 ∨ (elev t.1 = elev c.1 ∧ t.2 ≤ c.2)) ∧
    (IsTop zkHighGt (q.map fun c => (c.1, kOf c.2)) (t.1, kOf t.2) ↔
      ∀ c ∈ q, elev t.1 < elev c.1 ∨ (elev t.1 = elev c.1 ∧ c.2 ≤ t.2)) := by
  have hmem : (t.1, kOf t.2) ∈ q.map fun c => (c.1, kOf c.2) := List.mem_map.2 ⟨t, ht, rfl⟩
  constructor
  · unfold IsTop
    constructor
    · rintro ⟨-, h⟩ c hc
      have := h (c.1, kOf c.2) (List.mem_map.2 ⟨c, hc, rfl⟩)
      rw [← Bool.not_eq_true, (C32_zk_lexicographic _ _).1] at this
      simp only [kOf_eq (hk c hc), kOf_eq (hk t ht)] at this
      rcases lt_trichotomy (elev t.1) (elev c.1) with h | h | h
      · exact Or.inl h
      · exact Or.inr ⟨h, by by_contra hc; exact this (Or.inr ⟨h, by omega⟩)⟩
      · exact absurd (Or.inl h) this
    · intro h
      refine ⟨hmem, ?_⟩
      intro c' hc'
      obtain ⟨c, hc, rfl⟩ := List.mem_map.1 hc'
      rw [← Bool.not_eq_true, (C32_zk_lexicographic _ _).1]
      simp only [kOf_eq (hk c hc), kOf_eq (hk t ht)]
      rcases h c hc with h | ⟨h, h'⟩
      · rintro (h2 | ⟨h2, _⟩)
        · exact absurd h (not_lt_of_gt h2)
        · exact absurd h2 (ne_of_lt h)
      · rintro (h2 | ⟨_, h3⟩)
        · exact absurd h (ne_of_gt h2)
        · omega
  · unfold IsTop
    constructor
    · rintro ⟨-, h⟩ c hc
      have := h (c.1, kOf c.2) (List.mem_map.2 ⟨c, hc, rfl⟩)
      rw [← Bool.not_eq_true, (C32_zk_lexicographic _ _).2] at this
      simp only [kOf_eq (hk c hc), kOf_eq (hk t ht)] at this
      rcases lt_trichotomy (elev t.1) (elev c.1) with h | h | h
      · exact Or.inl h
      · exact Or.inr ⟨h, by by_contra hc; exact this (Or.inr ⟨h, by omega⟩)⟩
      · exact absurd (Or.inl h) this
    · intro h
      refine ⟨hmem, ?_⟩
      intro c' hc'
      obtain ⟨c, hc, rfl⟩ := List.mem_map.1 hc'
      rw [← Bool.not_eq_true, (C32_zk_lexicographic _ _).2]
      simp only [kOf_eq (hk c hc), kOf_eq (hk t ht)]
      rcases h c hc with h | ⟨h, h'⟩
      · rintro (h2 | ⟨h2, _⟩)
        · exact absurd h (not_lt_of_gt h2)
        · exact absurd h2 (ne_of_lt h)
      · rintro (h2 | ⟨_, h3⟩)
        · exact absurd h (ne_of_gt h2)
        · omega

/-- **C32, limit of the claim.** The insertion number is truncated to a 32-bit `int`: the cell
inserted as number `2^31` is returned before the cell of equal elevation inserted just before
it, by the "first in, first out" queue. -/
theorem C32_fifo_breaks_at_2_31 (z : Option α) :
    zkLowGt (z, kOf (2 ^ 31 - 1)) (z, kOf (2 ^ 31)) = true := by
  rw [(C32_zk_lexicographic _ _).1]
  exact Or.inr ⟨rfl, by simp only; decide +kernel⟩

/-- Non-vacuity. -/
example : IsTop (zkLowGt (α := Int)) [(some 3, 1), (some 2, 2), (some 2, 3)] (some 2, 2) ∧
    cellGt (some (5 : Int)) none = true ∧ cellLt (none : Option Int) none = false := by
  refine ⟨⟨by simp, by decide⟩, by decide, by decide⟩

/-! ### C50 -/

section
variable {R : Type} [Field R] [LinearOrder R] [IsStrictOrderedRing R]

/-- common/math.hpp:17. -/
def fpTol : R := 1 / 1000000
/-- common/math.hpp:22-24, in exact arithmetic. -/
def fpLe (a b : R) : Prop := a < b ∨ |a - b| < fpTol
/-- common/math.hpp:27-29. -/
def fpGe (a b : R) : Prop := a > b ∨ |a - b| < fpTol
/-- common/math.hpp:32-34. -/
def fpEq (a b : R) : Prop := |a - b| < fpTol

theorem fpTol_pos : (0 : R) < fpTol := by unfold fpTol; positivity

/-- **C50.** The tolerant comparisons, in exact arithmetic over any ordered field: `fp_le` and
`fp_ge` are exactly "not above/below by the tolerance or more", `fp_eq` is their conjunction
and means "within 1e-6"; `fp_eq` is reflexive and symmetric. -/
theorem C50_fp_comparisons (a b : R) :
    (fpLe a b ↔ a < b + fpTol) ∧ (fpGe a b ↔ b < a + fpTol) ∧
      (fpEq a b ↔ fpLe a b ∧ fpGe a b) ∧ (fpEq a b ↔ fpEq b a) ∧ fpEq a a ∧
      (fpLe a b ∨ fpGe a b) ∧ (fpGe a b ↔ fpLe b a) := by
  have ht := fpTol_pos (R := R)
  have hle : ∀ a b : R, fpLe a b ↔ a < b + fpTol := by
    intro a b
    unfold fpLe
    constructor
    · rintro (h | h)
      · linarith
      · have := (abs_lt.1 h).2; linarith
    · intro h
      rcases lt_or_ge a b with h' | h'
      · exact Or.inl h'
      · right; rw [abs_lt]; constructor <;> linarith
  have hge : ∀ a b : R, fpGe a b ↔ fpLe b a := by
    intro a b; unfold fpGe fpLe; rw [abs_sub_comm]
  refine ⟨hle a b, by rw [hge, hle], ?_, ?_, ?_, ?_, hge a b⟩
  · rw [hge, hle, hle]; unfold fpEq; rw [abs_lt]
    constructor
    · rintro ⟨h1, h2⟩; constructor <;> linarith
    · rintro ⟨h1, h2⟩; constructor <;> linarith
  · unfold fpEq; rw [abs_sub_comm]
  · unfold fpEq; simpa using ht
  · rw [hge, hle, hle]
    rcases le_total a b with h | h
    · left; linarith
    · right; linarith

/-- **C50.** `fp_eq` is not transitive (over the rationals). -/
theorem C50_fp_eq_not_transitive :
    fpEq (0 : ℚ) (3/4/1000000) ∧ fpEq (3/4/1000000 : ℚ) (3/2/1000000) ∧
      ¬ fpEq (0 : ℚ) (3/2/1000000) := by
  unfold fpEq fpTol
  refine ⟨?_, ?_, ?_⟩
  · rw [abs_lt]; constructor <;> norm_num
  · rw [abs_lt]; constructor <;> norm_num
  · rw [abs_lt]; norm_num

end

end RichDEM
