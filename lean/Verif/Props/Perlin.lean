/-
Property theorems C84: the terrain generator.
-/
import Mathlib.Tactic.IntervalCases
import Verif.Gen.Perlin
import Mathlib.Algebra.Order.Field.Basic
import Mathlib.Tactic.Linarith
import Mathlib.Tactic.FieldSimp
import Mathlib.Tactic.Positivity
import Mathlib.Topology.Instances.Real.Lemmas
import Mathlib.Topology.LocallyFinite
import Mathlib.Topology.Algebra.Ring.Real

namespace RichDEM
namespace Perlin

/-! ### Specification -/

/-- A permutation table: the numbers 0..255 in some order. -/
def IsTable (q : List Nat) : Prop := q.Perm (List.range 256)

/-- Entry `n mod 256` of the table, for any integer `n`. -/
def entry (q : List Nat) (n : Int) : Nat := q.getD (n % 256).toNat 0

/-- The number attached to the lattice point `(i,j,k)`. -/
def lattice (q : List Nat) (i j k : Int) : Nat := entry q (entry q (entry q i + j) + k)

section
variable {q : List Nat}

theorem IsTable.length (hq : IsTable q) : q.length = 256 := by
  rw [List.Perm.length_eq hq]; simp

theorem IsTable.lt (hq : IsTable q) {v : Nat} (hv : v ∈ q) : v < 256 := by
  have := hq.mem_iff.1 hv
  simpa using this

theorem entry_lt (hq : IsTable q) (n : Int) : entry q n < 256 := by
  unfold entry
  have h1 : (n % 256).toNat < q.length := by rw [hq.length]; omega
  rw [List.getD_eq_getElem?_getD, List.getElem?_eq_getElem h1]
  exact hq.lt (List.getElem_mem h1)

theorem entry_mod (q : List Nat) (n m : Int) (e : n % 256 = m % 256) : entry q n = entry q m := by
  unfold entry; rw [e]

/-- Reading the doubled table below 512 is reading the table modulo 256. -/
theorem dup_get (hq : IsTable q) (i : Nat) (hi : i < 512) : (dup q)[i]? = some (entry q i) := by
  have hl := hq.length
  unfold dup entry
  by_cases h1 : i < 256
  · rw [List.getElem?_append_left (by omega), List.getD_eq_getElem?_getD,
      show ((i : Int) % 256).toNat = i by omega, List.getElem?_eq_getElem (by omega)]
    rfl
  · rw [List.getElem?_append_right (by omega), List.getD_eq_getElem?_getD,
      show ((i : Int) % 256).toNat = i - q.length by omega, List.getElem?_eq_getElem (by omega)]
    rfl

end

section
variable {K : Type*} [Field K] [LinearOrder K] [IsStrictOrderedRing K] [FloorRing K]

/-- The contribution of lattice point `(i,j,k)` at the point `(x,y,z)`. -/
def contrib (q : List Nat) (x y z : K) (i j k : Int) : K :=
  grad (lattice q i j k) (x - i) (y - j) (z - k)

/-- Interpolation of the eight contributions around the unit cube with lowest corner
`(i,j,k)`. -/
def cubeBlend (q : List Nat) (i j k : Int) (x y z : K) : K :=
  lerp (fade (z - k))
    (lerp (fade (y - j))
      (lerp (fade (x - i)) (contrib q x y z i j k) (contrib q x y z (i + 1) j k))
      (lerp (fade (x - i)) (contrib q x y z i (j + 1) k) (contrib q x y z (i + 1) (j + 1) k)))
    (lerp (fade (y - j))
      (lerp (fade (x - i)) (contrib q x y z i j (k + 1)) (contrib q x y z (i + 1) j (k + 1)))
      (lerp (fade (x - i)) (contrib q x y z i (j + 1) (k + 1))
        (contrib q x y z (i + 1) (j + 1) (k + 1))))

omit [IsStrictOrderedRing K] in
theorem cellOf_eq (x : K) : (cellOf x : Int) = ⌊x⌋ % 256 := by
  unfold cellOf; omega

theorem bnd {A B : Type} {o : Option A} {a : A} {f : A → Option B} (e : o = some a) :
    (o >>= f) = f a := by rw [e]; rfl

/-- C84: for every permutation table and every point the noise is defined (no read leaves the
table), and it is the interpolation of the eight lattice points around. -/
theorem C84_noise_eq {q : List Nat} (hq : IsTable q) (x y z : K) :
    noise (dup q) x y z = some ((cubeBlend q ⌊x⌋ ⌊y⌋ ⌊z⌋ x y z + 1) / 2) := by
  have hX := cellOf_eq x
  have hY := cellOf_eq y
  have hZ := cellOf_eq z
  unfold noise
  obtain ⟨X, eX⟩ : ∃ X, cellOf x = X := ⟨_, rfl⟩
  obtain ⟨Y, eY⟩ : ∃ Y, cellOf y = Y := ⟨_, rfl⟩
  obtain ⟨Z, eZ⟩ : ∃ Z, cellOf z = Z := ⟨_, rfl⟩
  rw [eX] at hX
  rw [eY] at hY
  rw [eZ] at hZ
  rw [eX, eY, eZ]
  have l1 := entry_lt hq X
  have l2 := entry_lt hq (X + 1 : Nat)
  have r0 : X < 256 ∧ Y < 256 ∧ Z < 256 := by omega
  have m1 := entry_lt hq ((entry q X + Y : Nat) : Int)
  have m2 := entry_lt hq ((entry q X + Y + 1 : Nat) : Int)
  have m3 := entry_lt hq ((entry q (X + 1 : Nat) + Y : Nat) : Int)
  have m4 := entry_lt hq ((entry q (X + 1 : Nat) + Y + 1 : Nat) : Int)
  have hcor : corners (dup q) X Y Z = some ⟨entry q ((entry q (entry q X + Y : Nat) + Z : Nat)),
      entry q ((entry q (entry q (X + 1 : Nat) + Y : Nat) + Z : Nat)),
      entry q ((entry q (entry q X + Y + 1 : Nat) + Z : Nat)),
      entry q ((entry q (entry q (X + 1 : Nat) + Y + 1 : Nat) + Z : Nat)),
      entry q ((entry q (entry q X + Y : Nat) + Z + 1 : Nat)),
      entry q ((entry q (entry q (X + 1 : Nat) + Y : Nat) + Z + 1 : Nat)),
      entry q ((entry q (entry q X + Y + 1 : Nat) + Z + 1 : Nat)),
      entry q ((entry q (entry q (X + 1 : Nat) + Y + 1 : Nat) + Z + 1 : Nat))⟩ := by
    unfold corners
    refine (bnd (dup_get hq (X) (by omega))).trans ?_
    try dsimp only
    refine (bnd (dup_get hq (entry q X + Y) (by omega))).trans ?_
    try dsimp only
    refine (bnd (dup_get hq (entry q X + Y + 1) (by omega))).trans ?_
    try dsimp only
    refine (bnd (dup_get hq (X + 1) (by omega))).trans ?_
    try dsimp only
    refine (bnd (dup_get hq (entry q (X + 1 : Nat) + Y) (by omega))).trans ?_
    try dsimp only
    refine (bnd (dup_get hq (entry q (X + 1 : Nat) + Y + 1) (by omega))).trans ?_
    try dsimp only
    refine (bnd (dup_get hq (entry q (entry q X + Y : Nat) + Z) (by omega))).trans ?_
    try dsimp only
    refine (bnd (dup_get hq (entry q (entry q (X + 1 : Nat) + Y : Nat) + Z) (by omega))).trans ?_
    try dsimp only
    refine (bnd (dup_get hq (entry q (entry q X + Y + 1 : Nat) + Z) (by omega))).trans ?_
    try dsimp only
    refine (bnd (dup_get hq (entry q (entry q (X + 1 : Nat) + Y + 1 : Nat) + Z) (by omega))).trans ?_
    try dsimp only
    refine (bnd (dup_get hq (entry q (entry q X + Y : Nat) + Z + 1) (by omega))).trans ?_
    try dsimp only
    refine (bnd (dup_get hq (entry q (entry q (X + 1 : Nat) + Y : Nat) + Z + 1) (by omega))).trans ?_
    try dsimp only
    refine (bnd (dup_get hq (entry q (entry q X + Y + 1 : Nat) + Z + 1) (by omega))).trans ?_
    try dsimp only
    refine (bnd (dup_get hq (entry q (entry q (X + 1 : Nat) + Y + 1 : Nat) + Z + 1) (by omega))).trans ?_
    rfl
  rw [hcor, Option.map_some]
  have a0 : entry q X = entry q ⌊x⌋ := entry_mod q _ _ (by omega)
  have a1 : entry q (X + 1 : Nat) = entry q (⌊x⌋ + 1) := entry_mod q _ _ (by push_cast; omega)
  have b : ∀ (e : Nat) (d : Nat), entry q ((e + Y + d : Nat) : Int) = entry q (e + (⌊y⌋ + d)) := by
    intro e d; exact entry_mod q _ _ (by push_cast; omega)
  have c : ∀ (e : Nat) (d : Nat), entry q ((e + Z + d : Nat) : Int) = entry q (e + (⌊z⌋ + d)) := by
    intro e d; exact entry_mod q _ _ (by push_cast; omega)
  have b0 : ∀ (e : Nat), entry q ((e + Y : Nat) : Int) = entry q (e + ⌊y⌋) := by
    intro e; exact entry_mod q _ _ (by push_cast; omega)
  have c0 : ∀ (e : Nat), entry q ((e + Z : Nat) : Int) = entry q (e + ⌊z⌋) := by
    intro e; exact entry_mod q _ _ (by push_cast; omega)
  simp only [b, c, b0, c0, a0, a1]
  simp only [cubeBlend, contrib, blend, lattice, Int.cast_add, Int.cast_one, Nat.cast_one,
    sub_add_eq_sub_sub]

/-! ### Range -/

omit [LinearOrder K] [IsStrictOrderedRing K] [FloorRing K] in
theorem fade_symm (t : K) : 1 - fade t = fade (1 - t) := by unfold fade; ring

theorem fade_nonneg {t : K} (h0 : 0 ≤ t) : 0 ≤ fade t := by
  unfold fade
  have h1 : 0 ≤ t * t * t := by positivity
  have h2 : 0 ≤ t * (t * 6 - 15) + 10 := by nlinarith [sq_nonneg (t - 5 / 4)]
  exact mul_nonneg h1 h2

theorem fade_le_one {t : K} (h1 : t ≤ 1) : fade t ≤ 1 := by
  have := fade_nonneg (show 0 ≤ 1 - t by linarith)
  rw [← fade_symm] at this
  linarith

/-- The expected distance to the two ends is at most one half. -/
theorem fade_mean {t : K} (h0 : 0 ≤ t) (h1 : t ≤ 1) : (1 - fade t) * t + fade t * (1 - t) ≤ 1 / 2 := by
  have h2 : (1 - fade t) * t + fade t * (1 - t) =
      1 / 2 - 2 * ((t - 1 / 2) ^ 2 * (6 * (t * (1 - t)) ^ 2 + 2 * (t * (1 - t)) + 1)) := by
    unfold fade; ring
  rw [h2]
  have h3 : 0 ≤ t * (1 - t) := mul_nonneg h0 (by linarith)
  have h4 : 0 ≤ (t - 1 / 2) ^ 2 * (6 * (t * (1 - t)) ^ 2 + 2 * (t * (1 - t)) + 1) := by positivity
  linarith

/-- Perlin's sixteen gradients: the twelve edge midpoints of a cube, four of them twice. -/
def edgeVectors : List (Int × Int × Int) :=
  [(1, 1, 0), (-1, 1, 0), (1, -1, 0), (-1, -1, 0), (1, 0, 1), (-1, 0, 1), (1, 0, -1), (-1, 0, -1),
   (0, 1, 1), (0, -1, 1), (0, 1, -1), (0, -1, -1), (1, 1, 0), (0, -1, 1), (-1, 1, 0), (0, -1, -1)]

omit [FloorRing K] in
/-- **C84.** A corner contributes the product of the offset from it with the gradient its hash selects. -/
theorem C84_gradients (hash : Nat) (x y z : K) :
    ∃ v, edgeVectors[hash % 16]? = some v ∧ grad hash x y z = (v.1 : K) * x + (v.2.1 : K) * y + (v.2.2 : K) * z := by
  have hlt : hash % 16 < 16 := Nat.mod_lt _ (by norm_num)
  unfold grad
  generalize hash % 16 = n at hlt ⊢
  interval_cases n <;> refine ⟨_, rfl, ?_⟩ <;> norm_num <;> ring

omit [FloorRing K] in
theorem grad_le (hh : Nat) (x y z : K) : |grad hh x y z| ≤ |x| + |y| + |z| := by
  unfold grad
  have hx := abs_nonneg x
  have hy := abs_nonneg y
  have hz := abs_nonneg z
  have key : ∀ (a b : K) (s t : Prop) [Decidable s] [Decidable t],
      |(if s then a else -a) + (if t then b else -b)| ≤ |a| + |b| := by
    intro a b s t _ _
    refine (abs_add_le _ _).trans (add_le_add ?_ ?_)
    · split_ifs
      · exact le_rfl
      · rw [abs_neg]
    · split_ifs
      · exact le_rfl
      · rw [abs_neg]
  refine (key _ _ _ _).trans ?_
  by_cases h1 : hh % 16 < 8
  · rw [if_pos h1]
    by_cases h2 : hh % 16 < 4
    · rw [if_pos h2]; linarith
    · rw [if_neg h2, if_neg (by omega)]; linarith
  · rw [if_neg h1, if_neg (show ¬ hh % 16 < 4 by omega)]
    split_ifs <;> linarith

omit [FloorRing K] in
theorem lerp_le {t a b A B : K} (h0 : 0 ≤ t) (h1 : t ≤ 1) (ha : |a| ≤ A) (hb : |b| ≤ B) :
    |lerp t a b| ≤ (1 - t) * A + t * B := by
  have : lerp t a b = (1 - t) * a + t * b := by unfold lerp; ring
  rw [this]
  refine (abs_add_le _ _).trans (add_le_add ?_ ?_)
  · rw [abs_mul, abs_of_nonneg (show 0 ≤ 1 - t by linarith)]
    exact mul_le_mul_of_nonneg_left ha (by linarith)
  · rw [abs_mul, abs_of_nonneg h0]
    exact mul_le_mul_of_nonneg_left hb h0

theorem cubeBlend_le (q : List Nat) (x y z : K) : |cubeBlend q ⌊x⌋ ⌊y⌋ ⌊z⌋ x y z| ≤ 3 / 2 := by
  have fx0 : (0 : K) ≤ x - ⌊x⌋ := by have := Int.floor_le x; linarith
  have fx1 : x - ⌊x⌋ ≤ (1 : K) := by have := (Int.lt_floor_add_one x).le; linarith
  have fy0 : (0 : K) ≤ y - ⌊y⌋ := by have := Int.floor_le y; linarith
  have fy1 : y - ⌊y⌋ ≤ (1 : K) := by have := (Int.lt_floor_add_one y).le; linarith
  have fz0 : (0 : K) ≤ z - ⌊z⌋ := by have := Int.floor_le z; linarith
  have fz1 : z - ⌊z⌋ ≤ (1 : K) := by have := (Int.lt_floor_add_one z).le; linarith
  unfold cubeBlend
  simp only [contrib, Int.cast_add, Int.cast_one, sub_add_eq_sub_sub]
  generalize x - (⌊x⌋ : K) = a at *
  generalize y - (⌊y⌋ : K) = b at *
  generalize z - (⌊z⌋ : K) = c at *
  have ax : |a| = a := abs_of_nonneg fx0
  have ay : |b| = b := abs_of_nonneg fy0
  have az : |c| = c := abs_of_nonneg fz0
  have ax1 : |a - 1| = 1 - a := by rw [abs_sub_comm, abs_of_nonneg (by linarith)]
  have ay1 : |b - 1| = 1 - b := by rw [abs_sub_comm, abs_of_nonneg (by linarith)]
  have az1 : |c - 1| = 1 - c := by rw [abs_sub_comm, abs_of_nonneg (by linarith)]
  have u0 := fade_nonneg fx0
  have u1 := fade_le_one fx1
  have v0 := fade_nonneg fy0
  have v1 := fade_le_one fy1
  have w0 := fade_nonneg fz0
  have w1 := fade_le_one fz1
  have mx := fade_mean fx0 fx1
  have my := fade_mean fy0 fy1
  have mz := fade_mean fz0 fz1
  have g : ∀ (hh : Nat) (x y z X Y Z : K), |x| = X → |y| = Y → |z| = Z →
      |grad hh x y z| ≤ X + Y + Z := by
    intro hh x y z X Y Z e1 e2 e3
    rw [← e1, ← e2, ← e3]; exact grad_le hh x y z
  refine (lerp_le w0 w1
    (lerp_le v0 v1 (lerp_le u0 u1 (g _ _ _ _ _ _ _ ax ay az) (g _ _ _ _ _ _ _ ax1 ay az))
      (lerp_le u0 u1 (g _ _ _ _ _ _ _ ax ay1 az) (g _ _ _ _ _ _ _ ax1 ay1 az)))
    (lerp_le v0 v1 (lerp_le u0 u1 (g _ _ _ _ _ _ _ ax ay az1) (g _ _ _ _ _ _ _ ax1 ay az1))
      (lerp_le u0 u1 (g _ _ _ _ _ _ _ ax ay1 az1) (g _ _ _ _ _ _ _ ax1 ay1 az1)))).trans ?_
  generalize fade a = u at *
  generalize fade b = v at *
  generalize fade c = w at *
  have e : (1 - w) * ((1 - v) * ((1 - u) * (a + b + c) + u * (1 - a + b + c)) +
        v * ((1 - u) * (a + (1 - b) + c) + u * (1 - a + (1 - b) + c))) +
      w * ((1 - v) * ((1 - u) * (a + b + (1 - c)) + u * (1 - a + b + (1 - c))) +
        v * ((1 - u) * (a + (1 - b) + (1 - c)) + u * (1 - a + (1 - b) + (1 - c)))) =
      ((1 - u) * a + u * (1 - a)) + ((1 - v) * b + v * (1 - b)) + ((1 - w) * c + w * (1 - c)) := by
    ring
  rw [e]
  linarith

/-- C84: for every permutation table the noise stays between -1/4 and 5/4. -/
theorem C84_range_partial {q : List Nat} (hq : IsTable q) (x y z : K) :
    ∃ r, noise (dup q) x y z = some r ∧ -(1 / 4) ≤ r ∧ r ≤ 5 / 4 := by
  refine ⟨_, C84_noise_eq hq x y z, ?_, ?_⟩
  · have := (abs_le.1 (cubeBlend_le q x y z)).1; linarith
  · have := (abs_le.1 (cubeBlend_le q x y z)).2; linarith

/-! ### Lattice points, period -/

/-- C84: at integer points the noise is one half. -/
theorem C84_lattice {q : List Nat} (hq : IsTable q) (i j k : Int) :
    noise (dup q) (i : K) (j : K) (k : K) = some (1 / 2) := by
  rw [C84_noise_eq hq]
  have g0 : ∀ n, grad n (0 : K) 0 0 = 0 := by intro n; unfold grad; simp
  have f0 : fade (0 : K) = 0 := by unfold fade; ring
  simp [cubeBlend, contrib, lerp, f0, g0]

/-- C84: the noise repeats every 256 units in each coordinate. -/
theorem C84_period {q : List Nat} (hq : IsTable q) (x y z : K) (a b c : Int) :
    noise (dup q) (x + (256 * a : Int)) (y + (256 * b : Int)) (z + (256 * c : Int)) =
      noise (dup q) x y z := by
  rw [C84_noise_eq hq, C84_noise_eq hq]
  have hl : ∀ i j k : Int, lattice q (i + 256 * a) (j + 256 * b) (k + 256 * c) = lattice q i j k := by
    intro i j k
    unfold lattice
    have h1 : entry q (i + 256 * a) = entry q i := entry_mod q _ _ (by omega)
    have h2 : ∀ e : Int, entry q (e + (j + 256 * b)) = entry q (e + j) := fun e =>
      entry_mod q _ _ (by omega)
    have h3 : ∀ e : Int, entry q (e + (k + 256 * c)) = entry q (e + k) := fun e =>
      entry_mod q _ _ (by omega)
    rw [h1, h2, h3]
  simp only [Int.floor_add_intCast]
  have hc : ∀ i j k : Int, contrib q (x + (256 * a : Int)) (y + (256 * b : Int)) (z + (256 * c : Int))
      (i + 256 * a) (j + 256 * b) (k + 256 * c) = contrib q x y z i j k := by
    intro i j k
    unfold contrib
    rw [hl]
    congr 1 <;> push_cast <;> ring
  have hs : ∀ i a : Int, i + 256 * a + 1 = i + 1 + 256 * a := by intro i a; ring
  have hf : ∀ (t : K) (i a : Int), t + ((256 * a : Int) : K) - ((i + 256 * a : Int) : K) = t - i := by
    intro t i a; push_cast; ring
  simp only [cubeBlend, hs, hc, hf]

end

/-! ### Continuity -/

/-- On the closed unit cube the interpolation with any of the admissible corners is the same. -/
theorem cubeBlend_face_x (q : List Nat) (i j k : Int) (y z : ℝ) :
    cubeBlend q (i + 1) j k ((i + 1 : Int) : ℝ) y z = cubeBlend q i j k ((i + 1 : Int) : ℝ) y z := by
  have f0 : fade (0 : ℝ) = 0 := by unfold fade; ring
  have f1 : fade (1 : ℝ) = 1 := by unfold fade; ring
  have e1 : ((i + 1 : Int) : ℝ) - ((i + 1 : Int) : ℝ) = 0 := by ring
  have e2 : ((i + 1 : Int) : ℝ) - (i : ℝ) = 1 := by push_cast; ring
  simp only [cubeBlend, e1, e2, f0, f1, lerp, zero_mul, one_mul, add_zero, add_sub_cancel]

theorem cubeBlend_face_y (q : List Nat) (i j k : Int) (x z : ℝ) :
    cubeBlend q i (j + 1) k x ((j + 1 : Int) : ℝ) z = cubeBlend q i j k x ((j + 1 : Int) : ℝ) z := by
  have f0 : fade (0 : ℝ) = 0 := by unfold fade; ring
  have f1 : fade (1 : ℝ) = 1 := by unfold fade; ring
  have e1 : ((j + 1 : Int) : ℝ) - ((j + 1 : Int) : ℝ) = 0 := by ring
  have e2 : ((j + 1 : Int) : ℝ) - (j : ℝ) = 1 := by push_cast; ring
  simp only [cubeBlend, e1, e2, f0, f1, lerp, zero_mul, one_mul, add_zero, add_sub_cancel]

theorem cubeBlend_face_z (q : List Nat) (i j k : Int) (x y : ℝ) :
    cubeBlend q i j (k + 1) x y ((k + 1 : Int) : ℝ) = cubeBlend q i j k x y ((k + 1 : Int) : ℝ) := by
  have f0 : fade (0 : ℝ) = 0 := by unfold fade; ring
  have f1 : fade (1 : ℝ) = 1 := by unfold fade; ring
  have e1 : ((k + 1 : Int) : ℝ) - ((k + 1 : Int) : ℝ) = 0 := by ring
  have e2 : ((k + 1 : Int) : ℝ) - (k : ℝ) = 1 := by push_cast; ring
  simp only [cubeBlend, e1, e2, f0, f1, lerp, zero_mul, one_mul, add_zero, add_sub_cancel]

theorem floor_cases {t : ℝ} {i : Int} (h0 : (i : ℝ) ≤ t) (h1 : t ≤ (i + 1 : Int)) :
    ⌊t⌋ = i ∨ (t = ((i + 1 : Int) : ℝ) ∧ ⌊t⌋ = i + 1) := by
  rcases lt_or_eq_of_le h1 with h2 | h2
  · left
    rw [Int.floor_eq_iff]
    push_cast at h2
    exact ⟨h0, h2⟩
  · right
    exact ⟨h2, by rw [h2, Int.floor_intCast]⟩

theorem cubeBlend_floor (q : List Nat) (i j k : Int) (x y z : ℝ) (hx : (i : ℝ) ≤ x ∧ x ≤ (i + 1 : Int))
    (hy : (j : ℝ) ≤ y ∧ y ≤ (j + 1 : Int)) (hz : (k : ℝ) ≤ z ∧ z ≤ (k + 1 : Int)) :
    cubeBlend q ⌊x⌋ ⌊y⌋ ⌊z⌋ x y z = cubeBlend q i j k x y z := by
  have h1 : cubeBlend q ⌊x⌋ ⌊y⌋ ⌊z⌋ x y z = cubeBlend q i ⌊y⌋ ⌊z⌋ x y z := by
    rcases floor_cases hx.1 hx.2 with e | ⟨e, e'⟩
    · rw [e]
    · rw [e', e, cubeBlend_face_x]
  have h2 : cubeBlend q i ⌊y⌋ ⌊z⌋ x y z = cubeBlend q i j ⌊z⌋ x y z := by
    rcases floor_cases hy.1 hy.2 with e | ⟨e, e'⟩
    · rw [e]
    · rw [e', e, cubeBlend_face_y]
  have h3 : cubeBlend q i j ⌊z⌋ x y z = cubeBlend q i j k x y z := by
    rcases floor_cases hz.1 hz.2 with e | ⟨e, e'⟩
    · rw [e]
    · rw [e', e, cubeBlend_face_z]
  rw [h1, h2, h3]

theorem continuous_grad (n : Nat) : Continuous (fun p : ℝ × ℝ × ℝ => grad n p.1 p.2.1 p.2.2) := by
  unfold grad
  dsimp only
  split_ifs <;> fun_prop

theorem continuous_fade : Continuous (fade : ℝ → ℝ) := by unfold fade; fun_prop

theorem continuous_contrib (q : List Nat) (i j k : Int) :
    Continuous (fun p : ℝ × ℝ × ℝ => contrib q p.1 p.2.1 p.2.2 i j k) := by
  unfold contrib
  exact (continuous_grad _).comp (f := fun p : ℝ × ℝ × ℝ => (p.1 - (i : ℝ), p.2.1 - (j : ℝ), p.2.2 - (k : ℝ)))
    (by fun_prop)

theorem continuous_cubeBlend (q : List Nat) (i j k : Int) :
    Continuous (fun p : ℝ × ℝ × ℝ => cubeBlend q i j k p.1 p.2.1 p.2.2) := by
  have hc := continuous_contrib q
  have f1 : Continuous (fun p : ℝ × ℝ × ℝ => fade (p.1 - (i : ℝ))) := continuous_fade.comp (by fun_prop)
  have f2 : Continuous (fun p : ℝ × ℝ × ℝ => fade (p.2.1 - (j : ℝ))) := continuous_fade.comp (by fun_prop)
  have f3 : Continuous (fun p : ℝ × ℝ × ℝ => fade (p.2.2 - (k : ℝ))) := continuous_fade.comp (by fun_prop)
  have hl : ∀ t a b : ℝ × ℝ × ℝ → ℝ, Continuous t → Continuous a → Continuous b →
      Continuous (fun p => lerp (t p) (a p) (b p)) := by
    intro t a b h1 h2 h3; unfold lerp; fun_prop
  unfold cubeBlend
  refine hl _ _ _ f3 (hl _ _ _ f2 (hl _ _ _ f1 ?_ ?_) (hl _ _ _ f1 ?_ ?_))
    (hl _ _ _ f2 (hl _ _ _ f1 ?_ ?_) (hl _ _ _ f1 ?_ ?_)) <;> apply hc

/-- The closed unit cube with lowest corner `(i,j,k)`. -/
def cube (a : Int × Int × Int) : Set (ℝ × ℝ × ℝ) :=
  {p | ((a.1 : ℝ) ≤ p.1 ∧ p.1 ≤ (a.1 + 1 : Int)) ∧ ((a.2.1 : ℝ) ≤ p.2.1 ∧ p.2.1 ≤ (a.2.1 + 1 : Int)) ∧
    ((a.2.2 : ℝ) ≤ p.2.2 ∧ p.2.2 ≤ (a.2.2 + 1 : Int))}

theorem cube_locallyFinite : LocallyFinite cube := by
  intro p
  refine ⟨Set.Ioo (p.1 - 1) (p.1 + 1) ×ˢ Set.Ioo (p.2.1 - 1) (p.2.1 + 1) ×ˢ
    Set.Ioo (p.2.2 - 1) (p.2.2 + 1), ?_, ?_⟩
  · refine prod_mem_nhds (Ioo_mem_nhds (by linarith) (by linarith))
      (prod_mem_nhds (Ioo_mem_nhds (by linarith) (by linarith)) (Ioo_mem_nhds (by linarith) (by linarith)))
  · have key : ∀ (t s : ℝ) (i : Int), t - 1 < s → s < t + 1 → (i : ℝ) ≤ s → s ≤ (i + 1 : Int) →
        i ∈ Set.Icc (⌊t⌋ - 3) (⌊t⌋ + 3) := by
      intro t s i h1 h2 h3 h4
      have h5 := Int.floor_le t
      have h6 := Int.lt_floor_add_one t
      push_cast at h4
      constructor
      · have : ((⌊t⌋ - 3 : Int) : ℝ) ≤ (i : ℝ) := by push_cast; linarith
        exact_mod_cast this
      · have : (i : ℝ) ≤ ((⌊t⌋ + 3 : Int) : ℝ) := by push_cast; linarith
        exact_mod_cast this
    refine Set.Finite.subset (((Set.finite_Icc (⌊p.1⌋ - 3) (⌊p.1⌋ + 3)).prod
      ((Set.finite_Icc (⌊p.2.1⌋ - 3) (⌊p.2.1⌋ + 3)).prod
        (Set.finite_Icc (⌊p.2.2⌋ - 3) (⌊p.2.2⌋ + 3))))) ?_
    rintro ⟨i, j, k⟩ ⟨s, ⟨hi, hj, hk⟩, ⟨s1, s2, s3⟩⟩
    exact ⟨key _ _ _ s1.1 s1.2 hi.1 hi.2, key _ _ _ s2.1 s2.2 hj.1 hj.2, key _ _ _ s3.1 s3.2 hk.1 hk.2⟩

theorem cube_closed (a : Int × Int × Int) : IsClosed (cube a) := by
  have h : ∀ f : ℝ × ℝ × ℝ → ℝ, Continuous f → ∀ b c : ℝ, IsClosed {p | b ≤ f p ∧ f p ≤ c} := by
    intro f hf b c
    exact (isClosed_le continuous_const hf).inter (isClosed_le hf continuous_const)
  exact (h _ continuous_fst _ _).inter ((h _ (continuous_fst.comp continuous_snd) _ _).inter
    (h _ (continuous_snd.comp continuous_snd) _ _))

/-- C84: the noise is continuous: no seams between the unit cubes. -/
theorem C84_continuous {q : List Nat} (hq : IsTable q) :
    ∃ f : ℝ × ℝ × ℝ → ℝ, Continuous f ∧ ∀ x y z, noise (dup q) x y z = some (f (x, y, z)) := by
  refine ⟨fun p => (cubeBlend q ⌊p.1⌋ ⌊p.2.1⌋ ⌊p.2.2⌋ p.1 p.2.1 p.2.2 + 1) / 2, ?_,
    fun x y z => C84_noise_eq hq x y z⟩
  refine cube_locallyFinite.continuous ?_ cube_closed ?_
  · rw [Set.eq_univ_iff_forall]
    intro p
    refine Set.mem_iUnion.2 ⟨(⌊p.1⌋, ⌊p.2.1⌋, ⌊p.2.2⌋), ?_⟩
    have h : ∀ t : ℝ, (⌊t⌋ : ℝ) ≤ t ∧ t ≤ ((⌊t⌋ + 1 : Int) : ℝ) := by
      intro t
      refine ⟨Int.floor_le t, ?_⟩
      push_cast
      exact (Int.lt_floor_add_one t).le
    exact ⟨h _, h _, h _⟩
  · rintro ⟨i, j, k⟩
    refine ContinuousOn.congr (f := fun p : ℝ × ℝ × ℝ => (cubeBlend q i j k p.1 p.2.1 p.2.2 + 1) / 2) ?_ ?_
    · exact (((continuous_cubeBlend q i j k).add continuous_const).div_const 2).continuousOn
    · rintro ⟨x, y, z⟩ ⟨hx, hy, hz⟩
      dsimp only
      rw [cubeBlend_floor q i j k x y z hx hy hz]

/-! ### The terrain -/

section
variable {K : Type*} [Field K] [LinearOrder K] [IsStrictOrderedRing K] [FloorRing K]

/-- C84: the generator accepts exactly square rasters, and gives every cell a height between -1/4
and 5/4. -/
theorem C84_terrain {q : List Nat} (hq : IsTable q) (w h : Nat) :
    (w ≠ h → terrain (K := K) (dup q) w h = none) ∧
    (w = h → ∃ f, terrain (K := K) (dup q) w h = some f ∧
      ∀ x y, ∃ r, f x y = some r ∧ -(1 / 4) ≤ r ∧ r ≤ 5 / 4) := by
  unfold terrain
  refine ⟨fun e => if_pos e, fun e => ⟨_, if_neg (by simpa using e), fun x y => ?_⟩⟩
  exact C84_range_partial hq _ _ _

end

/-- C84: the reference table is a permutation. -/
theorem C84_refTable : IsTable refTable := by unfold IsTable; decide +kernel

/-- Another permutation. -/
def highTable : List Nat := [
  10, 20, 0, 1, 2, 3, 4, 5, 6, 7, 30, 40, 8, 9, 11, 12, 13, 14, 15, 16, 50, 60, 17, 18, 19, 21,
  22, 23, 24, 25, 100, 96, 26, 27, 28, 29, 31, 32, 33, 34, 116, 98, 35, 36, 37, 38, 39, 41, 42,
  43, 101, 97, 44, 45, 46, 47, 48, 49, 51, 52, 117, 99, 53, 54, 55, 56, 57, 58, 59, 61, 62, 63,
  64, 65, 66, 67, 68, 69, 70, 71, 72, 73, 74, 75, 76, 77, 78, 79, 80, 81, 82, 83, 84, 85, 86, 87,
  88, 89, 90, 91, 92, 93, 94, 95, 102, 103, 104, 105, 106, 107, 108, 109, 110, 111, 112, 113,
  114, 115, 118, 119, 120, 121, 122, 123, 124, 125, 126, 127, 128, 129, 130, 131, 132, 133, 134,
  135, 136, 137, 138, 139, 140, 141, 142, 143, 144, 145, 146, 147, 148, 149, 150, 151, 152, 153,
  154, 155, 156, 157, 158, 159, 160, 161, 162, 163, 164, 165, 166, 167, 168, 169, 170, 171, 172,
  173, 174, 175, 176, 177, 178, 179, 180, 181, 182, 183, 184, 185, 186, 187, 188, 189, 190, 191,
  192, 193, 194, 195, 196, 197, 198, 199, 200, 201, 202, 203, 204, 205, 206, 207, 208, 209, 210,
  211, 212, 213, 214, 215, 216, 217, 218, 219, 220, 221, 222, 223, 224, 225, 226, 227, 228, 229,
  230, 231, 232, 233, 234, 235, 236, 237, 238, 239, 240, 241, 242, 243, 244, 245, 246, 247, 248,
  249, 250, 251, 252, 253, 254, 255]

theorem highTable_ok : IsTable highTable := by unfold IsTable; decide +kernel

/-- C84, refuted: the heights are not always between 0 and 1. -/
theorem C84_unit_range_refuted :
    (terrain (K := ℚ) (dup highTable) 20 20).bind (fun f => f 1 1) = some (63043 / 62500) ∧
    (1 : ℚ) < 63043 / 62500 := by
  refine ⟨by decide +kernel, by norm_num⟩

/-- Non-vacuity: the reference table at a generic point. -/
example : ∃ r, noise (K := ℚ) (dup refTable) (1 / 3) (27 / 10) (-5 / 4) = some r ∧ r ≠ 1 / 2 := by
  refine ⟨_, C84_noise_eq C84_refTable _ _ _, ?_⟩
  decide +kernel

end Perlin
end RichDEM
