import Mathlib.Algebra.Order.Floor.Ring
import Mathlib.Algebra.Field.Basic
import Mathlib.Tactic.Ring

/-!
Model of the terrain generator: `PerlinNoise` (src/terrain_generation/PerlinNoise.cpp) and
`generate_perlin_terrain` (src/terrain_generation/terrain_generation.cpp).

Numbers are any ordered field with a floor function (no rounding); `(int)floor(x)` is exact, so
`|x| < 2^31`.  The permutation table is a parameter: `std::shuffle` and the random engine are not
modelled, the theorems hold for every permutation.  Reading outside the table is `none`.
-/

namespace RichDEM
namespace Perlin

/-- PerlinNoise.cpp:22-33: the reference table. -/
def refTable : List Nat := [
  151, 160, 137, 91, 90, 15, 131, 13, 201, 95, 96, 53, 194, 233, 7, 225, 140, 36, 103, 30, 69,
  142, 8, 99, 37, 240, 21, 10, 23, 190, 6, 148, 247, 120, 234, 75, 0, 26, 197, 62, 94, 252, 219,
  203, 117, 35, 11, 32, 57, 177, 33, 88, 237, 149, 56, 87, 174, 20, 125, 136, 171, 168, 68, 175,
  74, 165, 71, 134, 139, 48, 27, 166, 77, 146, 158, 231, 83, 111, 229, 122, 60, 211, 133, 230,
  220, 105, 92, 41, 55, 46, 245, 40, 244, 102, 143, 54, 65, 25, 63, 161, 1, 216, 80, 73, 209, 76,
  132, 187, 208, 89, 18, 169, 200, 196, 135, 130, 116, 188, 159, 86, 164, 100, 109, 198, 173,
  186, 3, 64, 52, 217, 226, 250, 124, 123, 5, 202, 38, 147, 118, 126, 255, 82, 85, 212, 207, 206,
  59, 227, 47, 16, 58, 17, 182, 189, 28, 42, 223, 183, 170, 213, 119, 248, 152, 2, 44, 154, 163,
  70, 221, 153, 101, 155, 167, 43, 172, 9, 129, 22, 39, 253, 19, 98, 108, 110, 79, 113, 224, 232,
  178, 185, 112, 104, 218, 246, 97, 228, 251, 34, 242, 193, 238, 210, 144, 12, 191, 179, 162,
  241, 81, 51, 145, 235, 249, 14, 239, 107, 49, 192, 214, 31, 181, 199, 106, 157, 184, 84, 204,
  176, 115, 121, 50, 45, 127, 4, 150, 254, 138, 236, 205, 93, 222, 114, 67, 29, 24, 72, 243, 141,
  128, 195, 78, 66, 215, 61, 156, 180]

/-- PerlinNoise.cpp:36, 53: the table is written twice in a row.  (Strictly, `vector::insert` of a
vector's own range is not allowed by the C++ standard; the model is what it does when it has to
reallocate, which it has to here.) -/
def dup (q : List Nat) : List Nat := q ++ q

variable {K : Type*} [Field K] [LinearOrder K] [FloorRing K]

/-- PerlinNoise.cpp:85-87. -/
def fade (t : K) : K := t * t * t * (t * (t * 6 - 15) + 10)

/-- PerlinNoise.cpp:89-91. -/
def lerp (t a b : K) : K := a + t * (b - a)

/-- PerlinNoise.cpp:93-99. -/
def grad (hash : Nat) (x y z : K) : K :=
  let h := hash % 16
  let u := if h < 8 then x else y
  let v := if h < 4 then y else if h = 12 ∨ h = 14 then x else z
  (if h % 2 = 0 then u else -u) + (if h / 2 % 2 = 0 then v else -v)

/-- PerlinNoise.cpp:58-60: `(int) floor(x) & 255`. -/
def cellOf (x : K) : Nat := (⌊x⌋ % 256).toNat

/-- The eight hashes of the corners of the unit cube. -/
structure Corners where
  AA : Nat
  BA : Nat
  AB : Nat
  BB : Nat
  AA1 : Nat
  BA1 : Nat
  AB1 : Nat
  BB1 : Nat

/-- PerlinNoise.cpp:73-78 and the lookups of line 81. -/
def corners (p : List Nat) (X Y Z : Nat) : Option Corners := do
  let A := (← p[X]?) + Y
  let AA := (← p[A]?) + Z
  let AB := (← p[A + 1]?) + Z
  let B := (← p[X + 1]?) + Y
  let BA := (← p[B]?) + Z
  let BB := (← p[B + 1]?) + Z
  return ⟨← p[AA]?, ← p[BA]?, ← p[AB]?, ← p[BB]?, ← p[AA + 1]?, ← p[BA + 1]?, ← p[AB + 1]?,
    ← p[BB + 1]?⟩

/-- PerlinNoise.cpp:81: the blend of the eight corner contributions. -/
def blend (u v w x y z : K) (c : Corners) : K :=
  lerp w
    (lerp v (lerp u (grad c.AA x y z) (grad c.BA (x - 1) y z))
      (lerp u (grad c.AB x (y - 1) z) (grad c.BB (x - 1) (y - 1) z)))
    (lerp v (lerp u (grad c.AA1 x y (z - 1)) (grad c.BA1 (x - 1) y (z - 1)))
      (lerp u (grad c.AB1 x (y - 1) (z - 1)) (grad c.BB1 (x - 1) (y - 1) (z - 1))))

/-- PerlinNoise.cpp:56-83 (`noise`). -/
def noise (p : List Nat) (x y z : K) : Option K :=
  (corners p (cellOf x) (cellOf y) (cellOf z)).map fun c =>
    (blend (fade (x - ⌊x⌋)) (fade (y - ⌊y⌋)) (fade (z - ⌊z⌋)) (x - ⌊x⌋) (y - ⌊y⌋) (z - ⌊z⌋) c + 1) / 2

/-- terrain_generation.cpp:11-25 (`generate_perlin_terrain`): the outer `none` is the exception for
rasters that are not square, an inner `none` a read outside the table. -/
def terrain (p : List Nat) (w h : Nat) : Option (Nat → Nat → Option K) :=
  if w ≠ h then none
  else some fun x y => noise p ((10 * x : Nat) / (w : K)) ((10 * y : Nat) / (w : K)) (4 / 5)

end Perlin
end RichDEM
