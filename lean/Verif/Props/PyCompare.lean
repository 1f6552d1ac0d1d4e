/-
Property theorems C106: the comparison program of the Python package.
-/
import Verif.Py.Compare
import Verif.Props.PyGdal

namespace RichDEM.Py

theorem roundBits_zero_iff (p : Nat) (hp : 0 < p) (q : ℚ) : roundBits p q = 0 ↔ q = 0 := by
  constructor
  · intro h0
    by_contra hq
    have hpos : 0 < |q| := abs_pos.2 hq
    have hlow : (2 : ℚ) ^ Int.log 2 |q| ≤ |q| := by
      have := Int.zpow_log_le_self (b := 2) (by norm_num) hpos
      exact_mod_cast this
    have h2 : (0 : ℚ) < 2 ^ Int.log 2 |q| := zpow_pos (by norm_num) _
    have h1p : (1 : Int) < 2 ^ p := one_lt_pow₀ (by norm_num) (by omega)
    rcases le_total 0 q with h | h
    · rw [abs_of_nonneg h] at hlow h2
      have := (roundBits_nearest p hp q ((1 : Int) * (2 : ℚ) ^ Int.log 2 q) ⟨1, _, by simpa using h1p, rfl⟩).1
      rw [h0, zero_sub, abs_neg, abs_of_nonneg h] at this
      rw [abs_of_nonpos (by push_cast; linarith)] at this
      push_cast at this
      linarith
    · rw [abs_of_nonpos h] at hlow h2
      have := (roundBits_nearest p hp q ((-1 : Int) * (2 : ℚ) ^ Int.log 2 (-q)) ⟨-1, _, by simpa using h1p, rfl⟩).1
      rw [h0, zero_sub, abs_neg, abs_of_nonpos h] at this
      rw [abs_of_nonneg (by push_cast; linarith)] at this
      push_cast at this
      linarith
  · rintro rfl
    simp [roundBits]

theorem isFloat_abs {p : Nat} {v : ℚ} (hv : IsFloat p v) : IsFloat p |v| := by
  obtain ⟨m, e, h1, rfl⟩ := hv
  refine ⟨|m|, e, by rwa [abs_abs], ?_⟩
  rw [abs_mul, abs_of_pos (show (0 : ℚ) < 2 ^ e from zpow_pos (by norm_num) _)]
  push_cast
  rfl

/-- Binary digits of the differences: 24 if one raster is `Float32` and the other of at most 16 bits or `Float32`
too, else 53. -/
def cmpDigits (d1 d2 : Dtype) : Nat :=
  if (d1 = .f32 ∧ d2 ∈ [Dtype.f32, .u8, .i16, .u16]) ∨ (d2 = .f32 ∧ d1 ∈ [Dtype.f32, .u8, .i16, .u16]) then 24 else 53

theorem npStore_promote {d1 d2 : Dtype} (h1 : Readable d1) (h2 : Readable d2)
    (hf : d1 = .f32 ∨ d1 = .f64 ∨ d2 = .f32 ∨ d2 = .f64) :
    intRange (promote d1 d2) = none ∧ npStore (promote d1 d2) = roundBits (cmpDigits d1 d2) := by
  have key : ∀ d, npStore d = roundBits (if d = .f32 then 24 else 53) := by
    intro d; funext q; unfold npStore; split <;> rfl
  rw [key]
  cases d1 <;> simp [Readable] at h1 <;> cases d2 <;> simp [Readable] at h2 <;> simp at hf <;>
    simp [promote, cmpDigits, intRange]

/-- Both files are loaded, and their cells are there afterwards. -/
theorem loaded2 (m : PyMem) (hm : m.WF) (f1 f2 : GFile) (q1 q2 : ℚ) (h1 : Readable f1.dt) (h2 : Readable f2.dt)
    (n1 : f1.noData = some q1) (n2 : f2.noData = some q2) :
    ∃ m1 m2 a b, loadGDAL m f1 none "" = some (m1, a) ∧ loadGDAL m1 f2 none "" = some (m2, b) ∧
      a.v.w = f1.w ∧ a.v.h = f1.h ∧ a.dt = f1.dt ∧ b.v.w = f2.w ∧ b.v.h = f2.h ∧ b.dt = f2.dt ∧
      (∀ c, InGrid f1.w f1.h c → a.cells m2 c = f1.band c) ∧ (∀ c, InGrid f2.w f2.h c → b.cells m2 c = f2.band c) ∧
      a.md = ⟨some (.float q1), some (.tuple f1.geo), f1.proj, f1.hist ++ [""]⟩ ∧
      b.md = ⟨some (.float q2), some (.tuple f2.geo), f2.proj, f2.hist ++ [""]⟩ := by
  obtain ⟨m1, a, e1, k1, _, hV, _, a1, a2, a3, _, ac, amd⟩ := C104_load m hm f1 none "" q1 h1 (.inr ⟨rfl, n1⟩)
  obtain ⟨m2, b, e2, _, k2, _, _, b1, b2, b3, _, bc, bmd⟩ := C104_load m1 k1 f2 none "" q2 h2 (.inr ⟨rfl, n2⟩)
  refine ⟨m1, m2, a, b, e1, e2, a1, a2, a3, b1, b2, b3, fun c hc => ?_, bc, amd, bmd⟩
  rw [← ac c hc]
  obtain ⟨blk, hb, _⟩ := hV
  simp only [RdArr.cells, NdView.cells, k2 _ (by rw [hb]; simp)]

/-- C106: the program says truly whether NoData, geotransform and projection differ. -/
theorem C106_metadata (m : PyMem) (hm : m.WF) (f1 f2 : GFile) (q1 q2 : ℚ) (h1 : Readable f1.dt) (h2 : Readable f2.dt)
    (n1 : f1.noData = some q1) (n2 : f2.noData = some q2) :
    ∃ out, compareTool m f1 f2 = some out ∧ (out.noData = true ↔ f1.noData ≠ f2.noData) ∧
      (out.geo = true ↔ f1.geo ≠ f2.geo) ∧ (out.proj = true ↔ f1.proj ≠ f2.proj) := by
  obtain ⟨m1, m2, a, b, e1, e2, -, -, -, -, -, -, -, -, amd, bmd⟩ := loaded2 m hm f1 f2 q1 q2 h1 h2 n1 n2
  have hT : compareTool m f1 f2 = some ⟨decide (a.md.noData ≠ b.md.noData), decide (a.md.geo ≠ b.md.geo),
      decide (a.md.proj ≠ b.md.proj), cmpStats m2 a b⟩ := by
    unfold compareTool; simp only [e1, e2]
  refine ⟨_, hT, ?_, ?_, ?_⟩ <;> dsimp only <;> rw [amd, bmd]
  · simp [n1, n2]
  · simp
  · simp

/-- C106: for two rasters of the same size of which at least one is floating-point, the largest and the smallest
absolute difference printed are those of the cells' differences, rounded to the digits of the common type; the
largest is 0 exactly if all cells are equal, the smallest exactly if some are.  The mean and the mean square (the
square of the RMS difference printed) are those of the rounded differences. -/
theorem C106_difference_partial (m : PyMem) (hm : m.WF) (f1 f2 : GFile) (q1 q2 : ℚ) (h1 : Readable f1.dt)
    (h2 : Readable f2.dt) (n1 : f1.noData = some q1) (n2 : f2.noData = some q2) (hw : f1.w = f2.w) (hh : f1.h = f2.h)
    (w0 : 1 < f1.w) (h0 : 1 < f1.h) (hf : f1.dt = .f32 ∨ f1.dt = .f64 ∨ f2.dt = .f32 ∨ f2.dt = .f64) :
    ∃ out mx mn av sq, compareTool m f1 f2 = some out ∧ out.stats = some (mx, mn, av, sq) ∧
      (∃ c, InGrid f1.w f1.h c ∧ mx = |roundBits (cmpDigits f1.dt f2.dt) (f1.band c - f2.band c)|) ∧
      (∃ c, InGrid f1.w f1.h c ∧ mn = |roundBits (cmpDigits f1.dt f2.dt) (f1.band c - f2.band c)|) ∧
      (∀ c, InGrid f1.w f1.h c → mn ≤ |roundBits (cmpDigits f1.dt f2.dt) (f1.band c - f2.band c)| ∧
        |roundBits (cmpDigits f1.dt f2.dt) (f1.band c - f2.band c)| ≤ mx) ∧
      (mx = 0 ↔ ∀ c, InGrid f1.w f1.h c → f1.band c = f2.band c) ∧
      (mn = 0 ↔ ∃ c, InGrid f1.w f1.h c ∧ f1.band c = f2.band c) ∧
      av * (f1.w * f1.h : Nat) =
        ((allCells f1.w f1.h).map fun c => |roundBits (cmpDigits f1.dt f2.dt) (f1.band c - f2.band c)|).sum ∧
      sq * (f1.w * f1.h : Nat) = ((allCells f1.w f1.h).map fun c =>
        roundBits (cmpDigits f1.dt f2.dt) (roundBits (cmpDigits f1.dt f2.dt) (f1.band c - f2.band c) ^ 2)).sum := by
  obtain ⟨m1, m2, a, b, e1, e2, a1, a2, a3, b1, b2, b3, ac, bc, amd, bmd⟩ := loaded2 m hm f1 f2 q1 q2 h1 h2 n1 n2
  obtain ⟨hr, hst⟩ := npStore_promote h1 h2 hf
  set p := cmpDigits f1.dt f2.dt with hp
  have hp0 : 0 < p := by rw [hp]; unfold cmpDigits; split <;> norm_num
  let D : Cell → ℚ := fun c => |roundBits p (f1.band c - f2.band c)|
  -- the list of absolute differences
  have hlist : (((allCells f1.w f1.h).map fun c => npStore (promote f1.dt f2.dt)
      (a.cells m2 (bcell a c) - b.cells m2 (bcell b c))).map fun x => npStore (promote f1.dt f2.dt) |x|) =
      (allCells f1.w f1.h).map D := by
    rw [List.map_map]
    apply List.map_congr_left
    intro c hc
    have hc' := mem_allCells.1 hc
    have ea : bcell a c = c := by
      unfold bcell; rw [if_neg (by omega), if_neg (by omega)]
    have eb : bcell b c = c := by
      unfold bcell; rw [if_neg (by omega), if_neg (by omega)]
    show npStore _ |npStore _ _| = D c
    rw [ea, eb, ac c hc', bc c (by rw [← hw, ← hh]; exact hc'), hst]
    exact roundBits_float p hp0 _ (isFloat_abs (roundBits_isFloat p hp0 _))
  have hne : (allCells f1.w f1.h).map D ≠ [] := by
    have : ((0 : Int), (0 : Int)) ∈ allCells f1.w f1.h := mem_allCells.2 (by simp only [InGrid]; omega)
    intro e
    rw [List.map_eq_nil_iff] at e
    rw [e] at this; cases this
  obtain ⟨mx, hmx⟩ : ∃ mx, ((allCells f1.w f1.h).map D).max? = some mx := by
    cases hmx : ((allCells f1.w f1.h).map D).max? with
    | none => exact absurd (List.max?_eq_none_iff.1 hmx) hne
    | some v => exact ⟨v, rfl⟩
  obtain ⟨mn, hmn⟩ : ∃ mn, ((allCells f1.w f1.h).map D).min? = some mn := by
    cases hmn : ((allCells f1.w f1.h).map D).min? with
    | none => exact absurd (List.min?_eq_none_iff.1 hmn) hne
    | some v => exact ⟨v, rfl⟩
  have M := List.max?_eq_some_iff.1 hmx
  have N := List.min?_eq_some_iff.1 hmn
  have Mm : ∃ c, InGrid f1.w f1.h c ∧ mx = D c := by
    obtain ⟨c, hc, e⟩ := List.mem_map.1 M.1
    exact ⟨c, mem_allCells.1 hc, e.symm⟩
  have Nm : ∃ c, InGrid f1.w f1.h c ∧ mn = D c := by
    obtain ⟨c, hc, e⟩ := List.mem_map.1 N.1
    exact ⟨c, mem_allCells.1 hc, e.symm⟩
  have all : ∀ c, InGrid f1.w f1.h c → mn ≤ D c ∧ D c ≤ mx := fun c hc =>
    ⟨N.2 _ (List.mem_map.2 ⟨c, mem_allCells.2 hc, rfl⟩), M.2 _ (List.mem_map.2 ⟨c, mem_allCells.2 hc, rfl⟩)⟩
  have D0 : ∀ c, D c = 0 ↔ f1.band c = f2.band c := by
    intro c
    show |roundBits p _| = 0 ↔ _
    rw [abs_eq_zero, roundBits_zero_iff p hp0, sub_eq_zero]
  have Dn : ∀ c, 0 ≤ D c := fun c => abs_nonneg _
  have hlist2 : (((allCells f1.w f1.h).map fun c => npStore (promote f1.dt f2.dt)
      (a.cells m2 (bcell a c) - b.cells m2 (bcell b c))).map fun x => npStore (promote f1.dt f2.dt) (x * x)) =
      (allCells f1.w f1.h).map (fun c => roundBits p (roundBits p (f1.band c - f2.band c) ^ 2)) := by
    rw [List.map_map]
    apply List.map_congr_left
    intro c hc
    have hc' := mem_allCells.1 hc
    have ea : bcell a c = c := by
      unfold bcell; rw [if_neg (by omega), if_neg (by omega)]
    have eb : bcell b c = c := by
      unfold bcell; rw [if_neg (by omega), if_neg (by omega)]
    show npStore _ (npStore _ _ * npStore _ _) = _
    rw [ea, eb, ac c hc', bc c (by rw [← hw, ← hh]; exact hc'), hst, pow_two]
  have hlen : (((allCells f1.w f1.h).map fun c => npStore (promote f1.dt f2.dt)
      (a.cells m2 (bcell a c) - b.cells m2 (bcell b c))).length : ℚ) = (f1.w * f1.h : Nat) := by
    rw [List.length_map]
    simp [allCells]
  have hwh : ((f1.w * f1.h : Nat) : ℚ) ≠ 0 := by
    have : 0 < f1.w * f1.h := Nat.mul_pos (by omega) (by omega)
    exact_mod_cast this.ne'
  have hs : ∃ av sq, cmpStats m2 a b = some (mx, mn, av, sq) ∧
      av * (f1.w * f1.h : Nat) = ((allCells f1.w f1.h).map D).sum ∧
      sq * (f1.w * f1.h : Nat) =
        ((allCells f1.w f1.h).map fun c => roundBits p (roundBits p (f1.band c - f2.band c) ^ 2)).sum := by
    unfold cmpStats
    rw [a1, a2, b1, b2, a3, b3, ← hw, ← hh]
    simp only [bdim, if_true]
    unfold diffStats
    simp only [hr, Option.isSome_none, Bool.false_eq_true, if_false]
    rw [hlist, hmx, hmn, hlist2, hlen]
    exact ⟨_, _, rfl, div_mul_cancel₀ _ hwh, div_mul_cancel₀ _ hwh⟩
  obtain ⟨av, sq, hs, hav, hsq⟩ := hs
  have hT : compareTool m f1 f2 = some ⟨decide (a.md.noData ≠ b.md.noData), decide (a.md.geo ≠ b.md.geo),
      decide (a.md.proj ≠ b.md.proj), cmpStats m2 a b⟩ := by
    unfold compareTool; simp only [e1, e2]
  refine ⟨_, mx, mn, av, sq, hT, hs, Mm, Nm, all, ?_, ?_, hav, hsq⟩
  · constructor
    · intro e c hc
      have := (all c hc).2
      rw [e] at this
      exact (D0 c).1 (le_antisymm this (Dn c))
    · intro he
      obtain ⟨c, hc, e⟩ := Mm
      rw [e]; exact (D0 c).2 (he c hc)
  · constructor
    · intro e
      obtain ⟨c, hc, e'⟩ := Nm
      exact ⟨c, hc, (D0 c).1 (by rw [← e', e])⟩
    · rintro ⟨c, hc, e⟩
      have := (all c hc).1
      rw [(D0 c).2 e] at this
      obtain ⟨c', _, e'⟩ := Nm
      exact le_antisymm this (e' ▸ Dn c')

/-- The type NumPy gives the difference of two integer arrays holds all values of both types (but not all
differences). -/
theorem promote_holds {d1 d2 : Dtype} (h1 : Readable d1) (h2 : Readable d2) {r1 r2 : Int × Int}
    (k1 : typeBounds d1 = some r1) (k2 : typeBounds d2 = some r2) :
    ∃ r, typeBounds (promote d1 d2) = some r ∧ r.1 ≤ r1.1 ∧ r1.2 ≤ r.2 ∧ r.1 ≤ r2.1 ∧ r2.2 ≤ r.2 := by
  unfold Readable at h1 h2
  simp only [List.mem_cons, List.not_mem_nil, or_false] at h1 h2
  rcases h1 with rfl | rfl | rfl | rfl | rfl | rfl | rfl <;> rcases h2 with rfl | rfl | rfl | rfl | rfl | rfl | rfl <;>
    first
    | (cases k1; done)
    | (cases k2; done)
    | (cases k1; cases k2; exact ⟨_, rfl, by decide⟩)

/-- C106, refuted part: two integer rasters cannot be compared: the program raises before it prints a difference,
for every pair of integer files (`{0:10.6}` is no format for integers). -/
theorem C106_integer_refuted (m : PyMem) (hm : m.WF) (f1 f2 : GFile) (q1 q2 : ℚ) (h1 : Readable f1.dt)
    (h2 : Readable f2.dt) (n1 : f1.noData = some q1) (n2 : f2.noData = some q2)
    (hi : (∃ r, typeBounds f1.dt = some r) ∧ ∃ r, typeBounds f2.dt = some r) :
    ∃ out, compareTool m f1 f2 = some out ∧ out.stats = none := by
  obtain ⟨m1, m2, a, b, e1, e2, -, -, a3, -, -, b3, -, -, -, -⟩ := loaded2 m hm f1 f2 q1 q2 h1 h2 n1 n2
  have hT : compareTool m f1 f2 = some ⟨decide (a.md.noData ≠ b.md.noData), decide (a.md.geo ≠ b.md.geo),
      decide (a.md.proj ≠ b.md.proj), cmpStats m2 a b⟩ := by
    unfold compareTool; simp only [e1, e2]
  refine ⟨_, hT, ?_⟩
  show cmpStats m2 a b = none
  have hr : (intRange (promote a.dt b.dt)).isSome = true := by
    obtain ⟨⟨r1, hr1⟩, ⟨r2, hr2⟩⟩ := hi
    rw [a3, b3]
    revert h1 h2 hr1 hr2
    generalize f1.dt = d1
    generalize f2.dt = d2
    intro h1 h2 hr1 hr2
    cases d1 <;> simp [Readable] at h1 <;> simp [typeBounds] at hr1 <;> cases d2 <;> simp [Readable] at h2 <;>
      simp [typeBounds] at hr2 <;> simp [promote, intRange]
  unfold cmpStats
  split
  · unfold diffStats
    rw [if_pos hr]
  · rfl

/-- C106: rasters whose sizes differ raise, unless one of them has a single row or column. -/
theorem C106_sizes (m : PyMem) (hm : m.WF) (f1 f2 : GFile) (q1 q2 : ℚ) (h1 : Readable f1.dt) (h2 : Readable f2.dt)
    (n1 : f1.noData = some q1) (n2 : f2.noData = some q2)
    (hs : (f1.w ≠ f2.w ∧ f1.w ≠ 1 ∧ f2.w ≠ 1) ∨ (f1.h ≠ f2.h ∧ f1.h ≠ 1 ∧ f2.h ≠ 1)) :
    ∃ out, compareTool m f1 f2 = some out ∧ out.stats = none := by
  obtain ⟨m1, m2, a, b, e1, e2, a1, a2, -, b1, b2, -, -, -, -, -⟩ := loaded2 m hm f1 f2 q1 q2 h1 h2 n1 n2
  have hT : compareTool m f1 f2 = some ⟨decide (a.md.noData ≠ b.md.noData), decide (a.md.geo ≠ b.md.geo),
      decide (a.md.proj ≠ b.md.proj), cmpStats m2 a b⟩ := by
    unfold compareTool; simp only [e1, e2]
  refine ⟨_, hT, ?_⟩
  show cmpStats m2 a b = none
  unfold cmpStats
  rw [a1, a2, b1, b2]
  have hb : ∀ x y : Nat, x ≠ y → x ≠ 1 → y ≠ 1 → bdim x y = none := by
    intro x y k1 k2 k3
    unfold bdim
    rw [if_neg k1, if_neg k2, if_neg k3]
  rcases hs with ⟨k1, k2, k3⟩ | ⟨k1, k2, k3⟩
  · rw [hb _ _ k1 k2 k3]
  · rw [hb _ _ k1 k2 k3]
    cases bdim f1.w f2.w <;> rfl

def cmpEx (w h : Nat) (d : Dtype) (x : ℚ) : GFile :=
  ⟨w, h, d, fun c => if c = (1, 1) then x else 7, some (-9999), [0, 1, 0, 0, 0, -1], "", []⟩

/-- C106, refuted part: a single row is compared with every row of a larger raster, and reported to be equal to it. -/
theorem C106_broadcast_refuted :
    compareTool ⟨fun _ => none, 0⟩ (cmpEx 2 1 .f32 7) (cmpEx 2 3 .f32 7) = some ⟨false, false, false, some (0, 0, 0, 0)⟩ := by
  decide +kernel

/-- The hypotheses of `C106_difference_partial` and of `C106_integer_refuted` are met. -/
example : compareTool ⟨fun _ => none, 0⟩ (cmpEx 2 2 .f32 3) (cmpEx 2 2 .i16 5) =
      some ⟨false, false, false, some (2, 0, 1 / 2, 1)⟩ ∧
    compareTool ⟨fun _ => none, 0⟩ (cmpEx 2 2 .i16 3) (cmpEx 2 2 .i16 5) = some ⟨false, false, false, none⟩ ∧
    compareTool ⟨fun _ => none, 0⟩ (cmpEx 2 2 .f64 3) (cmpEx 3 2 .i16 5) = some ⟨false, false, false, none⟩ := by
  refine ⟨by decide +kernel, by decide +kernel, by decide +kernel⟩

end RichDEM.Py
