/-
Property theorems C114: flow accumulation in floating-point arithmetic.
-/
import Verif.Flow.RoundedDepth
import Verif.Props.FlowDir
import Mathlib.Data.Real.Basic

namespace RichDEM

open Finset Relation

/-! ### The arithmetic -/

/-- Rounding to `p` binary digits has a relative error of at most `2^-p`. -/
theorem roundBits_rel (p : Nat) (q : ℚ) : |Py.roundBits p q - q| ≤ 1 / 2 ^ p * |q| := by
  by_cases hq : q = 0
  · simp [Py.roundBits, hq]
  obtain ⟨h0, h1, _⟩ := Py.scale_bounds p q hq
  unfold Py.roundBits
  rw [if_neg hq]
  set E := (2 : ℚ) ^ (Int.log 2 |q| + 1 - p) with hE
  have hne : E ≠ 0 := ne_of_gt h0
  have half : |(Py.roundEven (q / E) : ℚ) - q / E| ≤ 1 / 2 := by
    by_cases hf : q / E - ⌊q / E⌋ ≤ 1 / 2
    · refine (Py.roundEven_near (q / E) ⌊q / E⌋).trans ?_
      rw [abs_sub_comm, abs_of_nonneg (by have := Int.floor_le (q / E); linarith)]
      exact hf
    · refine (Py.roundEven_near (q / E) (⌊q / E⌋ + 1)).trans ?_
      push_cast
      rw [abs_of_nonneg (by have := Int.lt_floor_add_one (q / E); linarith)]
      push Not at hf
      linarith
  have e1 : (Py.roundEven (q / E) : ℚ) * E - q = ((Py.roundEven (q / E) : ℚ) - q / E) * E := by
    rw [sub_mul, div_mul_cancel₀ _ hne]
  rw [e1, abs_mul, abs_of_pos h0]
  have h2 : (2 : ℚ) ^ ((p : Int) - 1) = 2 ^ p / 2 := by rw [zpow_sub₀ (by norm_num), zpow_natCast, zpow_one]
  rw [h2] at h1
  have h3 : E / 2 ≤ 1 / 2 ^ p * |q| := by
    have hp : (0 : ℚ) < 2 ^ p := by positivity
    rw [div_mul_eq_mul_div, one_mul, le_div_iff₀ hp]
    calc E / 2 * 2 ^ p = 2 ^ p / 2 * E := by ring
      _ ≤ |q| := h1
  calc |(Py.roundEven (q / E) : ℚ) - q / E| * E ≤ 1 / 2 * E := mul_le_mul_of_nonneg_right half (le_of_lt h0)
    _ = E / 2 := by ring
    _ ≤ _ := h3

theorem roundBits_between (p : Nat) (q : ℚ) (hq : 0 ≤ q) :
    (1 - 1 / 2 ^ p) * q ≤ Py.roundBits p q ∧ Py.roundBits p q ≤ (1 + 1 / 2 ^ p) * q := by
  have := roundBits_rel p q
  rw [abs_of_nonneg hq, abs_le] at this
  constructor <;> nlinarith [this.1, this.2]

theorem macErr_double : MacErr (1 / 2 ^ 53) macDouble := by
  intro a p c ha hp hc
  unfold macDouble
  obtain ⟨a1, a2⟩ := roundBits_between 53 (p * c) (mul_nonneg hp hc)
  have h0 : 0 ≤ Py.roundBits 53 (p * c) :=
    le_trans (mul_nonneg (by norm_num) (mul_nonneg hp hc)) a1
  obtain ⟨b1, b2⟩ := roundBits_between 53 (a + Py.roundBits 53 (p * c)) (add_nonneg ha h0)
  refine ⟨le_trans ?_ b1, le_trans b2 ?_⟩
  · exact mul_le_mul_of_nonneg_left (by linarith) (by norm_num)
  · exact mul_le_mul_of_nonneg_left (by linarith) (by norm_num)

theorem macErr_fused : MacErr (1 / 2 ^ 53) macFused := by
  intro a p c ha hp hc
  unfold macFused
  have h0 := mul_nonneg hp hc
  obtain ⟨b1, b2⟩ := roundBits_between 53 (a + p * c) (add_nonneg ha h0)
  refine ⟨le_trans ?_ b1, le_trans b2 ?_⟩
  · exact mul_le_mul_of_nonneg_left (by nlinarith) (by norm_num)
  · exact mul_le_mul_of_nonneg_left (by nlinarith) (by norm_num)

/-- Integers up to `2^p` are numbers of `p` binary digits. -/
theorem roundBits_nat (p : Nat) (hp : 0 < p) (k : Nat) (hk : k ≤ 2 ^ p) : Py.roundBits p (k : ℚ) = k := by
  apply Py.roundBits_float p hp
  rcases Nat.lt_or_eq_of_le hk with h1 | h1
  · refine ⟨k, 0, ?_, by simp⟩
    rw [abs_of_nonneg (by positivity)]
    exact_mod_cast h1
  · refine ⟨1, p, ?_, ?_⟩
    · rw [abs_one]; exact one_lt_pow₀ (by norm_num) (by omega)
    · subst h1; push_cast; simp

/-- `mac` adds whole numbers without error as long as the sum is at most `M`. -/
def MacExact (M : Nat) (mac : ℚ → ℚ → ℚ → ℚ) : Prop :=
  ∀ a c : Nat, a + c ≤ M → mac a 1 c = ((a + c : Nat) : ℚ)

theorem macExact_double : MacExact (2 ^ 53) macDouble := by
  intro a c hac
  unfold macDouble
  rw [one_mul, roundBits_nat 53 (by norm_num) c (by omega), ← Nat.cast_add, roundBits_nat 53 (by norm_num) _ hac]

theorem macExact_fused : MacExact (2 ^ 53) macFused := by
  intro a c hac
  unfold macFused
  rw [one_mul, ← Nat.cast_add, roundBits_nat 53 (by norm_num) _ hac]

theorem macExact_float : MacExact (2 ^ 24) macFloat := by
  intro a c hac
  unfold macFloat
  rw [one_mul, roundBits_nat 24 (by norm_num) c (by omega), ← Nat.cast_add, roundBits_nat 24 (by norm_num) _ hac]

/-! ### Error bound -/

/-- `(1+e)^n - 1` is at most `n e / (1 - n e)`. -/
theorem growth_le (e : ℚ) (he : 0 ≤ e) (n : Nat) (hn : (n : ℚ) * e < 1) :
    (1 + e) ^ n - 1 ≤ n * e / (1 - n * e) := by
  have h1 : 1 - (n : ℚ) * e ≤ (1 - e) ^ n := by
    by_cases h0 : n = 0
    · simp [h0]
    · have : e ≤ 1 := by
        have : (1 : ℚ) ≤ n := by exact_mod_cast Nat.one_le_iff_ne_zero.2 h0
        nlinarith
      have := one_add_mul_le_pow (show (-2 : ℚ) ≤ -e by linarith) n
      calc 1 - (n : ℚ) * e = 1 + n * (-e) := by ring
        _ ≤ (1 + -e) ^ n := this
        _ = (1 - e) ^ n := by ring_nf
  have h2 : (1 + e) ^ n * (1 - n * e) ≤ 1 := by
    calc (1 + e) ^ n * (1 - n * e) ≤ (1 + e) ^ n * (1 - e) ^ n :=
          mul_le_mul_of_nonneg_left h1 (by positivity)
      _ = (1 - e ^ 2) ^ n := by rw [← mul_pow]; ring_nf
      _ ≤ 1 := by
          by_cases h0 : n = 0
          · simp [h0]
          · have h1' : (1 : ℚ) ≤ n := by exact_mod_cast Nat.one_le_iff_ne_zero.2 h0
            have : e ≤ 1 := by nlinarith
            exact pow_le_one₀ (by nlinarith) (by nlinarith [sq_nonneg e])
  have h3 : 0 < 1 - (n : ℚ) * e := by linarith
  rw [le_div_iff₀ h3]
  nlinarith

section
variable {K : Type*} [Field K] [LinearOrder K] [IsStrictOrderedRing K]

theorem near_abs {v u : ℚ} (hv : 0 ≤ v) (hv1 : v ≤ 1) (hu : 0 ≤ u) (hu1 : u ≤ 1) {t : Nat} {a : K} {b : ℚ}
    (hn : NearT v u t a b) : |(b : K) - a| ≤ ((((1 + v) * (1 + u) ^ 2) ^ t - 1 : ℚ) : K) * a := by
  obtain ⟨h0, h1, h2⟩ := hn
  have hq : 1 - ((1 - v) * (1 - u) ^ 2) ^ t ≤ ((1 + v) * (1 + u) ^ 2) ^ t - 1 := by
    have hs : (2 : ℚ) ≤ (1 - v) * (1 - u) ^ 2 + (1 + v) * (1 + u) ^ 2 := by nlinarith [mul_nonneg hv hu]
    set x := (1 - v) * (1 - u) ^ 2
    set y := (1 + v) * (1 + u) ^ 2
    have hx : 0 ≤ x := mul_nonneg (by linarith) (sq_nonneg _)
    have hx1 := one_add_mul_le_pow (show (-2 : ℚ) ≤ x - 1 by linarith) t
    have hy : 0 ≤ y := by positivity
    have hy1 := one_add_mul_le_pow (show (-2 : ℚ) ≤ y - 1 by linarith) t
    rw [show 1 + (x - 1) = x by ring] at hx1
    rw [show 1 + (y - 1) = y by ring] at hy1
    have : (0 : ℚ) ≤ t := by positivity
    nlinarith
  have hqK : (1 : K) - (((1 - v) * (1 - u) ^ 2 : ℚ) : K) ^ t ≤ (((1 + v) * (1 + u) ^ 2 : ℚ) : K) ^ t - 1 := by
    exact_mod_cast hq
  rw [abs_le]
  push_cast at hqK h1 h2 ⊢
  constructor
  · nlinarith [mul_le_mul_of_nonneg_right hqK h0]
  · nlinarith

/-- C114 (error bound): the accumulation computed in doubles, from proportions whose relative error is at most `v`
(stored as floats: `v = 2^-24`), differs from the exact accumulation of the exact proportions by at most the factor
`((1+v)(1+2^-53)^2)^(cells) - 1`, at every data cell, for every flow network and queue order, cyclic networks
included, with or without fused multiply-add. -/
theorem C114_error (fused : Bool) (q : AnyQ Cell) (w h : Nat) (v : ℚ) (hv : 0 ≤ v) (hv1 : v ≤ 1)
    (props : Cell → Nat → K) (fprops : Cell → Nat → ℚ) (hP : PropsErr v props fprops) (init : Cell → ℚ)
    (hi : ∀ c, 0 ≤ init c) (c : Cell) (hc : props c 0 ≠ -2) :
    |(flowAccumulationR (if fused then macFused else macDouble) q w h fprops init c : K)
        - flowAccumulation q w h props (fun c => (init c : K)) c|
      ≤ ((((1 + v) * (1 + 1 / 2 ^ 53) ^ 2) ^ (w * h) - 1 : ℚ) : K) *
        flowAccumulation q w h props (fun c => (init c : K)) c := by
  have hm : MacErr (1 / 2 ^ 53) (if fused then macFused else macDouble) := by
    cases fused
    · exact macErr_double
    · exact macErr_fused
  exact near_abs hv hv1 (by norm_num) (by norm_num) (accum_err hv hv1 (by norm_num) (by norm_num) hm hP q w h init hi c hc)

end

/-- C114 (error bound in numbers): if the proportions are exact (`v = 0`) and the raster has fewer than 2^51 cells,
the relative error is at most `cells * 2^-50`. -/
theorem C114_error_numbers (fused : Bool) (q : AnyQ Cell) (w h : Nat) (props : Cell → Nat → ℚ) (init : Cell → ℚ)
    (hi : ∀ c, 0 ≤ init c) (hwh : w * h ≤ 2 ^ 51) (c : Cell) (hc : props c 0 ≠ -2) :
    |flowAccumulationR (if fused then macFused else macDouble) q w h props init c
        - flowAccumulation q w h props init c|
      ≤ ((w * h : Nat) : ℚ) / 2 ^ 50 * flowAccumulation q w h props init c := by
  have hP : PropsErr (K := ℚ) 0 props props :=
    ⟨fun _ => Iff.rfl, fun _ _ _ h => h, fun c n _ h => ⟨h, by simp, by simp⟩⟩
  have h1 := C114_error (K := ℚ) fused q w h 0 (le_refl _) (by norm_num) props props hP init hi c hc
  have hm : MacErr (1 / 2 ^ 53) (if fused then macFused else macDouble) := by
    cases fused
    · exact macErr_double
    · exact macErr_fused
  have h0 := (accum_err (K := ℚ) (le_refl 0) (by norm_num) (by norm_num) (by norm_num) hm hP q w h init hi c hc).1
  simp only [Rat.cast_id] at h1 h0
  refine h1.trans (mul_le_mul_of_nonneg_right ?_ h0)
  have e : ((1 + 0) * (1 + 1 / 2 ^ 53 : ℚ) ^ 2) ^ (w * h) = (1 + 1 / 2 ^ 53) ^ (2 * (w * h)) := by
    rw [add_zero, one_mul, ← pow_mul]
  rw [e]
  have hN : ((w * h : Nat) : ℚ) ≤ 2 ^ 51 := by exact_mod_cast hwh
  have h0' : (0 : ℚ) ≤ ((w * h : Nat) : ℚ) := by positivity
  have hg := growth_le (1 / 2 ^ 53) (by norm_num) (2 * (w * h)) (by push_cast at hN ⊢; linarith)
  refine hg.trans ?_
  have h2 : ((2 * (w * h) : Nat) : ℚ) * (1 / 2 ^ 53) = ((w * h : Nat) : ℚ) / 2 ^ 52 := by push_cast; ring
  rw [h2]
  set N := ((w * h : Nat) : ℚ)
  have h3 : 1 / 2 ≤ 1 - N / 2 ^ 52 := by
    have : N / 2 ^ 52 ≤ 2 ^ 51 / 2 ^ 52 := div_le_div_of_nonneg_right hN (by norm_num)
    norm_num at this ⊢
    linarith
  rw [div_le_iff₀ (by linarith)]
  have : N / 2 ^ 50 * (1 / 2) ≤ N / 2 ^ 50 * (1 - N / 2 ^ 52) := mul_le_mul_of_nonneg_left h3 (by positivity)
  refine le_trans ?_ this
  have : N / 2 ^ 52 = N / 2 ^ 50 * (1 / 4) := by ring
  rw [this]
  exact mul_le_mul_of_nonneg_left (by norm_num) (by positivity)

/-! ### Whole numbers -/

section Exact
variable {mac : ℚ → ℚ → ℚ → ℚ} {M : Nat} {props : Cell → Nat → ℚ}

theorem faDir_mono (q : AnyQ Cell) (c : Cell) (a : ℚ) (ha : 0 ≤ a) (s : KS Cell ℚ) (n : Nat) (x : Cell) :
    s.acc x ≤ (faDir q props c a s n).acc x := by
  unfold faDir
  split
  · exact le_refl _
  · rename_i h1
    split
    · exact le_refl _
    · by_cases hx : x = nbr .D8 c n
      · subst hx
        simp only [Function.update_self]
        have := mul_nonneg (le_of_lt (not_le.1 h1)) ha
        linarith
      · simp only [Function.update_of_ne hx]
        exact le_refl _

theorem faDirs_mono (q : AnyQ Cell) (c : Cell) (a : ℚ) (ha : 0 ≤ a) (l : List Nat) :
    ∀ (s : KS Cell ℚ) (x : Cell), s.acc x ≤ (l.foldl (faDir q props c a) s).acc x := by
  induction l with
  | nil => intro s x; exact le_refl _
  | cons n l ih => intro s x; exact (faDir_mono q c a ha s n x).trans (ih _ x)

theorem dirs_exact (hm : MacExact M mac) (q : AnyQ Cell) (c : Cell) (k : Nat)
    (hone : ∀ n ∈ List.range' 1 8, props c n ≤ 0 ∨ props c n = 1) (l : List Nat) (hl : ∀ n ∈ l, n ∈ List.range' 1 8) :
    ∀ s : KS Cell ℚ, (∀ x, ∃ j : Nat, s.acc x = j) →
      (∀ n ∈ l, 0 < props c n → propNoData props (nbr .D8 c n) = false →
        (l.foldl (faDir q props c k) s).acc (nbr .D8 c n) ≤ M) →
      l.foldl (faDirR mac q props c k) s = l.foldl (faDir q props c k) s ∧
      ∀ x, ∃ j : Nat, (l.foldl (faDir q props c k) s).acc x = j := by
  induction l with
  | nil => intro s hs _; exact ⟨rfl, hs⟩
  | cons n l ih =>
    intro s hs hM
    have ih' := ih (fun m hm' => hl m (by simp [hm'])) (faDir q props c k s n)
    simp only [List.foldl_cons] at hM ⊢
    have hstep : faDirR mac q props c k s n = faDir q props c k s n ∧ ∀ x, ∃ j : Nat, (faDir q props c k s n).acc x = j := by
      by_cases h1 : props c n ≤ 0
      · simp only [faDirR, faDir, if_pos h1]; exact ⟨trivial, hs⟩
      by_cases h2 : propNoData props (nbr .D8 c n) = true
      · simp only [faDirR, faDir, if_neg h1, if_pos h2]; exact ⟨trivial, hs⟩
      have hp1 : props c n = 1 := (hone n (hl n (by simp))).resolve_left h1
      obtain ⟨j, hj⟩ := hs (nbr .D8 c n)
      have hle := hM n (by simp) (not_le.1 h1) (by simpa using h2)
      have hle2 : (faDir q props c k s n).acc (nbr .D8 c n) ≤ M := (faDirs_mono q c k (by positivity) l _ _).trans hle
      have hv : (faDir q props c k s n).acc (nbr .D8 c n) = ((j + k : Nat) : ℚ) := by
        simp only [faDir, if_neg h1, if_neg h2, Function.update_self]
        rw [hp1, hj, one_mul, Nat.cast_add]
      have hjk : j + k ≤ M := by rw [hv] at hle2; exact_mod_cast hle2
      constructor
      · have e : mac (s.acc (nbr .D8 c n)) (props c n) k = s.acc (nbr .D8 c n) + props c n * k := by
          rw [hp1, hj, hm j k hjk, one_mul, Nat.cast_add]
        simp only [faDirR, faDir, if_neg h1, if_neg h2, e]
      · intro x
        by_cases hx : x = nbr .D8 c n
        · subst hx; exact ⟨_, hv⟩
        · obtain ⟨i, hi⟩ := hs x
          refine ⟨i, ?_⟩
          simp only [faDir, if_neg h1, if_neg h2, Function.update_of_ne hx, hi]
    rw [hstep.1]
    exact ih' hstep.2 (fun m hm' => hM m (by simp [hm']))

theorem faLoop_mono (q : AnyQ Cell) (fuel : Nat) :
    ∀ s : KS Cell ℚ, (∀ x, 0 ≤ s.acc x) → ∀ x, s.acc x ≤ (loop (faStep q props) fuel s).acc x := by
  induction fuel with
  | zero => intro s _ x; exact le_refl _
  | succ k ih =>
    intro s hs x
    simp only [loop]
    rcases hpop : q.pop s.q with _ | ⟨c, rest⟩
    · simp [faStep, hpop]
    · have e1 : faStep q props s = some ((dirs .D8).foldl (faDir q props c (s.acc c)) { s with q := rest }) := by
        simp [faStep, hpop]
      rw [e1]
      have h1 := faDirs_mono (props := props) q c (s.acc c) (hs c) (dirs .D8) { s with q := rest }
      exact (h1 x).trans (ih _ (fun y => (hs y).trans (h1 y)) x)

theorem faDirs_queue (q : AnyQ Cell) (w h : Nat) (hedge : EdgesSilent w h props) (c : Cell)
    (hc : c ∈ faVerts w h props) (a : ℚ) (l : List Nat) (hl : ∀ n ∈ l, n ∈ dirs .D8) :
    ∀ s : KS Cell ℚ, (∀ x ∈ s.q, x ∈ faVerts w h props) →
      ∀ x ∈ (l.foldl (faDir q props c a) s).q, x ∈ faVerts w h props := by
  induction l with
  | nil => intro s hs x hx; exact hs x hx
  | cons n l ih =>
    intro s hs
    simp only [List.foldl_cons]
    refine ih (fun m hm' => hl m (by simp [hm'])) _ ?_
    intro x hx
    unfold faDir at hx
    split at hx
    · exact hs x hx
    rename_i h1
    split at hx
    · exact hs x hx
    rename_i h2
    dsimp only at hx
    split at hx
    · rcases (q.mem_push).1 hx with rfl | h3
      · refine faOut_verts hedge c hc (nbr .D8 c n, props c n) ?_
        simp only [faOut, List.mem_filterMap]
        exact ⟨n, hl n (by simp), by rw [if_neg h1, if_neg h2]⟩
      · exact hs x h3
    · exact hs x hx

theorem loop_exact (hm : MacExact M mac) (q : AnyQ Cell) (w h : Nat) (hedge : EdgesSilent w h props)
    (hone : ∀ c, ∀ n ∈ List.range' 1 8, props c n ≤ 0 ∨ props c n = 1) (fuel : Nat) :
    ∀ s : KS Cell ℚ, (∀ x, ∃ j : Nat, s.acc x = j) → (∀ x ∈ s.q, x ∈ faVerts w h props) →
      (∀ x ∈ faVerts w h props, (loop (faStep q props) fuel s).acc x ≤ M) →
      loop (faStepR mac q props) fuel s = loop (faStep q props) fuel s := by
  induction fuel with
  | zero => intro s _ _ _; simp only [loop]
  | succ k ih =>
    intro s hs hq hM
    simp only [loop] at hM ⊢
    rcases hpop : q.pop s.q with _ | ⟨c, rest⟩
    · have e1 : faStep q props s = none := by simp [faStep, hpop]
      have e2 : faStepR mac q props s = none := by simp [faStepR, hpop]
      rw [e1, e2]
    · have e1 : faStep q props s = some ((dirs .D8).foldl (faDir q props c (s.acc c)) { s with q := rest }) := by
        simp [faStep, hpop]
      have e2 : faStepR mac q props s = some ((dirs .D8).foldl (faDirR mac q props c (s.acc c)) { s with q := rest }) := by
        simp [faStepR, hpop]
      rw [e1] at hM
      rw [e1, e2]
      dsimp only at hM ⊢
      obtain ⟨j, hj⟩ := hs c
      obtain ⟨p1, p2⟩ := q.pop_some hpop
      have hcv : c ∈ faVerts w h props := hq c (p1.symm.subset (by simp))
      have hrest : ∀ x ∈ rest, x ∈ faVerts w h props := fun x hx => hq x (p1.symm.subset (by simp [hx]))
      have hnn : ∀ x, 0 ≤ ((dirs .D8).foldl (faDir q props c (s.acc c)) { s with q := rest }).acc x := by
        intro x
        obtain ⟨i, hi⟩ := hs x
        refine le_trans ?_ (faDirs_mono (props := props) q c (s.acc c) (by rw [hj]; positivity) (dirs .D8) { s with q := rest } x)
        simp only [hi]; positivity
      have hfin := faLoop_mono (props := props) q k _ hnn
      rw [hj] at hM hfin ⊢
      obtain ⟨f1, f2⟩ := dirs_exact hm q c j (hone c) (dirs .D8) (fun n hn => hn) { s with q := rest } hs (by
        intro n hn h1 h2
        refine (hfin _).trans (hM _ ?_)
        refine faOut_verts hedge c hcv (nbr .D8 c n, props c n) ?_
        simp only [faOut, List.mem_filterMap]
        exact ⟨n, hn, by rw [if_neg (not_le.2 h1), if_neg (by simp [h2])]⟩)
      rw [f1]
      exact ih _ f2 (faDirs_queue q w h hedge c hcv _ (dirs .D8) (fun n hn => hn) { s with q := rest } hrest) hM

theorem accum_exact (hm : MacExact M mac) (q : AnyQ Cell) (w h : Nat) (hedge : EdgesSilent w h props)
    (hone : ∀ c, ∀ n ∈ List.range' 1 8, props c n ≤ 0 ∨ props c n = 1) (init : Cell → ℚ)
    (hi : ∀ c, ∃ j : Nat, init c = j)
    (hfit : ∀ c, FlowData w h props c → flowAccumulation q w h props init c ≤ M) (c : Cell) :
    flowAccumulationR mac q w h props init c = flowAccumulation q w h props init c := by
  unfold flowAccumulationR flowAccumulation
  by_cases hnd : propNoData props c = true
  · rw [if_pos hnd, if_pos hnd]
  · rw [if_neg hnd, if_neg hnd]
    unfold faLoopR faLoop
    rw [loop_exact hm q w h hedge hone (w * h) (faStart q w h props init) hi]
    · intro x hx
      simp only [faStart] at hx
      rw [(nodup_pushAll_filter q (allCells w h) (nodup_allCells w h) _).2] at hx
      exact mem_faVerts.2 ⟨mem_allCells.1 hx.1, by have h2 := hx.2; simp only [Bool.and_eq_true, Bool.not_eq_true'] at h2; exact h2.2⟩
    · intro x hx
      have hxd := mem_faVerts_iff.1 hx
      have := hfit x hxd
      unfold flowAccumulation at this
      rw [if_neg (by simp [propNoData, hxd.2])] at this
      exact this

end Exact

/-! ### Upper bound and counting -/

section Bound
variable {K : Type*} [Field K] [LinearOrder K] [IsStrictOrderedRing K] {props : Cell → Nat → K}

theorem wt_sum_le (V : Finset Cell) (p : Cell) : ∑ x ∈ V, wt (faOut props) p x ≤ sentTotal props p := by
  unfold wt sentTotal faOut
  change _ ≤ ((dirs .D8).map _).sum
  generalize dirs .D8 = l
  induction l with
  | nil => simp
  | cons n l ih =>
    rw [List.map_cons, List.sum_cons, List.filterMap_cons]
    have hnn : (0 : K) ≤ if 0 < props p n then props p n else 0 := by split <;> [exact le_of_lt ‹_›; exact le_refl _]
    by_cases h1 : props p n ≤ 0
    · rw [if_pos h1]; exact le_trans ih (by linarith)
    · rw [if_neg h1]
      by_cases h2 : propNoData props (nbr .D8 p n) = true
      · rw [if_pos h2]; exact le_trans ih (by linarith)
      · rw [if_neg h2]
        simp only [List.map_cons, List.sum_cons]
        rw [Finset.sum_add_distrib, if_pos (not_le.1 h1)]
        refine add_le_add ?_ ih
        rw [Finset.sum_ite_eq]
        split
        · exact le_refl _
        · exact le_of_lt (not_le.1 h1)

theorem wt_nonneg (p x : Cell) : 0 ≤ wt (faOut props) p x := by
  unfold wt
  apply List.sum_nonneg
  intro a ha
  simp only [List.mem_map, faOut, List.mem_filterMap] at ha
  obtain ⟨e, ⟨n, _, hn⟩, rfl⟩ := ha
  split at hn
  · cases hn
  rename_i h1
  split at hn
  · cases hn
  cases hn
  split
  · exact le_of_lt (not_le.1 h1)
  · exact le_refl _

/-- The recurrence of C20 over finite sets. -/
theorem fa_rec (q : AnyQ Cell) (w h : Nat) (init : Cell → K) (hedge : EdgesSilent w h props)
    (hac : ∀ c, ¬ TransGen (FlowEdge w h props) c c) {c : Cell} (hc : FlowData w h props c) :
    flowAccumulation q w h props init c =
      init c + ∑ p ∈ faVerts w h props, wt (faOut props) p c * flowAccumulation q w h props init p := by
  rw [C20_upstream_sum q w h props init hedge c hc (fun a _ => hac a)]
  congr 1
  exact inflow_eq hc _ _ (fun _ _ => rfl)

theorem wt_edge {w h : Nat} {p c : Cell} (hp : p ∈ faVerts w h props) (hc : FlowData w h props c)
    (hne : wt (faOut props) p c ≠ 0) : FlowEdge w h props p c := by
  refine (faEdge_iff hc).1 ⟨hp, Nat.pos_of_ne_zero (fun h0 => hne (wt_eq_zero h0))⟩

theorem fa_nonneg (q : AnyQ Cell) (w h : Nat) (init : Cell → K) (hedge : EdgesSilent w h props)
    (hac : ∀ c, ¬ TransGen (FlowEdge w h props) c c) (hi : ∀ c, FlowData w h props c → 0 ≤ init c) (c : Cell)
    (hc : FlowData w h props c) : 0 ≤ flowAccumulation q w h props init c := by
  have hA : Acc (FlowEdge w h props) c := (acc_iff_no_cycle (faVerts w h props) (FlowEdge w h props)
    (fun a b hab => mem_faVerts_iff.2 hab.1) (mem_faVerts_iff.2 hc)).2 (fun a _ => hac a)
  induction hA with
  | intro c _ ih =>
    rw [fa_rec q w h init hedge hac hc]
    refine add_nonneg (hi c hc) (Finset.sum_nonneg (fun p hp => ?_))
    by_cases h0 : wt (faOut props) p c = 0
    · rw [h0, zero_mul]
    · exact mul_nonneg (wt_nonneg _ _) (ih p (wt_edge hp hc h0) (mem_faVerts_iff.1 hp))

/-- C114 (no overshoot): if no cell sends on more than it has and the flow has no cycles, no accumulation exceeds the
total input. -/
theorem C114_bounded (q : AnyQ Cell) (w h : Nat) (init : Cell → K) (hedge : EdgesSilent w h props)
    (hac : ∀ c, ¬ TransGen (FlowEdge w h props) c c) (hi : ∀ c, FlowData w h props c → 0 ≤ init c)
    (hsum : ∀ c, FlowData w h props c → sentTotal props c ≤ 1) (c : Cell) (hc : FlowData w h props c) :
    flowAccumulation q w h props init c ≤ sumData w h props init := by
  classical
  set F := flowAccumulation q w h props init with hF
  have hF0 := fa_nonneg q w h init hedge hac hi
  rw [sumData_eq]
  set V := faVerts w h props with hV
  set S := V.filter (fun p => TransGen (FlowEdge w h props) p c) with hS
  have hcS : c ∉ S := by simp only [hS, Finset.mem_filter]; exact fun hh => hac c hh.2
  have hcV : c ∈ V := mem_faVerts_iff.2 hc
  have hSV : S ⊆ V := Finset.filter_subset _ _
  have hT : insert c S ⊆ V := Finset.insert_subset hcV hSV
  have hrec : ∀ x ∈ insert c S, F x = init x + ∑ p ∈ S, wt (faOut props) p x * F p := by
    intro x hx
    have hxd := mem_faVerts_iff.1 (hT hx)
    rw [hF, fa_rec q w h init hedge hac hxd, ← hF]
    congr 1
    symm
    apply Finset.sum_subset hSV
    intro p hp hpS
    by_cases h0 : wt (faOut props) p x = 0
    · rw [h0, zero_mul]
    · exfalso
      have he := wt_edge hp hxd h0
      apply hpS
      simp only [hS, Finset.mem_filter]
      refine ⟨hp, ?_⟩
      rcases Finset.mem_insert.1 hx with rfl | hx
      · exact TransGen.single he
      · exact TransGen.head he (Finset.mem_filter.1 hx).2
  have hsumT : ∑ x ∈ insert c S, F x = ∑ x ∈ insert c S, init x +
      ∑ p ∈ S, (∑ x ∈ insert c S, wt (faOut props) p x) * F p := by
    rw [Finset.sum_congr rfl hrec, Finset.sum_add_distrib, Finset.sum_comm]
    congr 1
    apply Finset.sum_congr rfl
    intro p _
    rw [Finset.sum_mul]
  rw [Finset.sum_insert hcS] at hsumT
  have h1 : ∑ p ∈ S, (∑ x ∈ insert c S, wt (faOut props) p x) * F p ≤ ∑ p ∈ S, F p := by
    apply Finset.sum_le_sum
    intro p hp
    have hpd := mem_faVerts_iff.1 (hSV hp)
    calc (∑ x ∈ insert c S, wt (faOut props) p x) * F p ≤ 1 * F p :=
          mul_le_mul_of_nonneg_right ((wt_sum_le _ p).trans (hsum p hpd)) (hF0 p hpd)
      _ = F p := one_mul _
  have h2 : ∑ x ∈ insert c S, init x ≤ ∑ x ∈ V, init x :=
    Finset.sum_le_sum_of_subset_of_nonneg hT (fun x hx _ => hi x (mem_faVerts_iff.1 hx))
  linarith

/-- Every cell sends its flow to at most one neighbour, whole. -/
structure SingleFlow (props : Cell → Nat → K) : Prop where
  whole : ∀ c, ∀ n ∈ List.range' 1 8, props c n ≤ 0 ∨ props c n = 1
  single : ∀ c, ∀ n ∈ List.range' 1 8, ∀ m ∈ List.range' 1 8, 0 < props c n → 0 < props c m → n = m

open Classical in
/-- Number of data cells whose flow passes through `c`, itself included. -/
noncomputable def upstreamCells (w h : Nat) (props : Cell → Nat → K) (c : Cell) : Nat :=
  (allCells w h).countP (fun a => decide (props a 0 ≠ -2 ∧ ReflTransGen (FlowEdge w h props) a c))

theorem edge_fun (hs : SingleFlow props) {w h : Nat} {a x y : Cell} (h1 : FlowEdge w h props a x)
    (h2 : FlowEdge w h props a y) : x = y := by
  obtain ⟨_, _, n, hn, p1, rfl⟩ := h1
  obtain ⟨_, _, m, hm, p2, rfl⟩ := h2
  rw [hs.single a n hn m hm p1 p2]

theorem edge_linear (hs : SingleFlow props) {w h : Nat} {a x y : Cell} (hx : ReflTransGen (FlowEdge w h props) a x)
    (hy : ReflTransGen (FlowEdge w h props) a y) :
    ReflTransGen (FlowEdge w h props) x y ∨ ReflTransGen (FlowEdge w h props) y x := by
  induction hx using ReflTransGen.head_induction_on with
  | refl => exact .inl hy
  | head h1 h2 ih =>
    rcases ReflTransGen.cases_head hy with rfl | ⟨b, hb, hby⟩
    · exact .inr (ReflTransGen.head h1 h2)
    · rw [edge_fun hs hb h1] at hby
      exact ih hby

theorem wt_single (hs : SingleFlow props) {w h : Nat} (p c : Cell) (he : FlowEdge w h props p c) :
    wt (faOut props) p c = 1 := by
  apply le_antisymm
  · have h1 := wt_sum_le (props := props) {c} p
    rw [Finset.sum_singleton] at h1
    refine h1.trans ?_
    unfold sentTotal
    obtain ⟨_, _, n, hn, hpos, rfl⟩ := he
    have : ∀ m ∈ List.range' 1 8, (if 0 < props p m then props p m else 0) = if m = n then 1 else 0 := by
      intro m hm
      by_cases h0 : 0 < props p m
      · rw [if_pos h0, if_pos (hs.single p m hm n hn h0 hpos)]
        exact (hs.whole p m hm).resolve_left (not_le.2 h0)
      · rw [if_neg h0, if_neg]
        rintro rfl
        exact h0 hpos
    rw [List.map_congr_left this, sum_toFinset' _ List.nodup_range', Finset.sum_ite_eq']
    split <;> simp
  · obtain ⟨_, hc, n, hn, hpos, rfl⟩ := he
    unfold wt
    have hone := (hs.whole p n hn).resolve_left (not_le.2 hpos)
    refine List.single_le_sum ?_ 1 ?_
    · intro a ha
      simp only [List.mem_map, faOut, List.mem_filterMap] at ha
      obtain ⟨e, ⟨m, _, hm⟩, rfl⟩ := ha
      split at hm
      · cases hm
      rename_i h1
      split at hm
      · cases hm
      cases hm
      split
      · exact le_of_lt (not_le.1 h1)
      · exact le_refl _
    · simp only [List.mem_map, faOut, List.mem_filterMap]
      refine ⟨(nbr .D8 p n, 1), ⟨n, hn, ?_⟩, by simp⟩
      rw [if_neg (not_le.2 hpos), if_neg (by simp [propNoData, hc.2]), hone]

theorem C114_count_exact (hs : SingleFlow props) (q : AnyQ Cell) (w h : Nat) (hedge : EdgesSilent w h props)
    (hac : ∀ c, ¬ TransGen (FlowEdge w h props) c c) (c : Cell) (hc : FlowData w h props c) :
    flowAccumulation q w h props (fun _ => 1) c = (upstreamCells w h props c : K) := by
  classical
  set r := FlowEdge w h props with hr
  set U : Cell → Finset Cell := fun c => (faVerts w h props).filter (fun a => ReflTransGen r a c) with hU
  have hcard : ∀ c, (U c).card = upstreamCells w h props c := by
    intro c
    rw [hU, upstreamCells, List.countP_eq_length_filter, ← List.toFinset_card_of_nodup ((nodup_allCells w h).filter _)]
    congr 1
    ext a
    simp only [Finset.mem_filter, mem_faVerts_iff, FlowData, List.mem_toFinset, List.mem_filter, mem_allCells,
      decide_eq_true_eq, and_assoc, hr]
  have hA : Acc r c := (acc_iff_no_cycle (faVerts w h props) r
    (fun a b hab => mem_faVerts_iff.2 hab.1) (mem_faVerts_iff.2 hc)).2 (fun a _ => hac a)
  rw [← hcard]
  induction hA with
  | intro c _ ih =>
    rw [fa_rec q w h _ hedge hac hc]
    set P := (faVerts w h props).filter (fun p => r p c) with hP
    have e1 : ∑ p ∈ faVerts w h props, wt (faOut props) p c * flowAccumulation q w h props (fun _ => 1) p
        = ∑ p ∈ P, ((U p).card : K) := by
      rw [hP, Finset.sum_filter]
      apply Finset.sum_congr rfl
      intro p hp
      by_cases he : r p c
      · rw [if_pos he, wt_single hs p c he, one_mul, ih p he he.1]
      · rw [if_neg he]
        have : wt (faOut props) p c = 0 := by
          by_contra h0
          exact he (wt_edge hp hc h0)
        rw [this, zero_mul]
    have e2 : U c = insert c (P.biUnion U) := by
      ext a
      simp only [hU, hP, Finset.mem_insert, Finset.mem_biUnion, Finset.mem_filter]
      constructor
      · rintro ⟨h1, h2⟩
        rcases ReflTransGen.cases_tail h2 with rfl | ⟨p, hp, hpc⟩
        · exact .inl rfl
        · exact .inr ⟨p, ⟨mem_faVerts_iff.2 hpc.1, hpc⟩, h1, hp⟩
      · rintro (rfl | ⟨p, ⟨_, hp⟩, h1, h2⟩)
        · exact ⟨mem_faVerts_iff.2 hc, .refl⟩
        · exact ⟨h1, h2.tail hp⟩
    have e3 : c ∉ P.biUnion U := by
      simp only [hU, hP, Finset.mem_biUnion, Finset.mem_filter]
      rintro ⟨p, ⟨_, hp⟩, _, h2⟩
      exact hac c (TransGen.tail' h2 hp)
    have e4 : (P.biUnion U).card = ∑ p ∈ P, (U p).card := by
      apply Finset.card_biUnion
      intro p hp p' hp' hne
      simp only [hP, Finset.coe_filter, Set.mem_ofPred_eq] at hp hp'
      have key : ∀ {p p'}, r p c → r p' c → p ≠ p' → ¬ ReflTransGen r p p' := by
        intro p p' hp hp' hne hr'
        rcases ReflTransGen.cases_head hr' with h1 | ⟨x, hx, hxp⟩
        · exact hne h1
        · rw [edge_fun hs hx hp] at hxp
          exact hac p' (TransGen.head' hp' hxp)
      show Disjoint (U p) (U p')
      rw [Finset.disjoint_left]
      intro a ha ha'
      simp only [hU, Finset.mem_filter] at ha ha'
      rcases edge_linear hs ha.2 ha'.2 with h1 | h1
      · exact key hp.2 hp'.2 hne h1
      · exact key hp'.2 hp.2 (Ne.symm hne) h1
    rw [e1, e2, Finset.card_insert_of_notMem e3, e4]
    push_cast
    ring

end Bound

section Depth
variable {K : Type*} [Field K] [LinearOrder K] [IsStrictOrderedRing K]

theorem nearE_abs {v u : ℚ} (hv : 0 ≤ v) (hv1 : v ≤ 1) (hu : 0 ≤ u) (hu1 : u ≤ 1) {i j : Nat} {a : K} {b : ℚ}
    (hn : NearE v u i j a b) : |(b : K) - a| ≤ (((1 + v) ^ i * (1 + u) ^ j - 1 : ℚ) : K) * a := by
  obtain ⟨h0, h1, h2⟩ := hn
  have hq : 1 - (1 - v) ^ i * (1 - u) ^ j ≤ (1 + v) ^ i * (1 + u) ^ j - 1 := by
    have hv' := one_add_mul_le_pow (show (-2 : ℚ) ≤ v by linarith) i
    have hv'' := one_add_mul_le_pow (show (-2 : ℚ) ≤ -v by linarith) i
    have hu' := one_add_mul_le_pow (show (-2 : ℚ) ≤ u by linarith) j
    have hu'' := one_add_mul_le_pow (show (-2 : ℚ) ≤ -u by linarith) j
    rw [show 1 + -v = 1 - v by ring] at hv''
    rw [show 1 + -u = 1 - u by ring] at hu''
    set x := (1 - v) ^ i
    set y := (1 - u) ^ j
    have x0 : 0 ≤ x := pow_nonneg (by linarith) _
    have y0 : 0 ≤ y := pow_nonneg (by linarith) _
    have x1 : x ≤ 1 := pow_le_one₀ (by linarith) (by linarith)
    have y1 : y ≤ 1 := pow_le_one₀ (by linarith) (by linarith)
    have iv : 0 ≤ (i : ℚ) * v := by positivity
    have ju : 0 ≤ (j : ℚ) * u := by positivity
    -- x*y ≥ x + y - 1 ≥ 1 - iv - ju and (1+iv)(1+ju) ≥ 1 + iv + ju
    have a1 : x + y - 1 ≤ x * y := by nlinarith [mul_nonneg (by linarith : 0 ≤ 1 - x) (by linarith : 0 ≤ 1 - y)]
    have a2 : (1 + i * v) * (1 + j * u) ≤ (1 + v) ^ i * (1 + u) ^ j :=
      mul_le_mul hv' hu' (by positivity) (by positivity)
    nlinarith [mul_nonneg iv ju]
  have hqK : (1 : K) - ((1 - v : ℚ) : K) ^ i * ((1 - u : ℚ) : K) ^ j ≤ ((1 + v : ℚ) : K) ^ i * ((1 + u : ℚ) : K) ^ j - 1 := by
    exact_mod_cast hq
  rw [abs_le]
  push_cast at hqK h1 h2 ⊢
  constructor
  · nlinarith [mul_le_mul_of_nonneg_right hqK h0]
  · nlinarith

/-- C114 (error bound by path length): if no flow path that ends at the cell has more than `L` cells, the relative
error of its accumulation is at most `((1+v)(1+2^-53)^9)^L - 1`, whatever the size of the raster. -/
theorem C114_error_path (fused : Bool) (q : AnyQ Cell) (w h : Nat) (v : ℚ) (hv : 0 ≤ v) (hv1 : v ≤ 1)
    (props : Cell → Nat → K) (fprops : Cell → Nat → ℚ) (hP : PropsErr v props fprops) (hedge : EdgesSilent w h props)
    (hac : ∀ c, ¬ TransGen (FlowEdge w h props) c c) (init : Cell → ℚ)
    (hi : ∀ c, 0 ≤ init c) (c : Cell) (hc : FlowData w h props c) (L : Nat)
    (hL : ∀ n, PathCells w h props n c → n ≤ L) :
    |(flowAccumulationR (if fused then macFused else macDouble) q w h fprops init c : K)
        - flowAccumulation q w h props (fun c => (init c : K)) c|
      ≤ ((((1 + v) * (1 + 1 / 2 ^ 53) ^ 9) ^ L - 1 : ℚ) : K) *
        flowAccumulation q w h props (fun c => (init c : K)) c := by
  have hm : MacErr (1 / 2 ^ 53) (if fused then macFused else macDouble) := by
    cases fused
    · exact macErr_double
    · exact macErr_fused
  obtain ⟨T, hT, hT1, hTp⟩ := longest_path w h props hac
  have hTL : T c ≤ L := hL _ (hTp c (mem_faVerts_iff.2 hc))
  have h1 := accum_depth hv hv1 (u := 1 / 2 ^ 53) (by norm_num) (by norm_num) hm hedge hP hT hT1 q init hi c hc
  have h2 := nearE_abs hv hv1 (by norm_num) (by norm_num)
    (h1.mono hv hv1 (by norm_num) (by norm_num) hTL (show 9 * T c ≤ 9 * L by omega))
  rw [mul_pow, ← pow_mul]
  exact h2

/-- C114 (mass balance): if every data cell sends all of its flow to data cells or none, flow has no cycles, and no
path has more than `L` cells, then the computed accumulations of the cells without outflow add up to the total input
up to the relative error of the path bound. -/
theorem C114_mass_balance (fused : Bool) (q : AnyQ Cell) (w h : Nat) (v : ℚ) (hv : 0 ≤ v) (hv1 : v ≤ 1)
    (props : Cell → Nat → K) (fprops : Cell → Nat → ℚ) (hP : PropsErr v props fprops) (hedge : EdgesSilent w h props)
    (hac : ∀ c, ¬ TransGen (FlowEdge w h props) c c)
    (hone : ∀ c, FlowData w h props c → sentTotal props c = 1 ∨ ∀ n ∈ List.range' 1 8, props c n ≤ 0)
    (hin : ∀ c, FlowData w h props c → ∀ n ∈ List.range' 1 8, 0 < props c n → props (nbr .D8 c n) 0 ≠ -2)
    (init : Cell → ℚ) (hi : ∀ c, 0 ≤ init c) (L : Nat) (hL : ∀ n c, PathCells w h props n c → n ≤ L) :
    |sumData w h props (fun c => if ∀ n ∈ List.range' 1 8, props c n ≤ 0
          then (flowAccumulationR (if fused then macFused else macDouble) q w h fprops init c : K) else 0)
        - sumData w h props (fun c => (init c : K))|
      ≤ ((((1 + v) * (1 + 1 / 2 ^ 53) ^ 9) ^ L - 1 : ℚ) : K) * sumData w h props (fun c => (init c : K)) := by
  have hcons := C20_conservation q w h props (fun c => (init c : K)) hedge hac hone
  have hz : ∀ c, FlowData w h props c → sentToNoData props c = 0 := by
    intro c hc
    unfold sentToNoData
    apply List.sum_eq_zero
    intro a ha
    obtain ⟨n, hn, rfl⟩ := List.mem_map.1 ha
    rw [if_neg]
    exact fun hh => hin c hc n hn hh.1 hh.2
  set B : K := ((((1 + v) * (1 + 1 / 2 ^ 53) ^ 9) ^ L - 1 : ℚ) : K) with hB
  rw [hcons]
  simp only [sumData_eq]
  rw [← Finset.sum_sub_distrib, Finset.mul_sum]
  refine (Finset.abs_sum_le_sum_abs _ _).trans (Finset.sum_le_sum (fun c hc => ?_))
  have hcd := mem_faVerts_iff.1 hc
  by_cases ht : ∀ n ∈ List.range' 1 8, props c n ≤ 0
  · rw [if_pos ht, if_pos ht]
    exact C114_error_path fused q w h v hv hv1 props fprops hP hedge hac init hi c hcd L (fun n hn => hL n c hn)
  · rw [if_neg ht, if_neg ht, hz c hcd]
    simp

end Depth

/-- C114 (in numbers): proportions stored as floats and flow paths of at most 2^22 cells: the relative error is at
most `L * 2^-23`. -/
theorem C114_error_path_numbers (fused : Bool) (q : AnyQ Cell) (w h : Nat)
    (props fprops : Cell → Nat → ℚ) (hP : PropsErr (1 / 2 ^ 24) props fprops) (hedge : EdgesSilent w h props)
    (hac : ∀ c, ¬ TransGen (FlowEdge w h props) c c) (init : Cell → ℚ)
    (hi : ∀ c, 0 ≤ init c) (c : Cell) (hc : FlowData w h props c) (L : Nat) (hLL : L ≤ 2 ^ 22)
    (hL : ∀ n, PathCells w h props n c → n ≤ L) :
    |flowAccumulationR (if fused then macFused else macDouble) q w h fprops init c
        - flowAccumulation q w h props init c| ≤ L / 2 ^ 23 * flowAccumulation q w h props init c := by
  have h1 := C114_error_path (K := ℚ) fused q w h (1 / 2 ^ 24) (by norm_num) (by norm_num) props fprops hP hedge hac init
    hi c hc L hL
  have h0 := fa_nonneg q w h init hedge hac (fun c _ => hi c) c hc
  simp only [Rat.cast_id] at h1
  refine h1.trans (mul_le_mul_of_nonneg_right ?_ h0)
  set e : ℚ := (1 + 1 / 2 ^ 24) * (1 + 1 / 2 ^ 53) ^ 9 - 1 with he
  have he0 : 0 ≤ e := by norm_num [he]
  have he1 : e ≤ 5 / 4 * (1 / 2 ^ 24) := by norm_num [he]
  have hE : (1 + 1 / 2 ^ 24 : ℚ) * (1 + 1 / 2 ^ 53) ^ 9 = 1 + e := by rw [he]; ring
  rw [hE]
  clear_value e
  clear hE h1 he
  have hLq : (L : ℚ) ≤ 2 ^ 22 := by exact_mod_cast hLL
  have hL0 : (0 : ℚ) ≤ L := by positivity
  have hLe : (L : ℚ) * e ≤ 5 / 16 := by
    calc (L : ℚ) * e ≤ 2 ^ 22 * (5 / 4 * (1 / 2 ^ 24)) := mul_le_mul hLq he1 he0 (by norm_num)
      _ = 5 / 16 := by norm_num
  have hg := growth_le e he0 L (by linarith)
  refine hg.trans ?_
  rw [div_le_iff₀ (by linarith)]
  have hLe0 : 0 ≤ (L : ℚ) * e := mul_nonneg hL0 he0
  have a1 : (L : ℚ) * e ≤ L * (5 / 4 * (1 / 2 ^ 24)) := mul_le_mul_of_nonneg_left he1 hL0
  have a2 : (L : ℚ) / 2 ^ 23 * (11 / 16) ≤ L / 2 ^ 23 * (1 - L * e) :=
    mul_le_mul_of_nonneg_left (by linarith) (by positivity)
  refine le_trans ?_ a2
  refine a1.trans ?_
  rw [show (L : ℚ) / 2 ^ 23 * (11 / 16) = L * (11 / 16 / 2 ^ 23) by ring]
  exact mul_le_mul_of_nonneg_left (by norm_num) hL0

/-- C114 (whole flows are exact): when every cell sends its flow to at most one neighbour and the inputs are whole
numbers with a total of at most 2^53, the accumulation in doubles is exact. -/
theorem C114_exact (fused : Bool) (q : AnyQ Cell) (w h : Nat) (props : Cell → Nat → ℚ) (hs : SingleFlow props)
    (hedge : EdgesSilent w h props) (hac : ∀ c, ¬ TransGen (FlowEdge w h props) c c) (init : Cell → ℚ)
    (hi : ∀ c, ∃ j : Nat, init c = j) (htot : sumData w h props init ≤ 2 ^ 53) (c : Cell) :
    flowAccumulationR (if fused then macFused else macDouble) q w h props init c =
      flowAccumulation q w h props init c := by
  have hm : MacExact (2 ^ 53) (if fused then macFused else macDouble) := by
    cases fused
    · exact macExact_double
    · exact macExact_fused
  refine accum_exact hm q w h hedge hs.whole init hi (fun c hc => ?_) c
  refine (C114_bounded q w h init hedge hac (fun c _ => ?_) (fun c _ => ?_) c hc).trans (by exact_mod_cast htot)
  · obtain ⟨j, hj⟩ := hi c
    rw [hj]; positivity
  · unfold sentTotal
    by_cases hex : ∃ n ∈ List.range' 1 8, 0 < props c n
    · obtain ⟨n, hn, hpos⟩ := hex
      have : ∀ m ∈ List.range' 1 8, (if 0 < props c m then props c m else 0) = if m = n then 1 else 0 := by
        intro m hm
        by_cases h0 : 0 < props c m
        · rw [if_pos h0, if_pos (hs.single c m hm n hn h0 hpos)]
          exact (hs.whole c m hm).resolve_left (not_le.2 h0)
        · rw [if_neg h0, if_neg]
          rintro rfl
          exact h0 hpos
      rw [List.map_congr_left this, sum_toFinset' _ List.nodup_range', Finset.sum_ite_eq']
      split <;> simp
    · push Not at hex
      have : ∀ m ∈ List.range' 1 8, (if 0 < props c m then props c m else 0) = 0 := by
        intro m hm
        rw [if_neg (not_lt.2 (hex m hm))]
      rw [List.map_congr_left this]
      simp

/-- The proportions that `FM_OCallaghan` (D8) stores, as C17 describes them. -/
def ocProps {E : Type*} [LinearOrder E] (w h : Nat) (dem : Cell → E) (nd mx : E) : Cell → Nat → ℚ :=
  fun c n => if inGrid w h c then ((fmOCallaghan w h .D8 dem nd mx c).slot n : ℚ) else -1

section D8
variable {E : Type*} [LinearOrder E] (w h : Nat) (dem : Cell → E) (nd mx : E)

theorem oc_single : SingleFlow (ocProps w h dem nd mx) := by
  constructor
  · intro c n hn
    unfold ocProps
    split
    · rcases C17_one_unit w h .D8 dem nd mx c with ⟨m, hm0, _, hm1, hoth⟩ | ⟨_, hneg⟩
      · by_cases hnm : n = m
        · right; rw [hnm, hm1]; rfl
        · left; exact_mod_cast hoth n hnm
      · left; exact_mod_cast le_of_lt (hneg n)
    · left; norm_num
  · intro c n hn m hm h1 h2
    unfold ocProps at h1 h2
    split at h1
    · rename_i hin
      rw [if_pos hin] at h2
      rcases C17_one_unit w h .D8 dem nd mx c with ⟨k, _, _, _, hoth⟩ | ⟨_, hneg⟩
      · have e1 : n = k := by
          by_contra hne
          exact absurd h1 (not_lt.2 (by exact_mod_cast hoth n hne))
        have e2 : m = k := by
          by_contra hne
          exact absurd h2 (not_lt.2 (by exact_mod_cast hoth m hne))
        rw [e1, e2]
      · exact absurd h1 (not_lt.2 (by exact_mod_cast le_of_lt (hneg n)))
    · norm_num at h1

theorem oc_edges (hmx : ∀ c, InGrid w h c → dem c ≤ mx) : EdgesSilent w h (ocProps w h dem nd mx) := by
  intro c hc n hn
  obtain ⟨h1, h2, _⟩ := C17_metric w h .D8 dem nd mx c (hmx c hc.1) hc.1
  unfold ocProps
  rw [if_pos (inGrid_iff.2 hc.1)]
  by_cases hd : dem c = nd
  · rw [h1.2 hd]
    have : (Props1.noData).slot n ≤ 0 := by cases n <;> simp [Props1.slot]
    exact_mod_cast this
  · rw [h2 hc hd]
    simp [Props1.slot]

theorem oc_noData (hmx : ∀ c, InGrid w h c → dem c ≤ mx) (c : Cell) (hc : InGrid w h c) :
    ocProps w h dem nd mx c 0 = -2 ↔ dem c = nd := by
  obtain ⟨h1, h2, h3⟩ := C17_metric w h .D8 dem nd mx c (hmx c hc) hc
  unfold ocProps
  rw [if_pos (inGrid_iff.2 hc), ← h1]
  have key : (fmOCallaghan w h .D8 dem nd mx c).slot 0 = -2 ↔ fmOCallaghan w h .D8 dem nd mx c = .noData := by
    have hne : ∀ n, fmOCallaghan w h .D8 dem nd mx c = .flow n → n ≠ 0 := by
      intro n e
      have hd : dem c ≠ nd := fun e2 => by rw [h1.2 e2] at e; cases e
      by_cases he : OnEdge w h c
      · rw [h2 he hd] at e; cases e
      · have := ((h3 he hd).2 n e).1; omega
    generalize fmOCallaghan w h .D8 dem nd mx c = x at hne
    cases x with
    | noData => simp [Props1.slot]
    | noFlow => simp [Props1.slot]
    | flow n =>
      have := hne n rfl
      simp [Props1.slot, this, Ne.symm this]
  rw [← key]
  exact_mod_cast Iff.rfl

theorem oc_acyclic (hmx : ∀ c, InGrid w h c → dem c ≤ mx) (c : Cell) :
    ¬ TransGen (FlowEdge w h (ocProps w h dem nd mx)) c c := by
  have hdown : ∀ a b, FlowEdge w h (ocProps w h dem nd mx) a b → dem b < dem a := by
    rintro a b ⟨ha, _, n, hn, hpos, rfl⟩
    unfold ocProps at hpos
    rw [if_pos (inGrid_iff.2 ha.1)] at hpos
    exact (C17_d8_consistent w h dem nd mx a (hmx a ha.1) ha.1 n (by exact_mod_cast hpos)).2.2.1
  have htrans : ∀ a b, TransGen (FlowEdge w h (ocProps w h dem nd mx)) a b → dem b < dem a := by
    intro a b hab
    induction hab with
    | single h1 => exact hdown _ _ h1
    | tail _ h1 ih => exact lt_trans (hdown _ _ h1) ih
  exact fun hcyc => lt_irrefl _ (htrans c c hcyc)

/-- C114 (D8 end to end): FA_D8 in doubles gives every data cell of every DEM of at most 2^53 cells exactly the number
of data cells whose flow passes through it. -/
theorem C114_d8_counts (fused : Bool) (q : AnyQ Cell) (hmx : ∀ c, InGrid w h c → dem c ≤ mx) (hwh : w * h ≤ 2 ^ 53)
    (c : Cell) (hc : InGrid w h c) (hd : dem c ≠ nd) :
    flowAccumulationR (if fused then macFused else macDouble) q w h (ocProps w h dem nd mx) (fun _ => 1) c =
      (upstreamCells w h (ocProps w h dem nd mx) c : ℚ) := by
  have hs := oc_single w h dem nd mx
  have he := oc_edges w h dem nd mx hmx
  have ha := oc_acyclic w h dem nd mx hmx
  rw [C114_exact fused q w h _ hs he ha (fun _ => 1) (fun _ => ⟨1, by simp⟩) ?_ c,
    C114_count_exact hs q w h he ha c ⟨hc, fun e => hd ((oc_noData w h dem nd mx hmx c hc).1 e)⟩]
  rw [sumData_eq]
  simp only [Finset.sum_const, nsmul_eq_mul, mul_one]
  have := (card_faVerts_le w h (ocProps w h dem nd mx)).trans hwh
  exact_mod_cast this

end D8

/-- Cell (1,1) of a 4x3 raster flows east; the rest does not flow. -/
def eastProps : Cell → Nat → ℚ := fun c n =>
  if c = (1, 1) then (if n = 0 then 0 else if n = 5 then 1 else 0) else -1

/-- C114, the limits are sharp: with a total input of 2^53 + 1 one unit is lost in doubles, and with 2^24 + 1 in
`FlowAccumulation<float>`. -/
theorem C114_limit_refuted :
    flowAccumulationR macDouble (fifo Cell) 4 3 eastProps (fun c => if c = (1, 1) then 2 ^ 53 else if c = (2, 1) then 1 else 0) (2, 1)
      = 2 ^ 53 ∧
    flowAccumulation (fifo Cell) 4 3 eastProps (fun c => if c = (1, 1) then 2 ^ 53 else if c = (2, 1) then 1 else 0) (2, 1)
      = 2 ^ 53 + 1 ∧
    flowAccumulationR macFloat (fifo Cell) 4 3 eastProps (fun c => if c = (1, 1) then 2 ^ 24 else if c = (2, 1) then 1 else 0) (2, 1)
      = 2 ^ 24 ∧
    flowAccumulation (fifo Cell) 4 3 eastProps (fun c => if c = (1, 1) then 2 ^ 24 else if c = (2, 1) then 1 else 0) (2, 1)
      = 2 ^ 24 + 1 := by decide +kernel

/-- Rounding happens: a third of 0.1 (as a double) and two tenths in the middle of a 4x3 raster. -/
example : flowAccumulationR macDouble (fifo Cell) 4 3
      (fun c n => if c = (1, 1) then (if n = 0 then 0 else if n = 5 then Py.roundBits 24 (1/3) else 0) else -1)
      (fun c => if c = (1, 1) then Py.roundBits 53 (1/10) else 1/2) (2, 1) ≠
    flowAccumulation (fifo Cell) 4 3
      (fun c n => if c = (1, 1) then (if n = 0 then 0 else if n = 5 then Py.roundBits 24 (1/3) else 0) else -1)
      (fun c => if c = (1, 1) then Py.roundBits 53 (1/10) else 1/2) (2, 1) := by decide +kernel

/-- Non-vacuity of `PropsErr`: thirds stored as floats. -/
example : PropsErr (K := ℚ) (1 / 2 ^ 24)
    (fun c n => if c = (1, 1) then (if n = 0 then 0 else if n = 5 ∨ n = 6 ∨ n = 4 then 1/3 else 0) else -1)
    (fun c n => if c = (1, 1) then (if n = 0 then 0 else if n = 5 ∨ n = 6 ∨ n = 4 then Py.roundBits 24 (1/3) else 0) else -1) := by
  have h3 : (0 : ℚ) < Py.roundBits 24 (1/3) ∧ (1 - 1 / 2 ^ 24) * (1/3) ≤ Py.roundBits 24 (1/3) ∧
      Py.roundBits 24 (1/3) ≤ (1 + 1 / 2 ^ 24) * (1/3) := by decide +kernel
  constructor
  · intro c; by_cases hc : c = (1, 1) <;> simp [hc]
  · intro c n hn; by_cases hc : c = (1, 1) <;> simp only [hc, if_true, if_false]
    · by_cases h0 : n = 0
      · simp [h0]
      · by_cases h5 : n = 5 ∨ n = 6 ∨ n = 4
        · simp only [if_neg h0, if_pos h5]; norm_num
        · simp only [if_neg h0, if_neg h5]; exact fun x => x
    · exact fun x => x
  · intro c n hn; by_cases hc : c = (1, 1) <;> simp only [hc, if_true, if_false]
    · by_cases h0 : n = 0
      · simp [h0]
      · by_cases h5 : n = 5 ∨ n = 6 ∨ n = 4
        · simp only [if_neg h0, if_pos h5, Rat.cast_id]; exact fun _ => h3
        · simp only [if_neg h0, if_neg h5]; exact fun x => absurd x (lt_irrefl _)
    · intro x; norm_num at x

/-- A DEM with a valley that leaves over the right edge. -/
def exDem114 : Cell → Int := ofRows 0 [[9, 9, 9, 9, 9], [9, 8, 7, 6, 5], [9, 9, 8, 7, 9], [9, 9, 9, 9, 9]]

/-- Its D8 accumulation in doubles. -/
example : toRows 5 4 (flowAccumulationR macDouble (fifo Cell) 5 4 (ocProps 5 4 exDem114 (-1) 100) (fun _ => 1)) =
    [[1, 1, 1, 1, 1], [1, 1, 3, 5, 7], [1, 1, 1, 1, 1], [1, 1, 1, 1, 1]] := by decide +kernel

/-- The hypotheses of the path bound hold for it at the outlet, where paths of four cells end. -/
example : EdgesSilent 5 4 (ocProps 5 4 exDem114 (-1) 100) ∧
    (∀ c, ¬ TransGen (FlowEdge 5 4 (ocProps 5 4 exDem114 (-1) 100)) c c) ∧
    FlowData 5 4 (ocProps 5 4 exDem114 (-1) 100) (4, 1) ∧ PathCells 5 4 (ocProps 5 4 exDem114 (-1) 100) 4 (4, 1) := by
  have hmx : ∀ c, InGrid 5 4 c → exDem114 c ≤ 100 := by
    intro c hc
    have : ∀ c ∈ allCells 5 4, exDem114 c ≤ 100 := by decide +kernel
    exact this c (mem_allCells.2 hc)
  have e1 : FlowEdge 5 4 (ocProps 5 4 exDem114 (-1) 100) (1, 1) (2, 1) := by unfold FlowEdge FlowData InGrid; decide +kernel
  have e2 : FlowEdge 5 4 (ocProps 5 4 exDem114 (-1) 100) (2, 1) (3, 1) := by unfold FlowEdge FlowData InGrid; decide +kernel
  have e3 : FlowEdge 5 4 (ocProps 5 4 exDem114 (-1) 100) (3, 1) (4, 1) := by unfold FlowEdge FlowData InGrid; decide +kernel
  exact ⟨oc_edges 5 4 exDem114 (-1) 100 hmx, oc_acyclic 5 4 exDem114 (-1) 100 hmx, e3.2.1,
    ((PathCells.one e1.1).step e1 |>.step e2).step e3⟩

end RichDEM
