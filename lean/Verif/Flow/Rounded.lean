/-
FlowAccumulation (include/richdem/methods/flow_accumulation_generic.hpp) as the machine runs it: proportions are
single-precision numbers and every addition and multiplication of accumulations is rounded.
-/
import Verif.Props.Accum
import Verif.Py.Rounding

namespace RichDEM

open Finset Relation

/-- flow_accumulation_generic.hpp:86 `accum(ni) += props.getIN(ci,n)*c_accum` on `double`s: the product and the sum
are each rounded to 53 binary digits.  Overflow and denormals are not modelled. -/
def macDouble (a p c : ℚ) : ℚ := Py.roundBits 53 (a + Py.roundBits 53 (p * c))

/-- The same statement when the compiler contracts it to a fused multiply-add: one rounding. -/
def macFused (a p c : ℚ) : ℚ := Py.roundBits 53 (a + p * c)

/-- The same statement for `FlowAccumulation<float>`: `props` and `c_accum` are `float`, so product and sum are
rounded to 24 binary digits. -/
def macFloat (a p c : ℚ) : ℚ := Py.roundBits 24 (a + Py.roundBits 24 (p * c))

/-- flow_accumulation_generic.hpp:79-91: one direction of the popped cell, with the arithmetic `mac`. -/
def faDirR (mac : ℚ → ℚ → ℚ → ℚ) (q : AnyQ Cell) (props : Cell → Nat → ℚ) (c : Cell) (cacc : ℚ) (s : KS Cell ℚ)
    (n : Nat) : KS Cell ℚ :=
  if props c n ≤ 0 then s
  else if propNoData props (nbr .D8 c n) then s
  else
    let ni := nbr .D8 c n
    let dep := Function.update s.deps ni (s.deps ni - 1)
    { deps := dep
      acc := Function.update s.acc ni (mac (s.acc ni) (props c n) cacc)
      q := if dep ni = 0 then q.push ni s.q else s.q }

/-- flow_accumulation_generic.hpp:70-91: one iteration of the main loop. -/
def faStepR (mac : ℚ → ℚ → ℚ → ℚ) (q : AnyQ Cell) (props : Cell → Nat → ℚ) (s : KS Cell ℚ) : Option (KS Cell ℚ) :=
  match q.pop s.q with
  | none => none
  | some (c, rest) => some ((dirs .D8).foldl (faDirR mac q props c (s.acc c)) { s with q := rest })

/-- The state when the main loop stops. -/
def faLoopR (mac : ℚ → ℚ → ℚ → ℚ) (q : AnyQ Cell) (w h : Nat) (props : Cell → Nat → ℚ) (init : Cell → ℚ) : KS Cell ℚ :=
  loop (faStepR mac q props) (w * h) (faStart q w h props init)

/-- flow_accumulation_generic.hpp:35-99 (`FlowAccumulation`) with rounded arithmetic. -/
def flowAccumulationR (mac : ℚ → ℚ → ℚ → ℚ) (q : AnyQ Cell) (w h : Nat) (props : Cell → Nat → ℚ) (init : Cell → ℚ)
    (c : Cell) : ℚ :=
  if propNoData props c then -1 else (faLoopR mac q w h props init).acc c

/-! ### Lemmas -/

theorem nbr8_inj {c : Cell} {n m : Nat} (hn : n ∈ dirs .D8) (hm : m ∈ dirs .D8) (e : nbr .D8 c n = nbr .D8 c m) :
    n = m := by
  simp only [dirs, nmax, List.mem_range'_1] at hn hm
  obtain ⟨x, y⟩ := c
  simp only [nbr, Prod.mk.injEq] at e
  have : n = 1 ∨ n = 2 ∨ n = 3 ∨ n = 4 ∨ n = 5 ∨ n = 6 ∨ n = 7 ∨ n = 8 := by omega
  have : m = 1 ∨ m = 2 ∨ m = 3 ∨ m = 4 ∨ m = 5 ∨ m = 6 ∨ m = 7 ∨ m = 8 := by omega
  rcases ‹n = 1 ∨ _› with rfl | rfl | rfl | rfl | rfl | rfl | rfl | rfl <;>
    rcases ‹m = 1 ∨ _› with rfl | rfl | rfl | rfl | rfl | rfl | rfl | rfl <;>
    first | rfl | (simp [dx, dy, d8x, d8y] at e; try omega)

section Err
variable {K : Type*} [Field K] [LinearOrder K] [IsStrictOrderedRing K]

/-- `b` is `a` up to `t` rounds of relative errors `v` (proportion) and twice `u` (arithmetic). -/
def NearT (v u : ℚ) (t : Nat) (a : K) (b : ℚ) : Prop :=
  0 ≤ a ∧ (((1 - v) * (1 - u) ^ 2 : ℚ) : K) ^ t * a ≤ (b : K) ∧ (b : K) ≤ (((1 + v) * (1 + u) ^ 2 : ℚ) : K) ^ t * a

/-- `mac` multiplies and adds with two relative errors of at most `u`. -/
def MacErr (u : ℚ) (mac : ℚ → ℚ → ℚ → ℚ) : Prop :=
  ∀ a p c, 0 ≤ a → 0 ≤ p → 0 ≤ c →
    (1 - u) * (a + (1 - u) * (p * c)) ≤ mac a p c ∧ mac a p c ≤ (1 + u) * (a + (1 + u) * (p * c))

theorem NearT.mono {v u : ℚ} (hv : 0 ≤ v) (hv1 : v ≤ 1) (hu : 0 ≤ u) (hu1 : u ≤ 1) {t : Nat} {a : K} {b : ℚ}
    (hn : NearT v u t a b) : NearT v u (t + 1) a b := by
  obtain ⟨h0, h1, h2⟩ := hn
  have l0 : (0 : ℚ) ≤ (1 - v) * (1 - u) ^ 2 := mul_nonneg (by linarith) (sq_nonneg _)
  have l1 : (1 - v) * (1 - u) ^ 2 ≤ (1 : ℚ) := by
    have : (1 - u) ^ 2 ≤ 1 := pow_le_one₀ (by linarith) (by linarith)
    exact mul_le_one₀ (by linarith) (sq_nonneg _) this
  have l2 : (1 : ℚ) ≤ (1 + v) * (1 + u) ^ 2 := by
    have : (1 : ℚ) ≤ (1 + u) ^ 2 := one_le_pow₀ (by linarith)
    nlinarith
  have l0' : (0 : K) ≤ (((1 - v) * (1 - u) ^ 2 : ℚ) : K) := by exact_mod_cast l0
  have l1' : (((1 - v) * (1 - u) ^ 2 : ℚ) : K) ≤ 1 := by exact_mod_cast l1
  have l2' : (1 : K) ≤ (((1 + v) * (1 + u) ^ 2 : ℚ) : K) := by exact_mod_cast l2
  refine ⟨h0, le_trans ?_ h1, le_trans h2 ?_⟩
  · exact mul_le_mul_of_nonneg_right (pow_le_pow_of_le_one l0' l1' (Nat.le_succ t)) h0
  · exact mul_le_mul_of_nonneg_right (pow_le_pow_right₀ l2' (Nat.le_succ t)) h0

theorem NearT.mac {v u : ℚ} (hv : 0 ≤ v) (hv1 : v ≤ 1) (hu : 0 ≤ u) (hu1 : u ≤ 1) {mac : ℚ → ℚ → ℚ → ℚ}
    (hm : MacErr u mac) {t : Nat} {a A p : K} {b B p' : ℚ} (hn : NearT v u t a b) (hN : NearT v u t A B)
    (hp : 0 ≤ p) (hp1 : ((1 - v : ℚ) : K) * p ≤ (p' : K)) (hp2 : (p' : K) ≤ ((1 + v : ℚ) : K) * p) :
    NearT v u (t + 1) (a + p * A) (mac b p' B) := by
  obtain ⟨a0, a1, a2⟩ := hn
  obtain ⟨A0, A1, A2⟩ := hN
  have v1 : (0 : K) ≤ ((1 - v : ℚ) : K) := by exact_mod_cast (by linarith : (0 : ℚ) ≤ 1 - v)
  have u1 : (0 : K) ≤ ((1 - u : ℚ) : K) := by exact_mod_cast (by linarith : (0 : ℚ) ≤ 1 - u)
  have u1' : ((1 - u : ℚ) : K) ≤ 1 := by exact_mod_cast (by linarith : 1 - u ≤ (1 : ℚ))
  have v1' : ((1 - v : ℚ) : K) ≤ 1 := by exact_mod_cast (by linarith : 1 - v ≤ (1 : ℚ))
  have v2 : (1 : K) ≤ ((1 + v : ℚ) : K) := by exact_mod_cast (by linarith : (1 : ℚ) ≤ 1 + v)
  have u2 : (1 : K) ≤ ((1 + u : ℚ) : K) := by exact_mod_cast (by linarith : (1 : ℚ) ≤ 1 + u)
  set L : K := (((1 - v) * (1 - u) ^ 2 : ℚ) : K) ^ t with hL
  set H : K := (((1 + v) * (1 + u) ^ 2 : ℚ) : K) ^ t with hH
  have hL0 : 0 ≤ L := by
    rw [hL]; apply pow_nonneg; push_cast at v1 u1 ⊢; positivity
  have hH0 : 0 ≤ H := by
    rw [hH]; apply pow_nonneg; push_cast at v2 u2 ⊢
    have : (0 : K) ≤ 1 + v := by linarith
    positivity
  have b0 : (0 : K) ≤ (b : K) := le_trans (mul_nonneg hL0 a0) a1
  have B0 : (0 : K) ≤ (B : K) := le_trans (mul_nonneg hL0 A0) A1
  have p0 : (0 : K) ≤ (p' : K) := le_trans (mul_nonneg v1 hp) hp1
  obtain ⟨m1, m2⟩ := hm b p' B (by exact_mod_cast b0) (by exact_mod_cast p0) (by exact_mod_cast B0)
  have m1' : ((1 - u : ℚ) : K) * (b + ((1 - u : ℚ) : K) * ((p' : K) * B)) ≤ (mac b p' B : K) := by exact_mod_cast m1
  have m2' : (mac b p' B : K) ≤ ((1 + u : ℚ) : K) * (b + ((1 + u : ℚ) : K) * ((p' : K) * B)) := by exact_mod_cast m2
  have hpA : 0 ≤ p * A := mul_nonneg hp A0
  refine ⟨add_nonneg a0 hpA, le_trans ?_ m1', le_trans m2' ?_⟩
  · rw [pow_succ, ← hL]
    have e : (((1 - v) * (1 - u) ^ 2 : ℚ) : K) = ((1 - v : ℚ) : K) * ((1 - u : ℚ) : K) ^ 2 := by push_cast; ring
    rw [e]
    set V := ((1 - v : ℚ) : K)
    set U := ((1 - u : ℚ) : K)
    have s1 : V * p * (L * A) ≤ (p' : K) * B := mul_le_mul hp1 A1 (mul_nonneg hL0 A0) p0
    have s2 : U * (V * (L * a)) ≤ (b : K) := by
      refine le_trans ?_ a1
      have x0 : 0 ≤ L * a := mul_nonneg hL0 a0
      have : V * (L * a) ≤ L * a := by nlinarith
      have : 0 ≤ V * (L * a) := mul_nonneg v1 x0
      nlinarith
    have s3 : U * (V * p * (L * A)) ≤ U * ((p' : K) * B) := mul_le_mul_of_nonneg_left s1 u1
    calc L * (V * U ^ 2) * (a + p * A) = U * (U * (V * (L * a)) + U * (V * p * (L * A))) := by ring
      _ ≤ U * (b + U * ((p' : K) * B)) := mul_le_mul_of_nonneg_left (add_le_add s2 s3) u1
  · rw [pow_succ, ← hH]
    have e : (((1 + v) * (1 + u) ^ 2 : ℚ) : K) = ((1 + v : ℚ) : K) * ((1 + u : ℚ) : K) ^ 2 := by push_cast; ring
    rw [e]
    set V := ((1 + v : ℚ) : K)
    set U := ((1 + u : ℚ) : K)
    have V0 : 0 ≤ V := by linarith
    have U0 : 0 ≤ U := by linarith
    have s1 : (p' : K) * B ≤ V * p * (H * A) := mul_le_mul hp2 A2 B0 (mul_nonneg V0 hp)
    have s2 : (b : K) ≤ U * (V * (H * a)) := by
      refine le_trans a2 ?_
      have x0 : 0 ≤ H * a := mul_nonneg hH0 a0
      have : H * a ≤ V * (H * a) := by nlinarith
      nlinarith
    have s3 : U * ((p' : K) * B) ≤ U * (V * p * (H * A)) := mul_le_mul_of_nonneg_left s1 U0
    calc U * (b + U * ((p' : K) * B)) ≤ U * (U * (V * (H * a)) + U * (V * p * (H * A))) :=
          mul_le_mul_of_nonneg_left (add_le_add s2 s3) U0
      _ = H * (V * U ^ 2) * (a + p * A) := by ring

/-- The machine's proportions against the exact ones: the same NoData cells, the same directions of flow, each
positive proportion up to a relative error `v`. -/
structure PropsErr (v : ℚ) (props : Cell → Nat → K) (fprops : Cell → Nat → ℚ) : Prop where
  noData : ∀ c, fprops c 0 = -2 ↔ props c 0 = -2
  none : ∀ c, ∀ n ∈ List.range' 1 8, props c n ≤ 0 → fprops c n ≤ 0
  some : ∀ c, ∀ n ∈ List.range' 1 8, 0 < props c n → 0 < fprops c n ∧
    ((1 - v : ℚ) : K) * props c n ≤ (fprops c n : K) ∧ (fprops c n : K) ≤ ((1 + v : ℚ) : K) * props c n

variable {v u : ℚ} {props : Cell → Nat → K} {fprops : Cell → Nat → ℚ} {mac : ℚ → ℚ → ℚ → ℚ}

theorem PropsErr.nd (hP : PropsErr v props fprops) (c : Cell) : propNoData fprops c = propNoData props c := by
  simp only [propNoData]; exact decide_eq_decide.2 (hP.noData c)

theorem PropsErr.pos (hP : PropsErr v props fprops) (c : Cell) {n : Nat} (hn : n ∈ dirs .D8) :
    fprops c n ≤ 0 ↔ props c n ≤ 0 := by
  refine ⟨fun h0 => ?_, hP.none c n hn⟩
  by_contra h1
  exact absurd h0 (not_le.2 (hP.some c n hn (not_le.1 h1)).1)

theorem PropsErr.deps (hP : PropsErr v props fprops) (w h : Nat) : faDeps w h fprops = faDeps w h props := by
  unfold faDeps
  apply foldl_congr_mem
  intro d c _
  unfold faDepCell
  rw [hP.nd c]
  split
  · rfl
  · apply foldl_congr_mem
    intro d n hn
    have := hP.pos c hn
    by_cases h0 : props c n ≤ 0
    · rw [if_neg (not_lt.2 h0), if_neg (not_lt.2 (this.2 h0))]
    · rw [if_pos (not_le.1 h0), if_pos (not_le.1 (fun x => h0 (this.1 x)))]

theorem dir_err (hv : 0 ≤ v) (hv1 : v ≤ 1) (hu : 0 ≤ u) (hu1 : u ≤ 1) (hm : MacErr u mac)
    (hP : PropsErr v props fprops) (q : AnyQ Cell) (c : Cell) (t : Nat) (A : K) (B : ℚ) (hA : NearT v u t A B)
    (l : List Nat) (hl : l.Nodup) (hd : ∀ n ∈ l, n ∈ dirs .D8) :
    ∀ (s : KS Cell K) (s' : KS Cell ℚ), s'.deps = s.deps → s'.q = s.q →
      (∀ n ∈ l, NearT v u t (s.acc (nbr .D8 c n)) (s'.acc (nbr .D8 c n))) →
      (∀ x, NearT v u (t + 1) (s.acc x) (s'.acc x)) →
      (l.foldl (faDirR mac q fprops c B) s').deps = (l.foldl (faDir q props c A) s).deps ∧
      (l.foldl (faDirR mac q fprops c B) s').q = (l.foldl (faDir q props c A) s).q ∧
      ∀ x, NearT v u (t + 1) ((l.foldl (faDir q props c A) s).acc x) ((l.foldl (faDirR mac q fprops c B) s').acc x) := by
  induction l with
  | nil => intro s s' h1 h2 _ h4; exact ⟨h1, h2, h4⟩
  | cons n l ih =>
    intro s s' h1 h2 h3 h4
    rw [List.nodup_cons] at hl
    have hnd := hd n (by simp)
    have ih' := ih hl.2 (fun m hm' => hd m (by simp [hm']))
    simp only [List.foldl_cons]
    by_cases hp : props c n ≤ 0
    · have e1 : faDir q props c A s n = s := by simp [faDir, hp]
      have e2 : faDirR mac q fprops c B s' n = s' := by simp [faDirR, (hP.pos c hnd).2 hp]
      rw [e1, e2]
      exact ih' s s' h1 h2 (fun m hm' => h3 m (by simp [hm'])) h4
    · have hp' : ¬ fprops c n ≤ 0 := fun x => hp ((hP.pos c hnd).1 x)
      by_cases hN : propNoData props (nbr .D8 c n) = true
      · have e1 : faDir q props c A s n = s := by simp [faDir, hN]
        have e2 : faDirR mac q fprops c B s' n = s' := by simp [faDirR, hP.nd, hN]
        rw [e1, e2]
        exact ih' s s' h1 h2 (fun m hm' => h3 m (by simp [hm'])) h4
      · have e1 : faDir q props c A s n =
            { deps := Function.update s.deps (nbr .D8 c n) (s.deps (nbr .D8 c n) - 1)
              acc := Function.update s.acc (nbr .D8 c n) (s.acc (nbr .D8 c n) + props c n * A)
              q := if s.deps (nbr .D8 c n) - 1 = 0 then q.push (nbr .D8 c n) s.q else s.q } := by
          simp [faDir, hp, hN]
        have e2 : faDirR mac q fprops c B s' n =
            { deps := Function.update s'.deps (nbr .D8 c n) (s'.deps (nbr .D8 c n) - 1)
              acc := Function.update s'.acc (nbr .D8 c n) (mac (s'.acc (nbr .D8 c n)) (fprops c n) B)
              q := if s'.deps (nbr .D8 c n) - 1 = 0 then q.push (nbr .D8 c n) s'.q else s'.q } := by
          simp [faDirR, hp', hP.nd, hN]
        rw [e1, e2]
        obtain ⟨_, q1, q2⟩ := hP.some c n hnd (not_le.1 hp)
        apply ih'
        · simp only [h1]
        · simp only [h1, h2]
        · intro m hm'
          have hne : nbr .D8 c m ≠ nbr .D8 c n := fun e => hl.1 (nbr8_inj hnd (hd m (by simp [hm'])) e.symm ▸ hm')
          simp only [Function.update_of_ne hne]
          exact h3 m (by simp [hm'])
        · intro x
          by_cases hx : x = nbr .D8 c n
          · subst hx
            simp only [Function.update_self]
            exact (h3 n (by simp)).mac hv hv1 hu hu1 hm hA (le_of_lt (not_le.1 hp)) q1 q2
          · simp only [Function.update_of_ne hx]
            exact h4 x

theorem loop_err (hv : 0 ≤ v) (hv1 : v ≤ 1) (hu : 0 ≤ u) (hu1 : u ≤ 1) (hm : MacErr u mac)
    (hP : PropsErr v props fprops) (q : AnyQ Cell) :
    ∀ (fuel t : Nat) (s : KS Cell K) (s' : KS Cell ℚ), s'.deps = s.deps → s'.q = s.q →
      (∀ x, NearT v u t (s.acc x) (s'.acc x)) →
      ∀ x, NearT v u (t + fuel) ((loop (faStep q props) fuel s).acc x) ((loop (faStepR mac q fprops) fuel s').acc x) := by
  intro fuel
  induction fuel with
  | zero => intro t s s' _ _ h3 x; exact h3 x
  | succ k ih =>
    intro t s s' h1 h2 h3 x
    have up : ∀ j (a : K) (b : ℚ), NearT v u t a b → NearT v u (t + j) a b := by
      intro j a b hab
      induction j with
      | zero => exact hab
      | succ j ihj => exact ihj.mono hv hv1 hu hu1
    simp only [loop]
    rcases hpop : q.pop s.q with _ | ⟨c, rest⟩
    · have e1 : faStep q props s = none := by simp [faStep, hpop]
      have e2 : faStepR mac q fprops s' = none := by simp [faStepR, h2, hpop]
      rw [e1, e2]
      exact up (k + 1) _ _ (h3 x)
    · have e1 : faStep q props s = some ((dirs .D8).foldl (faDir q props c (s.acc c)) { s with q := rest }) := by
        simp [faStep, hpop]
      have e2 : faStepR mac q fprops s' =
          some ((dirs .D8).foldl (faDirR mac q fprops c (s'.acc c)) { s' with q := rest }) := by
        simp [faStepR, h2, hpop]
      rw [e1, e2]
      obtain ⟨a1, a2, a3⟩ := dir_err hv hv1 hu hu1 hm hP q c t _ _ (h3 c) (dirs .D8) List.nodup_range'
        (fun n hn => hn) { s with q := rest } { s' with q := rest } h1 rfl (fun n _ => h3 _)
        (fun x => (h3 x).mono hv hv1 hu hu1)
      have := ih (t + 1) _ _ a1 a2 a3 x
      rw [show t + (k + 1) = t + 1 + k by omega]
      exact this

theorem accum_err (hv : 0 ≤ v) (hv1 : v ≤ 1) (hu : 0 ≤ u) (hu1 : u ≤ 1) (hm : MacErr u mac)
    (hP : PropsErr v props fprops) (q : AnyQ Cell) (w h : Nat) (init : Cell → ℚ) (hi : ∀ c, 0 ≤ init c) (c : Cell)
    (hc : props c 0 ≠ -2) :
    NearT v u (w * h) (flowAccumulation q w h props (fun c => (init c : K)) c)
      (flowAccumulationR mac q w h fprops init c) := by
  have hnd : propNoData props c = false := by simp [propNoData, hc]
  have hnd' : propNoData fprops c = false := by rw [hP.nd]; exact hnd
  simp only [flowAccumulation, flowAccumulationR, hnd, hnd', if_neg Bool.false_ne_true]
  have := loop_err hv hv1 hu hu1 hm hP q (w * h) 0 (faStart q w h props (fun c => (init c : K))) (faStart q w h fprops init)
    (by simp [faStart, hP.deps]) (by simp [faStart, hP.deps, hP.nd]) (fun x => by
      simp only [faStart, NearT, pow_zero, one_mul]
      exact ⟨by exact_mod_cast hi x, le_refl _, le_refl _⟩) c
  rw [Nat.zero_add] at this
  exact this

end Err

end RichDEM
