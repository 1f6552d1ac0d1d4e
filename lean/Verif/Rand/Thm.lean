import Verif.Rand.Model
import Verif.Omp.Model

/-! Lemmas about the random numbers of Verif/Rand/Model.lean. -/

namespace RichDEM.Rand

open Py (roundBits IsFloat)

theorem isFloat_zero : IsFloat 53 0 := ⟨0, 0, by norm_num, by norm_num⟩

theorem isFloat_one : IsFloat 53 1 := ⟨1, 0, by norm_num, by norm_num⟩

/-- Numbers of 53 digits, exactly; the last multiplication by a power of two changes nothing. -/
theorem canonical_float (e : Engine) : IsFloat 53 (canonical e).1 := by
  unfold canonical
  dsimp only
  split
  · exact ⟨2 ^ 53 - 1, -53, by norm_num, by norm_num⟩
  · obtain ⟨m, k, h1, h2⟩ := Py.roundBits_isFloat 53 (by norm_num)
      (((draw e).1 : ℚ) + ((draw (draw e).2).1 : ℚ) * 2 ^ 32)
    refine ⟨m, k - 64, h1, ?_⟩
    rw [h2, zpow_sub₀ (by norm_num)]
    norm_num
    ring

theorem canonical_range (e : Engine) : 0 ≤ (canonical e).1 ∧ (canonical e).1 < 1 := by
  unfold canonical
  dsimp only
  split
  · norm_num
  · rename_i hlt
    refine ⟨?_, not_le.1 hlt⟩
    apply div_nonneg _ (by norm_num)
    have := Py.roundBits_mono 53 (by norm_num)
      (show (0 : ℚ) ≤ ((draw e).1 : ℚ) + ((draw (draw e).2).1 : ℚ) * 2 ^ 32 by positivity)
    rwa [Py.roundBits_float 53 (by norm_num) 0 isFloat_zero] at this

/-! ### Seeding -/

theorem seedRand_spec (seed : Nat) (entropy : Nat → Engine) :
    ∀ (order : List Nat) (s : State), (∀ t ∈ order, t < threadMax) →
      ∃ s', seedRand seed entropy order s = some s' ∧ s'.saved = s.saved ∧
        ∀ t, s'.eng t = if t ∈ order then (if seed = 0 then entropy t else mtSeed (seed * t % 2 ^ 64)) else s.eng t := by
  intro order
  induction order with
  | nil => intro s _; exact ⟨s, rfl, rfl, fun t => by simp⟩
  | cons a l ih =>
    intro s hl
    have ha : a < threadMax := hl a (by simp)
    obtain ⟨s', h1, h2, h3⟩ := ih ⟨Function.update s.eng a
      (if seed = 0 then entropy a else mtSeed (seed * a % 2 ^ 64)), s.saved⟩ (fun t ht => hl t (by simp [ht]))
    refine ⟨s', ?_, h2, fun t => ?_⟩
    · unfold seedRand at h1 ⊢
      rw [List.foldlM_cons]
      unfold seedOne randEngine
      rw [if_pos ha]
      exact h1
    · rw [h3 t]
      by_cases e : t = a
      · subst e
        simp
      · by_cases ht : t ∈ l
        · simp [ht]
        · simp [ht, e, Function.update_of_ne e]

theorem seedRand_none (seed : Nat) (entropy : Nat → Engine) :
    ∀ (order : List Nat) (s : State), (∃ t ∈ order, threadMax ≤ t) → seedRand seed entropy order s = none := by
  intro order
  induction order with
  | nil => rintro s ⟨t, ht, _⟩; cases ht
  | cons a l ih =>
    rintro s ⟨t, ht, hm⟩
    unfold seedRand at ih ⊢
    rw [List.foldlM_cons]
    by_cases ha : a < threadMax
    · unfold seedOne randEngine
      rw [if_pos ha]
      refine ih _ ⟨t, ?_, hm⟩
      rcases List.mem_cons.1 ht with e | e
      · omega
      · exact e
    · unfold seedOne randEngine
      rw [if_neg ha]
      rfl

theorem mtSeed_congr {a b : Nat} (hab : a % 2 ^ 32 = b % 2 ^ 32) : mtSeed a = mtSeed b := by
  unfold mtSeed
  rw [hab]

theorem mtSeed_head (a : Nat) : (mtSeed a).head? = some (a % 2 ^ 32) := by
  unfold mtSeed
  rfl

theorem dvd_aux (seed d : Nat) (hd : d < 32) (h0 : 0 < d) (hm : seed * d % 2 ^ 32 = 0) : 2 ^ 28 ∣ seed := by
  have split : ∀ d < 32, 0 < d → ∃ k ≤ 4, ∃ m < 32, d = m * 2 ^ k ∧ m % 2 = 1 := by decide
  obtain ⟨k, hk, m, _, rfl, hodd⟩ := split d hd h0
  have h1 : 2 ^ 32 ∣ (seed * 2 ^ k) * m := by
    have := Nat.dvd_of_mod_eq_zero hm
    rwa [show seed * (m * 2 ^ k) = (seed * 2 ^ k) * m by ring] at this
  have hc : Nat.Coprime (2 ^ 32) m := Nat.Coprime.pow_left 32 (by rw [Nat.coprime_two_left]; exact Nat.odd_iff.2 hodd)
  have h2 : 2 ^ 32 ∣ seed * 2 ^ k := hc.dvd_of_dvd_mul_right h1
  have h3 : 2 ^ (32 - k) * 2 ^ k ∣ seed * 2 ^ k := by
    rw [← pow_add]
    rwa [show 32 - k + k = 32 by omega]
  have h4 : 2 ^ (32 - k) ∣ seed := Nat.dvd_of_mul_dvd_mul_right (by positivity) h3
  exact (pow_dvd_pow 2 (by omega)).trans h4

theorem mod_aux (a b c : Nat) (hab : (a + b) % c = a % c) : b % c = 0 := by
  have h1 : (a + b) ≡ a + 0 [MOD c] := by simpa [Nat.ModEq] using hab
  have := Nat.ModEq.add_left_cancel' a h1
  simpa [Nat.ModEq] using this

/-- Engines of different threads seeded alike have been given a very special seed. -/
theorem seeds_differ {seed t t' : Nat} (ht : t < 32) (ht' : t' < 32) (hne : t ≠ t')
    (he : mtSeed (seed * t % 2 ^ 64) = mtSeed (seed * t' % 2 ^ 64)) : 2 ^ 28 ∣ seed := by
  have key : ∀ t t' : Nat, t < 32 → t' < t → mtSeed (seed * t % 2 ^ 64) = mtSeed (seed * t' % 2 ^ 64) →
      2 ^ 28 ∣ seed := by
    intro t t' ht hlt he
    have h1 := congrArg List.head? he
    rw [mtSeed_head, mtSeed_head, Option.some.injEq, Nat.mod_mod_of_dvd _ (by norm_num),
      Nat.mod_mod_of_dvd _ (by norm_num)] at h1
    obtain ⟨d, rfl⟩ : ∃ d, t = t' + d := ⟨t - t', by omega⟩
    rw [Nat.mul_add] at h1
    exact dvd_aux seed d (by omega) (by omega) (mod_aux _ _ _ h1)
  rcases Nat.lt_or_gt_of_ne hne with h1 | h1
  · exact key t' t ht' h1 he.symm
  · exact key t t' ht h1 he

/-! ### Two states that agree -/

/-- The threads below `n` find the same engines, and the same kept numbers if `all`. -/
def Agree (n : Nat) (all : Bool) (s s' : State) : Prop :=
  ∀ t, t < n → s.eng t = s'.eng t ∧ (all = true → s.saved t = s'.saved t)

theorem call_agree {polar : Engine → (ℚ × ℚ) × Engine} {n : Nat} {all : Bool} {s s' : State} (ha : Agree n all s s')
    {t : Nat} (ht : t < n) (k : Call) (hk : all = true ∨ ∃ lo hi, k = .real lo hi) :
    (call polar t k s = none ∧ call polar t k s' = none) ∨
    ∃ v u u', call polar t k s = some (v, u) ∧ call polar t k s' = some (v, u') ∧ Agree n all u u' := by
  by_cases hm : t < threadMax
  swap
  · left
    cases k <;> simp [call, uniformReal, normalRand, randEngine, hm]
  right
  have upd : ∀ (e : Engine), Agree n all { s with eng := Function.update s.eng t e }
      { s' with eng := Function.update s'.eng t e } := by
    intro e u hu
    by_cases h1 : u = t
    · subst h1
      exact ⟨by simp, (ha u hu).2⟩
    · exact ⟨by simpa [Function.update_of_ne h1] using (ha u hu).1, (ha u hu).2⟩
  cases k with
  | real lo hi =>
    simp only [call, uniformReal, randEngine, if_pos hm, Option.map_some, (ha t ht).1]
    exact ⟨_, _, _, rfl, rfl, upd _⟩
  | normal mean sd =>
    have hall : all = true := by
      rcases hk with h1 | ⟨lo, hi, h1⟩
      · exact h1
      · cases h1
    have hs := (ha t ht).2 hall
    simp only [call, normalRand, randEngine, if_pos hm, Option.map_some, (ha t ht).1, hs]
    cases h2 : s'.saved t with
    | some v =>
      refine ⟨_, _, _, rfl, rfl, fun u hu => ?_⟩
      refine ⟨(ha u hu).1, fun _ => ?_⟩
      by_cases h1 : u = t
      · subst h1; simp
      · simpa [Function.update_of_ne h1] using (ha u hu).2 hall
    | none =>
      refine ⟨_, _, _, rfl, rfl, fun u hu => ?_⟩
      by_cases h1 : u = t
      · subst h1; simp
      · exact ⟨by simpa [Function.update_of_ne h1] using (ha u hu).1,
          fun _ => by simpa [Function.update_of_ne h1] using (ha u hu).2 hall⟩

theorem calls_agree {polar : Engine → (ℚ × ℚ) × Engine} {n : Nat} {all : Bool} (l : List (Nat × Call)) :
    ∀ (s s' : State), Agree n all s s' → (∀ p ∈ l, p.1 < n ∧ (all = true ∨ ∃ lo hi, p.2 = .real lo hi)) →
      (calls polar l s).map Prod.fst = (calls polar l s').map Prod.fst := by
  induction l with
  | nil => intro s s' _ _; rfl
  | cons a l ih =>
    intro s s' ha hl
    obtain ⟨t, k⟩ := a
    obtain ⟨h1, h2⟩ := hl (t, k) (by simp)
    rcases call_agree (polar := polar) ha h1 k h2 with ⟨e1, e2⟩ | ⟨v, u, u', e1, e2, hu⟩
    · simp only [calls, e1, e2, Option.bind_none]
    · have := ih u u' hu (fun p hp => hl p (by simp [hp]))
      simp only [calls, e1, e2, Option.bind_some]
      cases h3 : calls polar l u with
      | none => rw [h3] at this; cases h4 : calls polar l u' with
        | none => rfl
        | some r => rw [h4] at this; cases this
      | some r => rw [h3] at this; cases h4 : calls polar l u' with
        | none => rw [h4] at this; cases this
        | some r' =>
          rw [h4] at this
          simp only [Option.map_some, Option.some.injEq] at this ⊢
          rw [this]

/-! ### Rho8 and Rho4 -/

theorem nodup_dirs' (t : Topo) : (dirs t).Nodup := by cases t <;> decide +kernel

theorem rhoScan_congr (w h : Nat) (t : Topo) (dem : Cell → ℚ) (nd : ℚ) (f g : Nat → ℚ) (c : Cell) (l : List Nat)
    (hfg : ∀ n ∈ l, f n = g n) (s : Nat × ℚ) : rhoScan w h t dem nd f c l s = rhoScan w h t dem nd g c l s := by
  induction l generalizing s with
  | nil => rfl
  | cons n l ih =>
    unfold rhoScan at ih ⊢
    simp only [List.foldl_cons]
    rw [hfg n (by simp)]
    exact ih (fun m hm => hfg m (by simp [hm])) _

theorem rhoDraws_spec (w h : Nat) (t : Topo) (dem : Cell → ℚ) (nd : ℚ) (c : Cell) (l : List Nat) (hl : l.Nodup) :
    ∀ (s : Nat × ℚ) (e : Engine), ∃ u : Nat → ℚ, (∀ n, 0 ≤ u n ∧ u n < 1) ∧
      (rhoDraws w h t dem nd c l s e).1 = rhoScan w h t dem nd (fun n => rhoFactor t n (u n)) c l s := by
  induction l with
  | nil => intro s e; exact ⟨fun _ => 0, fun _ => by norm_num, rfl⟩
  | cons n l ih =>
    intro s e
    have hl' := (List.nodup_cons.1 hl).2
    have hn := (List.nodup_cons.1 hl).1
    simp only [rhoDraws]
    by_cases h1 : inGrid w h (nbr t c n) = false
    · rw [if_pos h1]
      obtain ⟨u, a, b⟩ := ih hl' s e
      refine ⟨u, a, ?_⟩
      rw [b]; unfold rhoScan; simp only [List.foldl_cons, if_pos h1]
    rw [if_neg h1]
    by_cases h2 : dem (nbr t c n) = nd
    · rw [if_pos h2]
      obtain ⟨u, a, b⟩ := ih hl' s e
      refine ⟨u, a, ?_⟩
      rw [b]; unfold rhoScan; simp only [List.foldl_cons, if_neg h1, if_pos h2]
    rw [if_neg h2]
    by_cases h3 : dem c ≤ dem (nbr t c n)
    · rw [if_pos h3]
      obtain ⟨u, a, b⟩ := ih hl' s e
      refine ⟨u, a, ?_⟩
      rw [b]; unfold rhoScan; simp only [List.foldl_cons, if_neg h1, if_neg h2, if_pos h3]
    rw [if_neg h3]
    have hr : 0 ≤ (if n % 2 = 0 then canonical e else (0, e)).1 ∧ (if n % 2 = 0 then canonical e else (0, e)).1 < 1 := by
      split
      · exact canonical_range e
      · norm_num
    generalize (if n % 2 = 0 then canonical e else (0, e)) = q at hr
    obtain ⟨u, a, b⟩ := ih hl' (if s.2 < (dem c - dem (nbr t c n)) * rhoFactor t n q.1 then
      (n, (dem c - dem (nbr t c n)) * rhoFactor t n q.1) else s) q.2
    refine ⟨Function.update u n q.1, fun m => ?_, ?_⟩
    · by_cases hm : m = n
      · subst hm; rw [Function.update_self]; exact hr
      · rw [Function.update_of_ne hm]; exact a m
    rw [b, rhoScan_congr (g := fun m => rhoFactor t m (Function.update u n q.1 m)) (hfg := ?_)]
    · unfold rhoScan
      simp only [List.foldl_cons, if_neg h1, if_neg h2, if_neg h3, Function.update_self]
    · intro m hm
      have : m ≠ n := by rintro rfl; exact hn hm
      simp only [Function.update_of_ne this]

/-- A cell is given what `fmFairfield` gives it, for some random numbers in [0,1). -/
theorem rhoCell_spec (w h : Nat) (t : Topo) (dem : Cell → ℚ) (nd : ℚ) (e : Engine) (c : Cell) :
    ∃ u : Nat → ℚ, (∀ n, 0 ≤ u n ∧ u n < 1) ∧
      (rhoCell w h t dem nd e c).1 = fmFairfield w h t dem nd (fun _ n => rhoFactor t n (u n)) c := by
  obtain ⟨u, a, b⟩ := rhoDraws_spec w h t dem nd c (dirs t) (nodup_dirs' t) (0, 0) e
  refine ⟨u, a, ?_⟩
  unfold rhoCell fmFairfield
  by_cases h1 : dem c = nd
  · rw [if_pos h1, if_pos h1]
  rw [if_neg h1, if_neg h1]
  by_cases h2 : isEdgeCell w h c = true
  · rw [if_pos h2, if_pos h2]
  rw [if_neg h2, if_neg h2]
  simp only [b]

/-- The cells not in the list keep what they have; the others are given what some engine gives them. -/
theorem rhoThread_spec (w h : Nat) (t : Topo) (dem : Cell → ℚ) (nd : ℚ) (l : List Cell) :
    ∀ (e : Engine) (p : Cell → Props1) (c : Cell),
      (c ∈ l → ∃ e', rhoThread w h t dem nd l e p c = (rhoCell w h t dem nd e' c).1) ∧
      (c ∉ l → rhoThread w h t dem nd l e p c = p c) := by
  induction l with
  | nil => intro e p c; exact ⟨by simp, fun _ => rfl⟩
  | cons a l ih =>
    intro e p c
    simp only [rhoThread]
    obtain ⟨i1, i2⟩ := ih (rhoCell w h t dem nd e a).2 (Function.update p a (rhoCell w h t dem nd e a).1) c
    refine ⟨fun hc => ?_, fun hc => ?_⟩
    · by_cases hl : c ∈ l
      · exact i1 hl
      · have : c = a := by rcases List.mem_cons.1 hc with e | e; exacts [e, absurd e hl]
        subst this
        exact ⟨e, by rw [i2 hl, Function.update_self]⟩
    · simp only [List.mem_cons, not_or] at hc
      rw [i2 hc.2, Function.update_of_ne hc.1]

theorem fmRho_fold (w h : Nat) (t : Topo) (dem : Cell → ℚ) (nd : ℚ) (work : Nat → List Cell) (eng : Nat → Engine)
    (l : List Nat) : ∀ (p : Cell → Props1) (c : Cell),
      (∃ i ∈ l, c ∈ work i) → ∃ e', l.foldl (fun p i => rhoThread w h t dem nd (work i) (eng i) p) p c =
        (rhoCell w h t dem nd e' c).1 := by
  induction l using List.reverseRecOn with
  | nil => intro p c hc; obtain ⟨i, hi, _⟩ := hc; simp at hi
  | append_singleton l a ih =>
    intro p c hc
    rw [List.foldl_append, List.foldl_cons, List.foldl_nil]
    obtain ⟨i1, i2⟩ := rhoThread_spec w h t dem nd (work a) (eng a)
      (l.foldl (fun p i => rhoThread w h t dem nd (work i) (eng i) p) p) c
    by_cases ha : c ∈ work a
    · exact i1 ha
    rw [i2 ha]
    apply ih
    obtain ⟨i, hi, hw⟩ := hc
    rcases List.mem_append.1 hi with k | k
    · exact ⟨i, k, hw⟩
    · rw [List.mem_singleton.1 k] at hw; exact absurd hw ha

end RichDEM.Rand
