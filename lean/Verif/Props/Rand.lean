/-
Property theorems C111: random numbers and their seeding.
-/
import Verif.Rand.Thm
import Verif.Props.MultiFlow

namespace RichDEM.Rand

open Py (roundBits IsFloat)

/-- The threads `0 … n-1` of a team, in the order in which they are let into a critical section. -/
def TeamOrder (n : Nat) (order : List Nat) : Prop := order.Perm (List.range n)

variable (polar : Engine → (ℚ × ℚ) × Engine)

/-! ### Seeding -/

/-- C111: with at most 32 threads `seed_rand` succeeds. -/
theorem C111_seed_defined (seed n : Nat) (hn : n ≤ 32) (order : List Nat) (ho : TeamOrder n order)
    (entropy : Nat → Engine) (s : State) : (seedRand seed entropy order s).isSome = true := by
  obtain ⟨s', h1, _⟩ := seedRand_spec seed entropy order s
    (fun t ht => by have := List.mem_range.1 (ho.mem_iff.1 ht); unfold threadMax; omega)
  rw [h1]; rfl

/-- C111: after `seed_rand` with a seed that is not zero, the uniform numbers that the threads of the team get do not
depend on what happened before, nor on the order in which the threads were seeded, nor on the random device. -/
theorem C111_reproducible_partial (seed n : Nat) (hs : seed ≠ 0) (hn : n ≤ 32) (order order' : List Nat)
    (ho : TeamOrder n order) (ho' : TeamOrder n order') (entropy entropy' : Nat → Engine) (s s' u u' : State)
    (h1 : seedRand seed entropy order s = some u) (h2 : seedRand seed entropy' order' s' = some u')
    (l : List (Nat × Call)) (hl : ∀ p ∈ l, p.1 < n ∧ ∃ lo hi, p.2 = .real lo hi) :
    (calls polar l u).map Prod.fst = (calls polar l u').map Prod.fst := by
  have hin : ∀ (order : List Nat), TeamOrder n order → ∀ t ∈ order, t < threadMax := by
    intro order ho t ht
    have := List.mem_range.1 (ho.mem_iff.1 ht)
    unfold threadMax; omega
  obtain ⟨v, e1, _, e3⟩ := seedRand_spec seed entropy order s (hin order ho)
  obtain ⟨v', e1', _, e3'⟩ := seedRand_spec seed entropy' order' s' (hin order' ho')
  rw [h1, Option.some.injEq] at e1
  rw [h2, Option.some.injEq] at e1'
  subst e1 e1'
  apply calls_agree (n := n) (all := false) l u u' _ (fun p hp => ⟨(hl p hp).1, .inr (hl p hp).2⟩)
  intro t ht
  refine ⟨?_, fun k => by cases k⟩
  rw [e3 t, e3' t, if_pos (ho.mem_iff.2 (List.mem_range.2 ht)), if_pos (ho'.mem_iff.2 (List.mem_range.2 ht)),
    if_neg hs, if_neg hs]

/-- C111: and neither do the normal ones, if no thread of the team has kept a number. -/
theorem C111_reproducible_normal_partial (seed n : Nat) (hs : seed ≠ 0) (hn : n ≤ 32) (order order' : List Nat)
    (ho : TeamOrder n order) (ho' : TeamOrder n order') (entropy entropy' : Nat → Engine) (s s' u u' : State)
    (hk : ∀ t, t < n → s.saved t = none ∧ s'.saved t = none)
    (h1 : seedRand seed entropy order s = some u) (h2 : seedRand seed entropy' order' s' = some u')
    (l : List (Nat × Call)) (hl : ∀ p ∈ l, p.1 < n) :
    (calls polar l u).map Prod.fst = (calls polar l u').map Prod.fst := by
  have hin : ∀ (order : List Nat), TeamOrder n order → ∀ t ∈ order, t < threadMax := by
    intro order ho t ht
    have := List.mem_range.1 (ho.mem_iff.1 ht)
    unfold threadMax; omega
  obtain ⟨v, e1, e2, e3⟩ := seedRand_spec seed entropy order s (hin order ho)
  obtain ⟨v', e1', e2', e3'⟩ := seedRand_spec seed entropy' order' s' (hin order' ho')
  rw [h1, Option.some.injEq] at e1
  rw [h2, Option.some.injEq] at e1'
  subst e1 e1'
  apply calls_agree (n := n) (all := true) l u u' _ (fun p hp => ⟨hl p hp, .inl rfl⟩)
  intro t ht
  refine ⟨?_, fun _ => by rw [e2, e2', (hk t ht).1, (hk t ht).2]⟩
  rw [e3 t, e3' t, if_pos (ho.mem_iff.2 (List.mem_range.2 ht)), if_pos (ho'.mem_iff.2 (List.mem_range.2 ht)),
    if_neg hs, if_neg hs]

/-- C111: two threads of a team are seeded differently, unless the seed is a multiple of 2^28. -/
theorem C111_threads_differ_partial (seed n : Nat) (hs : ¬ 2 ^ 28 ∣ seed) (hn : n ≤ 32) (order : List Nat)
    (ho : TeamOrder n order) (entropy : Nat → Engine) (s u : State) (h1 : seedRand seed entropy order s = some u)
    (t t' : Nat) (ht : t < n) (ht' : t' < n) (hne : t ≠ t') : u.eng t ≠ u.eng t' := by
  obtain ⟨v, e1, _, e3⟩ := seedRand_spec seed entropy order s
    (fun t ht => by have := List.mem_range.1 (ho.mem_iff.1 ht); unfold threadMax; omega)
  rw [h1, Option.some.injEq] at e1
  subst e1
  have hz : seed ≠ 0 := by rintro rfl; exact hs (dvd_zero _)
  rw [e3 t, e3 t', if_pos (ho.mem_iff.2 (List.mem_range.2 ht)), if_pos (ho.mem_iff.2 (List.mem_range.2 ht')),
    if_neg hz, if_neg hz]
  exact fun he => hs (seeds_differ (by omega) (by omega) hne he)

/-- C111, refuted: thread 0 – with one thread, the whole program – is seeded with 0 whatever the seed: different seeds
give the same numbers. -/
theorem C111_seed_ignored_refuted (seed seed' n : Nat) (hs : seed ≠ 0) (hs' : seed' ≠ 0) (hn : n ≤ 32) (hn0 : 0 < n)
    (order : List Nat) (ho : TeamOrder n order) (entropy : Nat → Engine) (s u u' : State)
    (h1 : seedRand seed entropy order s = some u) (h2 : seedRand seed' entropy order s = some u')
    (l : List (Nat × Call)) (hl : ∀ p ∈ l, p.1 = 0) :
    u.eng 0 = mtSeed 0 ∧ u'.eng 0 = mtSeed 0 ∧
    (calls polar l u).map Prod.fst = (calls polar l u').map Prod.fst := by
  have hin : ∀ t ∈ order, t < threadMax := by
    intro t ht
    have := List.mem_range.1 (ho.mem_iff.1 ht)
    unfold threadMax; omega
  obtain ⟨v, e1, e2, e3⟩ := seedRand_spec seed entropy order s hin
  obtain ⟨v', e1', e2', e3'⟩ := seedRand_spec seed' entropy order s hin
  rw [h1, Option.some.injEq] at e1
  rw [h2, Option.some.injEq] at e1'
  subst e1 e1'
  have h0 : 0 ∈ order := ho.mem_iff.2 (List.mem_range.2 hn0)
  have z : u.eng 0 = mtSeed 0 := by rw [e3 0, if_pos h0, if_neg hs]; rfl
  have z' : u'.eng 0 = mtSeed 0 := by rw [e3' 0, if_pos h0, if_neg hs']; rfl
  refine ⟨z, z', ?_⟩
  apply calls_agree (n := 1) (all := true) l u u' _ (fun p hp => ⟨by rw [hl p hp]; omega, .inl rfl⟩)
  intro t ht
  obtain rfl : t = 0 := by omega
  exact ⟨by rw [z, z'], fun _ => by rw [e2, e2']⟩

/-- C111, refuted: with the seed 2^32 all threads are seeded alike, and draw the same numbers. -/
theorem C111_threads_alike_refuted (n : Nat) (hn : n ≤ 32) (order : List Nat) (ho : TeamOrder n order)
    (entropy : Nat → Engine) (s u : State) (h1 : seedRand (2 ^ 32) entropy order s = some u) (t : Nat) (ht : t < n) :
    u.eng t = mtSeed 0 := by
  obtain ⟨v, e1, _, e3⟩ := seedRand_spec (2 ^ 32) entropy order s
    (fun t ht => by have := List.mem_range.1 (ho.mem_iff.1 ht); unfold threadMax; omega)
  rw [h1, Option.some.injEq] at e1
  subst e1
  rw [e3 t, if_pos (ho.mem_iff.2 (List.mem_range.2 ht)), if_neg (by norm_num)]
  apply mtSeed_congr
  rw [Nat.mod_mod_of_dvd _ (by norm_num), Nat.mul_mod_right, Nat.zero_mod]

/-- C111, refuted: with more than 32 threads `seed_rand` uses an engine beyond the end of the array. -/
theorem C111_many_threads_refuted (seed n : Nat) (hn : 32 < n) (order : List Nat) (ho : TeamOrder n order)
    (entropy : Nat → Engine) (s : State) : seedRand seed entropy order s = none :=
  seedRand_none seed entropy order s ⟨32, ho.mem_iff.2 (List.mem_range.2 hn), le_refl _⟩

/-- `normal_rand` with nothing kept. -/
theorem normalRand_first (t : Nat) (hm : t < threadMax) (mean sd : ℚ) (s : State) (hk : s.saved t = none) :
    normalRand polar mean sd t s = some (roundBits 53 (roundBits 53 ((polar (s.eng t)).1.2 * sd) + mean),
      ⟨Function.update s.eng t (polar (s.eng t)).2, Function.update s.saved t (some (polar (s.eng t)).1.1)⟩) := by
  simp only [normalRand, randEngine, if_pos hm, Option.map_some, hk]

/-- `normal_rand` with a number kept. -/
theorem normalRand_second (t : Nat) (hm : t < threadMax) (mean sd : ℚ) (s : State) (v : ℚ) (hk : s.saved t = some v) :
    normalRand polar mean sd t s = some (roundBits 53 (roundBits 53 (v * sd) + mean),
      ⟨s.eng, Function.update s.saved t none⟩) := by
  simp only [normalRand, randEngine, if_pos hm, Option.map_some, hk]

theorem setState_some (e : Engine) (t : Nat) (hm : t < threadMax) (s : State) :
    setState e t s = some ⟨Function.update s.eng t e, s.saved⟩ := by
  simp only [setState, randEngine, if_pos hm, Option.map_some]

/-- C111, refuted: a thread that has called `normal_rand` once gets the number kept from then after it has been seeded
again, whatever the seed, and whatever the state of the engine. -/
theorem C111_normal_refuted (t : Nat) (ht : t < 32) (mean sd : ℚ) (s : State) (hk : s.saved t = none) :
    ∃ v s₁, normalRand polar mean sd t s = some (v, s₁) ∧
      ∀ seed n order entropy u, TeamOrder n order → n ≤ 32 → seedRand seed entropy order s₁ = some u →
        (normalRand polar mean sd t u).map Prod.fst =
          some (roundBits 53 (roundBits 53 ((polar (s.eng t)).1.1 * sd) + mean)) := by
  have hm : t < threadMax := ht
  refine ⟨_, _, normalRand_first polar t hm mean sd s hk, ?_⟩
  intro seed n order entropy u ho hn h1
  obtain ⟨v, e1, e2, _⟩ := seedRand_spec seed entropy order _
    (fun t ht => by have := List.mem_range.1 (ho.mem_iff.1 ht); unfold threadMax; omega)
  rw [h1, Option.some.injEq] at e1
  subst e1
  simp [normalRand, randEngine, if_pos hm, e2]

/-! ### Saving and restoring -/

/-- C111: after `SetRandomState` with what `SaveRandomState` returned, the same thread gets the same uniform numbers
again. -/
theorem C111_restore_partial (t : Nat) (s s' u : State) (e : Engine) (l l' : List (Nat × Call)) (o : List ℚ)
    (hsave : saveState t s = some e) (hl : ∀ p ∈ l, p.1 = t ∧ ∃ lo hi, p.2 = .real lo hi)
    (_hc : calls polar l' s = some (o, s')) (hset : setState e t s' = some u) :
    (calls polar l u).map Prod.fst = (calls polar l s).map Prod.fst := by
  have hm : t < threadMax := by
    by_contra k
    simp [saveState, randEngine, k] at hsave
  have he : s.eng t = e := by simpa [saveState, randEngine, hm] using hsave
  have hu : u.eng t = e := by
    simp only [setState, randEngine, if_pos hm, Option.map_some, Option.some.injEq] at hset
    rw [← hset]; simp
  -- only the engine of `t` matters
  have key : ∀ (l : List (Nat × Call)), (∀ p ∈ l, p.1 = t ∧ ∃ lo hi, p.2 = .real lo hi) → ∀ a b : State,
      a.eng t = b.eng t → (calls polar l a).map Prod.fst = (calls polar l b).map Prod.fst := by
    intro l
    induction l with
    | nil => intro _ a b _; rfl
    | cons q l ih =>
      intro hl a b hab
      obtain ⟨t', k⟩ := q
      obtain ⟨h1, lo, hi, h2⟩ := hl (t', k) (by simp)
      dsimp only at h1 h2
      subst h1 h2
      simp only [calls, call, uniformReal, randEngine, if_pos hm, Option.map_some, Option.bind_some, hab]
      have := ih (fun p hp => hl p (by simp [hp])) { a with eng := Function.update a.eng t' (canonical (b.eng t')).2 }
        { b with eng := Function.update b.eng t' (canonical (b.eng t')).2 } (by simp)
      cases h3 : calls polar l { a with eng := Function.update a.eng t' (canonical (b.eng t')).2 } with
      | none =>
        rw [h3] at this
        cases h4 : calls polar l { b with eng := Function.update b.eng t' (canonical (b.eng t')).2 } with
        | none => rfl
        | some r => rw [h4] at this; cases this
      | some r =>
        rw [h3] at this
        cases h4 : calls polar l { b with eng := Function.update b.eng t' (canonical (b.eng t')).2 } with
        | none => rw [h4] at this; cases this
        | some r' =>
          rw [h4] at this
          simp only [Option.map_some, Option.some.injEq] at this ⊢
          rw [this]
  exact key l hl u s (by rw [hu, he])

/-- C111, refuted: normal numbers are not repeated: after saving, `normal_rand`, and restoring, the next `normal_rand`
gives the second number of the pair instead of the first. -/
theorem C111_restore_normal_refuted (t : Nat) (ht : t < 32) (mean sd : ℚ) (s : State) (hk : s.saved t = none) :
    ∃ e s₁ s₂ v₁ v₂ s₃, saveState t s = some e ∧ normalRand polar mean sd t s = some (v₁, s₁) ∧
      setState e t s₁ = some s₂ ∧ normalRand polar mean sd t s₂ = some (v₂, s₃) ∧
      v₁ = roundBits 53 (roundBits 53 ((polar (s.eng t)).1.2 * sd) + mean) ∧
      v₂ = roundBits 53 (roundBits 53 ((polar (s.eng t)).1.1 * sd) + mean) := by
  have hm : t < threadMax := ht
  refine ⟨s.eng t, _, _, _, _, _, by simp only [saveState, randEngine, if_pos hm],
    normalRand_first polar t hm mean sd s hk, setState_some _ t hm _,
    normalRand_second polar t hm mean sd _ _ (Function.update_self ..), rfl, rfl⟩

/-- C111, refuted: `SaveRandomState` and `SetRandomState` concern the calling thread only; the engines of the other
threads go on from where they are. -/
theorem C111_restore_others_refuted (t t' : Nat) (hne : t' ≠ t) (e : Engine) (s s' : State)
    (hset : setState e t s = some s') : s'.eng t' = s.eng t' := by
  unfold setState at hset
  cases h1 : randEngine s t with
  | none => rw [h1] at hset; cases hset
  | some x =>
    rw [h1] at hset
    simp only [Option.map_some, Option.some.injEq] at hset
    rw [← hset]
    simp [Function.update_of_ne hne]

/-! ### The interval -/

/-- C111: `uniform_rand_real(0,1)` is in [0,1). -/
theorem C111_unit_interval (t : Nat) (s s' : State) (v : ℚ) (hv : uniformReal 0 1 t s = some (v, s')) :
    0 ≤ v ∧ v < 1 ∧ v = (canonical (s.eng t)).1 := by
  unfold uniformReal at hv
  cases h1 : randEngine s t with
  | none => rw [h1] at hv; cases hv
  | some e =>
    have he : e = s.eng t := by
      unfold randEngine at h1
      split at h1
      · simpa using h1.symm
      · cases h1
    subst he
    rw [h1] at hv
    simp only [Option.map_some, Option.some.injEq, Prod.mk.injEq] at hv
    have hf := canonical_float (s.eng t)
    have hr := canonical_range (s.eng t)
    have e1 : v = (canonical (s.eng t)).1 := by
      rw [← hv.1, sub_zero, Py.roundBits_float 53 (by norm_num) 1 isFloat_one, mul_one, add_zero,
        Py.roundBits_float 53 (by norm_num) _ hf, Py.roundBits_float 53 (by norm_num) _ hf]
    rw [e1]
    exact ⟨hr.1, hr.2, rfl⟩

/-- C111: `uniform_rand_real(from,thru)` is in [from,thru], if the width of the interval is a floating-point number. -/
theorem C111_interval_partial (lo hi : ℚ) (hlo : IsFloat 53 lo) (hhi : IsFloat 53 hi) (hw : IsFloat 53 (hi - lo))
    (hle : lo ≤ hi) (t : Nat) (s s' : State) (v : ℚ) (hv : uniformReal lo hi t s = some (v, s')) :
    lo ≤ v ∧ v ≤ hi := by
  unfold uniformReal at hv
  cases h1 : randEngine s t with
  | none => rw [h1] at hv; cases hv
  | some e =>
    rw [h1] at hv
    simp only [Option.map_some, Option.some.injEq, Prod.mk.injEq] at hv
    have hr := canonical_range e
    have mono := Py.roundBits_mono 53 (by norm_num)
    have a1 : 0 ≤ (canonical e).1 * (hi - lo) := mul_nonneg hr.1 (by linarith)
    have a2 : (canonical e).1 * (hi - lo) ≤ hi - lo := by nlinarith [hr.2]
    have b1 := mono a1
    have b2 := mono a2
    rw [Py.roundBits_float 53 (by norm_num) 0 isFloat_zero] at b1
    rw [Py.roundBits_float 53 (by norm_num) _ hw] at b2
    rw [Py.roundBits_float 53 (by norm_num) _ hw] at hv
    rw [← hv.1]
    constructor
    · have := mono (show lo ≤ roundBits 53 ((canonical e).1 * (hi - lo)) + lo by linarith)
      rwa [Py.roundBits_float 53 (by norm_num) lo hlo] at this
    · have := mono (show roundBits 53 ((canonical e).1 * (hi - lo)) + lo ≤ hi by linarith)
      rwa [Py.roundBits_float 53 (by norm_num) hi hhi] at this

/-- An engine whose next two words are all ones. -/
def topEngine : Engine := List.replicate 397 0 ++ [316513203, 316513203] ++ List.replicate 225 0

/-- C111, refuted: the upper end of the interval may be returned: rounding takes the largest number below 1, shifted by
1, to 2. -/
theorem C111_interval_refuted : topEngine.length = 624 ∧
    (uniformReal 1 2 0 ⟨fun _ => topEngine, fun _ => none⟩).map Prod.fst = some 2 := by decide +kernel

/-- The model of the engine gives the numbers of `std::mt19937`: the first six for its default seed. -/
example :
    let e1 := draw (mtSeed 5489)
    let e2 := draw e1.2
    let e3 := draw e2.2
    let e4 := draw e3.2
    let e5 := draw e4.2
    [e1.1, e2.1, e3.1, e4.1, e5.1, (draw e5.2).1] =
      [3499211612, 581869302, 3890346734, 3586334585, 545404204, 4161255391] := by decide +kernel

/-- A team of two threads. -/
example : TeamOrder 2 [1, 0] := by unfold TeamOrder; decide

example : ∃ u, seedRand 7 (fun _ => []) [1, 0] ⟨fun _ => [], fun _ => none⟩ = some u ∧
    (u.eng 1).head? = some 7 ∧ (u.eng 0).head? = some 0 := by
  refine ⟨_, rfl, ?_⟩
  decide +kernel

/-! ### Rho8 and Rho4 with the numbers they draw -/

/-- The cells of the raster are dealt out among the threads `0 … m-1`. -/
def DealtOut (w h m : Nat) (work : Nat → List Cell) : Prop := ∀ c, InGrid w h c → ∃ i < m, c ∈ work i

/-- C111: with at most 32 threads, however the cells are dealt out and whatever the states of the engines, Rho8 gives
every interior data cell at most one neighbour, a strictly lower data cell; and exactly one if there is such a cell.
NoData cells are marked, edge cells get no flow. -/
theorem C111_rho8 (w h : Nat) (dem : Cell → ℚ) (nd : ℚ) (m : Nat) (hm : m ≤ 32) (work : Nat → List Cell)
    (hw : DealtOut w h m work) (s : State) :
    ∃ p, fmRho w h .D8 dem nd m work s = some p ∧ ∀ c, InGrid w h c →
      (dem c = nd → p c = .noData) ∧
      (dem c ≠ nd → OnEdge w h c → p c = .noFlow) ∧
      (dem c ≠ nd → ¬ OnEdge w h c →
        (∀ n, p c = .flow n → InGrid w h (nbr .D8 c n) ∧ dem (nbr .D8 c n) ≠ nd ∧ dem (nbr .D8 c n) < dem c) ∧
        ((∃ n, p c = .flow n) ↔ ∃ d, Adj .D8 c d ∧ InGrid w h d ∧ dem d ≠ nd ∧ dem d < dem c)) := by
  refine ⟨_, if_neg (by unfold threadMax; omega), fun c hc => ?_⟩
  obtain ⟨i, hi, hci⟩ := hw c hc
  obtain ⟨e', he'⟩ := fmRho_fold w h .D8 dem nd work s.eng (List.range m) (fun _ => .noFlow) c
    ⟨i, List.mem_range.2 hi, hci⟩
  obtain ⟨u, hu, hcell⟩ := rhoCell_spec w h .D8 dem nd e' c
  rw [he', hcell]
  refine ⟨fun hd => by simp [fmFairfield, hd], fun hd ho => ?_, fun hd ho => ?_⟩
  · have : isEdgeCell w h c = true := (isEdgeCell_iff hc).2 ho
    simp [fmFairfield, hd, this]
  obtain ⟨a1, a2, a3⟩ := C56_rho w h .D8 dem nd (fun _ n => rhoFactor .D8 n (u n)) c hc hd ho
  have pos := a3 (fun n _ => (C56_rho8_factor n (u n) (hu n).1 (hu n).2.le).1)
  refine ⟨fun n hn => ⟨(a2 n hn).2.1, (a2 n hn).2.2.1, (a2 n hn).2.2.2.1⟩, fun hn => ?_, fun hn => ?_⟩
  · obtain ⟨n, hn⟩ := hn
    obtain ⟨k1, k2, k3, k4, _⟩ := a2 n hn
    exact ⟨_, adj_iff_nbr.2 ⟨n, k1, rfl⟩, k2, k3, k4⟩
  · obtain ⟨d, had, h1, h2, h3⟩ := hn
    obtain ⟨n, k1, rfl⟩ := adj_iff_nbr.1 had
    cases hf : fmFairfield w h .D8 dem nd (fun _ n => rhoFactor .D8 n (u n)) c with
    | noData => exact absurd hf a1
    | noFlow => exact absurd h3 (not_lt.2 (pos.1 hf n k1 h1 h2))
    | flow k => exact ⟨k, rfl⟩

/-- C111: after `seed_rand` with a seed that is not zero, Rho8 and Rho4 give the same result for the same dealing of the
cells, whatever happened before. -/
theorem C111_rho_reproducible_partial (w h : Nat) (t : Topo) (dem : Cell → ℚ) (nd : ℚ) (seed n : Nat) (hs : seed ≠ 0)
    (hn : n ≤ 32) (order order' : List Nat) (ho : TeamOrder n order) (ho' : TeamOrder n order')
    (entropy entropy' : Nat → Engine) (s s' u u' : State) (h1 : seedRand seed entropy order s = some u)
    (h2 : seedRand seed entropy' order' s' = some u') (m : Nat) (hm : m ≤ n) (work : Nat → List Cell) :
    fmRho w h t dem nd m work u = fmRho w h t dem nd m work u' := by
  have hin : ∀ (order : List Nat), TeamOrder n order → ∀ t ∈ order, t < threadMax := by
    intro order ho t ht
    have := List.mem_range.1 (ho.mem_iff.1 ht)
    unfold threadMax; omega
  obtain ⟨v, e1, _, e3⟩ := seedRand_spec seed entropy order s (hin order ho)
  obtain ⟨v', e1', _, e3'⟩ := seedRand_spec seed entropy' order' s' (hin order' ho')
  rw [h1, Option.some.injEq] at e1
  rw [h2, Option.some.injEq] at e1'
  subst e1 e1'
  unfold fmRho
  split
  · rfl
  congr 1
  apply List.foldl_ext
  intro p i hi
  have hi' : i < n := by have := List.mem_range.1 hi; omega
  rw [e3 i, e3' i, if_pos (ho.mem_iff.2 (List.mem_range.2 hi')), if_pos (ho'.mem_iff.2 (List.mem_range.2 hi')),
    if_neg hs, if_neg hs]

/-- C111, refuted: the seed makes no difference when there is one thread. -/
theorem C111_rho_seed_refuted (w h : Nat) (t : Topo) (dem : Cell → ℚ) (nd : ℚ) (seed seed' : Nat) (hs : seed ≠ 0)
    (hs' : seed' ≠ 0) (entropy : Nat → Engine) (s u u' : State) (h1 : seedRand seed entropy [0] s = some u)
    (h2 : seedRand seed' entropy [0] s = some u') (work : Nat → List Cell) :
    fmRho w h t dem nd 1 work u = fmRho w h t dem nd 1 work u' := by
  have ho : TeamOrder 1 [0] := by unfold TeamOrder; decide
  have e := C111_seed_ignored_refuted (fun e => ((0, 0), e)) seed seed' 1 hs hs' (by norm_num) (by norm_num) [0] ho
    entropy s u u' h1 h2 [] (by simp)
  have e1 := e.1.trans e.2.1.symm
  simp [fmRho, threadMax, e1]

/-- C111, refuted: with the same seed and two threads the result depends on which thread has which cells: here the only
cell with a choice is done by thread 0 or by thread 1. -/
theorem C111_rho_dealing_refuted :
    let dem : Cell → ℚ := ofRows 0 [[99, 99, 99], [99, 50, 42], [99, 99, 40]]
    ∃ u, seedRand 1 (fun _ => []) [0, 1] ⟨fun _ => [], fun _ => none⟩ = some u ∧
      (fmRho 3 3 .D8 dem (-1) 2 (fun i => if i = 0 then [(1, 1)] else []) u).map (fun p => p (1, 1)) = some (.flow 5) ∧
      (fmRho 3 3 .D8 dem (-1) 2 (fun i => if i = 1 then [(1, 1)] else []) u).map (fun p => p (1, 1)) = some (.flow 6) := by
  refine ⟨_, rfl, ?_⟩
  decide +kernel

/-- C111, refuted: with more than 32 threads the engines are used beyond their end. -/
theorem C111_rho_threads_refuted (w h : Nat) (t : Topo) (dem : Cell → ℚ) (nd : ℚ) (m : Nat) (hm : 32 < m)
    (work : Nat → List Cell) (s : State) : fmRho w h t dem nd m work s = none := if_pos hm

/-- The rows of a raster of 2 x 2 cells dealt out to two threads. -/
example : DealtOut 2 2 2 (fun i => [(0, i), (1, i)]) := by
  intro c hc
  obtain ⟨x, y⟩ := c
  simp only [InGrid] at hc
  obtain ⟨a, b, c, d⟩ := hc
  refine ⟨y.toNat, by omega, ?_⟩
  have : (y.toNat : Int) = y := by omega
  have hx : x = 0 ∨ x = 1 := by push_cast at b; omega
  rcases hx with rfl | rfl <;> simp [this]

end RichDEM.Rand
