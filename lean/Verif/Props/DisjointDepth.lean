import Verif.Props.Disjoint
import Mathlib.Algebra.Order.BigOperators.Group.Finset
import Mathlib.Data.Nat.Log

/-!
C94: how long the queries of `DisjointDenseIntSet` take (disjoint_dense_int_set.hpp:9-16, 70-79, 103-113): the number of
nested calls of `findSet` is at most logarithmic in the number of elements as long as `mergeAintoB` is not used, and each
`mergeAintoB` adds at most one.
-/

namespace RichDEM

open DSU

/-- The query for `x` answers within `k` nested calls of `findSet` (and no cut-off changes the answer). -/
def AnswersWithin (s : DSU) (x k : Nat) : Prop := ∀ f, k ≤ f → findFuel f s x = s.findSet x

/-- Structures reachable by any calls, with the number of calls of `mergeAintoB` among them. -/
inductive Merged : Nat → DSU → Prop
  | start (N : Nat) : Merged 0 (ofSize N)
  | make {M s} (n) : Merged M s → n + 1 < 2 ^ 32 → Merged M (s.makeSet n)
  | union {M s} (a b) : Merged M s → Merged M (s.unionSet a b).2
  | find {M s} (a) : Merged M s → Merged M (s.findSet a).2
  | same {M s} (a b) : Merged M s → Merged M (s.sameSet a b).2
  | merge {M s} (a b) : Merged M s → a < s.size → b < s.size → (s.findSet a).1 = .rep a →
      (s.findSet b).1 = .rep b → a ≠ b → Merged (M + 1) (s.mergeAintoB a b)

/-! ### Ranks -/

/-- The elements with representative `r`. -/
def classOf (s : DSU) (rep : Nat → Nat) (r : Nat) : Finset Nat := (Finset.range s.size).filter (fun x => rep x = r)

/-- The invariant: ranks increase along the parent links and a root of rank `k` has at least `2^(k-M)` elements. -/
structure Ranked (M : Nat) (s : DSU) (rep : Nat → Nat) : Prop where
  forest : ∃ d, Forest s rep d
  inc : ∀ x, x < s.size → s.parent x ≠ x → s.rank x < s.rank (s.parent x)
  big : ∀ r, r < s.size → s.parent r = r → 2 ^ s.rank r ≤ 2 ^ M * (classOf s rep r).card

/-- The forest with the depth measured by the ranks. -/
theorem Ranked.byRank {M s rep} (R : Ranked M s rep) :
    ∃ K, (∀ x, x < s.size → s.rank x ≤ K) ∧ Forest s rep (fun x => K - s.rank x) := by
  obtain ⟨d, F⟩ := R.forest
  have hK : ∀ x, x < s.size → s.rank x ≤ (Finset.range s.size).sup s.rank :=
    fun x hx => Finset.le_sup (f := s.rank) (Finset.mem_range.2 hx)
  refine ⟨_, hK, F.par_lt, F.rep_lt, F.rep_root, F.rep_par, F.rep_self, fun x hx hne => ?_⟩
  have h1 := R.inc x hx hne
  have h2 := hK _ (F.par_lt x hx)
  omega

theorem Ranked.find {M s rep} (R : Ranked M s rep) {n : Nat} (hn : n < s.size) :
    ∃ s', s.findSet n = (.rep (rep n), s') ∧ s'.size = s.size ∧ s'.rank = s.rank ∧ Ranked M s' rep := by
  obtain ⟨K, hK, F⟩ := R.byRank
  obtain ⟨s', e, F', h1, h2⟩ := F.findSet hn
  refine ⟨s', e, h1, h2, ⟨_, F'⟩, fun x hx hne => ?_, fun r hr hroot => ?_⟩
  · have h3 := F'.dec x hx hne
    rw [h2]
    omega
  · have h3 : rep r = r := F'.rep_self r hr hroot
    have h4 := R.big r (by omega) (by have := F.rep_root r (by omega); rwa [h3] at this)
    rw [h2]
    unfold classOf at h4 ⊢
    rwa [h1]

theorem Ranked.find' {M s rep} (R : Ranked M s rep) (n : Nat) : Ranked M (s.findSet n).2 rep ∧ (s.findSet n).2.size = s.size := by
  by_cases hn : n < s.size
  · obtain ⟨s', e, h1, _, R'⟩ := R.find hn
    rw [e]; exact ⟨R', h1⟩
  · rw [findSet_throws s (by omega)]; exact ⟨R, rfl⟩

/-- Linking root `a` under root `b`. -/
theorem Ranked.link {M M' s rep} (R : Ranked M s rep) {a b : Nat} (ha : a < s.size) (hb : b < s.size)
    (hra : s.parent a = a) (hrb : s.parent b = b) (hab : a ≠ b) (hM : M ≤ M') (rk : Nat → Nat)
    (hrk : ∀ x, x ≠ b → rk x = s.rank x) (hb1 : s.rank b ≤ rk b) (hb2 : s.rank a < rk b)
    (hb3 : 2 ^ rk b ≤ 2 ^ M' * ((classOf s rep a).card + (classOf s rep b).card)) :
    Ranked M' { s with parent := upd s.parent a b, rank := rk } (fun x => if rep x = a then rep b else rep x) := by
  obtain ⟨d, F⟩ := R.forest
  have hrepb := F.rep_self b hb hrb
  have hrepa := F.rep_self a ha hra
  refine ⟨⟨_, F.link ha hb hra (by rw [hrepb]; exact hab.symm) rk⟩, fun x hx hne => ?_, fun r hr hroot => ?_⟩
  · simp only at hx hne ⊢
    by_cases e : x = a
    · subst e; rw [upd_same, hrk x hab]; exact hb2
    · rw [upd_ne _ _ _ e] at hne ⊢
      have hxb : x ≠ b := by rintro rfl; exact hne hrb
      rw [hrk x hxb]
      have h1 := R.inc x hx hne
      by_cases e2 : s.parent x = b
      · rw [e2] at h1 ⊢; omega
      · rw [hrk _ e2]; exact h1
  · simp only at hr hroot ⊢
    have hr2 : r ≠ a := by rintro rfl; rw [upd_same] at hroot; exact hab hroot.symm
    rw [upd_ne _ _ _ hr2] at hroot
    by_cases e : r = b
    · subst e
      refine hb3.trans (Nat.mul_le_mul_left _ ?_)
      rw [← Finset.card_union_of_disjoint]
      · apply Finset.card_le_card
        intro x hx
        simp only [classOf, Finset.mem_union, Finset.mem_filter, Finset.mem_range] at hx ⊢
        rcases hx with ⟨h1, h2⟩ | ⟨h1, h2⟩
        · exact ⟨h1, by rw [if_pos h2, hrepb]⟩
        · exact ⟨h1, by rw [if_neg (by rw [h2]; exact hab.symm), h2]⟩
      · rw [Finset.disjoint_left]
        intro x h1 h2
        simp only [classOf, Finset.mem_filter] at h1 h2
        exact hab (h1.2.symm.trans h2.2)
    · rw [hrk r e]
      refine (R.big r hr hroot).trans (Nat.mul_le_mul (Nat.pow_le_pow_right (by norm_num) hM) ?_)
      apply Finset.card_le_card
      intro x hx
      simp only [classOf, Finset.mem_filter, Finset.mem_range] at hx ⊢
      exact ⟨hx.1, by rw [if_neg (by rw [hx.2]; exact hr2), hx.2]⟩

theorem Ranked.union {M s rep} (R : Ranked M s rep) (a b : Nat) : ∃ rep', Ranked M (s.unionSet a b).2 rep' := by
  unfold DSU.unionSet
  by_cases ha : a < s.size
  swap
  · rw [findSet_throws s (by omega)]; exact ⟨_, R⟩
  obtain ⟨s1, e1, z1, k1, R1⟩ := R.find ha
  rw [e1]
  simp only
  by_cases hb : b < s.size
  swap
  · rw [findSet_throws s1 (by omega)]; exact ⟨_, R1⟩
  obtain ⟨s2, e2, z2, k2, R2⟩ := R1.find (n := b) (by omega)
  rw [e2]
  simp only
  by_cases hab : rep a = rep b
  · rw [if_pos hab]; exact ⟨_, R2⟩
  rw [if_neg hab]
  obtain ⟨d, F⟩ := R2.forest
  have hra := F.rep_root a (by omega)
  have hrb := F.rep_root b (by omega)
  have hra' := F.rep_lt a (by omega)
  have hrb' := F.rep_lt b (by omega)
  have ba := R2.big _ hra' hra
  have bb := R2.big _ hrb' hrb
  by_cases h1 : s2.rank (rep a) < s2.rank (rep b)
  · rw [if_pos h1]
    refine ⟨_, R2.link hra' hrb' hra hrb hab le_rfl s2.rank (fun _ _ => rfl) le_rfl h1 ?_⟩
    rw [Nat.mul_add]; omega
  · rw [if_neg h1]
    by_cases h2 : s2.rank (rep a) > s2.rank (rep b)
    · rw [if_pos h2]
      refine ⟨_, R2.link hrb' hra' hrb hra (Ne.symm hab) le_rfl s2.rank (fun _ _ => rfl) le_rfl h2 ?_⟩
      rw [Nat.mul_add]; omega
    · rw [if_neg h2]
      refine ⟨_, R2.link hrb' hra' hrb hra (Ne.symm hab) le_rfl _ (fun x hx => upd_ne _ _ _ hx) ?_ ?_ ?_⟩
      · rw [upd_same]; omega
      · rw [upd_same]; omega
      · rw [upd_same, Nat.mul_add, Nat.pow_succ]
        have : s2.rank (rep b) = s2.rank (rep a) := by omega
        rw [this] at bb
        omega

theorem Ranked.merge {M s rep} (R : Ranked M s rep) {a b : Nat} (ha : a < s.size) (hb : b < s.size)
    (hra : s.parent a = a) (hrb : s.parent b = b) (hab : a ≠ b) : ∃ rep', Ranked (M + 1) (s.mergeAintoB a b) rep' := by
  have e1 : (s.checkSize a).checkSize b = s := by
    unfold DSU.checkSize
    rw [if_pos ha, if_pos hb]
  have ba := R.big _ ha hra
  have bb := R.big _ hb hrb
  unfold DSU.mergeAintoB
  simp only [e1]
  by_cases h1 : s.rank a = s.rank b
  · rw [if_pos h1]
    refine ⟨_, R.link ha hb hra hrb hab (Nat.le_succ M) _ (fun x hx => upd_ne _ _ _ hx) ?_ ?_ ?_⟩
    · rw [upd_same]; omega
    · rw [upd_same]; omega
    · rw [upd_same, Nat.mul_add, Nat.pow_succ, Nat.pow_succ, Nat.mul_right_comm, Nat.mul_right_comm (2 ^ M) 2]
      omega
  · rw [if_neg h1]
    by_cases h2 : s.rank a > s.rank b
    · rw [if_pos h2]
      refine ⟨_, R.link ha hb hra hrb hab (Nat.le_succ M) _ (fun x hx => upd_ne _ _ _ hx) ?_ ?_ ?_⟩
      · rw [upd_same]; omega
      · rw [upd_same]; omega
      · rw [upd_same, Nat.mul_add, Nat.pow_succ, Nat.pow_succ, Nat.mul_right_comm, Nat.mul_right_comm (2 ^ M) 2]
        omega
    · rw [if_neg h2]
      refine ⟨_, R.link ha hb hra hrb hab (Nat.le_succ M) s.rank (fun _ _ => rfl) le_rfl (by omega) ?_⟩
      rw [Nat.mul_add, Nat.pow_succ, Nat.mul_right_comm, Nat.mul_right_comm (2 ^ M) 2]
      omega

theorem Ranked.make {M s rep} (R : Ranked M s rep) {n : Nat} (hn : n + 1 < 2 ^ 32) :
    ∃ rep', Ranked M (s.checkSize n) rep' := by
  obtain ⟨d, F⟩ := R.forest
  by_cases h1 : n < s.size
  · have : s.checkSize n = s := by unfold DSU.checkSize; rw [if_pos h1]
    rw [this]; exact ⟨_, R⟩
  refine ⟨_, ⟨_, F.checkSize n hn⟩, ?_, ?_⟩
  · unfold DSU.checkSize
    rw [if_neg h1]
    simp only [Nat.mod_eq_of_lt hn]
    intro x hx hne
    have hxs : x < s.size := by
      by_contra hc
      rw [if_pos (by omega)] at hne
      exact hne rfl
    have hxn : ¬ (s.size ≤ x ∧ x < n + 1) := by omega
    rw [if_neg hxn] at hne
    have hp := F.par_lt x hxs
    have hpn : ¬ (s.size ≤ s.parent x ∧ s.parent x < n + 1) := by omega
    simp only [hxn, hpn, if_false]
    exact R.inc x hxs hne
  · have hsz := checkSize_size s n hn
    intro r hr hroot
    by_cases hrs : r < s.size
    · have e1 : (s.checkSize n).rank r = s.rank r := by
        unfold DSU.checkSize; rw [if_neg h1]; simp only; rw [if_neg (by omega)]
      have e2 : (s.checkSize n).parent r = s.parent r := by
        unfold DSU.checkSize; rw [if_neg h1]; simp only; rw [if_neg (by omega)]
      rw [e1]
      rw [e2] at hroot
      refine (R.big r hrs hroot).trans (Nat.mul_le_mul_left _ (Finset.card_le_card ?_))
      intro x hx
      simp only [classOf, Finset.mem_filter, Finset.mem_range] at hx ⊢
      refine ⟨by omega, ?_⟩
      rw [if_pos hx.1]; exact hx.2
    · have e1 : (s.checkSize n).rank r = 0 := by
        unfold DSU.checkSize; rw [if_neg h1]; simp only [Nat.mod_eq_of_lt hn]; rw [if_pos (by omega)]
      rw [e1]
      have : r ∈ classOf (s.checkSize n) (fun x => if x < s.size then rep x else x) r := by
        simp only [classOf, Finset.mem_filter, Finset.mem_range]
        exact ⟨hr, by rw [if_neg hrs]⟩
      have := Finset.card_pos.2 ⟨r, this⟩
      have := Nat.mul_le_mul (Nat.one_le_two_pow (n := M)) this
      simpa using this

theorem Merged.ranked {M s} (h : Merged M s) : ∃ rep, Ranked M s rep := by
  induction h with
  | start N =>
    refine ⟨id, ⟨_, forest_ofSize N⟩, fun x _ hne => absurd rfl hne, fun r hr _ => ?_⟩
    have : 0 < (classOf (ofSize N) id r).card := Finset.card_pos.2 ⟨r, Finset.mem_filter.2 ⟨Finset.mem_range.2 hr, rfl⟩⟩
    simpa [ofSize] using this
  | make n _ hn ih => obtain ⟨r, R⟩ := ih; exact R.make hn
  | union a b _ ih => obtain ⟨r, R⟩ := ih; exact R.union a b
  | find a _ ih => obtain ⟨r, R⟩ := ih; exact ⟨_, (R.find' a).1⟩
  | @same M s a b _ ih =>
    obtain ⟨r, R⟩ := ih
    refine ⟨r, ?_⟩
    have h1 := (R.find' a).1
    unfold DSU.sameSet
    rcases hq : s.findSet a with ⟨o1, s1⟩
    rw [hq] at h1
    have h2 := (h1.find' b).1
    rcases hq2 : s1.findSet b with ⟨o2, s2⟩
    rw [hq2] at h2
    cases o1 <;> simp only
    · rw [hq2]; cases o2 <;> exact h2
    · exact h1
    · exact h1
  | merge a b _ ha hb h1 h2 hab ih =>
    obtain ⟨r, R⟩ := ih
    obtain ⟨d, F⟩ := R.forest
    obtain ⟨s1, e1, _⟩ := R.find ha
    obtain ⟨s2, e2, _⟩ := R.find hb
    rw [e1] at h1; rw [e2] at h2
    simp only [FindOut.rep.injEq] at h1 h2
    refine R.merge ha hb ?_ ?_ hab
    · have := F.rep_root a ha; rwa [h1] at this
    · have := F.rep_root b hb; rwa [h2] at this

/-! ### From ranks to the number of calls -/

/-- Enough calls give the answer of `findSet`. -/
theorem findFuel_stable (s : DSU) : ∀ (k f : Nat) (x : Nat), (findFuel k s x).1 ≠ .spins → k ≤ f →
    findFuel f s x = findFuel k s x := by
  intro k
  induction k with
  | zero => intro f x hk; exact absurd rfl hk
  | succ k ih =>
    intro f x hk hf
    obtain ⟨f, rfl⟩ : ∃ g, f = g + 1 := ⟨f - 1, by omega⟩
    unfold DSU.findFuel at hk ⊢
    by_cases h1 : s.size ≤ x
    · rw [if_pos h1, if_pos h1]
    · rw [if_neg h1] at hk ⊢
      rw [if_neg h1]
      by_cases h2 : s.parent x = x
      · rw [if_pos h2, if_pos h2]
      · rw [if_neg h2] at hk ⊢
        rw [if_neg h2]
        have h3 : (DSU.findFuel k s (s.parent x)).1 ≠ .spins := by
          intro hc
          apply hk
          rcases hq : DSU.findFuel k s (s.parent x) with ⟨o, s'⟩
          rw [hq] at hc
          simp only at hc
          subst hc
          rfl
        rw [ih f (s.parent x) h3 (by omega)]

theorem answersWithin_of {s : DSU} {x k : Nat} (h : (findFuel k s x).1 ≠ .spins) : AnswersWithin s x k := by
  intro f hf
  have h1 := findFuel_stable s k f x h hf
  have h2 : (s.findSet x).1 ≠ .spins := by
    intro hc
    exact h (findSet_spins s x hc k)
  rcases Nat.le_total f (s.size + 1) with h3 | h3
  · exact (findFuel_stable s f (s.size + 1) x (by rw [h1]; exact h) h3).symm
  · exact findFuel_stable s (s.size + 1) f x h2 h3

theorem Ranked.depth {M s rep} (R : Ranked M s rep) : ∀ (j x : Nat), x < s.size →
    (∀ i, i < j → s.parent (s.parent^[i] x) ≠ s.parent^[i] x) → j ≤ s.rank (s.parent^[j] x) ∧ s.parent^[j] x < s.size := by
  obtain ⟨d, F⟩ := R.forest
  intro j
  induction j with
  | zero => intro x hx _; exact ⟨Nat.zero_le _, hx⟩
  | succ j ih =>
    intro x hx hne
    obtain ⟨h1, h2⟩ := ih x hx (fun i hi => hne i (by omega))
    have h3 := R.inc _ h2 (hne j (by omega))
    rw [Function.iterate_succ_apply']
    exact ⟨by omega, F.par_lt _ h2⟩

/-- **C94.** With `M` calls of `mergeAintoB` in the history, the query for any of the `n` elements takes at most
`1 + M + log2 n` nested calls. -/
theorem C94_calls {M : Nat} {s : DSU} (h : Merged M s) (x : Nat) (hx : x < s.size) :
    AnswersWithin s x (1 + M + Nat.log 2 s.size) ∧ ∃ r, (s.findSet x).1 = .rep r := by
  classical
  obtain ⟨rep, R⟩ := h.ranked
  obtain ⟨d, F⟩ := R.forest
  obtain ⟨s', e, _⟩ := R.find hx
  refine ⟨answersWithin_of ?_, rep x, by rw [e]⟩
  have hex : ∃ k, s.parent (s.parent^[k] x) = s.parent^[k] x := by
    obtain ⟨k, _, hk⟩ := F.chain hx
    exact ⟨k, hk⟩
  have hk := Nat.find_spec hex
  have hmin : ∀ j, j < Nat.find hex → s.parent (s.parent^[j] x) ≠ s.parent^[j] x := fun j hj => Nat.find_min hex hj
  generalize Nat.find hex = k at hk hmin
  obtain ⟨h1, h2⟩ := R.depth k x hx hmin
  have h3 := R.big _ h2 hk
  have h4 : (classOf s rep (s.parent^[k] x)).card ≤ s.size := by
    exact (Finset.card_filter_le (Finset.range s.size) (fun y => rep y = s.parent^[k] x)).trans (by simp)
  have h5 : s.size < 2 ^ (Nat.log 2 s.size + 1) := Nat.lt_pow_succ_log_self (by norm_num) _
  have h6 : 2 ^ k < 2 ^ (M + (Nat.log 2 s.size + 1)) := by
    calc 2 ^ k ≤ 2 ^ s.rank (s.parent^[k] x) := Nat.pow_le_pow_right (by norm_num) h1
      _ ≤ 2 ^ M * (classOf s rep (s.parent^[k] x)).card := h3
      _ ≤ 2 ^ M * s.size := Nat.mul_le_mul_left _ h4
      _ < 2 ^ M * 2 ^ (Nat.log 2 s.size + 1) := Nat.mul_lt_mul_of_pos_left h5 (Nat.two_pow_pos M)
      _ = _ := (Nat.pow_add _ _ _).symm
  have h7 := (Nat.pow_lt_pow_iff_right (by norm_num : 1 < 2)).1 h6
  obtain ⟨s'', e', _⟩ := F.findFuel (1 + M + Nat.log 2 s.size) x hx ⟨k, by omega, hk⟩
  rw [e']
  simp

theorem merged_after (N : Nat) (h : List DOp) (hok : ∀ o ∈ h, o.ok) : Merged 0 (dsuAfter N h) := by
  induction h using List.reverseRecOn with
  | nil => exact .start N
  | append_singleton h o ih =>
    have ih := ih (fun p hp => hok p (by simp [hp]))
    have hstep : dsuAfter N (h ++ [o]) = o.run (dsuAfter N h) := by simp [dsuAfter, List.foldl_append]
    rw [hstep]
    cases o with
    | make n => exact .make n ih (hok (.make n) (by simp))
    | find a => exact .find a ih
    | same a b => exact .same a b ih
    | union a b => exact .union a b ih

/-- **C94.** After any history of calls without `mergeAintoB`, a query for one of the `n` elements takes at most
`1 + log2 n` nested calls. -/
theorem C94_logarithmic (N : Nat) (h : List DOp) (hok : ∀ o ∈ h, o.ok) (x : Nat) (hx : x < created N h) :
    AnswersWithin (dsuAfter N h) x (1 + Nat.log 2 (created N h)) := by
  obtain ⟨rep, d, F, hsz, _⟩ := dsu_inv N h hok
  have := (C94_calls (merged_after N h hok) x (by omega)).1
  rwa [hsz] at this

/-- **C94.** After a query, a query for any element on the chain of parents takes at most two calls. -/
theorem C94_compressed {M : Nat} {s : DSU} (h : Merged M s) (x : Nat) (hx : x < s.size) (k : Nat) :
    AnswersWithin (s.findSet x).2 (s.parent^[k] x) 2 := by
  obtain ⟨rep, R⟩ := h.ranked
  obtain ⟨d, F⟩ := R.forest
  have hlt : ∀ j, s.parent^[j] x < s.size ∧ rep (s.parent^[j] x) = rep x := by
    intro j
    induction j with
    | zero => exact ⟨hx, rfl⟩
    | succ j ih =>
      rw [Function.iterate_succ_apply']
      exact ⟨F.par_lt _ ih.1, by rw [F.rep_par _ ih.1, ih.2]⟩
  have key : ∀ f y, y < s.size → (findFuel f s y).1 ≠ .spins → ∀ j, (findFuel f s y).2.parent (s.parent^[j] y) = rep y := by
    intro f
    induction f with
    | zero => intro y _ hc; exact absurd rfl hc
    | succ f ih =>
      intro y hy hns j
      unfold DSU.findFuel at hns ⊢
      rw [if_neg (by omega)] at hns ⊢
      by_cases h2 : s.parent y = y
      · rw [if_pos h2]
        have : s.parent^[j] y = y := Function.iterate_fixed h2 j
        rw [this]
        simp only
        rw [h2, F.rep_self y hy h2]
      · rw [if_neg h2] at hns ⊢
        rcases hq : DSU.findFuel f s (s.parent y) with ⟨o, s'⟩
        rw [hq] at hns
        have ih2 := ih (s.parent y) (F.par_lt y hy)
        rw [hq] at ih2
        cases o with
        | spins => exact absurd rfl hns
        | throws =>
          exfalso
          -- the parent exists
          have hthr : ∀ g z, z < s.size → (DSU.findFuel g s z).1 ≠ .throws := by
            intro g
            induction g with
            | zero => intro z _ hc; cases hc
            | succ g ihg =>
              intro z hz hc
              unfold DSU.findFuel at hc
              rw [if_neg (by omega)] at hc
              by_cases h3 : s.parent z = z
              · rw [if_pos h3] at hc; cases hc
              · rw [if_neg h3] at hc
                rcases hq2 : DSU.findFuel g s (s.parent z) with ⟨o2, s2⟩
                rw [hq2] at hc
                have := ihg _ (F.par_lt z hz)
                rw [hq2] at this
                cases o2 <;> simp_all
          have := hthr f _ (F.par_lt y hy)
          rw [hq] at this
          exact this rfl
        | rep r =>
          have ih3 := ih2 (by simp)
          simp only at ih3 ⊢
          have hr : r = rep y := by
            have h5 : (DSU.findFuel f s (s.parent y)).1 = .rep r := by rw [hq]
            have h6 := answersWithin_of (s := s) (x := s.parent y) (k := f) (by rw [h5]; simp)
            have h7 := h6 f le_rfl
            obtain ⟨s'', e, _⟩ := R.find (F.par_lt y hy)
            rw [hq, e] at h7
            simp only [Prod.mk.injEq, FindOut.rep.injEq] at h7
            rw [h7.1, F.rep_par y hy]
          cases j with
          | zero => simp only [Function.iterate_zero, id]; rw [upd_same, hr]
          | succ j =>
            rw [Function.iterate_succ_apply]
            by_cases h8 : s.parent^[j] (s.parent y) = y
            · rw [h8, upd_same, hr]
            · rw [upd_ne _ _ _ h8, ih3 j, F.rep_par y hy]
  obtain ⟨s', e, hz, _, R'⟩ := R.find hx
  have hk := key (s.size + 1) x hx (by
    have : (s.findSet x).1 ≠ .spins := by rw [e]; simp
    exact this) k
  have e' : findFuel (s.size + 1) s x = (.rep (rep x), s') := e
  rw [e'] at hk
  rw [e]
  simp only at hk ⊢
  obtain ⟨d', F'⟩ := R'.forest
  have hroot : s'.parent (rep x) = rep x := F'.rep_root x (by omega)
  apply answersWithin_of
  obtain ⟨h1, _⟩ := hlt k
  obtain ⟨s'', e2, _⟩ := F'.findFuel 2 (s.parent^[k] x) (by omega) ⟨1, by omega, by
    rw [Function.iterate_one, hk]; exact hroot⟩
  rw [e2]
  simp

/-! ### Merging can be slow -/

/-- `0` merged into `1`, `1` into `2`, ..., `n-1` into `n`. -/
def mergeChain (N : Nat) : Nat → DSU
  | 0 => ofSize N
  | n + 1 => (mergeChain N n).mergeAintoB n (n + 1)

theorem mergeChain_spec (N : Nat) : ∀ n, n < N → (mergeChain N n).size = N ∧
    ∀ x, (mergeChain N n).parent x = if x < n then x + 1 else x := by
  intro n
  induction n with
  | zero => intro _; exact ⟨rfl, fun x => by simp [mergeChain, ofSize]⟩
  | succ n ih =>
    intro hn
    obtain ⟨h1, h2⟩ := ih (by omega)
    have e1 : ((mergeChain N n).checkSize n).checkSize (n + 1) = mergeChain N n := by
      have h3 : n < (mergeChain N n).size := by omega
      have h4 : n + 1 < (mergeChain N n).size := by omega
      unfold DSU.checkSize
      rw [if_pos h3, if_pos h4]
    have e2 : ∀ x, ((mergeChain N n).mergeAintoB n (n + 1)).parent x = upd (mergeChain N n).parent n (n + 1) x ∧
        ((mergeChain N n).mergeAintoB n (n + 1)).size = N := by
      intro x
      unfold DSU.mergeAintoB
      simp only [e1]
      split
      · exact ⟨rfl, h1⟩
      · split <;> exact ⟨rfl, h1⟩
    refine ⟨(e2 0).2, fun x => ?_⟩
    show ((mergeChain N n).mergeAintoB n (n + 1)).parent x = _
    rw [(e2 x).1]
    by_cases e : x = n
    · subst e; rw [upd_same]; simp
    · rw [upd_ne _ _ _ e, h2]
      by_cases h3 : x < n
      · rw [if_pos h3, if_pos (by omega)]
      · rw [if_neg h3, if_neg (by omega)]

theorem mergeChain_merged (N : Nat) : ∀ n, n < N → Merged n (mergeChain N n) := by
  intro n
  induction n with
  | zero => intro _; exact .start N
  | succ n ih =>
    intro hn
    obtain ⟨h1, h2⟩ := mergeChain_spec N n (by omega)
    have hroot : ∀ x, n ≤ x → x < N → ((mergeChain N n).findSet x).1 = .rep x := by
      intro x hx hxN
      unfold DSU.findSet DSU.findFuel
      rw [if_neg (by omega), if_pos (by rw [h2, if_neg (by omega)])]
    exact .merge n (n + 1) (ih (by omega)) (by omega) (by omega) (hroot n le_rfl (by omega)) (hroot (n + 1) (by omega) hn)
      (by omega)

/-- **C94.** The bound is reached: after `n` merges of representatives the query for `0` has no answer within `n` calls. -/
theorem C94_merge_linear (n : Nat) : Merged n (mergeChain (n + 1) n) ∧ ¬ AnswersWithin (mergeChain (n + 1) n) 0 n := by
  refine ⟨mergeChain_merged (n + 1) n (by omega), fun hc => ?_⟩
  obtain ⟨h1, h2⟩ := mergeChain_spec (n + 1) n (by omega)
  have h3 : ∀ k x, x + k ≤ n → (findFuel k (mergeChain (n + 1) n) x).1 = .spins := by
    intro k
    induction k with
    | zero => intro x _; rfl
    | succ k ih =>
      intro x hx
      unfold DSU.findFuel
      have h6 : x < n := by omega
      rw [if_neg (by omega), h2, if_pos h6, if_neg (by omega)]
      have := ih (x + 1) (by omega)
      rcases hq : DSU.findFuel k (mergeChain (n + 1) n) (x + 1) with ⟨o, s'⟩
      rw [hq] at this
      simp only at this
      subst this
      rfl
  have h4 := (C94_calls (mergeChain_merged (n + 1) n (by omega)) 0 (by omega)).2
  obtain ⟨r, hr⟩ := h4
  have h5 := h3 n 0 (by omega)
  rw [hc n le_rfl, hr] at h5
  cases h5

/-- Eight elements joined pairwise: the query for the last takes four calls, `1 + log2 8`; a second one two. -/
example :
    let h : List DOp := [.union 0 1, .union 2 3, .union 4 5, .union 6 7, .union 0 2, .union 4 6, .union 0 4]
    (∀ o ∈ h, o.ok) ∧ created 8 h = 8 ∧ (findFuel 3 (dsuAfter 8 h) 7).1 = .spins ∧
      (findFuel 4 (dsuAfter 8 h) 7).1 = .rep 0 ∧ (findFuel 2 (dsuAfter 8 (h ++ [.find 7])) 6).1 = .rep 0 ∧
      Nat.log 2 8 = 3 := by
  refine ⟨?_, by decide, by decide +kernel, by decide +kernel, by decide +kernel, by decide +kernel⟩
  intro o ho
  simp only [List.mem_cons, List.not_mem_nil, or_false] at ho
  rcases ho with rfl | rfl | rfl | rfl | rfl | rfl | rfl <;> simp [DOp.ok]

end RichDEM
