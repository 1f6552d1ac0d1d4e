/-
The producer's computation on the graph of perimeter cells.
-/
import Verif.ParD8.Model

namespace RichDEM

open Finset

section
variable (T : Tiling) (null : Nat × Nat → Bool) (jobs : Nat × Nat → PDJob)

/-- The outgoing edge of a perimeter cell. -/
def pdOut (n : PNode) : List (PNode × Int) :=
  match downCell T null jobs n with
  | none => []
  | some m => [(m, 1)]

variable {T null jobs}

theorem pdOut_none {n : PNode} (hd : downCell T null jobs n = none) : pdOut T null jobs n = [] := by
  unfold pdOut; rw [hd]

theorem pdOut_some {n m : PNode} (hd : downCell T null jobs n = some m) : pdOut T null jobs n = [(m, 1)] := by
  unfold pdOut; rw [hd]

theorem pd_cnt (p c : PNode) : cnt (pdOut T null jobs) p c = if downCell T null jobs p = some c then 1 else 0 := by
  unfold cnt
  cases hd : downCell T null jobs p with
  | none => rw [pdOut_none hd]; simp
  | some m => rw [pdOut_some hd]; simp [List.countP_cons]

theorem pd_wt (p c : PNode) : wt (pdOut T null jobs) p c = if downCell T null jobs p = some c then 1 else 0 := by
  unfold wt
  cases hd : downCell T null jobs p with
  | none => rw [pdOut_none hd]; simp
  | some m => rw [pdOut_some hd]; simp

theorem nodup_pushAll' {A : Type*} (q : AnyQ A) : ∀ (l r : List A), l.Nodup → r.Nodup → (∀ a ∈ l, a ∉ r) →
    (q.pushAll l r).Nodup := by
  intro l
  induction l with
  | nil => intro r _ hr _; exact hr
  | cons a l ih =>
    intro r h1 h2 h3
    rw [List.nodup_cons] at h1
    refine ih (q.push a r) h1.2 ?_ ?_
    · rw [(q.push_perm a r).nodup_iff]; exact List.nodup_cons.2 ⟨h3 a (by simp), h2⟩
    · intro b hb hbr
      rw [q.mem_push] at hbr
      rcases hbr with rfl | hbr
      · exact h1.1 hb
      · exact h3 b (by simp [hb]) hbr

theorem nodup_pdNodes : (pdNodes T null jobs).Nodup := by
  unfold pdNodes
  refine List.nodup_flatMap.2 ⟨?_, ?_⟩
  · intro t _
    exact List.Nodup.map (fun a b hab => (Prod.mk.inj hab).2) List.nodup_range
  · have hn : ((tileList T.gh T.gw).filter (fun t => !null t)).Nodup :=
      List.Nodup.filter _ (List.Nodup.product List.nodup_range List.nodup_range)
    refine List.Pairwise.imp ?_ hn
    intro a b hab x h1 h2
    obtain ⟨s1, _, rfl⟩ := List.mem_map.1 h1
    obtain ⟨s2, _, h3⟩ := List.mem_map.1 h2
    exact hab (Prod.mk.inj h3).1.symm

theorem mem_pdNodes {n : PNode} : n ∈ pdNodes T null jobs ↔
    (n.1.1 < T.gh ∧ n.1.2 < T.gw) ∧ null n.1 = false ∧ n.2 < (jobs n.1).size := by
  obtain ⟨t, s⟩ := n
  unfold pdNodes
  simp only [List.mem_flatMap, List.mem_filter, mem_tileList, List.mem_map, List.mem_range, Prod.mk.injEq,
    Bool.not_eq_true']
  constructor
  · rintro ⟨t', ⟨h1, h2⟩, s', h3, rfl, rfl⟩; exact ⟨h1, h2, h3⟩
  · rintro ⟨h1, h2, h3⟩; exact ⟨t, ⟨h1, h2⟩, s, h3, rfl, rfl⟩

theorem pdDeps_eq (x : PNode) : pdDeps T null jobs x =
    wrap16 (∑ p ∈ (pdNodes T null jobs).toFinset, (cnt (pdOut T null jobs) p x : Int)) := by
  have key : ∀ (l : List PNode) (d : PNode → Int) (a : Int), d x = wrap16 a →
      l.foldl (fun d n => bumpDep d (downCell T null jobs n)) d x =
        wrap16 (a + (l.map (fun n => (cnt (pdOut T null jobs) n x : Int))).sum) := by
    intro l
    induction l with
    | nil => intro d a h0; simpa using h0
    | cons n l ih =>
      intro d a h0
      rw [List.foldl_cons, ih _ (a + cnt (pdOut T null jobs) n x), List.map_cons, List.sum_cons, add_assoc]
      rw [pd_cnt]
      cases hd : downCell T null jobs n with
      | none => simp [bumpDep, h0]
      | some m =>
        by_cases hx : x = m
        · subst hx
          simp only [bumpDep, Function.update_self, if_pos]
          rw [h0]
          unfold wrap16
          push_cast
          rw [Int.emod_add_emod]
        · simp [bumpDep, Function.update_of_ne hx, Ne.symm hx, h0]
  unfold pdDeps
  rw [key _ _ 0 (by simp [wrap16]), ← sum_toFinset' _ nodup_pdNodes, zero_add]

theorem wrap16_of {a : Int} (h0 : 0 ≤ a) (h1 : a ≤ 65535) : wrap16 a = a := by
  unfold wrap16; omega

/-- A step of the producer's loop is a step of the generic loop, together with the update of `accum_in`. -/
theorem pdStep_eq (q : AnyQ PNode) {s s' : PDS} (hs : pdStep q T null jobs s = some s')
    (hw : ∀ c rest, q.pop s.ks.q = some (c, rest) → ∀ m, downCell T null jobs c = some m →
      1 ≤ s.ks.deps m ∧ s.ks.deps m ≤ 65535) :
    kStep q (pdOut T null jobs) 0 s.ks = some s'.ks ∧
    ∀ c rest, q.pop s.ks.q = some (c, rest) → ∀ x, s'.inn x = s.inn x +
      if downCell T null jobs c = some x ∧ x.1 ≠ c.1 then s.ks.acc c else 0 := by
  unfold pdStep at hs
  unfold kStep
  cases hp : q.pop s.ks.q with
  | none => rw [hp] at hs; cases hs
  | some cr =>
    obtain ⟨c, rest⟩ := cr
    rw [hp] at hs
    simp only [Option.some.injEq] at hs
    subst hs
    have hu : Function.update s.ks.acc c (s.ks.acc c + 0) = s.ks.acc := by
      rw [add_zero, Function.update_eq_self]
    cases hd : downCell T null jobs c with
    | none =>
      constructor
      · simp only [pdPass, pdOut_none hd, List.foldl_nil, hu]
      · intro c' rest' h1 x
        cases h1
        simp [pdPass, hd]
    | some m =>
      have hwr : wrap16 (s.ks.deps m - 1) = s.ks.deps m - 1 := by
        have := hw c rest hp m hd
        exact wrap16_of (by omega) (by omega)
      constructor
      · simp only [pdPass, hwr, pdOut_some hd, List.foldl_cons, List.foldl_nil, kRelax, one_mul, add_zero, Function.update_eq_self]
      · intro c' rest' h1 x
        cases h1
        rw [hd]
        simp only [pdPass, Option.some.injEq]
        by_cases h2 : m.1 ≠ c.1
        · rw [if_pos h2]
          by_cases hx : x = m
          · subst hx; rw [Function.update_self, if_pos ⟨rfl, h2⟩]
          · rw [Function.update_of_ne hx, if_neg (fun h3 => hx h3.1.symm), add_zero]
        · rw [if_neg h2, if_neg, add_zero]
          rintro ⟨rfl, h3⟩
          exact h2 h3

theorem pdStep_none (q : AnyQ PNode) {s : PDS} (hs : pdStep q T null jobs s = none) : s.ks.q = [] := by
  unfold pdStep at hs
  cases hp : q.pop s.ks.q with
  | none => exact q.pop_none.1 hp
  | some cr => rw [hp] at hs; cases hs

/-- What the producer has computed: every perimeter cell has its own accumulation and that of all the
perimeter cells upstream of it, and `accum_in` holds what came from other tiles. -/
theorem pdCalc_spec (q : AnyQ PNode)
    (hcl : ∀ n ∈ pdNodes T null jobs, ∀ m, downCell T null jobs n = some m → m ∈ pdNodes T null jobs)
    (rank : PNode → Nat) (hrank : ∀ n ∈ pdNodes T null jobs, ∀ m, downCell T null jobs n = some m → rank m < rank n)
    (hfit : ∀ n, ((pdNodes T null jobs).toFinset.filter (fun p => downCell T null jobs p = some n)).card ≤ 65535) :
    let V := (pdNodes T null jobs).toFinset
    let r := pdCalc q T null jobs
    r.ks.q = [] ∧
    (∀ n ∈ V, r.ks.acc n = (if (jobs n.1).links n.2 = FLOW_EXTERNAL then (jobs n.1).accum n.2 else 0) +
      ∑ p ∈ V.filter (fun p => downCell T null jobs p = some n), r.ks.acc p) ∧
    (∀ n, r.inn n = ∑ p ∈ V.filter (fun p => downCell T null jobs p = some n ∧ n.1 ≠ p.1), r.ks.acc p) := by
  intro V r
  have hout : ∀ p ∈ V, ∀ e ∈ pdOut T null jobs p, e.1 ∈ V := by
    intro p hp e he
    cases hd : downCell T null jobs p with
    | none => rw [pdOut_none hd] at he; cases he
    | some m =>
      rw [pdOut_some hd] at he
      rw [List.mem_singleton] at he
      subst he
      exact List.mem_toFinset.2 (hcl p (List.mem_toFinset.1 hp) m hd)
  have hsub : ∀ (S : Finset PNode) n, S ⊆ V → ∑ p ∈ S, (cnt (pdOut T null jobs) p n : Int) ≤ 65535 := by
    intro S n hS
    have h1 : ∑ p ∈ S, (cnt (pdOut T null jobs) p n : Int) ≤ ∑ p ∈ V, (cnt (pdOut T null jobs) p n : Int) :=
      Finset.sum_le_sum_of_subset_of_nonneg hS (fun _ _ _ => by positivity)
    have h2 : ∑ p ∈ V, (cnt (pdOut T null jobs) p n : Int) =
        ((V.filter (fun p => downCell T null jobs p = some n)).card : Int) := by
      rw [Finset.card_filter]
      push_cast
      refine Finset.sum_congr rfl (fun p _ => ?_)
      rw [pd_cnt]
      split_ifs <;> rfl
    have h3 := hfit n
    rw [h2] at h1
    exact h1.trans (by exact_mod_cast h3)
  set s0 := pdStart q T null jobs with hs0
  have hq0 : ∀ c, c ∈ s0.ks.q ↔ c ∈ V ∧ s0.ks.deps c = 0 := by
    intro c
    simp only [hs0, pdStart]
    rw [q.mem_pushAll]
    simp only [List.mem_filter, beq_iff_eq, List.not_mem_nil, or_false, V, List.mem_toFinset]
  have hn0 : s0.ks.q.Nodup := by
    simp only [hs0, pdStart]
    exact nodup_pushAll' q _ _ (List.Nodup.filter _ nodup_pdNodes) List.nodup_nil (by simp)
  have I0 : KInv V (pdOut T null jobs) 0 s0.ks.acc ∅ s0.ks := by
    refine ⟨by simp, by simp, ?_, hn0, by simpa using hq0, by simp, by simp⟩
    intro c _
    rw [Finset.sdiff_empty]
    have e : s0.ks.deps c = pdDeps T null jobs c := rfl
    rw [e, pdDeps_eq c]
    exact wrap16_of (Finset.sum_nonneg (fun _ _ => by positivity)) (hsub V c (Finset.Subset.refl _))
  obtain ⟨done, ⟨I, J⟩, hnone⟩ := loop_ghost (step := pdStep q T null jobs)
    (fun done s => KInv V (pdOut T null jobs) 0 s0.ks.acc done s.ks ∧
      ∀ n, s.inn n = ∑ p ∈ done.filter (fun p => downCell T null jobs p = some n ∧ n.1 ≠ p.1), s.ks.acc p)
    (fun done => (V \ done).card)
    (by
      rintro done s s' ⟨I, J⟩ hs
      obtain ⟨h1, h2⟩ := pdStep_eq q hs (by
        intro c rest hp m hd
        have hcq : c ∈ s.ks.q := by
          have hpm := (q.pop_some hp).1.mem_iff (a := c)
          exact hpm.2 (by simp)
        obtain ⟨hcV, hcd, _⟩ := (I.mem_q c).1 hcq
        have hmV : m ∈ V := hout c hcV (m, 1) (by rw [pdOut_some hd]; simp)
        rw [I.deps m hmV]
        refine ⟨?_, hsub _ m Finset.sdiff_subset⟩
        have h3 := Finset.single_le_sum (f := fun p => (cnt (pdOut T null jobs) p m : Int)) (s := V \ done)
          (fun i _ => by positivity) (Finset.mem_sdiff.2 ⟨hcV, hcd⟩)
        rw [pd_cnt, if_pos hd] at h3
        exact_mod_cast h3)
      obtain ⟨c, rest, k1, k2, k3, k4, k5, k6, k7⟩ := kStep_inv_pop q hout I h1
      refine ⟨insert c done, ⟨k4, ?_⟩, k5⟩
      intro n
      rw [h2 c rest k1 n, J n, Finset.filter_insert]
      have hsum : ∑ p ∈ done.filter (fun p => downCell T null jobs p = some n ∧ n.1 ≠ p.1), s'.ks.acc p =
          ∑ p ∈ done.filter (fun p => downCell T null jobs p = some n ∧ n.1 ≠ p.1), s.ks.acc p :=
        Finset.sum_congr rfl (fun p hp => k6 p (Finset.mem_filter.1 hp).1)
      split_ifs with h3
      · rw [Finset.sum_insert (by simp [k3]), hsum, k7, add_zero, add_comm]
      · rw [hsum, add_zero])
    (pdNodes T null jobs).length s0 ∅ ⟨I0, by simp [hs0, pdStart]⟩
    (by rw [Finset.sdiff_empty]; exact List.toFinset_card_le _)
  change KInv V (pdOut T null jobs) 0 s0.ks.acc done r.ks at I
  change ∀ n, r.inn n = ∑ p ∈ done.filter (fun p => downCell T null jobs p = some n ∧ n.1 ≠ p.1), r.ks.acc p at J
  have hqe : r.ks.q = [] := pdStep_none q hnone
  have hdone : ∀ k, ∀ n ∈ V, (∀ m ∈ V, rank m ≤ rank n + k) → n ∈ done := by
    intro k
    induction k with
    | zero =>
      intro n hn hk
      by_contra hnd
      have h0 : r.ks.deps n = 0 := by
        rw [I.deps n hn]
        apply Finset.sum_eq_zero
        intro p hp
        rw [pd_cnt]
        split_ifs with hd
        · exfalso
          have hpV := (Finset.mem_sdiff.1 hp).1
          have := hrank p (List.mem_toFinset.1 hpV) n hd
          have := hk p hpV
          omega
        · rfl
      have := (I.mem_q n).2 ⟨hn, hnd, h0⟩
      rw [hqe] at this
      cases this
    | succ k ih =>
      intro n hn hk
      by_contra hnd
      have h0 : r.ks.deps n = 0 := by
        rw [I.deps n hn]
        apply Finset.sum_eq_zero
        intro p hp
        rw [pd_cnt]
        split_ifs with hd
        · exfalso
          have hpV := (Finset.mem_sdiff.1 hp).1
          have h1 := hrank p (List.mem_toFinset.1 hpV) n hd
          exact (Finset.mem_sdiff.1 hp).2 (ih p hpV (fun m hm => by have := hk m hm; omega))
        · rfl
      have := (I.mem_q n).2 ⟨hn, hnd, h0⟩
      rw [hqe] at this
      cases this
  have hall : done = V := by
    apply Finset.Subset.antisymm I.sub
    intro n hn
    refine hdone (∑ m ∈ V, rank m) n hn (fun m hm => ?_)
    have := Finset.single_le_sum (f := rank) (fun i _ => Nat.zero_le _) hm
    omega
  subst hall
  refine ⟨hqe, ?_, J⟩
  intro n hn
  rw [I.acc n hn]
  have e : s0.ks.acc n = if (jobs n.1).links n.2 = FLOW_EXTERNAL then (jobs n.1).accum n.2 else 0 := rfl
  rw [e, Finset.sum_filter]
  simp only [ite_self, add_zero]
  congr 1
  apply Finset.sum_congr rfl
  intro p _
  rw [pd_wt]
  split_ifs <;> ring

end

end RichDEM
