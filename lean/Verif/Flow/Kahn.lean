import Verif.Loop
import Mathlib.Algebra.BigOperators.Group.Finset.Basic
import Mathlib.Algebra.BigOperators.Ring.Finset
import Mathlib.Algebra.Order.BigOperators.Group.Finset
import Mathlib.Logic.Relation
import Mathlib.Order.WellFounded
import Mathlib.Data.Fintype.Order

/-!
Topological ("Kahn") accumulation on a finite directed multigraph, the common core of
`FlowAccumulation`, `d8_flow_accum` and `dinf_upslope_area`.

The concrete loops are modelled in `Verif/Flow/Accum.lean`, where each is shown to be an instance
of `kStep`.
-/

namespace RichDEM

open Finset

/-- State of an accumulation loop: dependency counts, accumulation raster, work queue. -/
structure KS (V R : Type*) where
  deps : V → Int
  acc : V → R
  q : List V

section
variable {V R : Type*} [DecidableEq V] [CommRing R]

/-- One outgoing edge of the popped cell (whose accumulation is `a`):
`accum(ni) += props*c_accum; if(--deps(ni)==0) q.emplace(ni)`,
flow_accumulation_generic.hpp:81-83. -/
def kRelax (pq : PQ V (fun _ _ => False)) (a : R) (s : KS V R) (e : V × R) : KS V R :=
  { deps := Function.update s.deps e.1 (s.deps e.1 - 1)
    acc := Function.update s.acc e.1 (s.acc e.1 + e.2 * a)
    q := if s.deps e.1 - 1 = 0 then pq.push e.1 s.q else s.q }

/-- One iteration of an accumulation loop: pop a cell, add `own` to it, relax its edges. -/
def kStep (pq : PQ V (fun _ _ => False)) (out : V → List (V × R)) (own : R) (s : KS V R) :
    Option (KS V R) :=
  match pq.pop s.q with
  | none => none
  | some (c, q) =>
    some ((out c).foldl (kRelax pq (s.acc c + own))
      { s with q := q, acc := Function.update s.acc c (s.acc c + own) })

/-- Total weight of the edges from `p` to `c`. -/
def wt (out : V → List (V × R)) (p c : V) : R :=
  ((out p).map (fun e => if e.1 = c then e.2 else 0)).sum

/-- Number of edges from `p` to `c`. -/
def cnt (out : V → List (V × R)) (p c : V) : Nat := (out p).countP (fun e => e.1 = c)

theorem wt_eq_zero {out : V → List (V × R)} {p c : V} (h : cnt out p c = 0) : wt out p c = 0 := by
  unfold wt cnt at *
  generalize out p = l at h
  induction l with
  | nil => simp
  | cons e l ih =>
    rw [List.countP_cons] at h
    by_cases he : e.1 = c
    · simp [he] at h
    · simp only [List.map_cons, List.sum_cons, if_neg he, zero_add]
      exact ih (by omega)

/-- Effect of relaxing a list of edges. -/
theorem relax_spec (pq : PQ V (fun _ _ => False)) (a : R) :
    ∀ (es : List (V × R)) (s : KS V R), s.q.Nodup →
      (∀ d, d ∈ s.q → s.deps d ≤ 0) →
      (∀ d, (0 : Int) < es.countP (fun e => e.1 = d) → (es.countP (fun e => e.1 = d) : Int) ≤ s.deps d) →
      let r := es.foldl (kRelax pq a) s
      (∀ d, r.acc d = s.acc d + (es.map (fun e => if e.1 = d then e.2 else 0)).sum * a) ∧
      (∀ d, r.deps d = s.deps d - es.countP (fun e => e.1 = d)) ∧
      r.q.Nodup ∧
      (∀ d, d ∈ r.q ↔ d ∈ s.q ∨ (0 < s.deps d ∧ r.deps d = 0 ∧ ∃ e ∈ es, e.1 = d)) := by
  intro es
  induction es with
  | nil => intro s hn _ _; simp [hn]
  | cons e es ih =>
    intro s hn hq hd
    have hpos : 0 < s.deps e.1 := by
      have := hd e.1 (by rw [List.countP_cons]; simp)
      rw [List.countP_cons] at this
      simp at this
      omega
    have hnq : e.1 ∉ s.q := fun h => by have := hq _ h; omega
    generalize hs1 : kRelax pq a s e = s1
    have hdeps1 : ∀ d, s1.deps d = s.deps d - (if e.1 = d then 1 else 0) := by
      intro d; rw [← hs1]
      by_cases h : d = e.1
      · subst h; simp [kRelax]
      · simp [kRelax, Function.update_of_ne h, Ne.symm h]
    have hacc1 : ∀ d, s1.acc d = s.acc d + (if e.1 = d then e.2 else 0) * a := by
      intro d; rw [← hs1]
      by_cases h : d = e.1
      · subst h; simp [kRelax]
      · simp [kRelax, Function.update_of_ne h, Ne.symm h]
    have hq1 : ∀ d, d ∈ s1.q ↔ d ∈ s.q ∨ (d = e.1 ∧ s.deps e.1 = 1) := by
      intro d; rw [← hs1]
      simp only [kRelax]
      split
      · rename_i h; rw [pq.mem_push]
        constructor
        · rintro (h1 | h1)
          · exact .inr ⟨h1, by omega⟩
          · exact .inl h1
        · rintro (h1 | h1)
          · exact .inr h1
          · exact .inl h1.1
      · rename_i h
        constructor
        · exact .inl
        · rintro (h1 | h1)
          · exact h1
          · omega
    have hn1 : s1.q.Nodup := by
      rw [← hs1]; simp only [kRelax]
      split
      · rw [(pq.push_perm _ _).nodup_iff]; exact List.nodup_cons.2 ⟨hnq, hn⟩
      · exact hn
    have hc : ∀ d, ((e :: es).countP (fun e => e.1 = d) : Int)
        = es.countP (fun e => e.1 = d) + (if e.1 = d then 1 else 0) := by
      intro d
      rw [List.countP_cons]
      by_cases h : e.1 = d <;> simp [h]
    obtain ⟨i1, i2, i3, i4⟩ := ih s1 hn1
      (by
        intro d hdq
        rw [hq1] at hdq
        rw [hdeps1]
        rcases hdq with h | ⟨rfl, h⟩
        · have := hq d h; split <;> omega
        · simp; omega)
      (by
        intro d h0
        have h1 := hd d
        rw [hc] at h1
        rw [hdeps1]
        have h2 := h1 (by split <;> omega)
        split
        · rename_i h; simp only [h, if_true] at h2; omega
        · rename_i h; simp only [h, if_false] at h2; omega)
    simp only [List.foldl_cons, hs1]
    refine ⟨?_, ?_, i3, ?_⟩
    · intro d
      rw [i1, hacc1, List.map_cons, List.sum_cons]; ring
    · intro d
      rw [i2, hdeps1, hc]; omega
    · intro d
      rw [i4, hq1, hdeps1]
      constructor
      · rintro ((h | ⟨rfl, h⟩) | ⟨h1, h2, e', he', h3⟩)
        · exact .inl h
        · refine .inr ⟨hpos, ?_, e, by simp, rfl⟩
          have h4 := hd e.1 (by rw [hc]; simp)
          rw [hc] at h4
          simp at h4
          rw [i2, hdeps1]
          simp
          omega
        · refine .inr ⟨?_, h2, e', by simp [he'], h3⟩
          split at h1 <;> omega
      · rintro (h | ⟨h1, h2, e', he', h3⟩)
        · exact .inl (.inl h)
        · by_cases hed : e.1 = d
          · subst hed
            by_cases h5 : s.deps e.1 = 1
            · exact .inl (.inr ⟨rfl, h5⟩)
            · right
              refine ⟨by simp; omega, h2, ?_⟩
              rw [i2, hdeps1] at h2
              simp at h2
              have : 0 < es.countP (fun e' => e'.1 = e.1) := by omega
              obtain ⟨x, hx1, hx2⟩ := List.countP_pos_iff.1 this
              exact ⟨x, hx1, by simpa using hx2⟩
          · right
            refine ⟨by simp [hed]; omega, h2, ?_⟩
            rcases List.mem_cons.1 he' with rfl | he'
            · exact absurd h3 hed
            · exact ⟨e', he', h3⟩

/-- Loop invariant; `done` is the set of cells processed so far. -/
structure KInv (verts : Finset V) (out : V → List (V × R)) (own : R) (init : V → R)
    (done : Finset V) (s : KS V R) : Prop where
  sub : done ⊆ verts
  acc : ∀ c ∈ verts, s.acc c = init c + (if c ∈ done then own else 0)
    + ∑ p ∈ done, wt out p c * s.acc p
  deps : ∀ c ∈ verts, s.deps c = ∑ p ∈ verts \ done, (cnt out p c : Int)
  nodup : s.q.Nodup
  mem_q : ∀ c, c ∈ s.q ↔ c ∈ verts ∧ c ∉ done ∧ s.deps c = 0
  done_deps : ∀ c ∈ done, s.deps c = 0
  acyc : ∀ c ∈ done, Acc (fun p c => p ∈ verts ∧ 0 < cnt out p c) c

theorem KInv.pred_done {verts : Finset V} {out : V → List (V × R)} {own : R} {init : V → R}
    {done : Finset V} {s : KS V R} (I : KInv verts out own init done s) {c : V} (hc : c ∈ verts)
    (h0 : s.deps c = 0) {p : V} (hp : p ∈ verts) (hpc : 0 < cnt out p c) : p ∈ done := by
  by_contra hn
  rw [I.deps c hc] at h0
  have := (Finset.sum_eq_zero_iff_of_nonneg (by intro i _; exact Int.natCast_nonneg _)).1 h0 p
    (Finset.mem_sdiff.2 ⟨hp, hn⟩)
  omega

theorem kStep_inv_pop (pq : PQ V (fun _ _ => False)) {verts : Finset V} {out : V → List (V × R)}
    (hout : ∀ p ∈ verts, ∀ e ∈ out p, e.1 ∈ verts) {own : R} {init : V → R}
    {done : Finset V} {s s' : KS V R} (I : KInv verts out own init done s)
    (h : kStep pq out own s = some s') :
    ∃ c rest, pq.pop s.q = some (c, rest) ∧ c ∈ verts ∧ c ∉ done ∧ KInv verts out own init (insert c done) s' ∧
      (verts \ insert c done).card < (verts \ done).card ∧
      (∀ d ∈ done, s'.acc d = s.acc d) ∧ s'.acc c = s.acc c + own := by
  unfold kStep at h
  split at h
  · cases h
  rename_i c q hpop
  obtain ⟨hperm, -⟩ := pq.pop_some hpop
  have hcq : c ∈ s.q := hperm.mem_iff.2 (by simp)
  obtain ⟨hcv, hcd, hc0⟩ := (I.mem_q c).1 hcq
  have hnd := I.nodup
  rw [hperm.nodup_iff, List.nodup_cons] at hnd
  have hmq : ∀ d, d ∈ q ↔ d ∈ s.q ∧ d ≠ c := by
    intro d
    rw [hperm.mem_iff, List.mem_cons]
    constructor
    · intro hd; exact ⟨.inr hd, by rintro rfl; exact hnd.1 hd⟩
    · rintro ⟨h1 | h1, h2⟩
      · exact absurd h1 h2
      · exact h1
  set a := s.acc c + own with ha
  generalize hs0 : ({ s with q := q, acc := Function.update s.acc c a } : KS V R) = s0 at h
  have h0d : s0.deps = s.deps := by rw [← hs0]
  have h0q : s0.q = q := by rw [← hs0]
  have h0a : s0.acc = Function.update s.acc c a := by rw [← hs0]
  have hcnt0 : ∀ d ∈ verts, s.deps d = 0 → ∀ p ∈ verts, p ∉ done → cnt out p d = 0 := by
    intro d hd h0 p hp hpn
    by_contra hne
    exact hpn (I.pred_done hd h0 hp (Nat.pos_of_ne_zero hne))
  have hdep_ge : ∀ d ∈ verts, (cnt out c d : Int) ≤ s.deps d := by
    intro d hd
    rw [I.deps d hd]
    exact Finset.single_le_sum (f := fun p => (cnt out p d : Int))
      (by intro i _; exact Int.natCast_nonneg _) (Finset.mem_sdiff.2 ⟨hcv, hcd⟩)
  obtain ⟨r1, r2, r3, r4⟩ := relax_spec pq a (out c) s0 (by rw [h0q]; exact hnd.2)
    (by intro d hd; rw [h0q, hmq, I.mem_q] at hd; rw [h0d]; omega)
    (by
      intro d hd
      have hdv : d ∈ verts := by
        have : 0 < (out c).countP (fun e => e.1 = d) := by omega
        obtain ⟨x, hx1, hx2⟩ := List.countP_pos_iff.1 this
        have := hout c hcv x hx1
        rwa [show x.1 = d by simpa using hx2] at this
      rw [h0d]; exact hdep_ge d hdv)
  have hs' : (out c).foldl (kRelax pq a) s0 = s' := by simpa using h
  simp only [hs'] at r1 r2 r3 r4
  have hacc : ∀ d, s'.acc d = (if d = c then a else s.acc d) + wt out c d * a := by
    intro d
    rw [r1, h0a]
    by_cases hd : d = c
    · subst hd; simp [wt]
    · simp [hd, wt]
  have hdeps : ∀ d, s'.deps d = s.deps d - cnt out c d := by
    intro d; rw [r2, h0d]; rfl
  have hwcc : wt out c c = 0 := wt_eq_zero (hcnt0 c hcv hc0 c hcv hcd)
  have haccc : s'.acc c = a := by rw [hacc, hwcc]; simp
  have haccd : ∀ d ∈ done, s'.acc d = s.acc d := by
    intro d hd
    have hdc : d ≠ c := by rintro rfl; exact hcd hd
    rw [hacc, wt_eq_zero (hcnt0 d (I.sub hd) (I.done_deps d hd) c hcv hcd)]
    simp [hdc]
  have hcard : (verts \ insert c done).card < (verts \ done).card := by
    apply Finset.card_lt_card
    refine ⟨?_, ?_⟩
    · intro x hx
      simp only [Finset.mem_sdiff, Finset.mem_insert, not_or] at hx ⊢
      exact ⟨hx.1, hx.2.2⟩
    · intro hsub
      have := hsub (Finset.mem_sdiff.2 ⟨hcv, hcd⟩)
      simp at this
  refine ⟨c, q, hpop, hcv, hcd, ⟨?_, ?_, ?_, r3, ?_, ?_, ?_⟩, hcard, haccd, haccc⟩
  · intro x hx
    rcases Finset.mem_insert.1 hx with rfl | hx
    · exact hcv
    · exact I.sub hx
  · intro d hd
    rw [Finset.sum_insert hcd, haccc]
    have hsum : ∑ p ∈ done, wt out p d * s'.acc p = ∑ p ∈ done, wt out p d * s.acc p :=
      Finset.sum_congr rfl (fun p hp => by rw [haccd p hp])
    rw [hsum, hacc]
    by_cases hdc : d = c
    · subst hdc
      have := I.acc d hd
      rw [if_neg hcd] at this
      simp only [if_true, Finset.mem_insert, true_or, hwcc]
      rw [ha, this]; ring
    · have := I.acc d hd
      have hmem : (d ∈ insert c done) ↔ d ∈ done := by simp [hdc]
      simp only [if_neg hdc, hmem]
      rw [this, add_assoc, add_comm (wt out c d * a)]
  · intro d hd
    rw [hdeps, I.deps d hd]
    have : verts \ done = insert c (verts \ insert c done) := by
      ext x
      simp only [Finset.mem_sdiff, Finset.mem_insert, not_or]
      constructor
      · intro hx
        by_cases hxc : x = c
        · exact .inl hxc
        · exact .inr ⟨hx.1, hxc, hx.2⟩
      · rintro (rfl | hx)
        · exact ⟨hcv, hcd⟩
        · exact ⟨hx.1, hx.2.2⟩
    rw [this, Finset.sum_insert (by simp)]
    omega
  · intro d
    rw [r4, h0q, hmq, I.mem_q, h0d]
    constructor
    · rintro (⟨⟨h1, h2, h3⟩, h4⟩ | ⟨h1, h2, e, he, rfl⟩)
      · refine ⟨h1, by simp [h4, h2], ?_⟩
        rw [hdeps, h3, hcnt0 d h1 h3 c hcv hcd]; simp
      · refine ⟨hout c hcv e he, ?_, h2⟩
        simp only [Finset.mem_insert, not_or]
        constructor
        · intro h5; rw [h5] at h1; omega
        · intro h5; have := I.done_deps _ h5; omega
    · rintro ⟨h1, h2, h3⟩
      simp only [Finset.mem_insert, not_or] at h2
      by_cases h4 : s.deps d = 0
      · exact .inl ⟨⟨h1, h2.2, h4⟩, h2.1⟩
      · right
        have h5 : 0 ≤ s.deps d := le_trans (Int.natCast_nonneg _) (hdep_ge d h1)
        refine ⟨by omega, h3, ?_⟩
        rw [hdeps] at h3
        have : 0 < cnt out c d := by omega
        obtain ⟨x, hx1, hx2⟩ := List.countP_pos_iff.1 this
        exact ⟨x, hx1, by simpa using hx2⟩
  · intro d hd
    have hd0 : s.deps d = 0 ∧ d ∈ verts := by
      rcases Finset.mem_insert.1 hd with rfl | hd
      · exact ⟨hc0, hcv⟩
      · exact ⟨I.done_deps d hd, I.sub hd⟩
    rw [hdeps, hd0.1, hcnt0 d hd0.2 hd0.1 c hcv hcd]; simp
  · intro d hd
    rcases Finset.mem_insert.1 hd with rfl | hd
    · refine Acc.intro _ ?_
      rintro p ⟨hp, hpd⟩
      exact I.acyc p (I.pred_done hcv hc0 hp hpd)
    · exact I.acyc d hd

theorem kStep_inv (pq : PQ V (fun _ _ => False)) {verts : Finset V} {out : V → List (V × R)}
    (hout : ∀ p ∈ verts, ∀ e ∈ out p, e.1 ∈ verts) {own : R} {init : V → R}
    {done : Finset V} {s s' : KS V R} (I : KInv verts out own init done s)
    (h : kStep pq out own s = some s') :
    ∃ done', KInv verts out own init done' s' ∧
      (verts \ done').card < (verts \ done).card := by
  obtain ⟨c, _, _, _, _, hI, hcard, _⟩ := kStep_inv_pop pq hout I h
  exact ⟨_, hI, hcard⟩

/-- What the loop has computed when it stops. -/
theorem kahn_final (pq : PQ V (fun _ _ => False)) {verts : Finset V} {out : V → List (V × R)}
    (hout : ∀ p ∈ verts, ∀ e ∈ out p, e.1 ∈ verts) (own : R) (s : KS V R)
    (hdeps : ∀ c ∈ verts, s.deps c = ∑ p ∈ verts, (cnt out p c : Int))
    (hnd : s.q.Nodup) (hq : ∀ c, c ∈ s.q ↔ c ∈ verts ∧ s.deps c = 0)
    (fuel : Nat) (hfuel : verts.card ≤ fuel) :
    let r := loop (kStep pq out own) fuel s
    r.q = [] ∧ (∀ c ∈ verts, 0 ≤ r.deps c) ∧
    ∃ done : Finset V, done ⊆ verts ∧
      (∀ c ∈ verts, c ∈ done ↔ Acc (fun p c => p ∈ verts ∧ 0 < cnt out p c) c) ∧
      (∀ c ∈ verts, (c ∈ done ↔ r.deps c = 0)) ∧
      (∀ c ∈ done, r.acc c = s.acc c + own + ∑ p ∈ verts, wt out p c * r.acc p) ∧
      (∀ c ∈ verts, c ∉ done → r.acc c = s.acc c + ∑ p ∈ done, wt out p c * r.acc p) := by
  have I0 : KInv verts out own s.acc ∅ s := by
    refine ⟨by simp, by simp, ?_, hnd, by simpa using hq, by simp, by simp⟩
    intro c hc; rw [hdeps c hc]; simp
  obtain ⟨done, I, hnone⟩ := loop_ghost (fun done s' => KInv verts out own s.acc done s')
    (fun done => (verts \ done).card)
    (fun g a b hI hab => kStep_inv pq hout hI hab) fuel s ∅ I0 (by simpa using hfuel)
  intro r
  change KInv verts out own s.acc done r at I
  change kStep pq out own r = none at hnone
  have hqe : r.q = [] := by
    unfold kStep at hnone
    split at hnone
    · rename_i h; exact pq.pop_none.1 h
    · cases hnone
  have hnn : ∀ c ∈ verts, 0 ≤ r.deps c := by
    intro c hc; rw [I.deps c hc]
    exact Finset.sum_nonneg (by intro i _; exact Int.natCast_nonneg _)
  have hdone0 : ∀ c ∈ verts, (c ∈ done ↔ r.deps c = 0) := by
    intro c hc
    refine ⟨I.done_deps c, fun h0 => ?_⟩
    by_contra hn
    have := (I.mem_q c).2 ⟨hc, hn, h0⟩
    rw [hqe] at this
    exact absurd this (by simp)
  refine ⟨hqe, hnn, done, I.sub, ?_, hdone0, ?_, ?_⟩
  · intro c hc
    refine ⟨I.acyc c, fun hacc => ?_⟩
    induction hacc with
    | intro c _ ih =>
      rw [hdone0 c hc, I.deps c hc]
      apply Finset.sum_eq_zero
      intro p hp
      rw [Finset.mem_sdiff] at hp
      by_contra hne
      exact hp.2 (ih p ⟨hp.1, by omega⟩ hp.1)
  · intro c hc
    rw [I.acc c (I.sub hc), if_pos hc]
    congr 1
    refine Finset.sum_subset I.sub ?_
    intro p hp hpn
    have : cnt out p c = 0 := by
      by_contra hne
      exact hpn (I.pred_done (I.sub hc) (I.done_deps c hc) hp (Nat.pos_of_ne_zero hne))
    rw [wt_eq_zero this]; simp
  · intro c hc hn
    rw [I.acc c hc, if_neg hn]; ring

end

/-- In a finite graph, a vertex has no infinite chain of ancestors exactly when none of its
ancestors (itself included) lies on a cycle. -/
theorem acc_iff_no_cycle {V : Type*} (verts : Finset V) (r : V → V → Prop)
    (hr : ∀ a b, r a b → a ∈ verts) {c : V} (hc : c ∈ verts) :
    Acc r c ↔ ∀ a, Relation.ReflTransGen r a c → ¬ Relation.TransGen r a a := by
  constructor
  · intro hacc a hac haa
    have h1 : Acc (Relation.TransGen r) c := hacc.transGen
    have h2 : Acc (Relation.TransGen r) a := by
      rcases Relation.reflTransGen_iff_eq_or_transGen.1 hac with rfl | h
      · exact h1
      · exact h1.inv h
    clear hac
    induction h2 with
    | intro a _ ih => exact ih a haa haa
  · intro hno
    let R : verts → verts → Prop := fun x y =>
      Relation.TransGen r x.1 y.1 ∧ Relation.ReflTransGen r y.1 c
    haveI : IsTrans verts R := ⟨fun x y z h1 h2 => ⟨h1.1.trans h2.1, h2.2⟩⟩
    haveI : Std.Irrefl R := ⟨fun x h => hno x.1 (Relation.ReflTransGen.trans h.1.to_reflTransGen h.2) h.1⟩
    have wf : WellFounded R := Finite.wellFounded_of_trans_of_irrefl R
    have key : ∀ y : verts, Relation.ReflTransGen r y.1 c → Acc r y.1 := by
      intro y
      induction y using wf.induction with
      | h y ih =>
        intro hy
        refine Acc.intro _ (fun p hp => ?_)
        exact ih ⟨p, hr p y.1 hp⟩ ⟨Relation.TransGen.single hp, hy⟩ (Relation.ReflTransGen.head hp hy)
    exact key ⟨c, hc⟩ .refl

end RichDEM
