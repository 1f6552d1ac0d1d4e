import Mathlib.Data.Nat.Bitwise
import Mathlib.Algebra.BigOperators.Group.Finset.Basic
import Mathlib.Algebra.Order.BigOperators.Group.Finset
import Mathlib.Data.Multiset.Basic
import Mathlib.Tactic.Abel
import Verif.DS.Disjoint

/-!
Model of `radix_heap` / `pair_radix_heap` (include/richdem/common/radix_heap.hpp).

Keys are already encoded (`Verif/DS/Encoder.lean`): naturals below `2^W`, `W` the width of the
unsigned key type.  `radix_heap` is the case `V = Unit`.  The bit mask `flags_` is the
predicate "bit `i-1` is set" on the bucket number `i`.
-/

namespace RichDEM

/-- radix_heap.hpp:24-40 (`find_bucket`): 0 if equal, else `W - clz(x ^ last)`, which is one
more than the index of the highest set bit. -/
def findBucket (x last : Nat) : Nat := if x = last then 0 else Nat.log2 (x ^^^ last) + 1

/-- radix_heap.hpp:211-227 and 353-362 (data members). -/
structure RHeap (V : Type) where
  size : Nat
  last : Nat
  buckets : Nat → List (Nat × V)
  mins : Nat → Nat
  flags : Nat → Bool

namespace RHeap
variable {V : Type}

/-- radix_heap.hpp:163-165, 258-260 (constructor), also the state after `clear()` (203-209):
`last_ = key_type()` converts 0 to the unsigned key 0. -/
def empty (W : Nat) : RHeap V := ⟨0, 0, fun _ => [], fun _ => 2 ^ W - 1, fun _ => false⟩

/-- radix_heap.hpp:139-144 (`find_first_non_empty`): index of the lowest set bit plus one, 0 if
none. -/
def firstNonEmpty (W : Nat) (s : RHeap V) : Nat :=
  match (List.range W).find? (fun i => s.flags (i + 1)) with
  | some i => i + 1
  | none => 0

/-- radix_heap.hpp:171-174, 238-240 etc.: put one element in its bucket and update the flag
(bucket 0 has no flag) and the bucket minimum. -/
def put (s : RHeap V) (e : Nat × V) : RHeap V :=
  let k := findBucket e.1 s.last
  { s with buckets := upd s.buckets k (s.buckets k ++ [e])
           flags := if k = 0 then s.flags else upd s.flags k true
           mins := upd s.mins k (min (s.mins k) e.1) }

/-- radix_heap.hpp:167-175, 262-292 (`push`/`emplace`); `none` is a failed assertion
(`last_ <= x`). -/
def push (s : RHeap V) (x : Nat) (v : V) : Option (RHeap V) :=
  if s.last ≤ x then some (({ s with size := s.size + 1 }).put (x, v)) else none

/-- radix_heap.hpp:229-246 (`radix_heap::pull`, `reset = false`) and 371-389
(`pair_radix_heap::pull`, `reset = true`: it also resets `buckets_min_[0]`).  `none` is a
failed assertion (`size_ > 0`). -/
def pull (W : Nat) (reset : Bool) (s : RHeap V) : Option (RHeap V) :=
  if s.size = 0 then none
  else if s.buckets 0 ≠ [] then some s
  else
    let s := if reset then { s with mins := upd s.mins 0 (2 ^ W - 1) } else s
    let i := s.firstNonEmpty W
    let s1 := (s.buckets i).foldl put { s with last := s.mins i }
    some { s1 with buckets := upd s1.buckets i []
                   flags := if i = 0 then s1.flags else upd s1.flags i false
                   mins := upd s1.mins i (2 ^ W - 1) }

/-- radix_heap.hpp:177-180, 301-304 (`top`/`top_key`, still encoded). -/
def topKey (W : Nat) (reset : Bool) (s : RHeap V) : Option (Nat × RHeap V) :=
  (s.pull W reset).map fun s => (s.last, s)

/-- radix_heap.hpp:306-309 (`top_value`); `none` also for `back()` of an empty bucket. -/
def topValue (W : Nat) (reset : Bool) (s : RHeap V) : Option (V × RHeap V) :=
  (s.pull W reset).bind fun s => (s.buckets 0).getLast?.map fun e => (e.2, s)

/-- radix_heap.hpp:189-193, 316-320 (`pop`); `none` also for `pop_back()` of an empty bucket. -/
def pop (W : Nat) (reset : Bool) (s : RHeap V) : Option (RHeap V) :=
  (s.pull W reset).bind fun s =>
    if s.buckets 0 = [] then none
    else some { s with buckets := upd s.buckets 0 (s.buckets 0).dropLast, size := s.size - 1 }

/-- radix_heap.hpp:328-335 (`extract_top_values`); `pop_top_values` (322-326) is the same
without returning the vector. -/
def extractTop (W : Nat) (reset : Bool) (s : RHeap V) : Option (List (Nat × V) × RHeap V) :=
  (s.pull W reset).map fun s =>
    (s.buckets 0, { s with buckets := upd s.buckets 0 [], size := s.size - (s.buckets 0).length })

/-- radix_heap.hpp:182-187, 294-299 (`min`/`min_key`, still encoded); `none` when empty. -/
def minKey (W : Nat) (s : RHeap V) : Option Nat :=
  if s.size = 0 then none
  else some (s.mins (if s.buckets 0 = [] then s.firstNonEmpty W else 0))

/-- radix_heap.hpp:203-209, 345-351 (`clear`). -/
def clear (W : Nat) (_s : RHeap V) : RHeap V := empty W

/-! ### Bucket arithmetic -/

theorem findBucket_le_iff (x l k : Nat) : findBucket x l ≤ k ↔ x / 2 ^ k = l / 2 ^ k := by
  unfold findBucket
  split
  · rename_i h; subst h; simp
  · rename_i h
    have hne : x ^^^ l ≠ 0 := by
      intro h0; exact h (Nat.xor_eq_zero_iff.1 h0)
    rw [show Nat.log2 (x ^^^ l) + 1 ≤ k ↔ Nat.log2 (x ^^^ l) < k by omega, Nat.log2_lt hne]
    have h1 : (x ^^^ l) / 2 ^ k = x / 2 ^ k ^^^ l / 2 ^ k := by
      rw [← Nat.shiftRight_eq_div_pow, ← Nat.shiftRight_eq_div_pow, ← Nat.shiftRight_eq_div_pow,
        Nat.shiftRight_xor_distrib]
    rw [← Nat.div_eq_zero_iff_lt (Nat.two_pow_pos k), h1, Nat.xor_eq_zero_iff]

theorem findBucket_zero_iff (x l : Nat) : findBucket x l = 0 ↔ x = l := by
  rw [← Nat.le_zero, findBucket_le_iff]; simp

theorem div_pow_mono {a b i j : Nat} (hij : i ≤ j) (h : a / 2 ^ i = b / 2 ^ i) :
    a / 2 ^ j = b / 2 ^ j := by
  have e : 2 ^ j = 2 ^ i * 2 ^ (j - i) := by rw [← Nat.pow_add]; congr 1; omega
  rw [e, ← Nat.div_div_eq_div_mul, ← Nat.div_div_eq_div_mul, h]

/-- Lower buckets hold smaller keys. -/
theorem lt_of_findBucket_lt {x y l : Nat} (hy : l ≤ y)
    (h : findBucket x l < findBucket y l) : x < y := by
  obtain ⟨j, hj⟩ : ∃ j, findBucket y l = j + 1 := ⟨findBucket y l - 1, by omega⟩
  have h1 : x / 2 ^ j = l / 2 ^ j := (findBucket_le_iff x l j).1 (by omega)
  have h2 : ¬ y / 2 ^ j = l / 2 ^ j := fun e => by
    have := (findBucket_le_iff y l j).2 e; omega
  have h3 : l / 2 ^ j ≤ y / 2 ^ j := Nat.div_le_div_right hy
  by_contra hc
  have h4 : y / 2 ^ j ≤ x / 2 ^ j := Nat.div_le_div_right (by omega)
  omega

/-- Two keys of the same bucket share one more leading bit with each other than with `last`. -/
theorem findBucket_lt_of_same {x m l i : Nat} (hx : findBucket x l = i + 1)
    (hm : findBucket m l = i + 1) : findBucket x m < i + 1 := by
  have hx1 := (findBucket_le_iff x l (i + 1)).1 (by omega)
  have hm1 := (findBucket_le_iff m l (i + 1)).1 (by omega)
  have hx2 : ¬ x / 2 ^ i = l / 2 ^ i := fun e => by
    have := (findBucket_le_iff x l i).2 e; omega
  have hm2 : ¬ m / 2 ^ i = l / 2 ^ i := fun e => by
    have := (findBucket_le_iff m l i).2 e; omega
  rw [Nat.pow_succ, ← Nat.div_div_eq_div_mul, ← Nat.div_div_eq_div_mul] at hx1 hm1
  have : x / 2 ^ i = m / 2 ^ i := by omega
  have := (findBucket_le_iff x m i).2 this
  omega

/-- Keys of higher buckets keep their bucket when `last` moves to a key of a lower bucket. -/
theorem findBucket_keep {y m l : Nat} (h : findBucket m l < findBucket y l) :
    findBucket y m = findBucket y l := by
  obtain ⟨j, hj⟩ : ∃ j, findBucket y l = j + 1 := ⟨findBucket y l - 1, by omega⟩
  have h1 : m / 2 ^ j = l / 2 ^ j := (findBucket_le_iff m l j).1 (by omega)
  have h2 : ¬ y / 2 ^ j = l / 2 ^ j := fun e => by
    have := (findBucket_le_iff y l j).2 e; omega
  have h3 : y / 2 ^ (j + 1) = l / 2 ^ (j + 1) := (findBucket_le_iff y l (j + 1)).1 (by omega)
  have h4 : m / 2 ^ (j + 1) = l / 2 ^ (j + 1) := div_pow_mono (by omega) h1
  have h5 : findBucket y m ≤ j + 1 := (findBucket_le_iff _ _ _).2 (by rw [h3, h4])
  have h6 : ¬ findBucket y m ≤ j := fun h => h2 (by rw [(findBucket_le_iff _ _ _).1 h, h1])
  omega

theorem findBucket_le_width {W x l : Nat} (hx : x < 2 ^ W) (hl : l < 2 ^ W) :
    findBucket x l ≤ W := by
  rw [findBucket_le_iff, Nat.div_eq_of_lt hx, Nat.div_eq_of_lt hl]

/-! ### Contents -/

/-- All elements held, as a multiset. -/
def contents (W : Nat) (s : RHeap V) : Multiset (Nat × V) :=
  ∑ k ∈ Finset.range (W + 1), (s.buckets k : Multiset (Nat × V))

theorem sum_upd (W k : Nat) (hk : k ≤ W) (b : Nat → List (Nat × V)) (l : List (Nat × V)) :
    (∑ j ∈ Finset.range (W + 1), ((upd b k l j : List (Nat × V)) : Multiset (Nat × V))) + (b k : Multiset (Nat × V)) =
      (∑ j ∈ Finset.range (W + 1), (b j : Multiset (Nat × V))) + (l : Multiset (Nat × V)) := by
  have hm : k ∈ Finset.range (W + 1) := by simp; omega
  rw [← Finset.add_sum_erase _ _ hm, ← Finset.add_sum_erase _ (fun j => (b j : Multiset (Nat × V))) hm]
  have e : ∑ j ∈ (Finset.range (W + 1)).erase k, ((upd b k l j : List (Nat × V)) : Multiset (Nat × V)) =
      ∑ j ∈ (Finset.range (W + 1)).erase k, (b j : Multiset (Nat × V)) := by
    apply Finset.sum_congr rfl
    intro j hj
    rw [upd_ne _ _ _ (Finset.ne_of_mem_erase hj)]
  rw [e, upd_same]
  abel

theorem mem_contents {W : Nat} {s : RHeap V} {e : Nat × V} :
    e ∈ s.contents W ↔ ∃ k, k ≤ W ∧ e ∈ s.buckets k := by
  unfold contents
  rw [Multiset.mem_sum]
  simp only [Finset.mem_range, Multiset.mem_coe]
  constructor <;> rintro ⟨k, h1, h2⟩ <;> exact ⟨k, by omega, h2⟩

/-- Representation invariant, `lo` being the buckets already known to be well formed. -/
structure Inv (W : Nat) (s : RHeap V) : Prop where
  lastlt : s.last < 2 ^ W
  elem : ∀ k, k ≤ W → ∀ e ∈ s.buckets k, e.1 < 2 ^ W ∧ s.last ≤ e.1 ∧ findBucket e.1 s.last = k
  flag : ∀ k, 1 ≤ k → k ≤ W → (s.flags k = true ↔ s.buckets k ≠ [])
  minle : ∀ k, k ≤ W → ∀ e ∈ s.buckets k, s.mins k ≤ e.1
  minmem : ∀ k, 1 ≤ k → k ≤ W → s.buckets k ≠ [] → ∃ e ∈ s.buckets k, e.1 = s.mins k
  minempty : ∀ k, 1 ≤ k → k ≤ W → s.buckets k = [] → s.mins k = 2 ^ W - 1
  size : s.size = (s.contents W).card

theorem inv_empty (W : Nat) : Inv W (empty W : RHeap V) where
  lastlt := Nat.two_pow_pos W
  elem := by intro k _ e he; simp [empty] at he
  flag := by intro k _ _; simp [empty]
  minle := by intro k _ e he; simp [empty] at he
  minmem := by intro k _ _ h; simp [empty] at h
  minempty := by intro k _ _ _; rfl
  size := by simp [empty, contents]

/-- Adding an element in range keeps everything but the size count. -/
theorem put_contents {W : Nat} {s : RHeap V} (e : Nat × V) (h : findBucket e.1 s.last ≤ W) :
    (s.put e).contents W = e ::ₘ s.contents W := by
  have := sum_upd W (findBucket e.1 s.last) h s.buckets
    (s.buckets (findBucket e.1 s.last) ++ [e])
  unfold contents put
  simp only
  rw [← Multiset.coe_add, ← add_assoc, add_assoc, add_comm (_ : Multiset (Nat × V)) (↑[e]),
    ← add_assoc] at this
  have h2 := add_right_cancel this
  rw [h2, Multiset.coe_singleton, add_comm, Multiset.singleton_add]

/-- The part of the invariant that concerns bucket `k`. -/
structure BInv (W : Nat) (s : RHeap V) (k : Nat) : Prop where
  elem : ∀ e ∈ s.buckets k, e.1 < 2 ^ W ∧ s.last ≤ e.1 ∧ findBucket e.1 s.last = k
  flag : 1 ≤ k → (s.flags k = true ↔ s.buckets k ≠ [])
  minle : ∀ e ∈ s.buckets k, s.mins k ≤ e.1
  minmem : 1 ≤ k → s.buckets k ≠ [] → ∃ e ∈ s.buckets k, e.1 = s.mins k
  minempty : 1 ≤ k → s.buckets k = [] → s.mins k = 2 ^ W - 1

theorem inv_iff {W : Nat} {s : RHeap V} :
    Inv W s ↔ s.last < 2 ^ W ∧ (∀ k, k ≤ W → BInv W s k) ∧ s.size = (s.contents W).card := by
  constructor
  · intro I
    exact ⟨I.lastlt, fun k hk => ⟨I.elem k hk, fun h => I.flag k h hk, I.minle k hk,
      fun h => I.minmem k h hk, fun h => I.minempty k h hk⟩, I.size⟩
  · rintro ⟨h1, h2, h3⟩
    exact ⟨h1, fun k hk => (h2 k hk).elem, fun k h hk => (h2 k hk).flag h,
      fun k hk => (h2 k hk).minle, fun k h hk => (h2 k hk).minmem h,
      fun k h hk => (h2 k hk).minempty h, h3⟩

theorem BInv.put {W : Nat} {s : RHeap V} {k : Nat} (B : BInv W s k) (e : Nat × V)
    (h1 : e.1 < 2 ^ W) (h2 : s.last ≤ e.1) : BInv W (s.put e) k := by
  unfold RHeap.put
  by_cases hk : k = findBucket e.1 s.last
  · subst hk
    generalize hkk : findBucket e.1 s.last = k at *
    refine ⟨?_, ?_, ?_, ?_, ?_⟩
    · intro f hf
      simp only [upd_same, List.mem_append, List.mem_singleton] at hf
      rcases hf with hf | rfl
      · exact B.elem f hf
      · exact ⟨h1, h2, hkk⟩
    · intro h
      have : k ≠ 0 := by omega
      simp [this, upd_same]
    · intro f hf
      simp only [upd_same, List.mem_append, List.mem_singleton] at hf ⊢
      rcases hf with hf | rfl
      · exact Nat.le_trans (Nat.min_le_left _ _) (B.minle f hf)
      · exact Nat.min_le_right _ _
    · intro h _
      simp only [upd_same, List.mem_append, List.mem_singleton]
      by_cases hb : s.buckets k = []
      · have := B.minempty h hb
        exact ⟨e, Or.inr rfl, by omega⟩
      · obtain ⟨f, hf, hfm⟩ := B.minmem h hb
        rcases Nat.le_total (s.mins k) e.1 with hle | hle
        · exact ⟨f, Or.inl hf, by omega⟩
        · exact ⟨e, Or.inr rfl, by omega⟩
    · intro _ h; simp [upd_same] at h
  · have e1 : ∀ {α} (f : Nat → α) (x : α), upd f (findBucket e.1 s.last) x k = f k :=
      fun f x => upd_ne f _ x hk
    have e2 : (if findBucket e.1 s.last = 0 then s.flags
        else upd s.flags (findBucket e.1 s.last) true) k = s.flags k := by
      split
      · rfl
      · exact e1 _ _
    refine ⟨?_, ?_, ?_, ?_, ?_⟩ <;> simp only [e1, e2]
    · exact B.elem
    · exact B.flag
    · exact B.minle
    · exact B.minmem
    · exact B.minempty

theorem put_last (s : RHeap V) (e : Nat × V) : (s.put e).last = s.last := rfl
theorem put_size (s : RHeap V) (e : Nat × V) : (s.put e).size = s.size := rfl

theorem Inv.push {W : Nat} {s : RHeap V} (I : Inv W s) {x : Nat} (hx : x < 2 ^ W)
    (hl : s.last ≤ x) (v : V) :
    ∃ s', s.push x v = some s' ∧ Inv W s' ∧ s'.contents W = (x, v) ::ₘ s.contents W ∧
      s'.last = s.last := by
  have hb : findBucket x s.last ≤ W := findBucket_le_width hx I.lastlt
  obtain ⟨i1, i2, i3⟩ := inv_iff.1 I
  have hc : (({ s with size := s.size + 1 } : RHeap V).put (x, v)).contents W =
      (x, v) ::ₘ s.contents W := put_contents (s := { s with size := s.size + 1 }) (x, v) hb
  refine ⟨({ s with size := s.size + 1 } : RHeap V).put (x, v), by unfold RHeap.push; rw [if_pos hl],
    inv_iff.2 ⟨i1, ?_, ?_⟩, hc, rfl⟩
  · intro k hk
    exact BInv.put (s := { s with size := s.size + 1 })
      ⟨(i2 k hk).elem, (i2 k hk).flag, (i2 k hk).minle, (i2 k hk).minmem, (i2 k hk).minempty⟩
      (x, v) hx hl
  · rw [hc, put_size, Multiset.card_cons]; simp only; omega

/-- The redistribution loop. -/
theorem foldl_put {W i : Nat} :
    ∀ (L : List (Nat × V)) (s : RHeap V),
      (∀ k, k ≤ W → k ≠ i → BInv W s k) →
      (∀ e ∈ L, e.1 < 2 ^ W ∧ s.last ≤ e.1 ∧ findBucket e.1 s.last ≤ W ∧
        findBucket e.1 s.last ≠ i) →
      (∀ k, k ≤ W → k ≠ i → BInv W (L.foldl put s) k) ∧ (L.foldl put s).last = s.last ∧
      (L.foldl put s).size = s.size ∧ (L.foldl put s).buckets i = s.buckets i ∧
      (L.foldl put s).contents W = (L : Multiset (Nat × V)) + s.contents W ∧
      (∀ e ∈ L, e ∈ (L.foldl put s).buckets (findBucket e.1 s.last)) ∧
      (∀ k e, e ∈ s.buckets k → e ∈ (L.foldl put s).buckets k) := by
  intro L
  induction L with
  | nil => intro s h1 h2; exact ⟨h1, rfl, rfl, rfl, by simp, by simp, fun _ _ h => h⟩
  | cons a L ih =>
    intro s h1 h2
    have ha := h2 a (by simp)
    obtain ⟨j1, j2, j3, j4, j5, j6, j7⟩ := ih (s.put a)
      (fun k hk hki => (h1 k hk hki).put a ha.1 ha.2.1)
      (fun e he => h2 e (by simp [he]))
    have grow : ∀ k e, e ∈ s.buckets k → e ∈ (s.put a).buckets k := by
      intro k e he
      unfold RHeap.put; simp only
      by_cases hk : k = findBucket a.1 s.last
      · subst hk; rw [upd_same]; simp [he]
      · rw [upd_ne _ _ _ hk]; exact he
    simp only [List.foldl_cons]
    refine ⟨j1, j2, j3, ?_, ?_, ?_, ?_⟩
    · rw [j4]; unfold RHeap.put; simp only; exact upd_ne _ _ _ (Ne.symm ha.2.2.2)
    · rw [j5, put_contents a ha.2.2.1]
      rw [← Multiset.cons_coe, Multiset.cons_add, Multiset.add_cons]
    · intro e he
      rcases List.mem_cons.1 he with rfl | he
      · apply j7
        unfold RHeap.put; simp only; rw [upd_same]; simp
      · exact j6 e he
    · intro k e he; exact j7 k e (grow k e he)

theorem firstNonEmpty_spec {W : Nat} {s : RHeap V}
    (h : ∃ k, 1 ≤ k ∧ k ≤ W ∧ s.flags k = true) :
    1 ≤ s.firstNonEmpty W ∧ s.firstNonEmpty W ≤ W ∧ s.flags (s.firstNonEmpty W) = true ∧
      ∀ k, 1 ≤ k → k < s.firstNonEmpty W → s.flags k = false := by
  unfold firstNonEmpty
  cases hf : (List.range W).find? (fun i => s.flags (i + 1)) with
  | none =>
    obtain ⟨k, h1, h2, h3⟩ := h
    have := List.find?_eq_none.1 hf (k - 1) (by simp; omega)
    rw [show k - 1 + 1 = k by omega] at this
    exact absurd h3 this
  | some i =>
    rw [List.find?_range_eq_some] at hf
    simp only at hf ⊢
    obtain ⟨h1, h2, h3⟩ := hf
    refine ⟨by omega, ?_, h1, ?_⟩
    · have := List.mem_range.1 h2; omega
    · intro k hk hk'
      have := h3 (k - 1) (by omega)
      rw [show k - 1 + 1 = k by omega] at this
      simpa using this

/-- What `pull` achieves: same contents, bucket 0 holds exactly the elements with the least
key, which is `last`. -/
theorem Inv.pull {W : Nat} {s : RHeap V} (reset : Bool) (I : Inv W s) (hne : s.size ≠ 0) :
    ∃ s', s.pull W reset = some s' ∧ Inv W s' ∧ s'.contents W = s.contents W ∧
      s'.buckets 0 ≠ [] ∧ s'.size = s.size ∧
      (s.buckets 0 = [] → reset = true → s'.mins 0 = s'.last) ∧
      (s.buckets 0 ≠ [] → s' = s) := by
  unfold RHeap.pull
  simp only [hne, if_false]
  by_cases h0 : s.buckets 0 ≠ []
  · rw [if_pos h0]
    exact ⟨s, rfl, I, rfl, h0, rfl, fun h => absurd h h0, fun _ => rfl⟩
  · have h0' : s.buckets 0 = [] := not_not.1 h0
    rw [if_neg h0]
    -- the state with the reset minimum of bucket 0
    generalize hs0 : (if reset then { s with mins := upd s.mins 0 (2 ^ W - 1) } else s) = s0
    have I0 : Inv W s0 ∧ s0.contents W = s.contents W ∧ s0.size = s.size ∧ s0.buckets = s.buckets ∧
        (reset = true → s0.mins 0 = 2 ^ W - 1) := by
      cases reset with
      | false => simp only [Bool.false_eq_true, if_false] at hs0; subst hs0; exact ⟨I, rfl, rfl, rfl, by simp⟩
      | true =>
        simp only [if_true] at hs0; subst hs0
        refine ⟨⟨I.lastlt, I.elem, I.flag, ?_, ?_, ?_, I.size⟩, rfl, rfl, rfl, ?_⟩
        · intro k hk e he
          by_cases hk0 : k = 0
          · subst hk0; simp only at he; rw [h0'] at he; simp at he
          · simp only [upd_ne _ _ _ hk0]; exact I.minle k hk e he
        · intro k h1 hk hb
          simp only [upd_ne _ _ _ (show k ≠ 0 by omega)]; exact I.minmem k h1 hk hb
        · intro k h1 hk hb
          simp only [upd_ne _ _ _ (show k ≠ 0 by omega)]; exact I.minempty k h1 hk hb
        · intro _; simp [upd_same]
    obtain ⟨I0, hc0, hsz0, hb0, hm0⟩ := I0
    have hexb : ∃ k, 1 ≤ k ∧ k ≤ W ∧ s0.flags k = true := by
      have hcard : (s0.contents W).card ≠ 0 := by rw [← I0.size, hsz0]; exact hne
      obtain ⟨e, he⟩ := Multiset.card_pos_iff_exists_mem.1 (Nat.pos_of_ne_zero hcard)
      obtain ⟨k, hk, hek⟩ := mem_contents.1 he
      have hk1 : 1 ≤ k := by
        by_contra hlt
        have : k = 0 := by omega
        subst this
        rw [hb0, h0'] at hek; simp at hek
      exact ⟨k, hk1, hk, (I0.flag k hk1 hk).2 (List.ne_nil_of_mem hek)⟩
    obtain ⟨hi1, hiW, hifl, hmin⟩ := firstNonEmpty_spec hexb
    generalize s0.firstNonEmpty W = i at hi1 hiW hifl hmin
    have hbi : s0.buckets i ≠ [] := (I0.flag i hi1 hiW).1 hifl
    have hlow : ∀ k, k < i → s0.buckets k = [] := by
      intro k hk
      by_cases hk0 : k = 0
      · subst hk0; rw [hb0]; exact h0'
      · by_contra hbk
        have := (I0.flag k (by omega) (by omega)).2 hbk
        rw [hmin k (by omega) hk] at this; simp at this
    obtain ⟨em, hem, hemm⟩ := I0.minmem i hi1 hiW hbi
    obtain ⟨q1, q2, q3⟩ := I0.elem i hiW em hem
    generalize hmv : s0.mins i = m at *
    subst hemm
    generalize hm : em.1 = m at *
    obtain ⟨i', rfl⟩ : ∃ i', i = i' + 1 := ⟨i - 1, by omega⟩
    have hLin : ∀ e ∈ s0.buckets (i' + 1), findBucket e.1 m < i' + 1 := by
      intro e he
      exact findBucket_lt_of_same (I0.elem _ hiW e he).2.2 q3
    have hstart : ∀ k, k ≤ W → k ≠ i' + 1 → BInv W { s0 with last := m } k := by
      intro k hk hki
      refine ⟨?_, fun h => I0.flag k h hk, I0.minle k hk, fun h => I0.minmem k h hk,
        fun h => I0.minempty k h hk⟩
      intro e he
      simp only at he ⊢
      rcases Nat.lt_or_ge k (i' + 1) with hlt | hge
      · rw [hlow k hlt] at he; simp at he
      · obtain ⟨r1, r2, r3⟩ := I0.elem k hk e he
        have hlt : findBucket m s0.last < findBucket e.1 s0.last := by omega
        exact ⟨r1, Nat.le_of_lt (lt_of_findBucket_lt r2 hlt), by rw [findBucket_keep hlt, r3]⟩
    obtain ⟨j1, j2, j3, j4, j5, j6, _⟩ := foldl_put (W := W) (i := i' + 1) (s0.buckets (i' + 1))
      { s0 with last := m } hstart (by
        intro e he
        obtain ⟨r1, r2, r3⟩ := I0.elem _ hiW e he
        have := hLin e he
        refine ⟨r1, ?_, by simp only; omega, by simp only; omega⟩
        have := I0.minle _ hiW e he
        simp only; omega)
    generalize hs1 : (s0.buckets (i' + 1)).foldl put { s0 with last := m } = s1 at *
    simp only at j2 j3 j4 j6
    have hcont : RHeap.contents W { s1 with
          buckets := upd s1.buckets (i' + 1) []
          flags := if i' + 1 = 0 then s1.flags else upd s1.flags (i' + 1) false
          mins := upd s1.mins (i' + 1) (2 ^ W - 1) } = s0.contents W := by
      have h1 := sum_upd W (i' + 1) hiW s1.buckets []
      change _ = s1.contents W + _ at h1
      rw [j5, j4] at h1
      unfold contents at h1 ⊢
      simp only at h1 ⊢
      rw [Multiset.coe_nil, add_zero, add_comm _ (∑ k ∈ _, _)] at h1
      exact add_right_cancel h1
    refine ⟨_, rfl, inv_iff.2 ⟨?_, ?_, ?_⟩, ?_, ?_, ?_, ?_, ?_⟩
    · simp only; rw [j2]; exact q1
    · intro k hk
      by_cases hki : k = i' + 1
      · subst hki
        refine ⟨?_, ?_, ?_, ?_, ?_⟩ <;> simp [upd_same]
      · have B := j1 k hk hki
        refine ⟨?_, ?_, ?_, ?_, ?_⟩ <;> simp only [upd_ne _ _ _ hki, Nat.succ_ne_zero, if_false]
        · exact B.elem
        · exact B.flag
        · exact B.minle
        · exact B.minmem
        · exact B.minempty
    · rw [hcont]; simp only; rw [j3, ← I0.size]
    · rw [hcont, hc0]
    · simp only [upd_ne _ _ _ (show (0:Nat) ≠ i' + 1 by omega)]
      have := j6 em hem
      rw [hm, (findBucket_zero_iff m m).2 rfl] at this
      exact List.ne_nil_of_mem this
    · simp only; rw [j3, hsz0]
    · intro _ hr
      simp only [upd_ne _ _ _ (show (0:Nat) ≠ i' + 1 by omega)]
      rw [j2]
      -- the minimum of bucket 0 was the maximal key, and all of bucket 0 equals `m`
      have key : ∀ (L : List (Nat × V)) (t : RHeap V), t.last = m →
          (t.mins 0 = 2 ^ W - 1 ∧ (∀ e ∈ L, e.1 ≠ m) ∨ (t.mins 0 = m) ∨
            (t.mins 0 = 2 ^ W - 1 ∧ ∃ e ∈ L, e.1 = m)) → m ≤ 2 ^ W - 1 →
          ((∃ e ∈ L, e.1 = m) ∨ t.mins 0 = m) → (L.foldl put t).mins 0 = m := by
        intro L
        induction L with
        | nil =>
          intro t _ _ _ h
          rcases h with ⟨e, he, _⟩ | h
          · simp at he
          · exact h
        | cons a L ih =>
          intro t hl h1 hmW h2
          simp only [List.foldl_cons]
          have hmins : (t.put a).mins 0 = if a.1 = m then min (t.mins 0) a.1 else t.mins 0 := by
            unfold RHeap.put; simp only
            by_cases ha : a.1 = m
            · have : findBucket a.1 t.last = 0 := (findBucket_zero_iff _ _).2 (by rw [ha, hl])
              rw [this, upd_same, if_pos ha]
            · have : (0:Nat) ≠ findBucket a.1 t.last := by
                intro h; exact ha (by rw [(findBucket_zero_iff _ _).1 h.symm, hl])
              rw [upd_ne _ _ _ this, if_neg ha]
          have hcase : t.mins 0 = m ∨ t.mins 0 = 2 ^ W - 1 := by
            rcases h1 with h | h | h
            · exact Or.inr h.1
            · exact Or.inl h
            · exact Or.inr h.1
          by_cases ha : a.1 = m
          · rw [if_pos ha] at hmins
            have hm' : (t.put a).mins 0 = m := by
              rw [hmins]; rcases hcase with h | h <;> omega
            exact ih (t.put a) hl (Or.inr (Or.inl hm')) hmW (Or.inr hm')
          · rw [if_neg ha] at hmins
            have h2' : (∃ e ∈ L, e.1 = m) ∨ (t.put a).mins 0 = m := by
              rcases h2 with ⟨e, he, hem⟩ | h
              · rcases List.mem_cons.1 he with rfl | he
                · exact absurd hem ha
                · exact Or.inl ⟨e, he, hem⟩
              · exact Or.inr (by rw [hmins]; exact h)
            refine ih (t.put a) hl ?_ hmW h2'
            rcases hcase with h | h
            · exact Or.inr (Or.inl (by rw [hmins]; exact h))
            · rcases h2' with h2' | h2'
              · exact Or.inr (Or.inr ⟨by rw [hmins]; exact h, h2'⟩)
              · exact Or.inr (Or.inl h2')
      rw [← hs1]
      exact key _ { s0 with last := m } rfl (Or.inr (Or.inr ⟨hm0 hr, em, hem, hm⟩)) (by omega)
        (Or.inl ⟨em, hem, hm⟩)
    · intro h; exact absurd h h0

/-- With bucket 0 non-empty, `last` is the least key held and bucket 0 is exactly the elements
with that key. -/
theorem Inv.front {W : Nat} {s : RHeap V} (I : Inv W s) (h : s.buckets 0 ≠ []) :
    (∀ e ∈ s.buckets 0, e.1 = s.last ∧ e ∈ s.contents W) ∧
    (∀ e ∈ s.contents W, s.last ≤ e.1) ∧
    (∀ e ∈ s.contents W, e.1 = s.last → e ∈ s.buckets 0) ∧
    (∃ e ∈ s.contents W, e.1 = s.last) := by
  have h0 : ∀ e ∈ s.buckets 0, e.1 = s.last ∧ e ∈ s.contents W := by
    intro e he
    exact ⟨(findBucket_zero_iff _ _).1 (I.elem 0 (by omega) e he).2.2,
      mem_contents.2 ⟨0, by omega, he⟩⟩
  refine ⟨h0, ?_, ?_, ?_⟩
  · intro e he
    obtain ⟨k, hk, hek⟩ := mem_contents.1 he
    exact (I.elem k hk e hek).2.1
  · intro e he hl
    obtain ⟨k, hk, hek⟩ := mem_contents.1 he
    have := (I.elem k hk e hek).2.2
    rw [hl, (findBucket_zero_iff _ _).2 rfl] at this
    subst this; exact hek
  · obtain ⟨e, he⟩ := List.exists_mem_of_ne_nil _ h
    exact ⟨e, (h0 e he).2, (h0 e he).1⟩

/-- Replacing bucket 0 by a part of it. -/
theorem Inv.shrink0 {W : Nat} {s : RHeap V} (I : Inv W s) (L : List (Nat × V)) (R : Multiset (Nat × V))
    (hL : (s.buckets 0 : Multiset (Nat × V)) = L + R) (hsub : ∀ e ∈ L, e ∈ s.buckets 0) :
    let s' : RHeap V := { s with buckets := upd s.buckets 0 L, size := s.size - R.card }
    Inv W s' ∧ s.contents W = s'.contents W + R := by
  intro s'
  have hc : s.contents W = s'.contents W + R := by
    have h1 := sum_upd W 0 (by omega) s.buckets L
    change s'.contents W + _ = s.contents W + _ at h1
    rw [hL, add_comm (L : Multiset (Nat × V)) R, ← add_assoc] at h1
    exact (add_right_cancel h1).symm
  refine ⟨?_, hc⟩
  obtain ⟨i1, i2, i3⟩ := inv_iff.1 I
  refine inv_iff.2 ⟨i1, ?_, ?_⟩
  · intro k hk
    by_cases hk0 : k = 0
    · subst hk0
      refine ⟨?_, by intro h; omega, ?_, by intro h; omega, by intro h; omega⟩
      · intro e he
        have he' : e ∈ L := by simpa [s', upd_same] using he
        exact (i2 0 hk).elem e (hsub e he')
      · intro e he
        have he' : e ∈ L := by simpa [s', upd_same] using he
        exact (i2 0 hk).minle e (hsub e he')
    · have B := i2 k hk
      have hb : s'.buckets k = s.buckets k := upd_ne _ _ _ hk0
      refine ⟨?_, ?_, ?_, ?_, ?_⟩ <;> rw [hb]
      · exact B.elem
      · exact B.flag
      · exact B.minle
      · exact B.minmem
      · exact B.minempty
  · have := congrArg Multiset.card hc
    rw [Multiset.card_add, ← i3] at this
    simp only [s'] at *; omega

end RHeap
end RichDEM
