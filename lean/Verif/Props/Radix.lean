import Verif.DS.Radix
import Verif.Props.Encoder

/-!
C30: the radix heap as a monotone priority queue.
-/

namespace RichDEM

variable {V : Type}

/-- Heaps reachable by any sequence of calls in which no key smaller than the key last
returned by `top`/`pop` (kept in `last`, initially 0) is pushed.  `reset = true` is
`pair_radix_heap`, `reset = false` is `radix_heap`. -/
inductive HReach (W : Nat) (reset : Bool) : RHeap V → Prop
  | start : HReach W reset (RHeap.empty W)
  | push (s s' x v) : HReach W reset s → x < 2 ^ W → s.push x v = some s' → HReach W reset s'
  | top (s s' k) : HReach W reset s → s.topKey W reset = some (k, s') → HReach W reset s'
  | topv (s s' v) : HReach W reset s → s.topValue W reset = some (v, s') → HReach W reset s'
  | pop (s s') : HReach W reset s → s.pop W reset = some s' → HReach W reset s'
  | extract (s s' l) : HReach W reset s → s.extractTop W reset = some (l, s') → HReach W reset s'
  | clear (s) : HReach W reset s → HReach W reset (s.clear W)

namespace RHeap

/-- The bucket-0 minimum is only ever stale as "no key yet" (`pair_radix_heap`). -/
def MinOk (W : Nat) (s : RHeap V) : Prop :=
  s.mins 0 = s.last ∨ (s.mins 0 = 2 ^ W - 1 ∧ s.buckets 0 = [])

theorem pull_minOk {W : Nat} {s s' : RHeap V} (I : Inv W s) (M : MinOk W s)
    (h : s.pull W true = some s') : MinOk W s' := by
  have hne : s.size ≠ 0 := by intro h0; simp [RHeap.pull, h0] at h
  obtain ⟨t, e, I', hc, hb, hsz, hm, hk⟩ := I.pull true hne
  rw [e] at h; cases h
  by_cases h0 : s.buckets 0 = []
  · exact Or.inl (hm h0 rfl)
  · rw [hk h0]; exact M

theorem pop_spec {W : Nat} {reset : Bool} {s : RHeap V} (I : Inv W s) (hne : s.size ≠ 0) :
    ∃ s1 e, s.pull W reset = some s1 ∧ (s1.buckets 0).getLast? = some e ∧
      ∃ s', s.pop W reset = some s' ∧ Inv W s' ∧ s.contents W = e ::ₘ s'.contents W ∧
        s'.last = s1.last ∧ s'.mins = s1.mins ∧ e ∈ s1.buckets 0 ∧
        s'.buckets 0 = (s1.buckets 0).dropLast := by
  obtain ⟨s1, e1, I1, hc, hb, hsz, _, _⟩ := I.pull reset hne
  have hl := List.dropLast_append_getLast hb
  obtain ⟨I2, hc2⟩ := I1.shrink0 (s1.buckets 0).dropLast {(s1.buckets 0).getLast hb} (by
    conv_lhs => rw [← hl]
    rw [← Multiset.coe_add, Multiset.coe_singleton]) (fun e he => List.dropLast_subset _ he)
  refine ⟨s1, _, e1, List.getLast?_eq_some_getLast hb, _, ?_, I2, ?_, rfl, rfl,
    List.getLast_mem hb, ?_⟩
  · unfold RHeap.pop; rw [e1]; simp [hb]
  · rw [← hc, hc2, add_comm, Multiset.singleton_add]
  · simp [upd_same]

theorem extract_spec {W : Nat} {reset : Bool} {s : RHeap V} (I : Inv W s) (hne : s.size ≠ 0) :
    ∃ s1 s', s.pull W reset = some s1 ∧ s.extractTop W reset = some (s1.buckets 0, s') ∧
      Inv W s' ∧ s.contents W = s'.contents W + (s1.buckets 0 : Multiset (Nat × V)) ∧
      s'.last = s1.last ∧ s'.mins = s1.mins ∧ s'.buckets 0 = [] := by
  obtain ⟨s1, e1, I1, hc, hb, hsz, _, _⟩ := I.pull reset hne
  obtain ⟨I2, hc2⟩ := I1.shrink0 [] (s1.buckets 0 : Multiset (Nat × V)) (by simp) (by simp)
  refine ⟨s1, _, e1, ?_, I2, ?_, rfl, rfl, ?_⟩
  · unfold RHeap.extractTop; rw [e1]; simp
  · rw [← hc, hc2]
  · simp [upd_same]

end RHeap

open RHeap

theorem HReach.inv {W : Nat} {reset : Bool} {s : RHeap V} (R : HReach W reset s) :
    Inv W s ∧ (reset = true → MinOk W s) := by
  induction R with
  | start => exact ⟨inv_empty W, fun _ => Or.inr ⟨rfl, rfl⟩⟩
  | push s s' x v _ hx he ih =>
    obtain ⟨I, M⟩ := ih
    have hl : s.last ≤ x := by
      by_contra h; simp [RHeap.push, h] at he
    obtain ⟨s1, e1, I1, _, hlast⟩ := I.push hx hl v
    rw [e1] at he; simp only [Option.some.injEq] at he; subst he
    refine ⟨I1, fun hr => ?_⟩
    have hM := M hr
    have es : s1 = ({ s with size := s.size + 1 } : RHeap V).put (x, v) := by
      unfold RHeap.push at e1; rw [if_pos hl] at e1; exact (Option.some.inj e1).symm
    by_cases h0 : x = s.last
    · left
      have hb : findBucket x s.last = 0 := (findBucket_zero_iff _ _).2 h0
      rw [es]; unfold RHeap.put; simp only [hb, upd_same]
      have := I.lastlt
      rcases hM with h | h
      · rw [h]; omega
      · rw [h.1]; omega
    · have hb : (0 : Nat) ≠ findBucket x s.last := fun h => h0 ((findBucket_zero_iff _ _).1 h.symm)
      unfold MinOk
      rw [es]; unfold RHeap.put; simp only [upd_ne _ _ _ hb]
      exact hM
  | top s s' k _ he ih =>
    obtain ⟨I, M⟩ := ih
    simp only [RHeap.topKey, Option.map_eq_some_iff] at he
    obtain ⟨s1, e1, h2⟩ := he
    cases h2
    have hne : s.size ≠ 0 := by intro h0; simp [RHeap.pull, h0] at e1
    obtain ⟨t, e, I', _⟩ := I.pull reset hne
    rw [e] at e1; cases e1
    exact ⟨I', fun hr => by subst hr; exact pull_minOk I (M rfl) e⟩
  | topv s s' v _ he ih =>
    obtain ⟨I, M⟩ := ih
    simp only [RHeap.topValue, Option.bind_eq_some_iff, Option.map_eq_some_iff] at he
    obtain ⟨s1, e1, _, _, h2⟩ := he
    cases h2
    have hne : s.size ≠ 0 := by intro h0; simp [RHeap.pull, h0] at e1
    obtain ⟨t, e, I', _⟩ := I.pull reset hne
    rw [e] at e1; cases e1
    exact ⟨I', fun hr => by subst hr; exact pull_minOk I (M rfl) e⟩
  | pop s s' _ he ih =>
    obtain ⟨I, M⟩ := ih
    have hne : s.size ≠ 0 := by intro h0; simp [RHeap.pop, RHeap.pull, h0] at he
    obtain ⟨s1, e, e1, _, s2, e2, I2, _, l2, m2, _, b2⟩ := pop_spec (reset := reset) I hne
    rw [e2] at he; cases he
    refine ⟨I2, fun hr => ?_⟩
    subst hr
    rcases pull_minOk I (M rfl) e1 with h | h
    · left; rw [m2, l2]; exact h
    · right; rw [m2, b2, h.2]; exact ⟨h.1, rfl⟩
  | extract s s' l _ he ih =>
    obtain ⟨I, M⟩ := ih
    have hne : s.size ≠ 0 := by intro h0; simp [RHeap.extractTop, RHeap.pull, h0] at he
    obtain ⟨s1, s2, e1, e2, I2, _, l2, m2, b2⟩ := extract_spec (reset := reset) I hne
    rw [e2] at he; cases he
    refine ⟨I2, fun hr => ?_⟩
    subst hr
    rcases pull_minOk I (M rfl) e1 with h | h
    · left; rw [m2, l2]; exact h
    · right; rw [m2, b2]; exact ⟨h.1, rfl⟩
  | clear s _ ih => exact ⟨inv_empty W, fun _ => Or.inr ⟨rfl, rfl⟩⟩

/-- **C30.** `size()` is the number of elements held. -/
theorem C30_size {W : Nat} {reset : Bool} {s : RHeap V} (R : HReach W reset s) :
    s.size = (s.contents W).card := R.inv.1.size

/-- **C30.** A push of a key not below the last key returned succeeds and adds exactly that
key and value. -/
theorem C30_push {W : Nat} {reset : Bool} {s : RHeap V} (R : HReach W reset s) (x : Nat) (v : V)
    (hx : x < 2 ^ W) (hl : s.last ≤ x) :
    ∃ s', s.push x v = some s' ∧ HReach W reset s' ∧
      s'.contents W = (x, v) ::ₘ s.contents W := by
  obtain ⟨s', e, _, hc, _⟩ := R.inv.1.push hx hl v
  exact ⟨s', e, .push s s' x v R hx e, hc⟩

/-- **C30.** `top` on a non-empty heap returns the least key held, and changes nothing that is
held. -/
theorem C30_top {W : Nat} {reset : Bool} {s : RHeap V} (R : HReach W reset s)
    (hne : s.contents W ≠ 0) :
    ∃ k s', s.topKey W reset = some (k, s') ∧ HReach W reset s' ∧
      s'.contents W = s.contents W ∧ (∃ v, (k, v) ∈ s.contents W) ∧
      (∀ e ∈ s.contents W, k ≤ e.1) ∧ s'.last = k := by
  have hsz : s.size ≠ 0 := by rw [C30_size R]; exact fun h => hne (Multiset.card_eq_zero.1 h)
  obtain ⟨s', e, I', hc, hb, _⟩ := R.inv.1.pull reset hsz
  obtain ⟨_, f2, _, ⟨⟨k, v⟩, f4, f5⟩⟩ := I'.front hb
  have ht : s.topKey W reset = some (s'.last, s') := by unfold RHeap.topKey; rw [e]; rfl
  refine ⟨s'.last, s', ht, .top _ _ _ R ht, hc, ?_, ?_, rfl⟩
  · simp only at f5; subst f5; exact ⟨v, hc ▸ f4⟩
  · rw [← hc]; exact f2

/-- **C30.** `top_value` names a value stored under the least key, and `pop` then removes
exactly that element. -/
theorem C30_pop {W : Nat} {reset : Bool} {s : RHeap V} (R : HReach W reset s)
    (hne : s.contents W ≠ 0) :
    ∃ k v s1 s', s.topValue W reset = some (v, s1) ∧ s.pop W reset = some s' ∧
      HReach W reset s' ∧ s.contents W = (k, v) ::ₘ s'.contents W ∧
      (∀ e ∈ s.contents W, k ≤ e.1) ∧ s'.last = k := by
  have hsz : s.size ≠ 0 := by rw [C30_size R]; exact fun h => hne (Multiset.card_eq_zero.1 h)
  obtain ⟨s1, ⟨k, v⟩, e1, hlast, s', e2, I2, hc, hl2, _, hmem, _⟩ :=
    pop_spec (reset := reset) R.inv.1 hsz
  obtain ⟨t, e1', I1, hc1, hb, _⟩ := R.inv.1.pull reset hsz
  rw [e1] at e1'; cases e1'
  obtain ⟨f1, f2, _⟩ := I1.front hb
  have hk := (f1 _ hmem).1
  simp only at hk
  refine ⟨k, v, s1, s', ?_, e2, .pop _ _ R e2, hc, ?_, ?_⟩
  · unfold RHeap.topValue; rw [e1]; simp [hlast]
  · rw [hk, ← hc1]; exact f2
  · rw [hl2, hk]

/-- **C30.** `extract_top_values` removes and returns exactly the elements with the least
key. -/
theorem C30_extract {W : Nat} {reset : Bool} {s : RHeap V} (R : HReach W reset s)
    (hne : s.contents W ≠ 0) :
    ∃ k l s', s.extractTop W reset = some (l, s') ∧ HReach W reset s' ∧
      s.contents W = s'.contents W + (l : Multiset (Nat × V)) ∧ l ≠ [] ∧
      (∀ e ∈ l, e.1 = k) ∧ (∀ e ∈ s'.contents W, k < e.1) := by
  have hsz : s.size ≠ 0 := by rw [C30_size R]; exact fun h => hne (Multiset.card_eq_zero.1 h)
  obtain ⟨s1, s', e1, e2, I2, hc, hl2, _, hb2⟩ := extract_spec (reset := reset) R.inv.1 hsz
  obtain ⟨t, e1', I1, hc1, hb, _⟩ := R.inv.1.pull reset hsz
  rw [e1] at e1'; cases e1'
  obtain ⟨f1, f2, _⟩ := I1.front hb
  refine ⟨s1.last, _, s', e2, .extract _ _ _ R e2, hc, hb, fun e he => (f1 e he).1, ?_⟩
  intro e he
  obtain ⟨k, hk, hek⟩ := mem_contents.1 he
  obtain ⟨_, h2, h3⟩ := I2.elem k hk e hek
  rw [hl2] at h2 h3
  rcases Nat.eq_or_lt_of_le h2 with h | h
  · rw [← h, (findBucket_zero_iff _ _).2 rfl] at h3
    subst h3; rw [hb2] at hek; simp at hek
  · exact h

/-- **C30.** `pair_radix_heap::min_key` returns the least key held. -/
theorem C30_min_key {W : Nat} {s : RHeap V} (R : HReach W true s) (hne : s.contents W ≠ 0) :
    ∃ k, s.minKey W = some k ∧ (∃ v, (k, v) ∈ s.contents W) ∧ ∀ e ∈ s.contents W, k ≤ e.1 := by
  obtain ⟨I, M⟩ := R.inv
  have hsz : s.size ≠ 0 := by rw [C30_size R]; exact fun h => hne (Multiset.card_eq_zero.1 h)
  unfold RHeap.minKey
  simp only [hsz, if_false]
  by_cases h0 : s.buckets 0 = []
  · simp only [h0, if_true]
    have hexb : ∃ k, 1 ≤ k ∧ k ≤ W ∧ s.flags k = true := by
      obtain ⟨e, he⟩ := Multiset.exists_mem_of_ne_zero hne
      obtain ⟨k, hk, hek⟩ := mem_contents.1 he
      have hk1 : 1 ≤ k := by
        by_contra hlt
        have : k = 0 := by omega
        subst this; rw [h0] at hek; simp at hek
      exact ⟨k, hk1, hk, (I.flag k hk1 hk).2 (List.ne_nil_of_mem hek)⟩
    obtain ⟨hi1, hiW, hifl, hmin⟩ := firstNonEmpty_spec hexb
    generalize s.firstNonEmpty W = i at *
    obtain ⟨⟨k, v⟩, hem, hemm⟩ := I.minmem i hi1 hiW ((I.flag i hi1 hiW).1 hifl)
    refine ⟨s.mins i, rfl, ⟨v, ?_⟩, ?_⟩
    · simp only at hemm; rw [← hemm]; exact mem_contents.2 ⟨i, hiW, hem⟩
    · intro e he
      obtain ⟨j, hj, hej⟩ := mem_contents.1 he
      rcases Nat.lt_trichotomy j i with hlt | heq | hgt
      · by_cases hj0 : j = 0
        · subst hj0; rw [h0] at hej; simp at hej
        · have := (I.flag j (by omega) hj).2 (List.ne_nil_of_mem hej)
          rw [hmin j (by omega) hlt] at this; simp at this
      · subst heq; exact I.minle j hj e hej
      · have h1 := (I.elem i hiW _ hem)
        have h2 := (I.elem j hj e hej)
        rw [← hemm]
        exact Nat.le_of_lt (lt_of_findBucket_lt h2.2.1 (by omega))
  · simp only [h0, if_false]
    obtain ⟨f1, f2, _, ⟨⟨k, v⟩, f4, f5⟩⟩ := I.front h0
    have hm : s.mins 0 = s.last := by
      rcases M rfl with h | h
      · exact h
      · exact absurd h.2 h0
    refine ⟨_, rfl, ⟨v, ?_⟩, ?_⟩
    · simp only at f5; rw [hm, ← f5]; exact f4
    · rw [hm]; exact f2

/-- **C30 is false of `radix_heap::min()`**: after `push 1; push 2; pop; top` only the key 2 is
held, `top` is 2, but `min` still reports 1 (the minimum of bucket 0 is never reset). -/
theorem C30_min_stale_in_radix_heap :
    ∃ s : RHeap Unit, HReach 32 false s ∧ s.contents 32 = {(2, ())} ∧ s.minKey 32 = some 1 := by
  let go : Option (RHeap Unit) :=
    (RHeap.push (RHeap.empty 32) 1 ()).bind fun s => (s.push 2 ()).bind fun s =>
      (s.pop 32 false).bind fun s => (s.topKey 32 false).map (·.2)
  have h1 : ∃ s, go = some s ∧ s.minKey 32 = some 1 ∧
      (List.range 33).flatMap s.buckets = [(2, ())] := by
    have : (go.map fun s => (s.minKey 32, (List.range 33).flatMap s.buckets)) =
        some (some 1, [(2, ())]) := by decide +kernel
    cases hg : go with
    | none => rw [hg] at this; simp at this
    | some s =>
      rw [hg] at this
      simp only [Option.map_some, Option.some.injEq, Prod.mk.injEq] at this
      exact ⟨s, rfl, this.1, this.2⟩
  obtain ⟨s, hg, hmin, hcont⟩ := h1
  refine ⟨s, ?_, ?_, hmin⟩
  · simp only [go, Option.bind_eq_some_iff, Option.map_eq_some_iff] at hg
    obtain ⟨a, ha, b, hb, c, hc, ⟨k, d⟩, hd, rfl⟩ := hg
    exact .top _ _ _ (.pop _ _ (.push _ _ _ _ (.push _ _ _ _ .start (by decide) ha)
      (by decide) hb) hc) hd
  · unfold RHeap.contents
    have : ∀ (b : Nat → List (Nat × Unit)) n, (∑ k ∈ Finset.range n, (b k : Multiset (Nat × Unit)))
        = ((List.range n).flatMap b : List (Nat × Unit)) := by
      intro b n
      induction n with
      | zero => rfl
      | succ n ih =>
        rw [Finset.sum_range_succ, ih, List.range_succ, List.flatMap_append, ← Multiset.coe_add]
        simp
    rw [this, hcont]; rfl

/-- **C30 for the key types.** Because the encodings preserve order (C31), a least code is a
least key; here for `float`/`double` keys that are not NaN. -/
theorem C30_least_code_is_least_value (p : Nat) {W : Nat} (hp : p + 1 < W)
    (keys : List (BitVec W)) (hn : ∀ u ∈ keys, ¬ ieeeNaN p u) (k : BitVec W) (hk : k ∈ keys)
    (hle : ∀ u ∈ keys, (encodeDecimal k).toNat ≤ (encodeDecimal u).toNat) :
    ∀ u ∈ keys, ieeeVal p k ≤ ieeeVal p u := by
  intro u hu
  by_contra hc
  have := (C31_decimal p hp u k (hn u hu) (hn k hk)).1 (by omega)
  rw [BitVec.lt_def] at this
  have := hle u hu
  omega

/-- Non-vacuity: a heap with several keys, popped in order, values travelling with keys. -/
example :
    ((((RHeap.empty 32).push 9 "nine").bind fun s => (s.push 4 "four").bind fun s =>
      (s.push 700 "big").bind fun s => (s.pop 32 true).bind fun s => (s.push 5 "five").bind fun s =>
      (s.pop 32 true).bind fun s => (s.topValue 32 true).map fun r => (r.1, r.2.last, r.2.size)) :
      Option (String × Nat × Nat)) = some ("nine", 9, 2) := by decide +kernel

end RichDEM
