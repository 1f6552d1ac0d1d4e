/-
`pair_radix_heap` (include/richdem/common/radix_heap.hpp) returns equal keys last in, first out: it refines a stack from which
the first of the entries of least key is taken.
-/
import Verif.DS.Radix
import Verif.Props.Radix

namespace RichDEM

/-! ### Specification: a stack with the least key first -/

/-- The first entry of least key, and the others in their order. -/
def lifoPop {K V : Type*} [LinearOrder K] : List (K × V) → Option ((K × V) × List (K × V))
  | [] => none
  | a :: t =>
    match lifoPop t with
    | none => some (a, [])
    | some (e, r) => if e.1 < a.1 then some (e, a :: r) else some (a, t)

theorem lifoPop_eq_none {K V : Type*} [LinearOrder K] {l : List (K × V)} : lifoPop l = none ↔ l = [] := by
  cases l with
  | nil => simp [lifoPop]
  | cons a t =>
    simp only [lifoPop]
    cases lifoPop t with
    | none => simp
    | some p => simp only; split <;> simp

theorem lifoPop_split {K V : Type*} [LinearOrder K] :
    ∀ {l : List (K × V)} {e r}, lifoPop l = some (e, r) →
      ∃ A B, l = A ++ e :: B ∧ r = A ++ B ∧ (∀ x ∈ A, e.1 < x.1) ∧ ∀ x ∈ B, e.1 ≤ x.1 := by
  intro l
  induction l with
  | nil => intro e r h; simp [lifoPop] at h
  | cons a t ih =>
    intro e r h
    simp only [lifoPop] at h
    cases hp : lifoPop t with
    | none =>
      rw [hp] at h
      simp only [Option.some.injEq, Prod.mk.injEq] at h
      obtain ⟨rfl, rfl⟩ := h
      rw [lifoPop_eq_none] at hp
      exact ⟨[], [], by simp [hp], rfl, by simp, by simp⟩
    | some p =>
      obtain ⟨e', r'⟩ := p
      rw [hp] at h
      obtain ⟨A, B, h1, h2, h3, h4⟩ := ih hp
      simp only at h
      split at h
      · rename_i hlt
        simp only [Option.some.injEq, Prod.mk.injEq] at h
        obtain ⟨rfl, rfl⟩ := h
        refine ⟨a :: A, B, by rw [h1]; rfl, by rw [h2]; rfl, ?_, h4⟩
        intro x hx
        rcases List.mem_cons.1 hx with rfl | hx
        · exact hlt
        · exact h3 x hx
      · rename_i hlt
        simp only [Option.some.injEq, Prod.mk.injEq] at h
        obtain ⟨rfl, rfl⟩ := h
        refine ⟨[], t, rfl, rfl, by simp, ?_⟩
        intro x hx
        rw [h1, List.mem_append, List.mem_cons] at hx
        have hge := not_lt.1 hlt
        rcases hx with hx | rfl | hx
        · exact hge.trans (h3 x hx).le
        · exact hge
        · exact hge.trans (h4 x hx)

theorem lifoPop_unique {K V : Type*} [LinearOrder K] {A B : List (K × V)} {e : K × V}
    (h1 : ∀ x ∈ A, e.1 < x.1) (h2 : ∀ x ∈ B, e.1 ≤ x.1) : lifoPop (A ++ e :: B) = some (e, A ++ B) := by
  induction A with
  | nil =>
    simp only [List.nil_append, lifoPop]
    cases hp : lifoPop B with
    | none => rw [lifoPop_eq_none] at hp; rw [hp]
    | some p =>
      obtain ⟨e', r'⟩ := p
      obtain ⟨A', B', k1, _⟩ := lifoPop_split hp
      simp only
      rw [if_neg]
      exact not_lt.2 (h2 e' (by rw [k1]; simp))
  | cons a A ih =>
    simp only [List.cons_append, lifoPop]
    rw [ih (fun x hx => h1 x (List.mem_cons_of_mem _ hx))]
    simp only
    rw [if_pos (h1 a List.mem_cons_self)]

/-- A call on the queue. -/
inductive QOp (V : Type)
  | push (x : Nat) (v : V)
  | pop

/-- The stack: `last` is the key last returned; a push below it is refused, as is a pop of nothing. -/
def stackOp {V : Type} (st : Nat × List (Nat × V)) : QOp V → Option (Option (Nat × V) × (Nat × List (Nat × V)))
  | .push x v => if st.1 ≤ x then some (none, (st.1, (x, v) :: st.2)) else none
  | .pop => (lifoPop st.2).map fun p => (some p.1, (p.1.1, p.2))

/-- `top_value()`, `top_key()` and `pop()` in the order of depression_hierarchy.hpp:431-433, or `emplace` (:379,:385,:482). -/
def heapOp {V : Type} (W : Nat) (s : RHeap V) : QOp V → Option (Option (Nat × V) × RHeap V)
  | .push x v => (s.push x v).map fun s => (none, s)
  | .pop => (s.topValue W true).bind fun p => (p.2.topKey W true).bind fun k => (k.2.pop W true).map fun s' => (some (k.1, p.1), s')

/-- The answers of a sequence of calls, `none` if a call fails. -/
def answers {S V A : Type} (op : S → QOp V → Option (A × S)) : S → List (QOp V) → Option (List A)
  | _, [] => some []
  | s, o :: os => (op s o).bind fun p => (answers op p.2 os).map fun l => p.1 :: l

namespace RHeap
variable {V : Type}

/-- The entries of key `k`, oldest first. -/
def same (s : RHeap V) (k : Nat) : List (Nat × V) := (s.buckets (findBucket k s.last)).filter (fun e => e.1 == k)

theorem foldl_put_buckets : ∀ (L : List (Nat × V)) (s : RHeap V) (j : Nat),
    (L.foldl put s).buckets j = s.buckets j ++ L.filter (fun e => findBucket e.1 s.last == j) := by
  intro L
  induction L with
  | nil => intro s j; simp
  | cons a L ih =>
    intro s j
    rw [List.foldl_cons, ih, put_last, List.filter_cons]
    unfold put
    simp only
    by_cases hj : findBucket a.1 s.last = j
    · rw [hj, upd_same]; simp
    · rw [upd_ne _ _ _ (Ne.symm hj)]
      have : (findBucket a.1 s.last == j) = false := by simpa using hj
      simp [this]

theorem foldl_put_last : ∀ (L : List (Nat × V)) (s : RHeap V), (L.foldl put s).last = s.last := by
  intro L
  induction L with
  | nil => intro s; rfl
  | cons a L ih => intro s; rw [List.foldl_cons, ih, put_last]

theorem same_push {W : Nat} {s s' : RHeap V} {x : Nat} {v : V} (hp : s.push x v = some s') (k : Nat) :
    s'.same k = s.same k ++ (if k = x then [(x, v)] else []) := by
  unfold push at hp
  split at hp
  · cases hp
    unfold same
    rw [put_last]
    unfold put
    simp only
    by_cases hk : findBucket k s.last = findBucket x s.last
    · rw [hk, upd_same, List.filter_append]
      congr 1
      by_cases hkx : k = x
      · simp [hkx]
      · simp [hkx, Ne.symm hkx]
    · rw [upd_ne _ _ _ hk]
      have : k ≠ x := fun h => hk (by rw [h])
      simp [this]
  · cases hp

theorem Inv.same_pull {W : Nat} {s s' : RHeap V} (I : Inv W s) (hp : s.pull W true = some s') (k : Nat) (hk : k < 2 ^ W) :
    s'.same k = s.same k := by
  have hne : s.size ≠ 0 := by intro h0; simp [RHeap.pull, h0] at hp
  obtain ⟨s1, e1, I1, _, _, _, _, h7⟩ := I.pull true hne
  rw [e1] at hp; cases hp
  by_cases h0 : s.buckets 0 ≠ []
  · rw [h7 h0]
  have h0' : s.buckets 0 = [] := not_not.1 h0
  have hexb : ∃ k, 1 ≤ k ∧ k ≤ W ∧ s.flags k = true := by
    have hcard : (s.contents W).card ≠ 0 := by rw [← I.size]; exact hne
    obtain ⟨e, he⟩ := Multiset.card_pos_iff_exists_mem.1 (Nat.pos_of_ne_zero hcard)
    obtain ⟨k, hk, hek⟩ := mem_contents.1 he
    have hk1 : 1 ≤ k := by
      by_contra hlt
      have : k = 0 := by omega
      subst this
      rw [h0'] at hek; simp at hek
    exact ⟨k, hk1, hk, (I.flag k hk1 hk).2 (List.ne_nil_of_mem hek)⟩
  obtain ⟨hi1, hiW, hifl, hmin⟩ := firstNonEmpty_spec hexb
  have es : s' = (let s0 : RHeap V := { s with mins := upd s.mins 0 (2 ^ W - 1) }
      let i := s0.firstNonEmpty W
      let t := (s0.buckets i).foldl put { s0 with last := s0.mins i }
      { t with buckets := upd t.buckets i []
               flags := if i = 0 then t.flags else upd t.flags i false
               mins := upd t.mins i (2 ^ W - 1) }) := by
    unfold RHeap.pull at e1
    rw [if_neg hne, if_neg h0] at e1
    exact (Option.some.inj e1).symm
  have hfn : ({ s with mins := upd s.mins 0 (2 ^ W - 1) } : RHeap V).firstNonEmpty W = s.firstNonEmpty W := rfl
  simp only [hfn] at es
  generalize hi : s.firstNonEmpty W = i at *
  have hbi : s.buckets i ≠ [] := (I.flag i hi1 hiW).1 hifl
  have hlow : ∀ k, k < i → s.buckets k = [] := by
    intro k hk
    by_cases hk0 : k = 0
    · subst hk0; exact h0'
    · by_contra hbk
      have := (I.flag k (by omega) (by omega)).2 hbk
      rw [hmin k (by omega) hk] at this; simp at this
  obtain ⟨em, hem, hemm⟩ := I.minmem i hi1 hiW hbi
  obtain ⟨q1, q2, q3⟩ := I.elem i hiW em hem
  rw [upd_ne _ _ _ (show i ≠ 0 by omega), ← hemm] at es
  have hl : s'.last = em.1 := by
    rw [es]
    show ((s.buckets i).foldl put _).last = _
    rw [foldl_put_last]
  have hb : ∀ j, s'.buckets j = if j = i then [] else s.buckets j ++ (s.buckets i).filter (fun e => findBucket e.1 em.1 == j) := by
    intro j
    rw [es]
    show upd ((s.buckets i).foldl put _).buckets i [] j = _
    by_cases hj : j = i
    · rw [hj, upd_same, if_pos rfl]
    · rw [upd_ne _ _ _ hj, if_neg hj, foldl_put_buckets]
  have hother : ∀ j, j ≤ W → j ≠ findBucket k s.last → (s.buckets j).filter (fun e => e.1 == k) = [] := by
    intro j hj hne
    rw [List.filter_eq_nil_iff]
    intro e he hek
    have := (I.elem j hj e he).2.2
    rw [eq_of_beq hek] at this
    exact hne this.symm
  have hkW : findBucket k em.1 ≤ W := findBucket_le_width hk q1
  have hkW' : findBucket k s.last ≤ W := findBucket_le_width hk I.lastlt
  unfold same
  rw [hl, hb]
  rcases Nat.lt_trichotomy (findBucket k s.last) i with hlt | heq | hgt
  · rw [hlow _ hlt]
    split
    · rfl
    · rename_i hne
      rw [List.filter_append, List.filter_filter]
      have h1 : (s.buckets i).filter (fun e => e.1 == k && findBucket e.1 em.1 == findBucket k em.1) = [] := by
        have := hother i hiW (by omega)
        rw [List.filter_eq_nil_iff] at this ⊢
        intro e he h2
        rw [Bool.and_eq_true] at h2
        exact this e he h2.1
      rw [h1, List.append_nil]
      by_cases hlo : findBucket k em.1 < i
      · rw [hlow _ hlo]
      · exact hother _ hkW (by omega)
  · have hlt : findBucket k em.1 < i := by
      obtain ⟨j, rfl⟩ : ∃ j, i = j + 1 := ⟨i - 1, by omega⟩
      exact findBucket_lt_of_same heq q3
    rw [if_neg (by omega), hlow _ hlt, List.nil_append, List.filter_filter, heq]
    apply List.filter_congr
    intro e he
    by_cases hek : e.1 = k
    · simp [hek]
    · simp [hek]
  · have hkeep : findBucket k em.1 = findBucket k s.last := findBucket_keep (by omega)
    rw [hkeep, if_neg (by omega), List.filter_append, List.filter_filter]
    have h1 : (s.buckets i).filter (fun e => e.1 == k && findBucket e.1 em.1 == findBucket k s.last) = [] := by
      have := hother i hiW (by omega)
      rw [List.filter_eq_nil_iff] at this ⊢
      intro e he h2
      rw [Bool.and_eq_true] at h2
      exact this e he h2.1
    rw [h1, List.append_nil]

theorem Inv.same_front {W : Nat} {s : RHeap V} (I : Inv W s) : s.same s.last = s.buckets 0 := by
  unfold same
  rw [(findBucket_zero_iff _ _).2 rfl, List.filter_eq_self]
  intro e he
  have := (findBucket_zero_iff _ _).1 (I.elem 0 (by omega) e he).2.2
  simp [this]

/-- The heap holds the entries of the stack, those of equal key in order. -/
structure Stacked (W : Nat) (s : RHeap V) (st : Nat × List (Nat × V)) : Prop where
  inv : Inv W s
  last : s.last = st.1
  lt : ∀ e ∈ st.2, e.1 < 2 ^ W
  same : ∀ k, k < 2 ^ W → st.2.filter (fun e => e.1 == k) = (s.same k).reverse

theorem Stacked.mem {W : Nat} {s : RHeap V} {st : Nat × List (Nat × V)} (R : Stacked W s st) {e : Nat × V} :
    e ∈ st.2 ↔ e ∈ s.contents W := by
  rw [mem_contents]
  constructor
  · intro he
    have hlt := R.lt e he
    have : e ∈ st.2.filter (fun x => x.1 == e.1) := by rw [List.mem_filter]; exact ⟨he, by simp⟩
    rw [R.same e.1 hlt, List.mem_reverse, RHeap.same, List.mem_filter] at this
    exact ⟨_, findBucket_le_width hlt R.inv.lastlt, this.1⟩
  · rintro ⟨k, hk, he⟩
    obtain ⟨h1, h2, h3⟩ := R.inv.elem k hk e he
    have : e ∈ (s.same e.1).reverse := by
      rw [List.mem_reverse, RHeap.same, List.mem_filter, h3]
      exact ⟨he, by simp⟩
    rw [← R.same e.1 h1, List.mem_filter] at this
    exact this.1

theorem Stacked.push {W : Nat} {s : RHeap V} {st : Nat × List (Nat × V)} (R : Stacked W s st) (x : Nat) (hx : x < 2 ^ W) (v : V) :
    (st.1 ≤ x → ∃ s', s.push x v = some s' ∧ Stacked W s' (st.1, (x, v) :: st.2)) ∧
    (¬ st.1 ≤ x → s.push x v = none) := by
  constructor
  · intro hle
    obtain ⟨s', e1, I', _, hl⟩ := R.inv.push hx (by rw [R.last]; exact hle) v
    refine ⟨s', e1, I', by rw [hl, R.last], ?_, ?_⟩
    · intro e he
      rcases List.mem_cons.1 he with rfl | he
      · exact hx
      · exact R.lt e he
    · intro k hk
      rw [same_push (W := W) e1, List.reverse_append, List.filter_cons, R.same k hk]
      by_cases hkx : k = x
      · simp [hkx]
      · simp [hkx, Ne.symm hkx]
  · intro hle
    unfold RHeap.push
    rw [if_neg (by rw [R.last]; exact hle)]

theorem Stacked.pull {W : Nat} {s : RHeap V} {st : Nat × List (Nat × V)} (R : Stacked W s st) {e : Nat × V}
    {r : List (Nat × V)} (hp : lifoPop st.2 = some (e, r)) :
    ∃ s', s.pull W true = some s' ∧ Stacked W s' (e.1, st.2) ∧ (s'.buckets 0).getLast? = some e := by
  obtain ⟨A, B, h1, h2, h3, h4⟩ := lifoPop_split hp
  have hne : s.size ≠ 0 := by
    rw [R.inv.size]
    intro h0
    have : e ∈ s.contents W := R.mem.1 (by rw [h1]; simp)
    rw [Multiset.card_eq_zero.1 h0] at this
    simp at this
  obtain ⟨s', e1, I', hc, hb, _, _, _⟩ := R.inv.pull true hne
  have hsame := fun k hk => R.inv.same_pull e1 k hk
  -- the least key
  have hle : ∀ x ∈ st.2, e.1 ≤ x.1 := by
    intro x hx
    rw [h1, List.mem_append, List.mem_cons] at hx
    rcases hx with hx | rfl | hx
    · exact (h3 x hx).le
    · exact le_rfl
    · exact h4 x hx
  have hl : s'.last = e.1 := by
    obtain ⟨x, hx⟩ := List.exists_mem_of_ne_nil _ hb
    have hx1 := (findBucket_zero_iff _ _).1 (I'.elem 0 (by omega) x hx).2.2
    have g1 : e.1 ≤ s'.last := by
      rw [← hx1]
      exact hle x (R.mem.2 (by rw [← hc, mem_contents]; exact ⟨0, by omega, hx⟩))
    have : e ∈ s'.contents W := by rw [hc]; exact R.mem.1 (by rw [h1]; simp)
    obtain ⟨j, hj, hej⟩ := mem_contents.1 this
    have := (I'.elem j hj e hej).2.1
    omega
  have heW : e.1 < 2 ^ W := R.lt e (by rw [h1]; simp)
  refine ⟨s', e1, ⟨I', hl, R.lt, fun k hk => by rw [hsame k hk]; exact R.same k hk⟩, ?_⟩
  have hs := R.same e.1 heW
  rw [← hsame e.1 heW, ← hl, I'.same_front, h1, List.filter_append, List.filter_cons, hl] at hs
  have hA : A.filter (fun x => x.1 == e.1) = [] := by
    rw [List.filter_eq_nil_iff]
    intro x hx hxe
    have := h3 x hx
    rw [eq_of_beq hxe] at this
    exact absurd this (Nat.lt_irrefl _)
  rw [hA] at hs
  simp only [BEq.rfl, if_true, List.nil_append] at hs
  rw [← List.head?_reverse, ← hs]
  rfl

theorem Stacked.shrink {W : Nat} {s : RHeap V} {l : List (Nat × V)} {e : Nat × V} {r : List (Nat × V)}
    (R : Stacked W s (e.1, l)) (hp : lifoPop l = some (e, r)) :
    ∃ s', s.pop W true = some s' ∧ Stacked W s' (e.1, r) := by
  obtain ⟨s1, e1, R1, hlast⟩ := R.pull (st := (e.1, l)) hp
  obtain ⟨A, B, h1, h2, h3, h4⟩ := lifoPop_split hp
  have hb : s1.buckets 0 ≠ [] := by intro h0; rw [h0] at hlast; simp at hlast
  have hne : s.size ≠ 0 := by intro h0; simp [RHeap.pull, h0] at e1
  obtain ⟨s1', e, e1', hl', s', e2, I', _, hl, _, _, hb0⟩ := pop_spec (reset := true) R.inv hne
  rw [e1] at e1'; cases e1'
  rw [hlast] at hl'; cases hl'
  have es : s' = { s1 with buckets := upd s1.buckets 0 (s1.buckets 0).dropLast, size := s1.size - 1 } := by
    unfold RHeap.pop at e2
    rw [e1] at e2
    simp only [Option.bind_some] at e2
    rw [if_neg hb] at e2
    exact (Option.some.inj e2).symm
  refine ⟨s', e2, I', by rw [hl]; exact R1.last, fun x hx => R.lt x (by
    rw [h2, List.mem_append] at hx
    show x ∈ l
    rw [h1, List.mem_append, List.mem_cons]
    tauto), ?_⟩
  intro k hk
  have hlk := R1.last
  simp only at hlk
  have hs := R1.same k hk
  simp only at hs ⊢
  rw [h1, List.filter_append, List.filter_cons] at hs
  rw [h2, List.filter_append]
  by_cases hke : k = e.1
  · subst hke
    have hA : A.filter (fun x => x.1 == e.1) = [] := by
      rw [List.filter_eq_nil_iff]
      intro x hx hxe
      have := h3 x hx
      rw [eq_of_beq hxe] at this
      exact absurd this (Nat.lt_irrefl _)
    rw [hA] at hs ⊢
    simp only [BEq.rfl, if_true, List.nil_append] at hs ⊢
    rw [← hlk, R1.inv.same_front] at hs
    have : s'.same e.1 = (s1.buckets 0).dropLast := by
      have hl2 : s'.last = e.1 := by rw [hl, hlk]
      rw [← hl2, I'.same_front, hb0]
    rw [this, ← List.tail_reverse, ← hs, hlk]
    rfl
  · have : (e.1 == k) = false := by simpa using Ne.symm hke
    rw [this] at hs
    simp only [Bool.false_eq_true, if_false] at hs
    rw [hs]
    congr 1
    unfold RHeap.same
    rw [es]
    simp only
    rw [upd_ne]
    intro h0
    exact hke (by rw [← hlk]; exact (findBucket_zero_iff _ _).1 h0)

/-- One call: the same answer, and the heap still holds the stack. -/
theorem Stacked.op {W : Nat} {s : RHeap V} {st : Nat × List (Nat × V)} (R : Stacked W s st) (o : QOp V)
    (ho : ∀ x v, o = .push x v → x < 2 ^ W) :
    (stackOp st o = none ∧ heapOp W s o = none) ∨
    ∃ a st' s', stackOp st o = some (a, st') ∧ heapOp W s o = some (a, s') ∧ Stacked W s' st' := by
  cases o with
  | push x v =>
    obtain ⟨h1, h2⟩ := R.push x (ho x v rfl) v
    by_cases hle : st.1 ≤ x
    · obtain ⟨s', e1, R'⟩ := h1 hle
      right
      refine ⟨none, _, s', by simp only [stackOp]; rw [if_pos hle], ?_, R'⟩
      simp only [heapOp, e1, Option.map_some]
    · left
      refine ⟨by simp only [stackOp]; rw [if_neg hle], ?_⟩
      simp only [heapOp, h2 hle, Option.map_none]
  | pop =>
    cases hp : lifoPop st.2 with
    | none =>
      left
      refine ⟨by simp only [stackOp, hp, Option.map_none], ?_⟩
      rw [lifoPop_eq_none] at hp
      have : s.size = 0 := by
        rw [R.inv.size, Multiset.card_eq_zero, Multiset.eq_zero_iff_forall_notMem]
        intro e he
        have := R.mem.2 he
        rw [hp] at this; simp at this
      simp [heapOp, RHeap.topValue, RHeap.pull, this]
    | some p =>
      obtain ⟨e, r⟩ := p
      right
      obtain ⟨s1, e1, R1, hlast⟩ := R.pull hp
      obtain ⟨s2, e2, R2, hlast2⟩ := R1.pull (st := (e.1, st.2)) hp
      obtain ⟨s3, e3, R3⟩ := R2.shrink hp
      refine ⟨some e, (e.1, r), s3, by simp only [stackOp, hp, Option.map_some], ?_, R3⟩
      have hv : s.topValue W true = some (e.2, s1) := by unfold RHeap.topValue; rw [e1]; simp [hlast]
      have hk : s1.topKey W true = some (e.1, s2) := by
        unfold RHeap.topKey; rw [e2]; simp only [Option.map_some, Option.some.injEq, Prod.mk.injEq, and_true]
        exact R2.last
      simp only [heapOp, hv, hk, e3, Option.bind_some, Option.map_some]

end RHeap

/-- **C72.** Whatever the sequence of calls, the heap gives the answers of the stack: always the entry of least key, and among
equal keys the one added last; it fails exactly when a key below the last one returned is pushed or an empty heap is popped. -/
theorem C72_lifo {V : Type} (W : Nat) (ops : List (QOp V)) (ho : ∀ x v, QOp.push x v ∈ ops → x < 2 ^ W) :
    answers (heapOp W) (RHeap.empty W) ops = answers stackOp (0, []) ops := by
  have key : ∀ (ops : List (QOp V)) (s : RHeap V) (st : Nat × List (Nat × V)), RHeap.Stacked W s st →
      (∀ x v, QOp.push x v ∈ ops → x < 2 ^ W) → answers (heapOp W) s ops = answers stackOp st ops := by
    intro ops
    induction ops with
    | nil => intro s st _ _; rfl
    | cons o os ih =>
      intro s st R ho
      rcases R.op o (fun x v h => ho x v (by rw [h]; simp)) with ⟨h1, h2⟩ | ⟨a, st', s', h1, h2, R'⟩
      · simp only [answers, h1, h2, Option.bind_none]
      · simp only [answers, h1, h2, Option.bind_some]
        rw [ih s' st' R' (fun x v h => ho x v (List.mem_cons_of_mem _ h))]
  refine key ops _ _ ⟨RHeap.inv_empty W, rfl, by simp, ?_⟩ ho
  intro k _
  simp [RHeap.same, RHeap.empty]

/-- The order of equal keys shows: 5 is returned before 7 although both have key 3. -/
example : answers (heapOp 8) (RHeap.empty 8) [.push 3 7, .push 9 1, .push 3 5, .pop, .push 4 2, .pop, .pop, .pop] =
    some [none, none, none, some (3, 5), none, some (3, 7), some (4, 2), some (9, 1)] := by decide +kernel

example : answers (heapOp 8) (RHeap.empty 8) [.push 3 7, .pop, .push 2 1] = (none : Option (List (Option (Nat × Nat)))) := by
  decide +kernel

end RichDEM
