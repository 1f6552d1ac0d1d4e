import Verif.DS.Disjoint

/-!
C27, C28: `DisjointDenseIntSet`.
-/

namespace RichDEM

open DSU

/-- A call made by the client of a `DisjointDenseIntSet`. -/
inductive DOp where
  | make (n : Nat)
  | union (a b : Nat)
  | find (a : Nat)
  | same (a b : Nat)

/-- Effect of one call (a thrown exception is caught by the client). -/
def DOp.run (s : DSU) : DOp → DSU
  | .make n => s.makeSet n
  | .union a b => (s.unionSet a b).2
  | .find a => (s.findSet a).2
  | .same a b => (s.sameSet a b).2

/-- The structure after constructing it with `N` sets and making the calls `h` in order. -/
def dsuAfter (N : Nat) (h : List DOp) : DSU := h.foldl DOp.run (ofSize N)

/-- The ids passed to `makeSet` are below `2^32-1`. -/
def DOp.ok : DOp → Prop
  | .make n => n + 1 < 2 ^ 32
  | _ => True

/-- Specification: how many elements (`0 … created-1`) exist after the calls `h`. -/
def created (N : Nat) : List DOp → Nat
  | [] => N
  | .make n :: h => created (max N (n + 1)) h
  | _ :: h => created N h

/-- Specification: the equivalence relation generated by the `unionSet` calls in `h` that
were made on existing elements. -/
inductive Linked (N : Nat) (h : List DOp) : Nat → Nat → Prop
  | refl (x) : Linked N h x x
  | symm {x y} : Linked N h x y → Linked N h y x
  | trans {x y z} : Linked N h x y → Linked N h y z → Linked N h x z
  | union (pre post a b) : h = pre ++ .union a b :: post → a < created N pre → b < created N pre →
      Linked N h a b

theorem created_append (N : Nat) (h : List DOp) : ∀ (o : DOp), created N (h ++ [o]) =
    match o with
    | .make n => max (created N h) (n + 1)
    | _ => created N h := by
  intro o
  induction h generalizing N with
  | nil => cases o <;> simp [created]
  | cons p h ih => cases p <;> simp only [List.cons_append, created] <;> exact ih _

theorem created_mono (N : Nat) (h g : List DOp) : created N h ≤ created N (h ++ g) := by
  induction g using List.reverseRecOn with
  | nil => simp
  | append_singleton g o ih =>
    rw [← List.append_assoc, created_append]
    cases o <;> simp only <;> omega

theorem Linked.lt {N h x y} (L : Linked N h x y) :
    x = y ∨ (x < created N h ∧ y < created N h) := by
  induction L with
  | refl => exact Or.inl rfl
  | symm _ ih => rcases ih with h | h; exacts [Or.inl h.symm, Or.inr ⟨h.2, h.1⟩]
  | trans _ _ i1 i2 =>
    rcases i1 with rfl | h
    · exact i2
    · rcases i2 with rfl | h'
      · exact Or.inr h
      · exact Or.inr ⟨h.1, h'.2⟩
  | union pre post a b e ha hb =>
    have := created_mono N pre (.union a b :: post)
    rw [← e] at this
    exact Or.inr ⟨by omega, by omega⟩

theorem Linked.mono {N h x y} (o : DOp) (L : Linked N h x y) : Linked N (h ++ [o]) x y := by
  induction L with
  | refl => exact .refl _
  | symm _ ih => exact ih.symm
  | trans _ _ i1 i2 => exact i1.trans i2
  | union pre post a b e ha hb =>
    exact .union pre (post ++ [o]) a b (by rw [e]; simp) ha hb

/-- Upper bound for the relation of an extended history. -/
theorem Linked.of_snoc {N h o} {R : Nat → Nat → Prop} (hr : ∀ x, R x x)
    (hs : ∀ x y, R x y → R y x) (ht : ∀ x y z, R x y → R y z → R x z)
    (h1 : ∀ x y, Linked N h x y → R x y)
    (h2 : ∀ a b, o = .union a b → a < created N h → b < created N h → R a b)
    {x y} (L : Linked N (h ++ [o]) x y) : R x y := by
  induction L with
  | refl => exact hr _
  | symm _ ih => exact hs _ _ ih
  | trans _ _ i1 i2 => exact ht _ _ _ i1 i2
  | union pre post a b e ha hb =>
    rcases List.eq_nil_or_concat post with rfl | ⟨post', o', rfl⟩
    · have := List.append_inj' e (by simp)
      obtain ⟨rfl, e2⟩ := this
      simp at e2
      exact h2 a b e2 ha hb
    · have e' : h ++ [o] = (pre ++ .union a b :: post') ++ [o'] := by rw [e]; simp
      have := List.append_inj' e' (by simp)
      exact h1 _ _ (.union pre post' a b this.1 ha hb)

/-- The representation invariant of every reachable structure. -/
theorem dsu_inv (N : Nat) (h : List DOp) (hok : ∀ o ∈ h, o.ok) :
    ∃ rep d, Forest (dsuAfter N h) rep d ∧ (dsuAfter N h).size = created N h ∧
      ∀ x y, x < created N h → y < created N h → (rep x = rep y ↔ Linked N h x y) := by
  induction h using List.reverseRecOn with
  | nil =>
    refine ⟨id, fun _ => 0, forest_ofSize N, rfl, ?_⟩
    intro x y _ _
    constructor
    · rintro rfl; exact .refl _
    · intro L
      have : ∀ x y, Linked N [] x y → x = y := by
        intro x y L
        induction L with
        | refl => rfl
        | symm _ ih => exact ih.symm
        | trans _ _ i1 i2 => exact i1.trans i2
        | union pre post a b e => simp at e
      exact this x y L
  | append_singleton h o ih =>
    obtain ⟨rep, d, F, hsz, hL⟩ := ih (fun p hp => hok p (by simp [hp]))
    have hstep : dsuAfter N (h ++ [o]) = o.run (dsuAfter N h) := by
      simp [dsuAfter, List.foldl_append]
    rw [hstep, created_append]
    -- an operation that keeps representatives and whose relation is unchanged
    have query : ∀ s' : DSU, Forest s' rep d → s'.size = created N h →
        (∀ a b, o = .union a b → ¬ (a < created N h ∧ b < created N h)) →
        ∃ rep d, Forest s' rep d ∧ s'.size = created N h ∧
        ∀ x y, x < created N h → y < created N h → (rep x = rep y ↔ Linked N (h ++ [o]) x y) := by
      intro s' F' hs' hu
      refine ⟨rep, d, F', hs', ?_⟩
      intro x y hx hy
      rw [hL x y hx hy]
      constructor
      · exact Linked.mono o
      · intro L
        refine Linked.of_snoc (R := Linked N h) (.refl) (fun _ _ => .symm) (fun _ _ _ => .trans)
          (fun _ _ h => h) ?_ L
        intro a b e ha hb
        exact absurd ⟨ha, hb⟩ (hu a b e)
    have find1 : ∀ (s' : DSU) a, Forest s' rep d → s'.size = created N h →
        Forest (s'.findSet a).2 rep d ∧ (s'.findSet a).2.size = created N h := by
      intro s' a F' hs'
      by_cases ha : a < s'.size
      · obtain ⟨s1, e, F1, z1, _⟩ := F'.findSet ha
        rw [e]; exact ⟨F1, by simp only; omega⟩
      · rw [findSet_throws s' (by omega)]; exact ⟨F', hs'⟩
    cases o with
    | make n =>
      have hn : n + 1 < 2 ^ 32 := hok (.make n) (by simp)
      refine ⟨_, _, F.checkSize n hn, ?_, ?_⟩
      · rw [show DOp.run (dsuAfter N h) (.make n) = (dsuAfter N h).checkSize n from rfl,
          checkSize_size _ _ hn, hsz]
      · simp only
        intro x y hx hy
        rw [hsz]
        have hR : ∀ x y, Linked N (h ++ [.make n]) x y ↔ Linked N h x y := by
          intro x y
          refine ⟨fun L => Linked.of_snoc (R := Linked N h) (.refl) (fun _ _ => .symm)
            (fun _ _ _ => .trans) (fun _ _ h => h) (by intro a b e; cases e) L, Linked.mono _⟩
        rw [hR]
        by_cases hx' : x < created N h <;> by_cases hy' : y < created N h <;>
          simp only [hx', hy', if_true, if_false]
        · exact hL x y hx' hy'
        · have := F.rep_lt x (by omega)
          constructor
          · intro e; omega
          · intro L; rcases L.lt with e | e <;> omega
        · have := F.rep_lt y (by omega)
          constructor
          · intro e; omega
          · intro L; rcases L.lt with e | e <;> omega
        · constructor
          · rintro rfl; exact .refl _
          · intro L; rcases L.lt with e | e <;> omega
    | find a =>
      obtain ⟨F1, z1⟩ := find1 _ a F hsz
      exact query _ F1 z1 (by intro a b e; cases e)
    | same a b =>
      have : Forest (DOp.run (dsuAfter N h) (.same a b)) rep d ∧
          (DOp.run (dsuAfter N h) (.same a b)).size = created N h := by
        simp only [DOp.run, DSU.sameSet]
        obtain ⟨F1, z1⟩ := find1 _ a F hsz
        rcases hq : (dsuAfter N h).findSet a with ⟨o1, s1⟩
        rw [hq] at F1 z1
        obtain ⟨F2, z2⟩ := find1 s1 b F1 z1
        rcases hq2 : s1.findSet b with ⟨o2, s2⟩
        rw [hq2] at F2 z2
        cases o1 <;> simp only
        · rw [hq2]; cases o2 <;> exact ⟨F2, z2⟩
        · exact ⟨F1, z1⟩
        · exact ⟨F1, z1⟩
      exact query _ this.1 this.2 (by intro a b e; cases e)
    | union a b =>
      by_cases hab : a < created N h ∧ b < created N h
      · obtain ⟨s', rep', d', e, F', z', hrep⟩ := F.unionSet (a := a) (b := b) (by omega) (by omega)
        have e' : DOp.run (dsuAfter N h) (.union a b) = s' := by simp [DOp.run, e]
        rw [e']
        refine ⟨rep', d', F', by simp only; omega, ?_⟩
        have hla : Linked N (h ++ [.union a b]) a b := .union h [] a b rfl hab.1 hab.2
        have hin : ∀ x y, x < created N h → y < created N h → rep x = rep y →
            Linked N (h ++ [.union a b]) x y := fun x y hx hy e => ((hL x y hx hy).1 e).mono _
        intro x y hx hy
        constructor
        · intro h'
          rcases (hrep x y).1 h' with h' | ⟨h1, h2⟩ | ⟨h1, h2⟩
          · exact hin x y hx hy h'
          · exact ((hin x a hx hab.1 h1).trans hla).trans (hin y b hy hab.2 h2).symm
          · exact ((hin x b hx hab.2 h1).trans hla.symm).trans (hin y a hy hab.1 h2).symm
        · intro L
          refine Linked.of_snoc (R := fun x y => rep' x = rep' y) (fun _ => rfl)
            (fun _ _ h => h.symm) (fun _ _ _ h h' => h.trans h') ?_ ?_ L
          · intro u v L'
            rcases L'.lt with rfl | ⟨hu, hv⟩
            · rfl
            · exact (hrep u v).2 (Or.inl ((hL u v hu hv).2 L'))
          · intro a' b' e ha hb
            cases e
            exact (hrep a b).2 (Or.inr (Or.inl ⟨rfl, rfl⟩))
      · have : Forest (DOp.run (dsuAfter N h) (.union a b)) rep d ∧
            (DOp.run (dsuAfter N h) (.union a b)).size = created N h := by
          simp only [DOp.run, DSU.unionSet]
          by_cases ha : a < created N h
          · obtain ⟨s1, e1, F1, z1, _⟩ := F.findSet (n := a) (by omega)
            rw [e1]; simp only
            rw [findSet_throws s1 (n := b) (by omega)]
            exact ⟨F1, by simp only; omega⟩
          · rw [findSet_throws _ (n := a) (by omega)]
            exact ⟨F, hsz⟩
        refine query _ this.1 this.2 ?_
        intro a' b' e; cases e; exact hab

/-- **C27.** After any history of calls, `sameSet` answers exactly whether the two existing
elements are joined by the unions made so far. -/
theorem C27_sameSet_iff_linked (N : Nat) (h : List DOp) (hok : ∀ o ∈ h, o.ok) (a b : Nat)
    (ha : a < created N h) (hb : b < created N h) :
    ∃ v, ((dsuAfter N h).sameSet a b).1 = some v ∧ (v = true ↔ Linked N h a b) := by
  obtain ⟨rep, d, F, hsz, hL⟩ := dsu_inv N h hok
  obtain ⟨s1, e1, F1, z1, _⟩ := F.findSet (n := a) (by omega)
  obtain ⟨s2, e2, F2, z2, _⟩ := F1.findSet (n := b) (by omega)
  refine ⟨rep a == rep b, ?_, ?_⟩
  · unfold DSU.sameSet; rw [e1]; simp only; rw [e2]
  · rw [beq_iff_eq]; exact hL a b ha hb

/-- **C27.** `findSet` on an existing element terminates and returns a member of the element's
set; the answer is common to exactly the elements of that set, and no query changes it. -/
theorem C27_findSet_representative (N : Nat) (h : List DOp) (hok : ∀ o ∈ h, o.ok) :
    ∃ rep : Nat → Nat,
      (∀ a, a < created N h → ((dsuAfter N h).findSet a).1 = .rep (rep a)) ∧
      (∀ a, a < created N h → rep a < created N h ∧ Linked N h a (rep a)) ∧
      (∀ a b, a < created N h → b < created N h → (rep a = rep b ↔ Linked N h a b)) ∧
      (∀ a b, a < created N h →
        (((dsuAfter N h).findSet b).2.findSet a).1 = .rep (rep a)) := by
  obtain ⟨rep, d, F, hsz, hL⟩ := dsu_inv N h hok
  refine ⟨rep, ?_, ?_, hL, ?_⟩
  · intro a ha
    obtain ⟨s1, e1, _⟩ := F.findSet (n := a) (by omega)
    rw [e1]
  · intro a ha
    have h1 := F.rep_lt a (by omega)
    have h2 := F.rep_root a (by omega)
    have h3 := F.rep_self _ h1 h2
    exact ⟨by omega, (hL a (rep a) ha (by omega)).1 h3.symm⟩
  · intro a b ha
    by_cases hb : b < created N h
    · obtain ⟨s1, e1, F1, z1, _⟩ := F.findSet (n := b) (by omega)
      rw [e1]
      obtain ⟨s2, e2, _⟩ := F1.findSet (n := a) (by omega)
      simp only; rw [e2]
    · rw [findSet_throws _ (n := b) (by omega)]
      obtain ⟨s2, e2, _⟩ := F.findSet (n := a) (by omega)
      simp only; rw [e2]

/-- **C27.** Looking for an element that was never created throws and changes nothing; the
largest element reported is the largest created one. -/
theorem C27_unknown_element_throws (N : Nat) (h : List DOp) (hok : ∀ o ∈ h, o.ok) (a : Nat)
    (ha : created N h ≤ a) : (dsuAfter N h).findSet a = (.throws, dsuAfter N h) := by
  obtain ⟨rep, d, F, hsz, hL⟩ := dsu_inv N h hok
  exact findSet_throws _ (by omega)

theorem C27_maxElement (N : Nat) (h : List DOp) (hok : ∀ o ∈ h, o.ok)
    (h0 : 0 < created N h) (h1 : created N h ≤ 2 ^ 32) :
    (dsuAfter N h).maxElement = created N h - 1 := by
  obtain ⟨rep, d, F, hsz, hL⟩ := dsu_inv N h hok
  unfold DSU.maxElement
  rw [hsz]
  omega

/-- **C27, limit of the claim.** `makeSet(2^32-1)` computes the new length `0` in `unsigned
int`: every existing set is lost. -/
theorem C27_makeSet_max_id_loses_all_sets (N : Nat) (hN : N < 2 ^ 32) :
    ((ofSize N).makeSet (2 ^ 32 - 1)).size = 0 := by
  unfold DSU.makeSet DSU.checkSize ofSize
  have : ¬ (4294967295 < N) := by omega
  simp [this]

/-- Non-vacuity: a history that joins 0–3 through 1 with a failed union in between. -/
example :
    let h : List DOp := [.make 4, .union 0 1, .union 9 1, .union 3 1, .find 3, .make 6]
    (∀ o ∈ h, o.ok) ∧ created 2 h = 7 ∧ ((dsuAfter 2 h).sameSet 0 3).1 = some true ∧
      ((dsuAfter 2 h).sameSet 0 2).1 = some false ∧ Linked 2 h 0 3 := by
  refine ⟨?_, by decide, by decide +kernel, by decide +kernel, ?_⟩
  · intro o ho
    simp only [List.mem_cons, List.not_mem_nil, or_false] at ho
    rcases ho with rfl | rfl | rfl | rfl | rfl | rfl <;> simp [DOp.ok]
  · exact (Linked.union [.make 4] _ 0 1 rfl (by decide) (by decide)).trans
      (Linked.union [.make 4, .union 0 1, .union 9 1] _ 3 1 rfl (by decide) (by decide)).symm

/-! ### mergeAintoB -/

/-- Structures reachable by any calls, where `mergeAintoB a b` is only called with `a` and `b`
representatives of different sets (as `GetDepressionHierarchy` does). -/
inductive DReach : DSU → Prop
  | start (N) : DReach (ofSize N)
  | make (s n) : DReach s → n + 1 < 2 ^ 32 → DReach (s.makeSet n)
  | union (s a b) : DReach s → a < s.size → b < s.size → DReach (s.unionSet a b).2
  | find (s a) : DReach s → DReach (s.findSet a).2
  | merge (s a b) : DReach s → a < s.size → b < s.size → (s.findSet a).1 = .rep a →
      (s.findSet b).1 = .rep b → a ≠ b → DReach (s.mergeAintoB a b)

theorem DReach.forest {s : DSU} (R : DReach s) : ∃ rep d, Forest s rep d := by
  induction R with
  | start N => exact ⟨_, _, forest_ofSize N⟩
  | make s n _ hn ih => obtain ⟨r, d, F⟩ := ih; exact ⟨_, _, F.checkSize n hn⟩
  | union s a b _ ha hb ih =>
    obtain ⟨r, d, F⟩ := ih
    obtain ⟨s', r', d', e, F', _⟩ := F.unionSet ha hb
    rw [e]; exact ⟨_, _, F'⟩
  | find s a _ ih =>
    obtain ⟨r, d, F⟩ := ih
    by_cases ha : a < s.size
    · obtain ⟨s', e, F', _⟩ := F.findSet ha
      rw [e]; exact ⟨_, _, F'⟩
    · rw [findSet_throws s (by omega)]; exact ⟨_, _, F⟩
  | merge s a b _ ha hb h1 h2 hab ih =>
    obtain ⟨r, d, F⟩ := ih
    obtain ⟨s1, e1, _⟩ := F.findSet ha
    obtain ⟨s2, e2, _⟩ := F.findSet hb
    rw [e1] at h1; rw [e2] at h2
    simp only [FindOut.rep.injEq] at h1 h2
    refine ⟨_, _, (F.mergeAintoB ha hb ?_ ?_).1⟩
    · have := F.rep_root a ha; rw [h1] at this; exact this
    · rw [h2]; exact fun h => hab h.symm

/-- **C28.** In any reachable structure, merging representative `a` into representative `b` of
another set gives every element of `a`'s set the representative `b` and leaves the
representative of every other element as it was. -/
theorem C28_mergeAintoB (s : DSU) (R : DReach s) (a b : Nat) (ha : a < s.size) (hb : b < s.size)
    (ra : (s.findSet a).1 = .rep a) (rb : (s.findSet b).1 = .rep b) (hab : a ≠ b)
    (x : Nat) (hx : x < s.size) :
    ∃ r, (s.findSet x).1 = .rep r ∧
      ((s.mergeAintoB a b).findSet x).1 = .rep (if r = a then b else r) := by
  obtain ⟨rep, d, F⟩ := R.forest
  obtain ⟨s1, e1, _⟩ := F.findSet ha
  obtain ⟨s2, e2, _⟩ := F.findSet hb
  obtain ⟨s3, e3, _⟩ := F.findSet hx
  rw [e1] at ra; rw [e2] at rb
  simp only [FindOut.rep.injEq] at ra rb
  have hroot : s.parent a = a := by have := F.rep_root a ha; rwa [ra] at this
  obtain ⟨F', z'⟩ := F.mergeAintoB ha hb hroot (by rw [rb]; exact fun h => hab h.symm)
  obtain ⟨s4, e4, _⟩ := F'.findSet (n := x) (by omega)
  refine ⟨rep x, by rw [e3], ?_⟩
  rw [e4, rb]

/-- **C28.** Ids that do not exist yet are created by `mergeAintoB`, so on fresh ids the result
is the two-element set represented by `b`. -/
theorem C28_merge_creates (s : DSU) (a b : Nat) (ha : a + 1 < 2 ^ 32) (hb : b + 1 < 2 ^ 32) :
    (s.mergeAintoB a b).size = max (max s.size (a + 1)) (b + 1) := by
  have : (s.mergeAintoB a b).size = ((s.checkSize a).checkSize b).size := by
    unfold DSU.mergeAintoB; simp only; split
    · rfl
    · split <;> rfl
  rw [this, checkSize_size _ _ hb, checkSize_size _ _ ha]

/-- **C28, limit of the claim.** Without the representative precondition the structure is
corrupted: merging 1 into 0 and then 0 into 1 makes a cycle and `findSet` never returns. -/
theorem C28_merge_cycle_findSet_never_returns (fuel : Nat) :
    (findFuel fuel (((ofSize 2).mergeAintoB 1 0).mergeAintoB 0 1) 0).1 = .spins :=
  findSet_spins _ 0 (by decide +kernel) fuel

/-- **C28, limit of the claim.** Merging a non-representative detaches it from its set: after
joining 0 and 1 and then merging 1 into 2, elements 0 and 1 are no longer in the same set. -/
theorem C28_merge_nonroot_splits_set :
    (((ofSize 3).unionSet 0 1).2.sameSet 0 1).1 = some true ∧
    ((((ofSize 3).unionSet 0 1).2.mergeAintoB 1 2).sameSet 0 1).1 = some false := by
  decide +kernel

/-- Non-vacuity: representatives 1 and 4 of sets {1,0} and {4,3}. -/
example :
    let s := ((((ofSize 5).unionSet 1 0).2).unionSet 4 3).2
    DReach s ∧ (s.findSet 1).1 = .rep 1 ∧ (s.findSet 4).1 = .rep 4 ∧
      ((s.mergeAintoB 1 4).findSet 0).1 = .rep 4 :=
  ⟨.union _ _ _ (.union _ _ _ (.start 5) (by decide) (by decide)) (by decide +kernel)
    (by decide +kernel), by decide +kernel, by decide +kernel, by decide +kernel⟩

end RichDEM
