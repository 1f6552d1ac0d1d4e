import Mathlib.Data.List.Basic
import Mathlib.Logic.Function.Iterate
import Mathlib.Data.Fintype.Card
import Mathlib.Data.Fintype.Pigeonhole
import Mathlib.Tactic.Ring

/-!
Model of `DisjointDenseIntSet` (include/richdem/common/disjoint_dense_int_set.hpp).

The vectors `rank` and `parent` are modelled by a common length `size` and functions giving
the entry at every index; entries at indices `≥ size` are never observable.  The entries are
unbounded naturals except where the code computes `newN+1` in `unsigned int`, which is kept
modulo `2^32`.
-/

namespace RichDEM

/-- disjoint_dense_int_set.hpp:18-22 (`rank`, `parent`). -/
structure DSU where
  size : Nat
  parent : Nat → Nat
  rank : Nat → Nat

/-- Point update of a vector entry (`v[i] = x`). -/
def upd {α : Type} (f : Nat → α) (i : Nat) (x : α) : Nat → α := fun j => if j = i then x else f j

theorem upd_same {α : Type} (f : Nat → α) (i : Nat) (x : α) : upd f i x i = x := by simp [upd]
theorem upd_ne {α : Type} (f : Nat → α) (i : Nat) (x : α) {j : Nat} (h : j ≠ i) :
    upd f i x j = f j := by simp [upd, h]

namespace DSU

/-- disjoint_dense_int_set.hpp:49 (default constructor). -/
def empty : DSU := ⟨0, fun _ => 0, fun _ => 0⟩

/-- disjoint_dense_int_set.hpp:53-58 (constructor with `N` sets). -/
def ofSize (N : Nat) : DSU := ⟨N, fun i => i, fun _ => 0⟩

/-- disjoint_dense_int_set.hpp:27-44 (`checkSize`).  `newN+1` is `unsigned int` arithmetic:
for `newN = 2^32-1` the vectors are resized to length 0 and the loop does not run. -/
def checkSize (s : DSU) (newN : Nat) : DSU :=
  if newN < s.size then s
  else
    let m := (newN + 1) % 2 ^ 32
    { size := m
      parent := fun i => if s.size ≤ i ∧ i < m then i else s.parent i
      rank := fun i => if s.size ≤ i ∧ i < m then 0 else s.rank i }

/-- disjoint_dense_int_set.hpp:62-64. -/
def makeSet (s : DSU) (n : Nat) : DSU := s.checkSize n

/-- disjoint_dense_int_set.hpp:67-69 (`rank.size()-1`, in `unsigned int`). -/
def maxElement (s : DSU) : Nat := (s.size + (2 ^ 32 - 1)) % 2 ^ 32

/-- What a call of `findSet` does: returns a representative, throws, or never returns. -/
inductive FindOut where
  | rep (r : Nat)
  | throws
  | spins
deriving DecidableEq, Repr

/-- disjoint_dense_int_set.hpp:80-90 (`findSet`), the recursion cut off after `fuel` calls. -/
def findFuel : Nat → DSU → Nat → FindOut × DSU
  | 0, s, _ => (.spins, s)
  | f + 1, s, n =>
    if s.size ≤ n then (.throws, s)
    else if s.parent n = n then (.rep n, s)
    else
      match findFuel f s (s.parent n) with
      | (.rep r, s') => (.rep r, { s' with parent := upd s'.parent n r })
      | o => o

/-- disjoint_dense_int_set.hpp:80-90 (`findSet`).  `size+1` calls always suffice on a forest
(`Forest.findSet`), and if they do not suffice no number does (`findSet_spins`). -/
def findSet (s : DSU) (n : Nat) : FindOut × DSU := findFuel (s.size + 1) s n

/-- disjoint_dense_int_set.hpp:94-124 (`unionSet`).  The boolean is `true` when the call
returned normally. -/
def unionSet (s : DSU) (a b : Nat) : Bool × DSU :=
  match s.findSet a with
  | (.rep ra, s1) =>
    match s1.findSet b with
    | (.rep rb, s2) =>
      if ra = rb then (true, s2)
      else if s2.rank ra < s2.rank rb then (true, { s2 with parent := upd s2.parent ra rb })
      else if s2.rank ra > s2.rank rb then (true, { s2 with parent := upd s2.parent rb ra })
      else (true, { s2 with parent := upd s2.parent rb ra
                            rank := upd s2.rank ra (s2.rank ra + 1) })
    | (_, s2) => (false, s2)
  | (_, s1) => (false, s1)

/-- disjoint_dense_int_set.hpp:130-143 (`mergeAintoB`). -/
def mergeAintoB (s : DSU) (a b : Nat) : DSU :=
  let s := (s.checkSize a).checkSize b
  let s := { s with parent := upd s.parent a b }
  if s.rank a = s.rank b then { s with rank := upd s.rank b (s.rank b + 1) }
  else if s.rank a > s.rank b then { s with rank := upd s.rank b (s.rank a + 1) }
  else s

/-- disjoint_dense_int_set.hpp:146-148 (`sameSet`): `none` when a `findSet` does not return. -/
def sameSet (s : DSU) (a b : Nat) : Option Bool × DSU :=
  match s.findSet a with
  | (.rep ra, s1) =>
    match s1.findSet b with
    | (.rep rb, s2) => (some (ra == rb), s2)
    | (_, s2) => (none, s2)
  | (_, s1) => (none, s1)

/-! ### Forest invariant -/

/-- `rep` names the root of each element's tree and `d` decreases along parent links. -/
structure Forest (s : DSU) (rep d : Nat → Nat) : Prop where
  par_lt : ∀ x, x < s.size → s.parent x < s.size
  rep_lt : ∀ x, x < s.size → rep x < s.size
  rep_root : ∀ x, x < s.size → s.parent (rep x) = rep x
  rep_par : ∀ x, x < s.size → rep (s.parent x) = rep x
  rep_self : ∀ x, x < s.size → s.parent x = x → rep x = x
  dec : ∀ x, x < s.size → s.parent x ≠ x → d (s.parent x) < d x

theorem forest_ofSize (N : Nat) : Forest (ofSize N) id (fun _ => 0) where
  par_lt := fun _ h => h
  rep_lt := fun _ h => h
  rep_root := fun _ _ => rfl
  rep_par := fun _ _ => rfl
  rep_self := fun _ _ _ => rfl
  dec := fun _ _ h => absurd rfl h

theorem Forest.checkSize {s : DSU} {rep d} (F : Forest s rep d) (n : Nat) (hn : n + 1 < 2 ^ 32) :
    Forest (s.checkSize n) (fun x => if x < s.size then rep x else x) d := by
  unfold DSU.checkSize
  by_cases h : n < s.size
  · simp only [h, if_true]
    refine ⟨F.par_lt, ?_, ?_, ?_, ?_, F.dec⟩ <;> intro x hx
    · simp only [hx, if_true]; exact F.rep_lt x hx
    · simp only [hx, if_true]; exact F.rep_root x hx
    · simp only [hx, if_true, F.par_lt x hx]; exact F.rep_par x hx
    · simp only [hx, if_true]; exact F.rep_self x hx
  · have hm : (n + 1) % 2 ^ 32 = n + 1 := Nat.mod_eq_of_lt hn
    simp only [h, if_false, hm]
    have key : ∀ x, x < n + 1 → x < s.size ∨ (¬ x < s.size ∧ s.size ≤ x ∧ x < n + 1) := by
      intro x hx; omega
    have nold : ∀ y, y < s.size → ¬ (s.size ≤ y ∧ y < n + 1) := by intro y hy; omega
    refine ⟨?_, ?_, ?_, ?_, ?_, ?_⟩ <;> intro x hx <;> simp only at hx ⊢ <;>
      rcases key x hx with hx' | ⟨hx1, hx2⟩
    · simp only [nold x hx', if_false]; have := F.par_lt x hx'; omega
    · simp only [hx2, and_self, if_true]
    · simp only [hx', if_true]; have := F.rep_lt x hx'; omega
    · simp only [hx1, if_false]; exact hx
    · simp only [hx', if_true, nold _ (F.rep_lt x hx'), if_false]; exact F.rep_root x hx'
    · simp only [hx1, if_false, hx2, and_self, if_true]
    · simp only [hx', if_true, nold x hx', if_false, F.par_lt x hx']; exact F.rep_par x hx'
    · simp only [hx1, if_false, hx2, and_self, if_true]
    · simp only [hx', if_true, nold x hx', if_false]; exact F.rep_self x hx'
    · simp only [hx1, if_false, implies_true]
    · simp only [nold x hx', if_false]; exact F.dec x hx'
    · simp only [hx2, and_self, if_true]; intro h; exact absurd rfl h

theorem checkSize_size (s : DSU) (n : Nat) (hn : n + 1 < 2 ^ 32) :
    (s.checkSize n).size = max s.size (n + 1) := by
  unfold DSU.checkSize
  by_cases h : n < s.size
  · simp only [h, if_true]; omega
  · have hm : (n + 1) % 2 ^ 32 = n + 1 := Nat.mod_eq_of_lt hn
    simp only [h, if_false, hm]; omega

/-- Path compression keeps the forest and its representatives. -/
theorem Forest.compress {s : DSU} {rep d} (F : Forest s rep d) {n : Nat} (hn : n < s.size)
    (hr : s.parent n ≠ n) (hd : d (rep n) < d n) :
    Forest { s with parent := upd s.parent n (rep n) } rep d := by
  have hne : ∀ x, x < s.size → rep x ≠ n := by
    intro x hx e; exact hr (e ▸ F.rep_root x hx)
  refine ⟨?_, F.rep_lt, ?_, ?_, ?_, ?_⟩ <;> intro x hx <;> simp only at hx ⊢
  · by_cases e : x = n
    · subst e; rw [upd_same]; exact F.rep_lt x hx
    · rw [upd_ne _ _ _ e]; exact F.par_lt x hx
  · rw [upd_ne _ _ _ (hne x hx)]; exact F.rep_root x hx
  · by_cases e : x = n
    · subst e; rw [upd_same]
      exact F.rep_self _ (F.rep_lt x hx) (F.rep_root x hx)
    · rw [upd_ne _ _ _ e]; exact F.rep_par x hx
  · by_cases e : x = n
    · subst e; rw [upd_same]; exact fun h => h
    · rw [upd_ne _ _ _ e]; exact F.rep_self x hx
  · by_cases e : x = n
    · subst e; rw [upd_same]; exact fun _ => hd
    · rw [upd_ne _ _ _ e]; exact F.dec x hx

theorem Forest.depth_rep {s : DSU} {rep d} (F : Forest s rep d) :
    ∀ k x, d x ≤ k → x < s.size → d (rep x) ≤ d x := by
  intro k
  induction k with
  | zero =>
    intro x hk hx
    by_cases h : s.parent x = x
    · rw [F.rep_self x hx h]
    · have := F.dec x hx h; omega
  | succ k ih =>
    intro x hk hx
    by_cases h : s.parent x = x
    · rw [F.rep_self x hx h]
    · have h1 := F.dec x hx h
      have h2 := ih (s.parent x) (by omega) (F.par_lt x hx)
      rw [F.rep_par x hx] at h2; omega

/-- With enough fuel, `findFuel` returns the root and keeps the forest. -/
theorem Forest.findFuel {s : DSU} {rep d} (F : Forest s rep d) :
    ∀ f n, n < s.size → (∃ k, k < f ∧ s.parent (s.parent^[k] n) = s.parent^[k] n) →
      ∃ s', DSU.findFuel f s n = (.rep (rep n), s') ∧ Forest s' rep d ∧ s'.size = s.size ∧
        s'.rank = s.rank ∧ (∀ x, s.parent x = x → s'.parent x = x) := by
  intro f
  induction f with
  | zero => rintro n _ ⟨k, hk, _⟩; omega
  | succ f ih =>
    rintro n hn ⟨k, hk, hroot⟩
    unfold DSU.findFuel
    simp only [Nat.not_le.mpr hn, if_false]
    by_cases h : s.parent n = n
    · simp only [h, if_true]
      refine ⟨s, ?_, F, rfl, rfl, fun _ h => h⟩
      rw [F.rep_self n hn h]
    · simp only [h, if_false]
      obtain ⟨s', e, F', hsz, hrk, hpar⟩ := ih (s.parent n) (F.par_lt n hn) (by
        cases k with
        | zero => exact absurd hroot h
        | succ k => exact ⟨k, by omega, hroot⟩)
      rw [e]
      simp only [F.rep_par n hn]
      have hpn : ∀ x, x < s.size → s'.parent x = x → s.parent x = x := by
        intro x hx hx'
        by_contra hc
        have h1 := F'.rep_self x (hsz ▸ hx) hx'
        exact hc (h1 ▸ F.rep_root x hx)
      have hn' : s'.parent n ≠ n := fun hc => h (hpn n hn hc)
      have hdd : d (rep n) < d n := by
        have h1 := F.dec n hn h
        have h2 := F.depth_rep _ (s.parent n) (Nat.le_refl _) (F.par_lt n hn)
        rw [F.rep_par n hn] at h2; omega
      refine ⟨_, rfl, F'.compress (hsz ▸ hn) hn' hdd, hsz, hrk, ?_⟩
      intro x hx
      have hxn : x ≠ n := by rintro rfl; exact h hx
      simp only [upd_ne _ _ _ hxn]; exact hpar x hx

/-- On a forest of `size` nodes every parent chain reaches its root in fewer than `size`
links (pigeonhole). -/
theorem Forest.chain {s : DSU} {rep d} (F : Forest s rep d) {n : Nat} (hn : n < s.size) :
    ∃ k, k < s.size ∧ s.parent (s.parent^[k] n) = s.parent^[k] n := by
  by_contra hc
  push Not at hc
  have hlt : ∀ k, s.parent^[k] n < s.size := by
    intro k
    induction k with
    | zero => exact hn
    | succ k ih => rw [Function.iterate_succ_apply']; exact F.par_lt _ ih
  have hdec : ∀ k, k < s.size → d (s.parent^[k+1] n) < d (s.parent^[k] n) := by
    intro k hk
    rw [Function.iterate_succ_apply']
    exact F.dec _ (hlt k) (hc k hk)
  have hmono : ∀ j i, i < j → j ≤ s.size → d (s.parent^[j] n) < d (s.parent^[i] n) := by
    intro j
    induction j with
    | zero => intro i hi; omega
    | succ j ih =>
      intro i hi hj
      have h1 := hdec j (by omega)
      by_cases hij : i = j
      · subst hij; exact h1
      · have := ih i (by omega) (by omega); omega
  let g : Fin (s.size + 1) → Fin s.size := fun k => ⟨s.parent^[k.1] n, hlt k.1⟩
  obtain ⟨i, j, hij, hg⟩ := Fintype.exists_ne_map_eq_of_card_lt g (by simp)
  have hg' : s.parent^[i.1] n = s.parent^[j.1] n := congrArg Fin.val hg
  have hne : i.1 ≠ j.1 := fun e => hij (Fin.ext e)
  rcases Nat.lt_or_gt_of_ne hne with h | h
  · have := hmono j.1 i.1 h (by omega); rw [hg'] at this; omega
  · have := hmono i.1 j.1 h (by omega); rw [hg'] at this; omega

theorem Forest.findSet {s : DSU} {rep d} (F : Forest s rep d) {n : Nat} (hn : n < s.size) :
    ∃ s', s.findSet n = (.rep (rep n), s') ∧ Forest s' rep d ∧ s'.size = s.size ∧
      s'.rank = s.rank := by
  obtain ⟨k, hk, hr⟩ := F.chain hn
  obtain ⟨s', e, F', h1, h2, _⟩ := F.findFuel (s.size + 1) n hn ⟨k, by omega, hr⟩
  exact ⟨s', e, F', h1, h2⟩

theorem findSet_throws (s : DSU) {n : Nat} (hn : s.size ≤ n) : s.findSet n = (.throws, s) := by
  unfold DSU.findSet DSU.findFuel; simp [hn]

/-- Linking one root under another element of a different tree. -/
theorem Forest.link {s : DSU} {rep d} (F : Forest s rep d) {a b : Nat} (ha : a < s.size)
    (hb : b < s.size) (hroot : s.parent a = a) (hab : rep b ≠ a) (rk : Nat → Nat) :
    Forest { s with parent := upd s.parent a b, rank := rk }
      (fun x => if rep x = a then rep b else rep x)
      (fun x => if rep x = a then d x + d b + 1 else d x) := by
  have hra : rep a = a := F.rep_self a ha hroot
  have hba : b ≠ a := by rintro rfl; exact hab hra
  refine ⟨?_, ?_, ?_, ?_, ?_, ?_⟩ <;> intro x hx <;> simp only at hx ⊢
  · by_cases e : x = a
    · subst e; rw [upd_same]; exact hb
    · rw [upd_ne _ _ _ e]; exact F.par_lt x hx
  · split
    · exact F.rep_lt b hb
    · exact F.rep_lt x hx
  · split
    · rw [upd_ne _ _ _ hab]; exact F.rep_root b hb
    · rename_i h; rw [upd_ne _ _ _ h]; exact F.rep_root x hx
  · by_cases e : x = a
    · subst e; rw [upd_same]; simp only [hra, if_true, hab, if_false]
    · rw [upd_ne _ _ _ e, F.rep_par x hx]
  · by_cases e : x = a
    · subst e; rw [upd_same]; exact fun h => absurd h hba
    · rw [upd_ne _ _ _ e]; intro h
      have := F.rep_self x hx h
      simp only [this, e, if_false]
  · by_cases e : x = a
    · subst e; rw [upd_same]; intro _
      simp only [hra, if_true, hab, if_false]; omega
    · rw [upd_ne _ _ _ e, F.rep_par x hx]; intro h
      have := F.dec x hx h
      split <;> omega

theorem Forest.unionSet {s : DSU} {rep d} (F : Forest s rep d) {a b : Nat} (ha : a < s.size)
    (hb : b < s.size) :
    ∃ s' rep' d', s.unionSet a b = (true, s') ∧ Forest s' rep' d' ∧ s'.size = s.size ∧
      (∀ x y, (rep' x = rep' y ↔
        (rep x = rep y ∨ (rep x = rep a ∧ rep y = rep b) ∨ (rep x = rep b ∧ rep y = rep a)))) := by
  obtain ⟨s1, e1, F1, z1, k1⟩ := F.findSet ha
  obtain ⟨s2, e2, F2, z2, k2⟩ := F1.findSet (n := b) (by omega)
  have hsz : s2.size = s.size := by omega
  have hra := F2.rep_root a (by omega)
  have hrb := F2.rep_root b (by omega)
  have hra' := F2.rep_lt a (by omega)
  have hrb' := F2.rep_lt b (by omega)
  have hrra := F2.rep_self _ hra' hra
  have hrrb := F2.rep_self _ hrb' hrb
  unfold DSU.unionSet
  rw [e1]; simp only; rw [e2]; simp only
  by_cases hab : rep a = rep b
  · simp only [hab, if_true]
    refine ⟨s2, rep, d, rfl, F2, hsz, ?_⟩
    intro x y
    constructor
    · exact Or.inl
    · rintro (h | ⟨h1, h2⟩ | ⟨h1, h2⟩)
      · exact h
      · rw [h1, h2]
      · rw [h1, h2]
  · have L1 := F2.link hra' hrb' hra (by rw [hrrb]; exact fun h => hab h.symm)
    have L2 := F2.link hrb' hra' hrb (by rw [hrra]; exact hab)
    have R1 : ∀ x y, ((if rep x = rep a then rep (rep b) else rep x) =
        (if rep y = rep a then rep (rep b) else rep y) ↔
        (rep x = rep y ∨ (rep x = rep a ∧ rep y = rep b) ∨ (rep x = rep b ∧ rep y = rep a))) := by
      intro x y; rw [hrrb]
      by_cases hx : rep x = rep a <;> by_cases hy : rep y = rep a <;> simp only [hx, hy, if_true, if_false] <;> simp [hab, eq_comm]
      · intro h; exact absurd h (by rw [eq_comm]; exact hy)
    have R2 : ∀ x y, ((if rep x = rep b then rep (rep a) else rep x) =
        (if rep y = rep b then rep (rep a) else rep y) ↔
        (rep x = rep y ∨ (rep x = rep a ∧ rep y = rep b) ∨ (rep x = rep b ∧ rep y = rep a))) := by
      intro x y; rw [hrra]
      by_cases hx : rep x = rep b <;> by_cases hy : rep y = rep b <;> simp only [hx, hy, if_true, if_false] <;> simp [eq_comm]
      · intro h; exact absurd h (by rw [eq_comm]; exact hy)
    simp only [hab, if_false]
    split
    · exact ⟨_, _, _, rfl, L1 _, hsz, R1⟩
    · split
      · exact ⟨_, _, _, rfl, L2 _, hsz, R2⟩
      · exact ⟨_, _, _, rfl, L2 _, hsz, R2⟩

/-- `mergeAintoB` on a representative `a` and an element `b` of another set. -/
theorem Forest.mergeAintoB {s : DSU} {rep d} (F : Forest s rep d) {a b : Nat} (ha : a < s.size)
    (hb : b < s.size) (hroot : s.parent a = a) (hab : rep b ≠ a) :
    Forest (s.mergeAintoB a b) (fun x => if rep x = a then rep b else rep x)
      (fun x => if rep x = a then d x + d b + 1 else d x) ∧ (s.mergeAintoB a b).size = s.size := by
  unfold DSU.mergeAintoB
  have e : (s.checkSize a).checkSize b = s := by
    unfold DSU.checkSize; simp [ha, hb]
  simp only [e]
  split
  · exact ⟨F.link ha hb hroot hab _, rfl⟩
  · split
    · exact ⟨F.link ha hb hroot hab _, rfl⟩
    · exact ⟨F.link ha hb hroot hab s.rank, rfl⟩

/-- The parent chain of `n` ends at its `k`-th link: at a root or outside the vector. -/
def Ends (s : DSU) (n k : Nat) : Prop :=
  s.size ≤ s.parent^[k] n ∨ s.parent (s.parent^[k] n) = s.parent^[k] n

theorem findFuel_spins_iff (s : DSU) :
    ∀ f n, (findFuel f s n).1 = .spins ↔ ∀ k, k < f → ¬ Ends s n k := by
  intro f
  induction f with
  | zero => intro n; simp [DSU.findFuel]
  | succ f ih =>
    intro n
    unfold DSU.findFuel
    by_cases h1 : s.size ≤ n
    · simp only [h1, if_true]
      constructor
      · intro h; cases h
      · intro h; exact absurd (Or.inl h1) (h 0 (by omega))
    · by_cases h2 : s.parent n = n
      · simp only [h1, if_false, h2, if_true]
        constructor
        · intro h; cases h
        · intro h; exact absurd (Or.inr h2) (h 0 (by omega))
      · simp only [h1, if_false, h2]
        have key : (∀ k, k < f + 1 → ¬ Ends s n k) ↔ ∀ k, k < f → ¬ Ends s (s.parent n) k := by
          constructor
          · intro h k hk; exact h (k + 1) (by omega)
          · intro h k hk
            cases k with
            | zero => rintro (h' | h'); exacts [h1 h', h2 h']
            | succ k => exact h k (by omega)
        rw [key, ← ih]
        rcases hq : findFuel f s (s.parent n) with ⟨o, s'⟩
        cases o <;> simp

/-- The fuel `size+1` in `findSet` is not a restriction: if the call does not return within
it, it does not return at all. -/
theorem findSet_spins (s : DSU) (n : Nat) (h : (s.findSet n).1 = .spins) (f : Nat) :
    (findFuel f s n).1 = .spins := by
  classical
  rw [findFuel_spins_iff]
  unfold DSU.findSet at h
  rw [findFuel_spins_iff] at h
  by_contra hc
  push Not at hc
  obtain ⟨k0, _, hk0⟩ := hc
  have hex : ∃ k, Ends s n k := ⟨k0, hk0⟩
  have hk := Nat.find_spec hex
  have hmin : ∀ j, j < Nat.find hex → ¬ Ends s n j := fun j hj => Nat.find_min hex hj
  generalize Nat.find hex = k at hk hmin
  have hks : s.size < k := by
    by_contra hle
    exact h k (by omega) hk
  have hlt : ∀ i : Fin (s.size + 1), s.parent^[i.1] n < s.size := by
    intro i
    have := hmin i.1 (by omega)
    unfold Ends at this
    push Not at this
    exact this.1
  obtain ⟨i, j, hij, hg⟩ := Fintype.exists_ne_map_eq_of_card_lt
    (fun i : Fin (s.size + 1) => (⟨s.parent^[i.1] n, hlt i⟩ : Fin s.size)) (by simp)
  have hg' : s.parent^[i.1] n = s.parent^[j.1] n := congrArg Fin.val hg
  have hne : i.1 ≠ j.1 := fun e => hij (Fin.ext e)
  have aux : ∀ a b, a < b → b < k → s.parent^[a] n = s.parent^[b] n → False := by
    intro a b hab hb he
    apply hmin (k - b + a) (by omega)
    have : s.parent^[k - b + a] n = s.parent^[k] n := by
      rw [Function.iterate_add_apply, he, ← Function.iterate_add_apply]
      congr 1; omega
    unfold Ends
    rw [this]; exact hk
  rcases Nat.lt_or_gt_of_ne hne with h' | h'
  · exact aux _ _ h' (by omega) hg'
  · exact aux _ _ h' (by omega) hg'.symm

end DSU

end RichDEM
