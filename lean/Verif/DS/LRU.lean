import Mathlib.Data.List.Basic
import Mathlib.Data.List.Nodup
import Mathlib.Data.List.Pairwise
import Mathlib.Data.List.Induction

/-!
Model of `LRU<T>` (include/richdem/tiled/lru.hpp).

`std::list` is a list (front first); the `unordered_map` from keys to list iterators is
modelled by its key set `visited` (the iterator it maps a key to is the unique list node that
holds the key, an invariant of the class).  `int` counters are unbounded integers.
-/

namespace RichDEM

/-- lru.hpp:19-26. -/
structure LRU (α : Type) where
  len : Int
  maxlen : Int
  last : α
  visited : List α
  cache : List α

namespace LRU
variable {α : Type} [DecidableEq α]

/-- lru.hpp:29-32 (constructor).  `last` is not initialised: it holds whatever value `junk`
was in the storage. -/
def new (junk : α) : LRU α := ⟨0, -1, junk, [], []⟩

/-- lru.hpp:41-57 (`insert`). -/
def insert (s : LRU α) (e : α) : LRU α :=
  if e = s.last then s
  else if e ∈ s.visited then { s with cache := e :: s.cache.erase e, last := e }
  else { s with cache := e :: s.cache, visited := e :: s.visited, len := s.len + 1, last := e }

/-- lru.hpp:61-63. -/
def size (s : LRU α) : Int := s.len
/-- lru.hpp:67-69. -/
def full (s : LRU α) : Bool := s.len == s.maxlen
/-- lru.hpp:72-74. -/
def setCapacity (s : LRU α) (n : Int) : LRU α := { s with maxlen := n }
/-- lru.hpp:78-80. -/
def getCapacity (s : LRU α) : Int := s.maxlen

/-- lru.hpp:84-86 (`back`); `none` is undefined behaviour (`back()` of an empty list). -/
def back (s : LRU α) : Option α := s.cache.getLast?

/-- lru.hpp:89-93 (`pop_back`); `none` is undefined behaviour on an empty list. -/
def popBack (s : LRU α) : Option (LRU α) :=
  match s.cache.getLast? with
  | none => none
  | some b => some { s with visited := s.visited.erase b, cache := s.cache.dropLast,
                            len := s.len - 1 }

/-- lru.hpp:99-100: the `while(size()>maxlen) pop_back();` loop, run for at most `f` turns. -/
def pruneLoop : Nat → LRU α → Option (LRU α)
  | 0, s => some s
  | f + 1, s => if s.len > s.maxlen then s.popBack.bind (pruneLoop f) else some s

/-- lru.hpp:96-101 (`prune`).  The loop runs exactly `len-maxlen` times when it can. -/
def prune (s : LRU α) : Option (LRU α) :=
  if s.maxlen = -1 then some s else pruneLoop (s.len - s.maxlen).toNat s

/-- Representation invariant. -/
structure Inv (s : LRU α) : Prop where
  nodup : s.cache.Nodup
  vis : s.visited.Perm s.cache
  len : s.len = s.cache.length
  last : s.cache = [] ∨ s.cache.head? = some s.last

omit [DecidableEq α] in
theorem inv_new (j : α) : Inv (new j) := ⟨List.nodup_nil, List.Perm.refl _, rfl, Or.inl rfl⟩

theorem Inv.insert {s : LRU α} (I : Inv s) (e : α) : Inv (s.insert e) := by
  unfold LRU.insert
  by_cases h1 : e = s.last
  · simp only [h1, if_true]; exact I
  · by_cases h2 : e ∈ s.visited
    · simp only [h1, if_false, h2, if_true]
      have h3 : e ∈ s.cache := I.vis.mem_iff.1 h2
      refine ⟨?_, ?_, ?_, Or.inr rfl⟩
      · exact List.nodup_cons.2 ⟨fun h => I.nodup.mem_erase_iff.1 h |>.1 rfl, I.nodup.erase e⟩
      · exact I.vis.trans (List.perm_cons_erase h3)
      · simp only [I.len, List.length_cons, List.length_erase_of_mem h3]
        have := List.length_pos_of_mem h3
        omega
    · simp only [h1, if_false, h2]
      have h3 : e ∉ s.cache := fun h => h2 (I.vis.mem_iff.2 h)
      refine ⟨List.nodup_cons.2 ⟨h3, I.nodup⟩, I.vis.cons e, ?_, Or.inr rfl⟩
      simp [I.len]

/-- What `insert` does to the list. -/
theorem Inv.insert_cache {s : LRU α} (I : Inv s) (e : α) :
    (s.insert e).cache = if s.cache = [] ∧ e = s.last then [] else e :: s.cache.erase e := by
  unfold LRU.insert
  by_cases h1 : e = s.last
  · simp only [h1, if_true]
    rcases I.last with h | h
    · simp [h]
    · cases hc : s.cache with
      | nil => simp
      | cons a l =>
        rw [hc] at h; simp at h; subst h
        simp
  · by_cases h2 : e ∈ s.visited
    · simp [h1, h2]
    · have h3 : e ∉ s.cache := fun h => h2 (I.vis.mem_iff.2 h)
      simp [h1, h2, List.erase_of_not_mem h3]

theorem Inv.popBack {s : LRU α} (I : Inv s) (h : s.cache ≠ []) :
    ∃ s', s.popBack = some s' ∧ Inv s' ∧ s'.cache = s.cache.dropLast ∧ s'.maxlen = s.maxlen ∧
      s'.len = s.len - 1 := by
  unfold LRU.popBack
  rw [List.getLast?_eq_some_getLast h]
  have hl : s.cache = s.cache.dropLast ++ [s.cache.getLast h] := (List.dropLast_append_getLast h).symm
  have hnd := I.nodup
  generalize hb : s.cache.getLast h = b at *
  generalize hc : s.cache.dropLast = c at *
  refine ⟨_, rfl, ⟨?_, ?_, ?_, ?_⟩, rfl, rfl, rfl⟩
  · rw [hl] at hnd; exact hnd.of_append_left
  · have h1 : (s.visited.erase b).Perm (s.cache.erase b) := I.vis.erase b
    have h2 : s.cache.erase b = c := by
      rw [hl] at hnd ⊢
      have : b ∉ c := by
        intro hm
        have := List.nodup_append.1 hnd
        exact this.2.2 b hm b (by simp) rfl
      rw [List.erase_append_right _ this]; simp
    rw [h2] at h1; exact h1
  · simp only [I.len, hl, List.length_append, List.length_singleton]; omega
  · rcases I.last with h' | h'
    · exact absurd h' h
    · by_cases he : c = []
      · exact Or.inl he
      · right
        rw [hl] at h'
        rw [List.head?_append_of_ne_nil _ he] at h'
        exact h'

theorem Inv.pruneLoop {s : LRU α} (I : Inv s) (hm : 0 ≤ s.maxlen) :
    ∀ f : Nat, (f : Int) = s.len - s.maxlen ∨ (f = 0 ∧ s.len ≤ s.maxlen) →
    ∃ s', LRU.pruneLoop f s = some s' ∧ Inv s' ∧ s'.cache = s.cache.take s.maxlen.toNat ∧
      s'.maxlen = s.maxlen := by
  intro f
  induction f generalizing s with
  | zero =>
    intro h
    refine ⟨s, rfl, I, ?_, rfl⟩
    rw [List.take_of_length_le]
    have := I.len; rcases h with h | h <;> omega
  | succ f ih =>
    intro h
    have h1 : s.len > s.maxlen := by rcases h with h | h <;> omega
    have hne : s.cache ≠ [] := by
      intro hc; have := I.len; rw [hc] at this; simp at this; omega
    unfold LRU.pruneLoop
    simp only [h1, if_true]
    obtain ⟨s1, e1, I1, c1, m1, l1⟩ := I.popBack hne
    rw [e1]; simp only [Option.bind_some]
    obtain ⟨s2, e2, I2, c2, m2⟩ := ih I1 (by omega) (by
      rcases h with h | h
      · left; push_cast at h; omega
      · omega)
    refine ⟨s2, e2, I2, ?_, by omega⟩
    rw [c2, c1, m1, List.dropLast_eq_take, List.take_take]
    congr 1
    have := I.len
    omega

theorem Inv.prune {s : LRU α} (I : Inv s) (hm : 0 ≤ s.maxlen) :
    ∃ s', s.prune = some s' ∧ Inv s' ∧ s'.cache = s.cache.take s.maxlen.toNat ∧
      s'.maxlen = s.maxlen := by
  unfold LRU.prune
  have : s.maxlen ≠ -1 := by omega
  simp only [this, if_false]
  apply I.pruneLoop hm
  omega

end LRU
end RichDEM
