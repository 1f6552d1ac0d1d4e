import Mathlib.Data.List.Basic
import Verif.DS.Disjoint

/-!
Model of `ManagedVector<T>` (include/richdem/common/ManagedVector.hpp) together with the heap
it manages.  Blocks have addresses; a block is either the caller's (`ext`) or was allocated by
`new T[]`.  Deleting a dead block or a block of the caller is an error outcome.
-/

namespace RichDEM

/-- ManagedVector.hpp:15-17 (`_data`, `_owned`, `_size`). -/
structure MV where
  data : Option Nat
  owned : Bool
  size : Nat
deriving DecidableEq

/-- The heap and the live vectors (by name). -/
structure MVState (T : Type) where
  heap : Nat → Option (List T)
  ext : Nat → Bool
  next : Nat
  objs : Nat → Option MV

inductive MVErr where
  | doubleFree
  | freedCallerMemory
  | throws
  | noObject
deriving DecidableEq

namespace MVState
variable {T : Type}

def init : MVState T := ⟨fun _ => none, fun _ => false, 0, fun _ => none⟩

/-- `delete[]`. -/
def free (s : MVState T) (a : Nat) : Except MVErr (MVState T) :=
  match s.heap a with
  | none => .error .doubleFree
  | some _ => if s.ext a then .error .freedCallerMemory
              else .ok { s with heap := upd s.heap a none }

/-- `unique_ptr` giving up its pointer: delete it unless null. -/
def freeOpt (s : MVState T) : Option Nat → Except MVErr (MVState T)
  | none => .ok s
  | some a => s.free a

/-- `new T[n]`, then filled with `l`. -/
def alloc (s : MVState T) (l : List T) : MVState T :=
  { s with heap := upd s.heap s.next (some l), ext := upd s.ext s.next false, next := s.next + 1 }

/-- The elements a vector shows (`_data[0.._size)`). -/
def read (s : MVState T) (m : MV) : List T :=
  match m.data with
  | none => []
  | some a => ((s.heap a).getD []).take m.size

def setObj (s : MVState T) (i : Nat) (m : Option MV) : MVState T := { s with objs := upd s.objs i m }

/-- The caller allocates memory of its own. -/
def callerAlloc (s : MVState T) (l : List T) : MVState T :=
  { s with heap := upd s.heap s.next (some l), ext := upd s.ext s.next true, next := s.next + 1 }

/-- ManagedVector.hpp:27-33 (constructor with size and default value). -/
def construct (s : MVState T) (i n : Nat) (v : T) : MVState T :=
  (s.alloc (List.replicate n v)).setObj i (some ⟨some s.next, true, n⟩)

/-- ManagedVector.hpp:39-44 (constructor wrapping caller memory). -/
def wrap (s : MVState T) (i a n : Nat) : MVState T := s.setObj i (some ⟨some a, false, n⟩)

/-- ManagedVector.hpp:47-64 (copy constructors). -/
def copyCtor (s : MVState T) (dst src : Nat) : Except MVErr (MVState T) :=
  match s.objs src with
  | none => .error .noObject
  | some m => .ok ((s.alloc (s.read m)).setObj dst (some ⟨some s.next, true, m.size⟩))

/-- ManagedVector.hpp:68-76 (move constructor). -/
def moveCtor (s : MVState T) (dst src : Nat) : Except MVErr (MVState T) :=
  match s.objs src with
  | none => .error .noObject
  | some m => .ok ((s.setObj src (some ⟨none, true, 0⟩)).setObj dst (some m))

/-- ManagedVector.hpp:78-88 (destructor, and `unique_ptr`'s after it). -/
def destroy (s : MVState T) (i : Nat) : Except MVErr (MVState T) :=
  match s.objs i with
  | none => .error .noObject
  | some m =>
    match s.freeOpt (if m.owned then m.data else none) with
    | .error e => .error e
    | .ok s => .ok (s.setObj i none)

/-- ManagedVector.hpp:111-120 (move assignment): `_data = std::move(other._data)` deletes the
old pointer whether it is owned or not; on self-assignment the pointer survives. -/
def moveAssign (s : MVState T) (dst src : Nat) : Except MVErr (MVState T) :=
  match s.objs dst, s.objs src with
  | some d, some m =>
    if dst = src then .ok (s.setObj dst (some ⟨d.data, true, 0⟩))
    else
      match s.freeOpt d.data with
      | .error e => .error e
      | .ok s => .ok ((s.setObj dst (some m)).setObj src (some ⟨none, true, 0⟩))
  | _, _ => .error .noObject

/-- ManagedVector.hpp:91-107 (copy assignment): copy-construct a temporary, move-assign from
it; the temporary is destroyed holding nothing. -/
def copyAssign (s : MVState T) (dst src : Nat) : Except MVErr (MVState T) :=
  match s.objs dst, s.objs src with
  | some d, some m =>
    let b := s.next
    match (s.alloc (s.read m)).freeOpt d.data with
    | .error e => .error e
    | .ok s => .ok (s.setObj dst (some ⟨some b, true, m.size⟩))
  | _, _ => .error .noObject

/-- ManagedVector.hpp:158-172 (`resize`); `new T[n]` leaves the elements unspecified: `junk`. -/
def resize (s : MVState T) (i n : Nat) (junk : T) : Except MVErr (MVState T) :=
  match s.objs i with
  | none => .error .noObject
  | some m =>
    if m.size = n then .ok s
    else if m.owned = false then .error .throws
    else
      match s.freeOpt m.data with
      | .error e => .error e
      | .ok s => .ok ((s.alloc (List.replicate n junk)).setObj i (some ⟨some s.next, true, n⟩))

/-- ManagedVector.hpp:174-180 (`operator[]` used to write an element in range). -/
def write (s : MVState T) (i k : Nat) (v : T) : Except MVErr (MVState T) :=
  match s.objs i with
  | some ⟨some a, _, n⟩ =>
    if k < n then .ok { s with heap := upd s.heap a ((s.heap a).map (·.set k v)) }
    else .error .noObject
  | _ => .error .noObject

/-! ### Ownership invariant -/

structure Inv (s : MVState T) : Prop where
  fresh : ∀ a, s.next ≤ a → s.heap a = none
  refs : ∀ i m a, s.objs i = some m → m.data = some a → a < s.next ∧ m.owned = !(s.ext a) ∧
    ∃ l, s.heap a = some l ∧ m.size ≤ l.length
  empty : ∀ i m, s.objs i = some m → m.data = none → m.size = 0 ∧ m.owned = true
  extlive : ∀ a, a < s.next → s.ext a = true → s.heap a ≠ none
  uniq : ∀ i j m m' a, s.objs i = some m → s.objs j = some m' → m.data = some a →
    m'.data = some a → s.ext a = false → i = j
  noleak : ∀ a, s.heap a ≠ none → s.ext a = false → ∃ i m, s.objs i = some m ∧ m.data = some a

theorem inv_init : Inv (init : MVState T) := by
  refine ⟨?_, ?_, ?_, ?_, ?_, ?_⟩ <;> simp [init]

theorem Inv.callerAlloc {s : MVState T} (I : Inv s) (l : List T) : Inv (s.callerAlloc l) := by
  unfold MVState.callerAlloc
  refine ⟨?_, ?_, I.empty, ?_, ?_, ?_⟩
  · intro a ha; simp only at ha ⊢; rw [upd_ne _ _ _ (by omega)]; exact I.fresh a (by omega)
  · intro i m a h1 h2
    obtain ⟨r1, r2, r3⟩ := I.refs i m a h1 h2
    simp only
    rw [upd_ne _ _ _ (by omega), upd_ne _ _ _ (by omega)]
    exact ⟨by omega, r2, r3⟩
  · intro a ha he
    by_cases h : a = s.next
    · subst h; simp [upd_same]
    · simp only [upd_ne _ _ _ h] at he ⊢; exact I.extlive a (by simp only at ha; omega) he
  · intro i j m m' a h1 h2 h3 h4 h5
    have := (I.refs i m a h1 h3).1
    simp only [upd_ne _ _ _ (show a ≠ s.next by omega)] at h5
    exact I.uniq i j m m' a h1 h2 h3 h4 h5
  · intro a h1 h2
    by_cases h : a = s.next
    · subst h; simp [upd_same] at h2
    · simp only [upd_ne _ _ _ h] at h1 h2; exact I.noleak a h1 h2

/-- Allocating a block and giving it to object `i`, which held nothing of its own. -/
theorem Inv.allocTo {s : MVState T} (I : Inv s) (i n : Nat) (l : List T) (hn : n ≤ l.length)
    (hi : ∀ m a, s.objs i = some m → m.data = some a → s.ext a = true) :
    Inv ((s.alloc l).setObj i (some ⟨some s.next, true, n⟩)) := by
  unfold MVState.alloc MVState.setObj
  refine ⟨?_, ?_, ?_, ?_, ?_, ?_⟩
  · intro a ha; simp only at ha ⊢; rw [upd_ne _ _ _ (by omega)]; exact I.fresh a (by omega)
  · intro j m a h1 h2
    simp only at h1 h2 ⊢
    by_cases hj : j = i
    · subst hj; rw [upd_same] at h1; cases h1; cases h2
      rw [upd_same, upd_same]; exact ⟨by omega, rfl, l, rfl, hn⟩
    · rw [upd_ne _ _ _ hj] at h1
      obtain ⟨r1, r2, r3⟩ := I.refs j m a h1 h2
      rw [upd_ne _ _ _ (by omega), upd_ne _ _ _ (by omega)]
      exact ⟨by omega, r2, r3⟩
  · intro j m h1 h2
    simp only at h1
    by_cases hj : j = i
    · subst hj; rw [upd_same] at h1; cases h1; cases h2
    · rw [upd_ne _ _ _ hj] at h1; exact I.empty j m h1 h2
  · intro a ha he
    by_cases h : a = s.next
    · subst h; simp [upd_same] at he
    · simp only [upd_ne _ _ _ h] at he ⊢; exact I.extlive a (by simp only at ha; omega) he
  · intro j k m m' a h1 h2 h3 h4 h5
    simp only at h1 h2 h5
    by_cases hj : j = i <;> by_cases hk : k = i
    · omega
    · subst hj; rw [upd_same] at h1; cases h1; cases h3
      rw [upd_ne _ _ _ hk] at h2
      have := (I.refs k m' _ h2 h4).1; omega
    · subst hk; rw [upd_same] at h2; cases h2; cases h4
      rw [upd_ne _ _ _ hj] at h1
      have := (I.refs j m _ h1 h3).1; omega
    · rw [upd_ne _ _ _ hj] at h1; rw [upd_ne _ _ _ hk] at h2
      have := (I.refs j m a h1 h3).1
      rw [upd_ne _ _ _ (by omega)] at h5
      exact I.uniq j k m m' a h1 h2 h3 h4 h5
  · intro a h1 h2
    simp only at h1 h2 ⊢
    by_cases h : a = s.next
    · subst h; exact ⟨i, _, upd_same _ _ _, rfl⟩
    · rw [upd_ne _ _ _ h] at h1 h2
      obtain ⟨j, m, e1, e2⟩ := I.noleak a h1 h2
      have hj : j ≠ i := by
        rintro rfl
        rw [hi m a e1 e2] at h2; simp at h2
      exact ⟨j, m, by rw [upd_ne _ _ _ hj]; exact e1, e2⟩

theorem Inv.wrap {s : MVState T} (I : Inv s) (i a n : Nat) (ha : a < s.next) (he : s.ext a = true)
    (hn : ∀ l, s.heap a = some l → n ≤ l.length) (hi : s.objs i = none) : Inv (s.wrap i a n) := by
  unfold MVState.wrap MVState.setObj
  refine ⟨I.fresh, ?_, ?_, I.extlive, ?_, ?_⟩
  · intro j m b h1 h2
    simp only at h1 ⊢
    by_cases hj : j = i
    · subst hj; rw [upd_same] at h1; cases h1; cases h2
      obtain ⟨l, hl⟩ := Option.ne_none_iff_exists'.1 (I.extlive a ha he)
      exact ⟨ha, by simp [he], l, hl, hn l hl⟩
    · rw [upd_ne _ _ _ hj] at h1; exact I.refs j m b h1 h2
  · intro j m h1 h2
    simp only at h1
    by_cases hj : j = i
    · subst hj; rw [upd_same] at h1; cases h1; cases h2
    · rw [upd_ne _ _ _ hj] at h1; exact I.empty j m h1 h2
  · intro j k m m' b h1 h2 h3 h4 h5
    simp only at h1 h2 h5
    by_cases hj : j = i <;> by_cases hk : k = i
    · omega
    · subst hj; rw [upd_same] at h1; cases h1; cases h3; rw [he] at h5; simp at h5
    · subst hk; rw [upd_same] at h2; cases h2; cases h4; rw [he] at h5; simp at h5
    · rw [upd_ne _ _ _ hj] at h1; rw [upd_ne _ _ _ hk] at h2
      exact I.uniq j k m m' b h1 h2 h3 h4 h5
  · intro b h1 h2
    obtain ⟨j, m, e1, e2⟩ := I.noleak b h1 h2
    have hj : j ≠ i := by rintro rfl; rw [hi] at e1; simp at e1
    exact ⟨j, m, by simp only; rw [upd_ne _ _ _ hj]; exact e1, e2⟩

/-- Deleting what an owning (or empty) object holds and replacing the object by one that holds
nothing of the library's, in one step. -/
theorem Inv.release {s : MVState T} (I : Inv s) (i : Nat) (m : MV) (hm : s.objs i = some m)
    (ho : m.owned = true) (m' : Option MV) (hm' : m' = none ∨ m' = some ⟨none, true, 0⟩) :
    ∃ s1, s.freeOpt m.data = .ok s1 ∧ Inv (s1.setObj i m') ∧ s1.next = s.next ∧ s1.ext = s.ext ∧
      s1.objs = s.objs ∧ (∀ a, s.ext a = true → s1.heap a = s.heap a) ∧
      (∀ j mj, j ≠ i → s.objs j = some mj → s1.read mj = s.read mj) := by
  have hnew : ∀ {mm : MV} {b}, m' = some mm → mm.data = some b → False := by
    intro mm b h1 h2
    rcases hm' with h | h
    · rw [h] at h1; cases h1
    · rw [h] at h1; cases h1; cases h2
  cases hd : m.data with
  | none =>
    refine ⟨s, rfl, ?_, rfl, rfl, rfl, fun _ _ => rfl, fun _ _ _ _ => rfl⟩
    unfold MVState.setObj
    refine ⟨I.fresh, ?_, ?_, I.extlive, ?_, ?_⟩
    · intro j mj b h1 h2
      simp only at h1
      by_cases hj : j = i
      · subst hj; rw [upd_same] at h1; exact (hnew h1 h2).elim
      · rw [upd_ne _ _ _ hj] at h1; exact I.refs j mj b h1 h2
    · intro j mj h1 h2
      simp only at h1
      by_cases hj : j = i
      · subst hj; rw [upd_same] at h1
        rcases hm' with h | h
        · rw [h] at h1; cases h1
        · rw [h] at h1; cases h1; exact ⟨rfl, rfl⟩
      · rw [upd_ne _ _ _ hj] at h1; exact I.empty j mj h1 h2
    · intro j k mj mk b h1 h2 h3 h4 h5
      simp only at h1 h2
      by_cases hj : j = i
      · subst hj; rw [upd_same] at h1; exact (hnew h1 h3).elim
      · by_cases hk : k = i
        · subst hk; rw [upd_same] at h2; exact (hnew h2 h4).elim
        · rw [upd_ne _ _ _ hj] at h1; rw [upd_ne _ _ _ hk] at h2
          exact I.uniq j k mj mk b h1 h2 h3 h4 h5
    · intro b h1 h2
      obtain ⟨j, mj, e1, e2⟩ := I.noleak b h1 h2
      have hj : j ≠ i := by
        rintro rfl; rw [hm] at e1; cases e1; rw [hd] at e2; cases e2
      exact ⟨j, mj, by simp only; rw [upd_ne _ _ _ hj]; exact e1, e2⟩
  | some a =>
    obtain ⟨r1, r2, l, r3, r4⟩ := I.refs i m a hm hd
    have hea : s.ext a = false := by rw [ho] at r2; simpa using r2
    have hother : ∀ j mj, j ≠ i → s.objs j = some mj → mj.data ≠ some a := by
      intro j mj hj h1 h2
      exact hj (I.uniq j i mj m a h1 hm h2 hd hea)
    refine ⟨{ s with heap := upd s.heap a none }, ?_, ?_, rfl, rfl, rfl, ?_, ?_⟩
    · simp [MVState.freeOpt, MVState.free, r3, hea]
    · unfold MVState.setObj
      refine ⟨?_, ?_, ?_, ?_, ?_, ?_⟩
      · intro b hb; simp only at hb ⊢
        by_cases h : b = a
        · subst h; rw [upd_same]
        · rw [upd_ne _ _ _ h]; exact I.fresh b hb
      · intro j mj b h1 h2
        simp only at h1 ⊢
        by_cases hj : j = i
        · subst hj; rw [upd_same] at h1; exact (hnew h1 h2).elim
        · rw [upd_ne _ _ _ hj] at h1
          have hba : b ≠ a := by rintro rfl; exact hother j mj hj h1 h2
          rw [upd_ne _ _ _ hba]; exact I.refs j mj b h1 h2
      · intro j mj h1 h2
        simp only at h1
        by_cases hj : j = i
        · subst hj; rw [upd_same] at h1
          rcases hm' with h | h
          · rw [h] at h1; cases h1
          · rw [h] at h1; cases h1; exact ⟨rfl, rfl⟩
        · rw [upd_ne _ _ _ hj] at h1; exact I.empty j mj h1 h2
      · intro b hb he
        simp only at he ⊢
        have hba : b ≠ a := by rintro rfl; rw [hea] at he; simp at he
        rw [upd_ne _ _ _ hba]; exact I.extlive b hb he
      · intro j k mj mk b h1 h2 h3 h4 h5
        simp only at h1 h2
        by_cases hj : j = i
        · subst hj; rw [upd_same] at h1; exact (hnew h1 h3).elim
        · by_cases hk : k = i
          · subst hk; rw [upd_same] at h2; exact (hnew h2 h4).elim
          · rw [upd_ne _ _ _ hj] at h1; rw [upd_ne _ _ _ hk] at h2
            exact I.uniq j k mj mk b h1 h2 h3 h4 h5
      · intro b h1 h2
        simp only at h1
        have hba : b ≠ a := by rintro rfl; rw [upd_same] at h1; exact h1 rfl
        rw [upd_ne _ _ _ hba] at h1
        obtain ⟨j, mj, e1, e2⟩ := I.noleak b h1 h2
        have hj : j ≠ i := by
          rintro rfl; rw [hm] at e1; cases e1; rw [hd] at e2; cases e2; exact hba rfl
        exact ⟨j, mj, by simp only; rw [upd_ne _ _ _ hj]; exact e1, e2⟩
    · intro b hb
      have hba : b ≠ a := by rintro rfl; rw [hea] at hb; simp at hb
      simp only [upd_ne _ _ _ hba]
    · intro j mj hj h1
      unfold MVState.read
      cases hdj : mj.data with
      | none => rfl
      | some b =>
        have hba : b ≠ a := by rintro rfl; exact hother j mj hj h1 hdj
        simp only [upd_ne _ _ _ hba]

/-- Moving the contents of object `src` into object `dst`, which holds nothing of the
library's. -/
theorem Inv.moveTo {s : MVState T} (I : Inv s) (dst src : Nat) (m : MV) (hne : dst ≠ src)
    (hs : s.objs src = some m) (hd : ∀ d a, s.objs dst = some d → d.data = some a → False) :
    Inv ((s.setObj dst (some m)).setObj src (some ⟨none, true, 0⟩)) := by
  unfold MVState.setObj
  have look : ∀ j, upd (upd s.objs dst (some m)) src (some ⟨none, true, 0⟩) j =
      if j = src then some ⟨none, true, 0⟩ else if j = dst then some m else s.objs j := by
    intro j; unfold upd; rfl
  refine ⟨I.fresh, ?_, ?_, I.extlive, ?_, ?_⟩
  · intro j mj b h1 h2
    simp only [look] at h1
    split at h1
    · cases h1; cases h2
    · split at h1
      · cases h1; exact I.refs src m b hs h2
      · exact I.refs j mj b h1 h2
  · intro j mj h1 h2
    simp only [look] at h1
    split at h1
    · cases h1; exact ⟨rfl, rfl⟩
    · split at h1
      · cases h1; exact I.empty src m hs h2
      · exact I.empty j mj h1 h2
  · intro j k mj mk b h1 h2 h3 h4 h5
    simp only [look] at h1 h2
    have key : ∀ j mj, (if j = src then some (⟨none, true, 0⟩ : MV) else if j = dst then some m else s.objs j) = some mj →
        mj.data = some b → (j = dst ∧ s.objs src = some mj) ∨ (j ≠ dst ∧ j ≠ src ∧ s.objs j = some mj) := by
      intro j mj h hb
      split at h
      · cases h; cases hb
      · split at h
        · cases h; exact Or.inl ⟨by assumption, hs⟩
        · exact Or.inr ⟨by assumption, by assumption, h⟩
    rcases key j mj h1 h3 with ⟨a1, a2⟩ | ⟨a1, a2, a3⟩ <;>
      rcases key k mk h2 h4 with ⟨b1, b2⟩ | ⟨b1, b2, b3⟩
    · omega
    · exact absurd (I.uniq _ _ _ _ b a2 b3 h3 h4 h5).symm b2
    · exact absurd (I.uniq _ _ _ _ b a3 b2 h3 h4 h5) a2
    · exact I.uniq _ _ _ _ b a3 b3 h3 h4 h5
  · intro b h1 h2
    obtain ⟨j, mj, e1, e2⟩ := I.noleak b h1 h2
    simp only [look]
    by_cases hj : j = src
    · subst hj
      refine ⟨dst, mj, ?_, e2⟩
      rw [if_neg hne, if_pos rfl, ← e1, hs]
    · have hjd : j ≠ dst := by rintro rfl; exact hd mj b e1 e2
      exact ⟨j, mj, by rw [if_neg hj, if_neg hjd]; exact e1, e2⟩

theorem Inv.write {s : MVState T} (I : Inv s) {a : Nat} (k : Nat) (v : T) :
    Inv { s with heap := upd s.heap a ((s.heap a).map (·.set k v)) } := by
  have hn : ∀ b, upd s.heap a ((s.heap a).map (·.set k v)) b = none ↔ s.heap b = none := by
    intro b
    by_cases h : b = a
    · subst h; rw [upd_same]; simp
    · rw [upd_ne _ _ _ h]
  refine ⟨?_, ?_, I.empty, ?_, I.uniq, ?_⟩
  · intro b hb; simp only; rw [hn]; exact I.fresh b hb
  · intro i m b h1 h2
    obtain ⟨r1, r2, l, r3, r4⟩ := I.refs i m b h1 h2
    refine ⟨r1, r2, ?_⟩
    simp only
    by_cases h : b = a
    · subst h; rw [upd_same, r3]; exact ⟨l.set k v, rfl, by simpa using r4⟩
    · rw [upd_ne _ _ _ h]; exact ⟨l, r3, r4⟩
  · intro b hb he; simp only; rw [ne_eq, hn]; exact I.extlive b hb he
  · intro b h1 h2; simp only at h1; rw [ne_eq, hn] at h1; exact I.noleak b h1 h2

end MVState
end RichDEM
