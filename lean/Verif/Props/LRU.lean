import Verif.DS.LRU

/-!
C29: the LRU list.
-/

namespace RichDEM

variable {α : Type} [DecidableEq α]

/-- A call made on an `LRU`. -/
inductive LOp (α : Type) where
  | insert (e : α)
  | popBack
  | prune
  | setCapacity (n : Int)

/-- One call; `none` is undefined behaviour. -/
def LOp.run (s : LRU α) : LOp α → Option (LRU α)
  | .insert e => some (s.insert e)
  | .popBack => s.popBack
  | .prune => s.prune
  | .setCapacity n => some (s.setCapacity n)

/-- A history of calls on a fresh cache whose uninitialised `last` field held `junk`. -/
def lruAfter (junk : α) (h : List (LOp α)) : Option (LRU α) :=
  h.foldl (fun s o => s.bind fun s => o.run s) (some (LRU.new junk))

/-- Specification: the time (1-based position in the history) of the last `insert k`; 0 if
there was none. -/
def lastUse (k : α) : List (LOp α) → Nat
  | h => (go h.length h.reverse)
where
  go : Nat → List (LOp α) → Nat
  | _, [] => 0
  | n, .insert e :: r => if e = k then n else go (n - 1) r
  | n, _ :: r => go (n - 1) r

theorem lastUse_snoc (k : α) (h : List (LOp α)) (o : LOp α) :
    lastUse k (h ++ [o]) =
      match o with
      | .insert e => if e = k then h.length + 1 else lastUse k h
      | _ => lastUse k h := by
  unfold lastUse
  simp only [List.length_append, List.length_singleton, List.reverse_append, List.reverse_cons,
    List.reverse_nil, List.nil_append, List.singleton_append]
  cases o <;> simp [lastUse.go]

theorem lastUse_le (k : α) (h : List (LOp α)) : lastUse k h ≤ h.length := by
  induction h using List.reverseRecOn with
  | nil => simp [lastUse, lastUse.go]
  | append_singleton h o ih =>
    rw [lastUse_snoc]
    cases o <;> simp only [List.length_append, List.length_singleton] <;> (try split) <;> omega

/-- Every history without undefined behaviour keeps the representation invariant and the
recency order. -/
theorem lru_inv (junk : α) (h : List (LOp α)) (s : LRU α) (hs : lruAfter junk h = some s) :
    s.Inv ∧ s.cache.Pairwise (fun x y => lastUse y h < lastUse x h) ∧
      ∀ x ∈ s.cache, 0 < lastUse x h := by
  induction h using List.reverseRecOn generalizing s with
  | nil =>
    simp only [lruAfter, List.foldl_nil, Option.some.injEq] at hs
    subst hs
    exact ⟨LRU.inv_new junk, List.Pairwise.nil, by simp [LRU.new]⟩
  | append_singleton h o ih =>
    have hstep : lruAfter junk (h ++ [o]) = (lruAfter junk h).bind (fun s => o.run s) := by
      simp [lruAfter, List.foldl_append]
    rw [hstep] at hs
    cases hp : lruAfter junk h with
    | none => rw [hp] at hs; simp at hs
    | some s0 =>
      rw [hp, Option.bind_some] at hs
      obtain ⟨I, P, Q⟩ := ih s0 hp
      -- operations that only drop entries from the tail
      have shrink : (∀ e, o ≠ .insert e) → s.Inv → s.cache.Sublist s0.cache →
          s.Inv ∧ s.cache.Pairwise (fun x y => lastUse y (h ++ [o]) < lastUse x (h ++ [o])) ∧
          ∀ x ∈ s.cache, 0 < lastUse x (h ++ [o]) := by
        intro ho I' hsub
        have e : ∀ x, lastUse x (h ++ [o]) = lastUse x h := by
          intro x; rw [lastUse_snoc]; cases o <;> simp_all
        refine ⟨I', ?_, ?_⟩
        · simp only [e]; exact P.sublist hsub
        · intro x hx; rw [e]; exact Q x (hsub.subset hx)
      have popsub : s0.popBack = some s → s.Inv ∧ s.cache.Sublist s0.cache := by
        intro hs
        by_cases hne : s0.cache = []
        · simp [LRU.popBack, hne] at hs
        · obtain ⟨s', e, I', c', _⟩ := I.popBack hne
          rw [e] at hs; cases hs
          exact ⟨I', c' ▸ List.dropLast_sublist _⟩
      cases o with
      | insert e =>
        simp only [LOp.run, Option.some.injEq] at hs
        subst hs
        refine ⟨I.insert e, ?_, ?_⟩
        · rw [I.insert_cache]
          split
          · exact List.Pairwise.nil
          · simp only [lastUse_snoc]
            refine List.pairwise_cons.2 ⟨?_, ?_⟩
            · intro y hy
              have hye : e ≠ y := by
                rintro rfl; exact (I.nodup.mem_erase_iff.1 hy).1 rfl
              simp only [hye, if_false, if_true]
              have := lastUse_le y h; omega
            · have P' : (s0.cache.erase e).Pairwise (fun x y => lastUse y h < lastUse x h) :=
                P.sublist List.erase_sublist
              refine P'.imp_of_mem ?_
              intro a b ha hb hab
              have h1 : e ≠ a := by rintro rfl; exact (I.nodup.mem_erase_iff.1 ha).1 rfl
              have h2 : e ≠ b := by rintro rfl; exact (I.nodup.mem_erase_iff.1 hb).1 rfl
              simp only [h1, h2, if_false]; exact hab
        · intro x hx
          rw [I.insert_cache] at hx
          rw [lastUse_snoc]
          simp only
          split at hx
          · simp at hx
          · split
            · omega
            · rename_i hxe
              rcases List.mem_cons.1 hx with rfl | hx
              · exact absurd rfl hxe
              · exact Q x (List.mem_of_mem_erase hx)
      | popBack =>
        obtain ⟨I', h'⟩ := popsub hs
        exact shrink (by intro e; simp) I' h'
      | prune =>
        have : ∀ f (s1 : LRU α), s1.Inv → s1.cache.Sublist s0.cache →
            LRU.pruneLoop f s1 = some s → s.Inv ∧ s.cache.Sublist s0.cache := by
          intro f
          induction f with
          | zero =>
            intro s1 I1 h1 he
            simp only [LRU.pruneLoop, Option.some.injEq] at he; subst he; exact ⟨I1, h1⟩
          | succ f ihf =>
            intro s1 I1 h1 he
            simp only [LRU.pruneLoop] at he
            split at he
            · by_cases hne : s1.cache = []
              · simp [LRU.popBack, hne] at he
              · obtain ⟨s', e, I', c', _⟩ := I1.popBack hne
                rw [e, Option.bind_some] at he
                exact ihf s' I' (c' ▸ (List.dropLast_sublist _).trans h1) he
            · simp only [Option.some.injEq] at he; subst he; exact ⟨I1, h1⟩
        simp only [LOp.run, LRU.prune] at hs
        split at hs
        · simp only [Option.some.injEq] at hs; subst hs
          exact shrink (by intro e; simp) I (List.Sublist.refl _)
        · obtain ⟨I', h'⟩ := this _ s0 I (List.Sublist.refl _) hs
          exact shrink (by intro e; simp) I' h'
      | setCapacity n =>
        simp only [LOp.run, Option.some.injEq] at hs
        subst hs
        exact shrink (by intro e; simp) ⟨I.nodup, I.vis, I.len, I.last⟩ (List.Sublist.refl _)

/-- **C29.** After any history, the list holds each key once, most recently used first, and
`size()`/`full()` report its length. -/
theorem C29_lru_sorted_by_last_use (junk : α) (h : List (LOp α)) (s : LRU α)
    (hs : lruAfter junk h = some s) :
    s.cache.Nodup ∧ s.cache.Pairwise (fun x y => lastUse y h < lastUse x h) ∧
      s.size = s.cache.length ∧ (s.full = true ↔ (s.cache.length : Int) = s.getCapacity) := by
  obtain ⟨I, P, _⟩ := lru_inv junk h s hs
  refine ⟨I.nodup, P, I.len, ?_⟩
  simp [LRU.full, LRU.getCapacity, I.len]

/-- **C29.** `back()` returns the least recently used of the keys held. -/
theorem C29_back_is_least_recently_used (junk : α) (h : List (LOp α)) (s : LRU α)
    (hs : lruAfter junk h = some s) (hne : s.cache ≠ []) :
    ∃ b, s.back = some b ∧ b ∈ s.cache ∧ ∀ x ∈ s.cache, lastUse b h ≤ lastUse x h := by
  obtain ⟨I, P, _⟩ := lru_inv junk h s hs
  refine ⟨s.cache.getLast hne, List.getLast?_eq_some_getLast hne, List.getLast_mem hne, ?_⟩
  intro x hx
  rw [← List.dropLast_append_getLast hne] at P hx
  rcases List.mem_append.1 hx with hx | hx
  · exact Nat.le_of_lt ((List.pairwise_append.1 P).2.2 x hx _ (by simp))
  · simp at hx; rw [hx]; exact Nat.le_refl _

/-- **C29.** `pop_back()` removes exactly that key. -/
theorem C29_pop_back (junk : α) (h : List (LOp α)) (s : LRU α) (hs : lruAfter junk h = some s)
    (hne : s.cache ≠ []) :
    ∃ s' b, s.popBack = some s' ∧ s.back = some b ∧ s.cache = s'.cache ++ [b] := by
  obtain ⟨I, _⟩ := lru_inv junk h s hs
  obtain ⟨s', e, _, c', _⟩ := I.popBack hne
  exact ⟨s', s.cache.getLast hne, e, List.getLast?_eq_some_getLast hne,
    by rw [c', List.dropLast_append_getLast]⟩

/-- **C29.** `prune()` keeps exactly the `capacity` most recently used keys. -/
theorem C29_prune (junk : α) (h : List (LOp α)) (s : LRU α) (hs : lruAfter junk h = some s)
    (hcap : 0 ≤ s.getCapacity) :
    ∃ s', s.prune = some s' ∧ s'.cache = s.cache.take s.getCapacity.toNat ∧
      s'.size ≤ s.getCapacity := by
  obtain ⟨I, _⟩ := lru_inv junk h s hs
  obtain ⟨s', e, I', c', _⟩ := I.prune hcap
  refine ⟨s', e, c', ?_⟩
  have := I'.len
  unfold LRU.size
  rw [this, c', List.length_take]
  unfold LRU.getCapacity at *
  omega

/-- **C29, partial.** `insert` moves the key to the front and keeps the order of the others —
except when the cache is empty and the key equals the remembered last key.  Missing: that
exception, which is real (`C29_reinsert_after_eviction_is_lost`). -/
theorem C29_insert_partial (junk : α) (h : List (LOp α)) (s : LRU α)
    (hs : lruAfter junk h = some s) (e : α) (hex : ¬ (s.cache = [] ∧ e = s.last)) :
    (s.insert e).cache = e :: s.cache.filter (· ≠ e) := by
  obtain ⟨I, _⟩ := lru_inv junk h s hs
  rw [I.insert_cache, if_neg hex, I.nodup.erase_eq_filter]
  congr 1
  apply List.filter_congr
  intro x _
  by_cases h : x = e <;> simp [h]

/-- **C29 is false as documented**: a key evicted from a one-element cache and inserted again
is silently not stored. -/
theorem C29_reinsert_after_eviction_is_lost (junk e : α) (hj : e ≠ junk) :
    ∃ s, lruAfter junk [.insert e, .popBack, .insert e] = some s ∧ s.cache = [] ∧ s.size = 0 := by
  have hj' : ¬ e = junk := hj
  refine ⟨⟨0, -1, e, [], []⟩, ?_, rfl, rfl⟩
  simp [lruAfter, LOp.run, LRU.new, LRU.insert, LRU.popBack, hj']

/-- **C29 is false as documented**: the first key inserted into a fresh cache is lost if it
happens to equal the uninitialised `last` field. -/
theorem C29_first_insert_may_be_lost (e : α) :
    ∃ s, lruAfter e [.insert e] = some s ∧ s.cache = [] ∧ s.size = 0 :=
  ⟨LRU.new e, by simp [lruAfter, LOp.run, LRU.new, LRU.insert], rfl, rfl⟩

/-- Non-vacuity: a history with re-use and pruning. -/
example :
    (lruAfter 0 [.insert 1, .insert 2, .insert 3, .insert 1, .setCapacity 2, .prune]).map
      (fun s => (s.cache, s.size, s.back)) = some ([1, 3], 2, some 3) := by decide +kernel

end RichDEM
