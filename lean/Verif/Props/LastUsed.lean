import Verif.Props.Tiled
import Verif.Props.TiledRead
import Mathlib.Data.List.Dedup
import Mathlib.Data.List.TakeDrop

/-!
Property theorems C103: which tiles a tiled raster keeps in memory, and `getEvictions()`.
-/

namespace RichDEM

variable {T : Type}

/-! ### Specification -/

/-- After the accesses `A` (oldest first) the tile `t` has been accessed, and since its last access fewer than `c` other
tiles have been (no limit if `c` is negative). -/
def Held (c : Int) (A : List Nat) (t : Nat) : Prop :=
  ∃ A1 A2, A = A1 ++ t :: A2 ∧ t ∉ A2 ∧ (c < 0 ∨ (A2.dedup.length : Int) < c)

open Classical in
/-- The number of accesses to a tile that is not held. -/
noncomputable def misses (c : Int) (A : List Nat) : Nat :=
  ((List.range A.length).filter fun i => decide (¬ Held c (A.take i) (A.getD i 0))).length

/-! ### The most recently used first -/

/-- The tiles accessed, the last one first. -/
def recent (A : List Nat) : List Nat := A.foldl (fun L t => t :: L.erase t) []

theorem recent_snoc (A : List Nat) (t : Nat) : recent (A ++ [t]) = t :: (recent A).erase t := by
  unfold recent; rw [List.foldl_append]; rfl

theorem recent_nodup (A : List Nat) : (recent A).Nodup := by
  induction A using List.reverseRecOn with
  | nil => exact List.nodup_nil
  | append_singleton A t ih =>
    rw [recent_snoc]
    exact List.nodup_cons.2 ⟨ih.not_mem_erase, ih.erase t⟩

theorem mem_recent (A : List Nat) (u : Nat) : u ∈ recent A ↔ u ∈ A := by
  induction A using List.reverseRecOn with
  | nil => simp [recent]
  | append_singleton A t ih =>
    rw [recent_snoc, List.mem_cons, (recent_nodup A).mem_erase_iff, ih]
    simp only [List.mem_append, List.mem_singleton]
    tauto

theorem recent_length (A : List Nat) : (recent A).length = A.dedup.length := by
  apply le_antisymm
  · apply List.Subperm.length_le
    exact List.subperm_of_subset (recent_nodup A) fun u hu => by
      rw [List.mem_dedup]; exact (mem_recent A u).1 hu
  · apply List.Subperm.length_le
    exact List.subperm_of_subset (List.nodup_dedup A) fun u hu => by
      rw [List.mem_dedup] at hu; exact (mem_recent A u).2 hu

theorem recent_split (A1 A2 : List Nat) (t : Nat) (ht : t ∉ A2) :
    ∃ rest, recent (A1 ++ t :: A2) = recent A2 ++ t :: rest := by
  induction A2 using List.reverseRecOn with
  | nil => exact ⟨_, recent_snoc A1 t⟩
  | append_singleton A2 u ih =>
    simp only [List.mem_append, List.mem_singleton, not_or] at ht
    obtain ⟨rest, e⟩ := ih ht.1
    rw [show A1 ++ t :: (A2 ++ [u]) = (A1 ++ t :: A2) ++ [u] by simp, recent_snoc, e, recent_snoc]
    by_cases hu : u ∈ recent A2
    · rw [List.erase_append_left _ hu]
      exact ⟨rest, by simp⟩
    · rw [List.erase_append_right _ hu, List.erase_of_not_mem hu]
      refine ⟨rest.erase u, ?_⟩
      rw [List.erase_cons_tail (by simpa using ht.2)]
      simp

/-- The first `c` of a list (all if `c` is negative). -/
def cut (c : Int) (L : List Nat) : List Nat := if c < 0 then L else L.take c.toNat

theorem held_iff (c : Int) (A : List Nat) (t : Nat) : Held c A t ↔ t ∈ cut c (recent A) := by
  constructor
  · rintro ⟨A1, A2, e, h1, h2⟩
    obtain ⟨rest, e2⟩ := recent_split A1 A2 t h1
    rw [e, e2]
    unfold cut
    split
    · simp
    · rename_i hc
      have hl : (recent A2).length < c.toNat := by rw [recent_length]; omega
      rw [List.mem_take_iff_getElem]
      exact ⟨(recent A2).length, by simp; omega, by simp⟩
  · intro hm
    have hA : t ∈ A := by
      rw [← mem_recent]
      unfold cut at hm
      split at hm
      · exact hm
      · exact List.mem_of_mem_take hm
    -- the last occurrence
    obtain ⟨B1, B2, e, h1⟩ : ∃ B1 B2, A.reverse = B1 ++ t :: B2 ∧ t ∉ B1 :=
      List.eq_append_cons_of_mem (List.mem_reverse.2 hA) 
    have eA : A = B2.reverse ++ t :: B1.reverse := by
      have := congrArg List.reverse e
      simpa using this
    refine ⟨B2.reverse, B1.reverse, eA, by simpa using h1, ?_⟩
    by_cases hc : c < 0
    · exact .inl hc
    right
    obtain ⟨rest, e2⟩ := recent_split B2.reverse B1.reverse t (by simpa using h1)
    unfold cut at hm
    rw [if_neg hc, eA, e2, List.mem_take_iff_getElem] at hm
    obtain ⟨i, hi, e3⟩ := hm
    rw [← recent_length]
    by_contra hlt
    have hi' : i < (recent B1.reverse).length := by omega
    rw [List.getElem_append_left hi'] at e3
    have : t ∈ recent B1.reverse := e3 ▸ List.getElem_mem hi'
    rw [mem_recent, List.mem_reverse] at this
    exact h1 this

theorem held_snoc (c : Int) (A : List Nat) (t : Nat) (hc : c ≠ 0) : Held c (A ++ [t]) t :=
  ⟨A, [], rfl, by simp, by simp; omega⟩

theorem misses_snoc (c : Int) (A : List Nat) (t : Nat) :
    (Held c A t → misses c (A ++ [t]) = misses c A) ∧ (¬ Held c A t → misses c (A ++ [t]) = misses c A + 1) := by
  classical
  have key : misses c (A ++ [t]) = misses c A + ([A.length].filter fun i =>
      decide (¬ Held c ((A ++ [t]).take i) ((A ++ [t]).getD i 0))).length := by
    unfold misses
    rw [List.length_append, List.length_singleton, List.range_succ, List.filter_append, List.length_append]
    congr 2
    apply List.filter_congr
    intro i hi
    rw [List.mem_range] at hi
    rw [List.take_append_of_le_length (by omega)]
    rw [show (A ++ [t]).getD i 0 = A.getD i 0 by
      simp [List.getD_eq_getElem?_getD, List.getElem?_append_left hi]]
  have e1 : (A ++ [t]).take A.length = A := by simp
  have e2 : (A ++ [t]).getD A.length 0 = t := by simp [List.getD_eq_getElem?_getD]
  rw [key]
  constructor
  · intro hh
    rw [List.filter_cons_of_neg (by rw [e1, e2]; simpa using hh)]
    simp
  · intro hh
    rw [List.filter_cons_of_pos (by rw [e1, e2]; simpa using hh)]
    simp

/-! ### The cache -/

theorem erase_take {L : List Nat} (hn : L.Nodup) (n t : Nat) (ht : t ∈ L.take n) :
    (L.take n).erase t = (L.erase t).take (n - 1) := by
  induction L generalizing n with
  | nil => simp
  | cons a L ih =>
    cases n with
    | zero => simp at ht
    | succ n =>
      rw [List.take_succ_cons] at ht ⊢
      by_cases ha : a = t
      · subst ha; simp
      · have ht' : t ∈ L.take n := by
          rcases List.mem_cons.1 ht with e | e
          · exact absurd e.symm ha
          · exact e
        rw [List.erase_cons_tail (by simpa using ha), List.erase_cons_tail (by simpa using ha),
          ih (List.nodup_cons.1 hn).2 n ht']
        have hpos : 0 < n := by
          rcases Nat.eq_zero_or_pos n with e | e
          · subst e; simp at ht'
          · exact e
        obtain ⟨m, rfl⟩ : ∃ m, n = m + 1 := ⟨n - 1, by omega⟩
        simp

theorem take_erase_of_not_mem (L : List Nat) (n t : Nat) (ht : t ∉ L.take (n + 1)) :
    (L.erase t).take n = L.take n := by
  induction L generalizing n with
  | nil => simp
  | cons a L ih =>
    rw [List.take_succ_cons, List.mem_cons, not_or] at ht
    rw [List.erase_cons_tail (by simpa using fun e => ht.1 e.symm)]
    cases n with
    | zero => simp
    | succ n => rw [List.take_succ_cons, List.take_succ_cons, ih n ht.2]

/-- One access to a cache that holds the most recent tiles. -/
theorem cut_step (c : Int) (hc : c ≠ 0) (A : List Nat) (t : Nat) :
    (t ∈ cut c (recent A) → cut c (recent (A ++ [t])) = t :: (cut c (recent A)).erase t) ∧
    (t ∉ cut c (recent A) → ((cut c (recent A)).length : Int) ≠ c →
      cut c (recent (A ++ [t])) = t :: cut c (recent A)) ∧
    (t ∉ cut c (recent A) → ((cut c (recent A)).length : Int) = c →
      cut c (recent (A ++ [t])) = t :: (cut c (recent A)).dropLast) := by
  have hn := recent_nodup A
  rw [recent_snoc]
  set L := recent A
  unfold cut
  by_cases h0 : c < 0
  · simp only [if_pos h0]
    refine ⟨by simp, fun h1 _ => by rw [List.erase_of_not_mem h1], fun _ h1 => by omega⟩
  · simp only [if_neg h0]
    obtain ⟨n, e⟩ : ∃ n, c.toNat = n + 1 := ⟨c.toNat - 1, by omega⟩
    rw [e]
    refine ⟨fun h1 => ?_, fun h1 h2 => ?_, fun h1 h2 => ?_⟩
    · rw [List.take_succ_cons, erase_take hn _ _ h1]; simp
    · rw [List.take_succ_cons]
      have hl : L.length ≤ n := by
        by_contra hlt
        apply h2
        rw [List.length_take]; omega
      have e1 : L.take (n + 1) = L := List.take_of_length_le (by omega)
      rw [e1] at h1 ⊢
      rw [List.erase_of_not_mem h1, List.take_of_length_le hl]
    · rw [List.take_succ_cons, take_erase_of_not_mem L n t h1]
      rw [List.length_take] at h2
      rw [List.dropLast_eq_take, List.take_take, List.length_take]
      congr 2
      omega

/-- What is known after the accesses `A`. -/
structure UsedInv (c : Int) (A : List Nat) (l : LRU Nat) (ev : Nat) : Prop where
  cache : l.cache = cut c (recent A)
  count : ev + l.cache.length = misses c A

/-- One access. -/
theorem UsedInv.step {c : Int} (hc : c ≠ 0) {A : List Nat} {l l' : LRU Nat} {ev ev' t : Nat} (U : UsedInv c A l ev)
    (hit : t ∈ l.cache → l'.cache = t :: l.cache.erase t ∧ ev' = ev)
    (room : t ∉ l.cache → (l.cache.length : Int) ≠ c → l'.cache = t :: l.cache ∧ ev' = ev)
    (full : t ∉ l.cache → (l.cache.length : Int) = c → l'.cache = t :: l.cache.dropLast ∧ ev' = ev + 1) :
    UsedInv c (A ++ [t]) l' ev' := by
  obtain ⟨s1, s2, s3⟩ := cut_step c hc A t
  have hm := misses_snoc c A t
  rw [held_iff] at hm
  obtain ⟨uc, un⟩ := U
  rw [← uc] at s1 s2 s3 hm
  by_cases h1 : t ∈ l.cache
  · obtain ⟨e1, e2⟩ := hit h1
    refine ⟨by rw [e1, s1 h1], ?_⟩
    rw [hm.1 h1, e1, e2, ← un, List.length_cons, List.length_erase_of_mem h1]
    have := List.length_pos_of_mem h1
    omega
  · by_cases h2 : (l.cache.length : Int) = c
    · obtain ⟨e1, e2⟩ := full h1 h2
      refine ⟨by rw [e1, s3 h1 h2], ?_⟩
      rw [hm.2 h1, e1, e2, ← un, List.length_cons, List.length_dropLast]
      omega
    · obtain ⟨e1, e2⟩ := room h1 h2
      refine ⟨by rw [e1, s2 h1 h2], ?_⟩
      rw [hm.2 h1, e1, e2, ← un, List.length_cons]
      omega

/-- Inserting a tile, and what is known of the cache before. -/
theorem UsedInv.load {c : Int} (hc : c ≠ 0) {A : List Nat} {l l1 l' : LRU Nat} {ev ev' t : Nat} (U : UsedInv c A l ev)
    (I : l.Inv) (hm : l.maxlen = c) (hlast : ¬ (l1.cache = [] ∧ t = l1.last)) (I1 : l1.Inv) (e' : l' = l1.insert t)
    (hit : t ∈ l.cache → l1 = l ∧ ev' = ev)
    (miss : t ∉ l.cache → (l.full = false ∧ l1 = l ∧ ev' = ev) ∨
      (l.full = true ∧ l1.cache = l.cache.dropLast ∧ ev' = ev + 1)) :
    UsedInv c (A ++ [t]) l' ev' := by
  have hc1 := I1.insert_cache t
  rw [if_neg hlast, ← e'] at hc1
  have hf : l.full = true ↔ (l.cache.length : Int) = c := by
    unfold LRU.full; rw [I.len, hm]; simp
  refine U.step hc (fun h1 => ?_) (fun h1 h2 => ?_) (fun h1 h2 => ?_)
  · obtain ⟨e1, e2⟩ := hit h1
    rw [hc1, e1]; exact ⟨rfl, e2⟩
  · rcases miss h1 with ⟨_, e1, e2⟩ | ⟨e0, _⟩
    · rw [hc1, e1, List.erase_of_not_mem h1]; exact ⟨rfl, e2⟩
    · exact absurd (hf.1 e0) h2
  · rcases miss h1 with ⟨e0, _⟩ | ⟨_, e1, e2⟩
    · rw [hf.2 h2] at e0; cases e0
    · rw [hc1, e1, List.erase_of_not_mem fun h3 => h1 ((List.dropLast_sublist _).subset h3)]
      exact ⟨rfl, e2⟩

/-! ### Writable tiled rasters -/

namespace Tiled

theorem lazySetAll_lru (s : Tiled T) (t : Nat) :
    (s.lazySetAll t).lru = s.lru ∧ (s.lazySetAll t).evictions = s.evictions := by
  unfold lazySetAll; split <;> exact ⟨rfl, rfl⟩

theorem evict_lru {s s1 : Tiled T} (e : s.evict = some s1) :
    (s.lru.full = false ∧ s1.lru = s.lru ∧ s1.evictions = s.evictions) ∨
    (s.lru.full = true ∧ s1.lru.cache = s.lru.cache.dropLast ∧ s1.evictions = s.evictions + 1) := by
  unfold evict at e
  by_cases hf : s.lru.full = true
  · right
    rw [if_pos hf] at e
    split at e
    · rename_i b l hb hl
      split at e
      · cases e
      · injection e with e
        subst e
        refine ⟨hf, ?_, rfl⟩
        unfold LRU.popBack at hl
        split at hl
        · cases hl
        · injection hl with hl; rw [← hl]
    · cases e
  · left
    rw [if_neg hf] at e
    injection e with e
    subst e
    exact ⟨by simpa using hf, rfl, rfl⟩

theorem loadTile_used {dflt : T} {s s' : Tiled T} {c : Int} (hc : c ≠ 0) {A : List Nat} {t : Nat} (I : Inv s)
    (ht : t < s.W * s.H) (hm : s.lru.maxlen = c) (U : UsedInv c A s.lru s.evictions)
    (e : s.loadTile dflt t = some s') : UsedInv c (A ++ [t]) s'.lru s'.evictions := by
  unfold loadTile at e
  by_cases hl : (s.tiles t).loaded = true
  · rw [if_pos hl] at e
    injection e with e
    have h1 := lazySetAll_lru { s with lru := s.lru.insert t } t
    rw [e] at h1
    rw [h1.1, h1.2]
    have htc : t ∈ s.lru.cache := (I.mem t).2 hl
    exact U.load hc I.lru hm (fun hh => List.ne_nil_of_mem htc hh.1) I.lru rfl (fun _ => ⟨rfl, rfl⟩)
      (fun h2 => absurd htc h2)
  · rw [if_neg hl] at e
    have hl : (s.tiles t).loaded = false := by simpa using hl
    obtain ⟨s1, e1, hS, hI, hmem, hsmall, hins, _⟩ := evict_spec dflt s t I ht hl
    rw [e1] at e
    simp only at e
    have htc : t ∉ s.lru.cache := by rw [I.mem t, hl]; decide
    have key : ∀ (o : Option (Nat → Nat → T)),
        (match o with
        | none => none
        | some m => some (({ s1 with
            tiles := upd s1.tiles t { s1.tiles t with mem := m, created := true, loaded := true }
            lru := s1.lru.insert t }).lazySetAll t)) = some s' →
        s'.lru = s1.lru.insert t ∧ s'.evictions = s1.evictions := by
      intro o ho
      cases o with
      | none => cases ho
      | some m =>
        simp only [Option.some.injEq] at ho
        have h1 := lazySetAll_lru { s1 with
            tiles := upd s1.tiles t { s1.tiles t with mem := m, created := true, loaded := true }
            lru := s1.lru.insert t } t
        rw [ho] at h1
        exact h1
    obtain ⟨k1, k2⟩ := key _ e
    rw [k2]
    exact U.load hc I.lru hm hins hI k1 (fun h2 => absurd h2 htc) (fun _ => evict_lru e1)

/-- The tile a program step goes to, if it is not a null tile. -/
def touched (tw th W : Nat) (quick : List Bool) : TOp T → List Nat
  | .read x y => if quick[(y / th) * W + x / tw]? = some true then [] else [(y / th) * W + x / tw]
  | .write x y _ => if quick[(y / th) * W + x / tw]? = some true then [] else [(y / th) * W + x / tw]
  | .setAll _ => []

theorem Sim.used {dflt : T} : ∀ (ops : List (TOp T)) {s s' : Tiled T} {m : Nat → Nat → T} {out : List T} {c : Int}
    {A : List Nat}, Sim dflt s m → c ≠ 0 → s.lru.maxlen = c → UsedInv c A s.lru s.evictions →
    (∀ o ∈ ops, o.inRange (s.tw * s.W) (s.th * s.H)) → runTiled dflt s ops = some (out, s') →
    Inv s' ∧ UsedInv c (A ++ ops.flatMap (touched s.tw s.th s.W s.quick)) s'.lru s'.evictions ∧
      s'.W = s.W ∧ s'.H = s.H := by
  intro ops
  induction ops with
  | nil =>
    intro s s' m out c A S hc hm U _ e
    simp only [runTiled, Option.some.injEq, Prod.mk.injEq] at e
    obtain ⟨_, rfl⟩ := e
    simpa using ⟨S.inv, U⟩
  | cons o ops ih =>
    intro s s' m out c A S hc hm U hr e
    have hr' : ∀ o ∈ ops, o.inRange (s.tw * s.W) (s.th * s.H) := fun o ho => hr o (by simp [ho])
    have ho := hr o (by simp)
    cases o with
    | read x y =>
      obtain ⟨s1, e1, S1, hS1⟩ := S.read ho.1 ho.2
      simp only [runTiled, e1, Option.bind_some, Option.map_eq_some_iff, Prod.mk.injEq] at e
      obtain ⟨⟨out1, s1'⟩, e2, _, e3⟩ := e
      simp only at e3
      subst e3
      have U1 : UsedInv c (A ++ touched s.tw s.th s.W s.quick (TOp.read x y : TOp T)) s1.lru s1.evictions := by
        obtain ⟨b, hb, hq⟩ := S.quick_at ho.1 ho.2
        unfold Tiled.read at e1
        simp only [hb] at e1
        simp only [touched, hq]
        cases b with
        | true =>
          simp only [Option.some.injEq, Prod.mk.injEq] at e1
          obtain ⟨_, rfl⟩ := e1
          simpa using U
        | false =>
          have ht := (tile_lt S.tw S.th ho.1 ho.2).2
          obtain ⟨s2, e4, _⟩ := S.load ht
          simp only [e4, Option.some.injEq, Prod.mk.injEq] at e1
          obtain ⟨_, rfl⟩ := e1
          simpa using loadTile_used hc S.inv ht hm U e4
      obtain ⟨r1, r2, r3, r4⟩ := ih S1 hc (hS1.cap.trans hm) U1 (by rw [hS1.tw, hS1.th, hS1.W, hS1.H]; exact hr') e2
      rw [hS1.tw, hS1.th, hS1.W, hS1.quick, List.append_assoc] at r2
      rw [hS1.W] at r3
      rw [hS1.H] at r4
      exact ⟨r1, by rw [List.flatMap_cons]; exact r2, r3, r4⟩
    | write x y v =>
      obtain ⟨s1, m1, e1, S1, hS1, _⟩ := S.write v ho.1 ho.2
      simp only [runTiled, e1, Option.bind_some] at e
      have U1 : UsedInv c (A ++ touched s.tw s.th s.W s.quick (TOp.write x y v : TOp T)) s1.lru s1.evictions := by
        obtain ⟨b, hb, hq⟩ := S.quick_at ho.1 ho.2
        unfold Tiled.write at e1
        simp only [hb] at e1
        simp only [touched, hq]
        cases b with
        | true =>
          simp only [Option.some.injEq] at e1
          subst e1
          simpa using U
        | false =>
          have ht := (tile_lt S.tw S.th ho.1 ho.2).2
          obtain ⟨s2, e4, _⟩ := S.load ht
          simp only [e4, Option.some.injEq] at e1
          rw [← e1]
          simpa using loadTile_used hc S.inv ht hm U e4
      obtain ⟨r1, r2, r3, r4⟩ := ih S1 hc (hS1.cap.trans hm) U1 (by rw [hS1.tw, hS1.th, hS1.W, hS1.H]; exact hr') e
      rw [hS1.tw, hS1.th, hS1.W, hS1.quick, List.append_assoc] at r2
      rw [hS1.W] at r3
      rw [hS1.H] at r4
      exact ⟨r1, by rw [List.flatMap_cons]; exact r2, r3, r4⟩
    | setAll v =>
      obtain ⟨S1, hS1⟩ := S.setAll v
      simp only [runTiled] at e
      obtain ⟨r1, r2, r3, r4⟩ := ih S1 hc hm (A := A) U (by rw [hS1.tw, hS1.th, hS1.W, hS1.H]; exact hr') e
      rw [hS1.tw, hS1.th, hS1.W, hS1.quick] at r2
      exact ⟨r1, by simpa [touched] using r2, r3, r4⟩

end Tiled

/-- C103: after any program on a writable tiled raster with cache size `c`, the tiles in memory are exactly those that have
been accessed and since whose last access fewer than `c` other tiles have been; and `getEvictions()` plus the number of tiles
in memory is the number of accesses that found their tile not in memory. -/
theorem C103_writable_partial (dflt : T) (tw th W H : Nat) (htw : 0 < tw) (hth : 0 < th)
    (quick : List Bool) (hq : quick.length = W * H) (fname : Nat → Nat)
    (hf : ∀ t u, t < W * H → u < W * H → fname t = fname u → t = u)
    (noData : Nat → T) (c : Int) (hc : c ≠ 0) (junk : Nat) (hj : W * H ≤ junk)
    (ops : List (TOp T)) (hr : ∀ o ∈ ops, o.inRange (tw * W) (th * H)) :
    ∃ out s', runTiled dflt (Tiled.fromTemplate tw th W H quick fname noData dflt c junk) ops = some (out, s') ∧
      (∀ t, (s'.tiles t).loaded = true ↔ Held c (ops.flatMap (Tiled.touched tw th W quick)) t) ∧
      s'.evictions + s'.resident = misses c (ops.flatMap (Tiled.touched tw th W quick)) := by
  obtain ⟨s', e, _⟩ := C41_like_one_raster_partial dflt tw th W H htw hth quick hq fname hf noData c hc junk hj ops hr
  have S := Tiled.sim_template dflt tw th W H htw hth quick hq fname hf noData c hc junk hj
  have U0 : UsedInv c [] (Tiled.fromTemplate tw th W H quick fname noData dflt c junk).lru
      (Tiled.fromTemplate tw th W H quick fname noData dflt c junk).evictions := by
    constructor
    · simp [Tiled.fromTemplate, LRU.setCapacity, LRU.new, recent, cut]
    · simp [Tiled.fromTemplate, LRU.setCapacity, LRU.new, misses]
  obtain ⟨I', U, hW, hH⟩ := S.used ops hc rfl U0 hr e
  rw [List.nil_append] at U
  refine ⟨_, s', e, fun t => ?_, ?_⟩
  · rw [held_iff, ← I'.mem t, U.cache]; rfl
  · rw [I'.resident_eq]; exact U.count

/-! ### Rasters opened from a layout -/

namespace ROTiled

theorem RInv.resident_eq {s : ROTiled T} (I : RInv s) : s.resident = s.lru.cache.length := by
  unfold resident
  apply List.Perm.length_eq
  rw [List.perm_ext_iff_of_nodup (List.nodup_range.filter _) I.lru.nodup]
  intro t
  rw [List.mem_filter, List.mem_range]
  constructor
  · intro h1; exact (I.mem t).2 h1.2
  · intro h1; exact ⟨I.small t h1, (I.mem t).1 h1⟩

theorem evict_lru {s s1 : ROTiled T} (e : s.evict = some s1) :
    (s.lru.full = false ∧ s1.lru = s.lru ∧ s1.evictions = s.evictions) ∨
    (s.lru.full = true ∧ s1.lru.cache = s.lru.cache.dropLast ∧ s1.evictions = s.evictions + 1) := by
  unfold evict at e
  by_cases hf : s.lru.full = true
  · right
    rw [if_pos hf] at e
    split at e
    · rename_i b l hb hl
      injection e with e
      subst e
      refine ⟨hf, ?_, rfl⟩
      unfold LRU.popBack at hl
      split at hl
      · cases hl
      · injection hl with hl; rw [← hl]
    · cases e
  · left
    rw [if_neg hf] at e
    injection e with e
    subst e
    exact ⟨by simpa using hf, rfl, rfl⟩

theorem lazySetAll_lru (s : ROTiled T) (t : Nat) :
    (s.lazySetAll t).lru = s.lru ∧ (s.lazySetAll t).evictions = s.evictions := by
  unfold lazySetAll; split <;> exact ⟨rfl, rfl⟩

theorem loadTile_used {s s' : ROTiled T} {c : Int} (hc : c ≠ 0) {A : List Nat} {t : Nat} {f : Src T} (I : RInv s)
    (ht : t < s.src.length) (hm : s.lru.maxlen = c) (U : UsedInv c A s.lru s.evictions)
    (e : s.loadTile t f = some s') : UsedInv c (A ++ [t]) s'.lru s'.evictions := by
  unfold loadTile at e
  by_cases hl : (s.tiles t).loaded = true
  · rw [if_pos hl] at e
    injection e with e
    have h1 := lazySetAll_lru { s with lru := s.lru.insert t } t
    rw [e] at h1
    rw [h1.1, h1.2]
    have htc : t ∈ s.lru.cache := (I.mem t).2 hl
    exact U.load hc I.lru hm (fun hh => List.ne_nil_of_mem htc hh.1) I.lru rfl (fun _ => ⟨rfl, rfl⟩)
      (fun h2 => absurd htc h2)
  · rw [if_neg hl] at e
    have hl : (s.tiles t).loaded = false := by simpa using hl
    obtain ⟨s1, e1, hS, hI, hmem, hsmall, hins, _⟩ := evict_ok s t I ht hl
    rw [e1] at e
    simp only at e
    have htc : t ∉ s.lru.cache := by rw [I.mem t, hl]; decide
    split at e
    · cases e
    · split at e
      · cases e
      · rename_i m _
        injection e with e
        have h1 := lazySetAll_lru { s1 with
            tiles := upd s1.tiles t { s1.tiles t with loaded := true, mem := m }
            lru := s1.lru.insert t } t
        rw [e] at h1
        rw [h1.2]
        exact U.load hc I.lru hm hins hI h1.1 (fun h2 => absurd h2 htc) (fun _ => evict_lru e1)

/-- The number of the tile, if the layout has a file there. -/
def fileNo (W tx ty : Nat) : Option (Option (Src T)) → List Nat
  | some (some _) => [ty * W + tx]
  | _ => []

/-- The tile a question goes to, if the layout has a file there. -/
def touchedR (g : List (List (Option (Src T)))) (W tw th : Nat) : ROp → List Nat
  | .value x y => fileNo W (x / tw) (y / th) (tileAt g (x / tw) (y / th))
  | .noData x y => fileNo W (x / tw) (y / th) (tileAt g (x / tw) (y / th))

theorem Over.used [DecidableEq T] {g : List (List (Option (Src T)))} {W tw th flipV nullVal} {c : Int} (hc : c ≠ 0) :
    ∀ (ops : List ROp) {s s' : ROTiled T} {out : List (T ⊕ Bool)} {A : List Nat}, Over g W tw th flipV nullVal c s →
    (∀ o ∈ ops, o.inRange (W * tw) (g.length * th)) → UsedInv c A s.lru s.evictions →
    ROTiled.askAll s ops = some (out, s') →
    UsedInv c (A ++ ops.flatMap (touchedR g W tw th)) s'.lru s'.evictions := by
  intro ops
  induction ops with
  | nil =>
    intro s s' out A O _ U e
    simp only [ROTiled.askAll, Option.some.injEq, Prod.mk.injEq] at e
    obtain ⟨_, rfl⟩ := e
    simpa using U
  | cons o ops ih =>
    intro s s' out A O hr U e
    obtain ⟨a, s1, e1, _, O1⟩ := O.ask o (hr o (by simp))
    simp only [ROTiled.askAll, e1, Option.bind_some, Option.map_eq_some_iff, Prod.mk.injEq] at e
    obtain ⟨⟨out1, s1'⟩, e2, _, e3⟩ := e
    simp only at e3
    subst e3
    have U1 : UsedInv c (A ++ touchedR g W tw th o) s1.lru s1.evictions := by
      have tile : ∀ x y, x < W * tw → y < g.length * th → x / tw < W ∧ y / th < g.length := by
        intro x y hx hy
        exact ⟨(Nat.div_lt_iff_lt_mul (dim_pos hx)).2 hx, (Nat.div_lt_iff_lt_mul (dim_pos hy)).2 hy⟩
      have load : ∀ {t : Nat} {f : Src T} {s2 : ROTiled T}, s.src[t]? = some (some f) → s.loadTile t f = some s2 →
          UsedInv c (A ++ [t]) s2.lru s2.evictions := by
        intro t f s2 h1 h2
        exact loadTile_used hc O.inv (List.getElem?_eq_some_iff.1 h1).1 O.cap U h2
      have ho := hr o (by simp)
      cases o with
      | value x y =>
        obtain ⟨h1, h2⟩ := tile x y ho.1 ho.2
        simp only [ROTiled.ask, Option.map_eq_some_iff, Prod.mk.injEq] at e1
        obtain ⟨⟨v, s2⟩, e4, _, e5⟩ := e1
        simp only at e5
        subst e5
        unfold ROTiled.read read4 at e4
        rw [O.tw, O.th] at e4
        rcases O.at h1 h2 with ⟨e1, e9⟩ | ⟨f, s3, e1, e9, _, _, e3, _, _⟩
        · rw [e1] at e4
          simp only [Option.some.injEq, Prod.mk.injEq] at e4
          obtain ⟨_, rfl⟩ := e4
          simp only [touchedR]
          rw [e9]
          simpa [fileNo] using U
        · rw [e1] at e4
          simp only [e3, Option.map_eq_some_iff, Prod.mk.injEq] at e4
          obtain ⟨_, _, _, rfl⟩ := e4
          have := load e1 e3
          rw [O.W] at this
          simp only [touchedR]
          rw [e9]
          simpa [fileNo] using this
      | noData x y =>
        obtain ⟨h1, h2⟩ := tile x y ho.1 ho.2
        simp only [ROTiled.ask, Option.map_eq_some_iff, Prod.mk.injEq] at e1
        obtain ⟨⟨v, s2⟩, e4, _, e5⟩ := e1
        simp only at e5
        subst e5
        unfold ROTiled.isNoData at e4
        simp only [O.tw, O.th] at e4
        rcases O.at h1 h2 with ⟨e1, e9⟩ | ⟨f, s3, e1, e9, _, _, e3, _, _⟩
        · rw [e1] at e4
          simp only [Option.some.injEq, Prod.mk.injEq] at e4
          obtain ⟨_, rfl⟩ := e4
          simp only [touchedR]
          rw [e9]
          simpa [fileNo] using U
        · rw [e1] at e4
          simp only [e3, Option.map_eq_some_iff, Prod.mk.injEq] at e4
          obtain ⟨_, _, _, rfl⟩ := e4
          have := load e1 e3
          rw [O.W] at this
          simp only [touchedR]
          rw [e9]
          simpa [fileNo] using this
    have := ih O1 (fun o ho => hr o (by simp [ho])) U1 e2
    rw [List.append_assoc] at this
    rw [List.flatMap_cons]; exact this

end ROTiled

open ROTiled in
/-- C103: the same for a raster opened from a layout, for any sequence of questions. -/
theorem C103_layout_partial [DecidableEq T] (g : List (List (Option (Src T)))) (W tw th : Nat) (L : GoodLayout g W tw th)
    (hex : ∃ r ∈ g, ∃ f, some f ∈ r) (nullVal zero : T) (c : Int) (hc : c ≠ 0) (junk : Nat) (hj : W * g.length ≤ junk)
    (flipH flipV : Bool) (hori : ∀ r ∈ g, ∀ f, some f ∈ r → decide (f.gt.g1 < 0) = flipH)
    (ops : List ROp) (hr : ∀ o ∈ ops, o.inRange (W * tw) (g.length * th)) :
    ∃ s out s', openLayout g nullVal zero c junk = some s ∧
      askAll { s with flipH := flipH, flipV := flipV } ops = some (out, s') ∧
      (∀ t, (s'.tiles t).loaded = true ↔ Held c (ops.flatMap (touchedR g W tw th)) t) ∧
      s'.evictions + s'.resident = misses c (ops.flatMap (touchedR g W tw th)) := by
  obtain ⟨s, e, O⟩ := over_open g L hex nullVal zero c hc junk hj flipH flipV hori
  obtain ⟨out, s', e2, h2, O2⟩ := O.askAll ops hr
  have hs := open_some g L hex nullVal zero c junk
  rw [e] at hs
  injection hs with hs
  have U0 : UsedInv c [] ({ s with flipH := flipH, flipV := flipV } : ROTiled T).lru
      ({ s with flipH := flipH, flipV := flipV } : ROTiled T).evictions := by
    rw [hs]
    constructor
    · simp [LRU.setCapacity, LRU.new, recent, cut]
    · simp [LRU.setCapacity, LRU.new, misses]
  have U := O.used hc ops hr U0 e2
  rw [List.nil_append] at U
  refine ⟨s, out, s', e, e2, fun t => ?_, ?_⟩
  · rw [held_iff, ← O2.inv.mem t, U.cache]
  · rw [RInv.resident_eq O2.inv]; exact U.count

/-! ### Examples -/

/-- Four tiles in a row, two may be in memory: after reading tiles 0, 1, 0, 3 the tiles 0 and 3 are in memory. -/
example : Held 2 [0, 1, 0, 3] 0 ∧ Held 2 [0, 1, 0, 3] 3 ∧ ¬ Held 2 [0, 1, 0, 3] 1 := by
  simp only [held_iff]
  decide

example : ∃ out s', runTiled (0 : Int) (Tiled.fromTemplate 1 1 4 1 [false, false, false, false] id (fun _ => -1) 0 2 99)
    [.read 0 0, .read 1 0, .write 0 0 5, .read 3 0] = some (out, s') ∧ out = [0, 0, 0] ∧ s'.evictions = 1 := by
  refine ⟨_, _, rfl, ?_, ?_⟩ <;> decide +kernel

end RichDEM
