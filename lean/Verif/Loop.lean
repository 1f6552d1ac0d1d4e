/-
Generic helpers: bounded iteration of a `while` loop, priority queues, folds, cell counting.
-/
import Verif.Grid
import Mathlib.Logic.Function.Basic
import Mathlib.Data.List.Nodup
import Mathlib.Data.List.Perm.Basic
import Mathlib.Data.List.Range

namespace RichDEM

/-! ### While loops

`while(cond) body` is a partial step: `none` when `cond` is false.  The loop is iterated with
a fuel argument; `loop_spec` shows when the fuel suffices, i.e. when the C++ loop terminates. -/

/-- Iterate a step until it declines, at most `fuel` times. -/
def loop {S : Type*} (step : S → Option S) : Nat → S → S
  | 0, s => s
  | n + 1, s => match step s with
    | none => s
    | some s' => loop step n s'

theorem loop_spec {S : Type*} {step : S → Option S} (Inv : S → Prop) (m : S → Nat)
    (hs : ∀ s s', Inv s → step s = some s' → Inv s' ∧ m s' < m s) :
    ∀ (fuel : Nat) (s : S), Inv s → m s ≤ fuel →
      Inv (loop step fuel s) ∧ step (loop step fuel s) = none := by
  intro fuel
  induction fuel with
  | zero =>
    intro s hi hm
    refine ⟨hi, ?_⟩
    simp only [loop]
    cases h : step s with
    | none => rfl
    | some s' => have := (hs s s' hi h).2; omega
  | succ n ih =>
    intro s hi hm
    simp only [loop]
    cases h : step s with
    | none => exact ⟨hi, h⟩
    | some s' =>
      have := hs s s' hi h
      exact ih s' this.1 (by omega)

/-- `loop_spec` with a ghost component carried alongside the state. -/
theorem loop_ghost {S G : Type*} {step : S → Option S} (Inv : G → S → Prop) (m : G → Nat)
    (hs : ∀ g s s', Inv g s → step s = some s' → ∃ g', Inv g' s' ∧ m g' < m g) :
    ∀ (fuel : Nat) (s : S) (g : G), Inv g s → m g ≤ fuel →
      ∃ g', Inv g' (loop step fuel s) ∧ step (loop step fuel s) = none := by
  intro fuel
  induction fuel with
  | zero =>
    intro s g hi hm
    refine ⟨g, hi, ?_⟩
    simp only [loop]
    cases h : step s with
    | none => rfl
    | some s' => obtain ⟨g', _, h2⟩ := hs g s s' hi h; omega
  | succ n ih =>
    intro s g hi hm
    simp only [loop]
    cases h : step s with
    | none => exact ⟨g, hi, h⟩
    | some s' =>
      obtain ⟨g', h1, h2⟩ := hs g s s' hi h
      exact ih s' g' h1 (by omega)

/-- Invariants are kept by any number of iterations. -/
theorem loop_inv {S : Type*} {step : S → Option S} (Inv : S → Prop)
    (hs : ∀ s s', Inv s → step s = some s' → Inv s') :
    ∀ (fuel : Nat) (s : S), Inv s → Inv (loop step fuel s) := by
  intro fuel
  induction fuel with
  | zero => intro s hi; exact hi
  | succ n ih =>
    intro s hi
    simp only [loop]
    cases h : step s with
    | none => exact hi
    | some s' => exact ih s' (hs s s' hi h)

/-- Once the loop has stopped, more fuel makes no difference. -/
theorem loop_stable {S : Type*} {step : S → Option S} :
    ∀ (f : Nat) (s : S) (g : Nat), step (loop step f s) = none →
      loop step (f + g) s = loop step f s := by
  intro f
  induction f with
  | zero =>
    intro s g h
    simp only [loop] at h
    cases g with
    | zero => rfl
    | succ g => simp [loop, h]
  | succ f ih =>
    intro s g h
    rw [Nat.succ_add]
    simp only [loop] at h ⊢
    cases hs : step s with
    | none => simp
    | some s' => simp only [hs] at h; simpa using ih s' g h

/-! ### Priority queues -/

/-- An implementation of `std::priority_queue<A, vector<A>, greater<A>>` where `lt a b` is
"`b > a`", i.e. `a` is to be popped before `b`.  The contents are a list; `push`
may place the new entry anywhere and `pop` may return *any* entry that no other entry
precedes, so every theorem quantifying over `PQ` covers every tie order and every heap
layout. -/
structure PQ (A : Type*) (lt : A → A → Prop) where
  push : A → List A → List A
  pop : List A → Option (A × List A)
  push_perm : ∀ e l, (push e l).Perm (e :: l)
  pop_nil : pop [] = none
  pop_cons : ∀ l, l ≠ [] → ∃ e r, pop l = some (e, r) ∧ l.Perm (e :: r) ∧ ∀ f ∈ l, ¬ lt f e

namespace PQ
variable {A : Type*} {lt : A → A → Prop} (pq : PQ A lt)

theorem mem_push {e a : A} {l : List A} : a ∈ pq.push e l ↔ a = e ∨ a ∈ l := by
  rw [(pq.push_perm e l).mem_iff]; simp

theorem length_push {e : A} {l : List A} : (pq.push e l).length = l.length + 1 := by
  rw [(pq.push_perm e l).length_eq]; simp

theorem pop_some {l : List A} {e : A} {r : List A} (h : pq.pop l = some (e, r)) :
    l.Perm (e :: r) ∧ ∀ f ∈ l, ¬ lt f e := by
  by_cases hl : l = []
  · subst hl; rw [pq.pop_nil] at h; cases h
  · obtain ⟨e', r', h1, h2, h3⟩ := pq.pop_cons l hl
    rw [h] at h1
    obtain ⟨rfl, rfl⟩ : e = e' ∧ r = r' := by simpa using h1
    exact ⟨h2, h3⟩

theorem pop_none {l : List A} : pq.pop l = none ↔ l = [] := by
  constructor
  · intro h
    by_contra hl
    obtain ⟨e', r', h1, _⟩ := pq.pop_cons l hl
    rw [h] at h1; cases h1
  · rintro rfl; exact pq.pop_nil

end PQ

/-- Push all entries of a list, first to last. -/
def PQ.pushAll {A : Type*} {lt : A → A → Prop} (pq : PQ A lt) (es l : List A) : List A :=
  es.foldl (fun q e => pq.push e q) l

theorem PQ.mem_pushAll {A : Type*} {lt : A → A → Prop} (pq : PQ A lt) {es l : List A} {a : A} :
    a ∈ pq.pushAll es l ↔ a ∈ es ∨ a ∈ l := by
  induction es generalizing l with
  | nil => simp [pushAll]
  | cons e es ih =>
    simp only [pushAll, List.foldl_cons] at ih ⊢
    rw [ih, pq.mem_push]; simp only [List.mem_cons]; tauto

theorem PQ.length_pushAll {A : Type*} {lt : A → A → Prop} (pq : PQ A lt) {es l : List A} :
    (pq.pushAll es l).length = es.length + l.length := by
  induction es generalizing l with
  | nil => simp [pushAll]
  | cons e es ih =>
    simp only [pushAll, List.foldl_cons] at ih ⊢
    rw [ih, pq.length_push]; simp only [List.length_cons]; omega

/-- The first entry preceding-or-equal to all others, found by a scan. -/
def scanMin {A : Type*} (ltb : A → A → Bool) : A → List A → A
  | a, [] => a
  | a, b :: l => if ltb b a then scanMin ltb b l else scanMin ltb a l

theorem scanMin_mem {A : Type*} (ltb : A → A → Bool) (a : A) (l : List A) :
    scanMin ltb a l ∈ a :: l := by
  induction l generalizing a with
  | nil => simp [scanMin]
  | cons b l ih =>
    simp only [scanMin]
    split
    · have := ih b; simp only [List.mem_cons] at this ⊢; tauto
    · have := ih a; simp only [List.mem_cons] at this ⊢; tauto

theorem scanMin_min {A : Type*} (ltb : A → A → Bool)
    (trans : ∀ a b c, ¬ ltb b a = true → ¬ ltb c b = true → ¬ ltb c a = true)
    (irrefl : ∀ a, ¬ ltb a a = true)
    (asymm : ∀ a b, ltb a b = true → ¬ ltb b a = true) (a : A) (l : List A) :
    ∀ f ∈ a :: l, ¬ ltb f (scanMin ltb a l) = true := by
  have aux : ∀ (l : List A) (a : A), ¬ ltb a (scanMin ltb a l) = true ∧
      ∀ f ∈ l, ¬ ltb f (scanMin ltb a l) = true := by
    intro l
    induction l with
    | nil => intro a; simp only [scanMin]; exact ⟨irrefl a, by simp⟩
    | cons b l ih =>
      intro a
      simp only [scanMin]
      split
      · next hb =>
        obtain ⟨h1, h2⟩ := ih b
        refine ⟨trans _ _ _ h1 (asymm _ _ hb), ?_⟩
        intro f hf
        rcases List.mem_cons.1 hf with rfl | hf
        · exact h1
        · exact h2 f hf
      · next hb =>
        obtain ⟨h1, h2⟩ := ih a
        refine ⟨h1, ?_⟩
        intro f hf
        rcases List.mem_cons.1 hf with rfl | hf
        · exact trans _ _ _ h1 hb
        · exact h2 f hf
  intro f hf
  rcases List.mem_cons.1 hf with rfl | hf
  · exact (aux l f).1
  · exact (aux l a).2 f hf

/-- An executable priority queue: scan for a first minimum.  Used to evaluate concrete
examples; every general theorem quantifies over all `PQ`s. -/
def scanPQ {A : Type*} [DecidableEq A] (ltb : A → A → Bool)
    (trans : ∀ a b c, ¬ ltb b a = true → ¬ ltb c b = true → ¬ ltb c a = true)
    (irrefl : ∀ a, ¬ ltb a a = true)
    (asymm : ∀ a b, ltb a b = true → ¬ ltb b a = true) :
    PQ A (fun a b => ltb a b = true) where
  push e l := l ++ [e]
  pop l := match l with
    | [] => none
    | a :: t => let m := scanMin ltb a t; some (m, (a :: t).erase m)
  push_perm e l := by simp
  pop_nil := rfl
  pop_cons l hl := by
    cases l with
    | nil => exact absurd rfl hl
    | cons a t =>
      exact ⟨_, _, rfl, List.perm_cons_erase (scanMin_mem ltb a t),
        scanMin_min ltb trans irrefl asymm a t⟩

/-! ### Folds -/

/-- Fold invariant with a per-element result that later steps keep. -/
theorem foldl_inv {S α : Type*} {f : S → α → S} (P : S → Prop) (R : α → S → Prop) :
    ∀ (l : List α) (s : S),
      (∀ s a, a ∈ l → P s → P (f s a) ∧ R a (f s a)) →
      (∀ s a b, a ∈ l → P s → R b s → R b (f s a)) →
      P s → P (l.foldl f s) ∧ (∀ a ∈ l, R a (l.foldl f s)) ∧
        (∀ b, R b s → R b (l.foldl f s)) := by
  intro l
  induction l with
  | nil => intro s _ _ hs; exact ⟨hs, by simp, fun _ h => h⟩
  | cons a l ih =>
    intro s h1 h2 hs
    have ha := h1 s a (by simp) hs
    have := ih (f s a) (fun s b hb => h1 s b (by simp [hb]))
      (fun s b c hb => h2 s b c (by simp [hb])) ha.1
    obtain ⟨k1, k2, k3⟩ := this
    refine ⟨k1, ?_, ?_⟩
    · intro b hb
      rcases List.mem_cons.1 hb with rfl | hb
      · exact k3 _ ha.2
      · exact k2 b hb
    · intro b hb
      exact k3 b (h2 s a b (by simp) hs hb)

theorem foldl_inv' {S α : Type*} {f : S → α → S} (P : S → Prop) (l : List α) (s : S)
    (h : ∀ s a, a ∈ l → P s → P (f s a)) (hs : P s) : P (l.foldl f s) :=
  (foldl_inv P (fun _ _ => True) l s (fun s a ha hp => ⟨h s a ha hp, trivial⟩)
    (fun _ _ _ _ _ _ => trivial) hs).1

/-! ### All cells of a raster, in index order -/

/-- All in-grid cells in row-major order (`for(i=0;i<size();i++)` through `iToxy`). -/
def allCells (w h : Nat) : List Cell := (List.range (w * h)).map (iToxy w)

theorem mem_allCells {w h : Nat} {c : Cell} : c ∈ allCells w h ↔ InGrid w h c := by
  simp only [allCells, List.mem_map, List.mem_range]
  constructor
  · rintro ⟨i, hi, rfl⟩; exact iToxy_inGrid hi
  · intro hc
    have hb := xyToI_bounds hc
    exact ⟨(xyToI w c).toNat, by omega, iToxy_xyToI hc⟩

theorem nodup_allCells (w h : Nat) : (allCells w h).Nodup := by
  refine List.Nodup.map_on ?_ List.nodup_range
  intro a ha b hb e
  have := congrArg (xyToI w) e
  rw [xyToI_iToxy, xyToI_iToxy] at this
  exact_mod_cast this

theorem length_allCells (w h : Nat) : (allCells w h).length = w * h := by simp [allCells]

/-- Number of in-grid cells not yet flagged. -/
def unflagged (w h : Nat) (f : Cell → Bool) : Nat := (allCells w h).countP (fun c => !f c)

theorem unflagged_le (w h : Nat) (f : Cell → Bool) : unflagged w h f ≤ w * h := by
  unfold unflagged
  exact (List.countP_le_length).trans (by rw [length_allCells])

theorem countP_update {l : List Cell} (hl : l.Nodup) {p q : Cell → Bool} {c : Cell}
    (hc : c ∈ l) (hp : p c = true) (hq : q c = false) (hne : ∀ d, d ≠ c → q d = p d) :
    l.countP q + 1 = l.countP p := by
  induction l with
  | nil => simp at hc
  | cons a l ih =>
    rw [List.nodup_cons] at hl
    rcases List.mem_cons.1 hc with rfl | hc
    · have : l.countP q = l.countP p := by
        apply List.countP_congr
        intro x hx
        rw [hne x (by rintro rfl; exact hl.1 hx)]
      rw [List.countP_cons, List.countP_cons, this, hp, hq]; simp
    · have hac : a ≠ c := by rintro rfl; exact hl.1 hc
      rw [List.countP_cons, List.countP_cons, hne a hac, ← ih hl.2 hc]; omega

theorem unflagged_update {w h : Nat} {f : Cell → Bool} {c : Cell} (hc : InGrid w h c)
    (hf : f c = false) : unflagged w h (Function.update f c true) + 1 = unflagged w h f := by
  unfold unflagged
  refine countP_update (nodup_allCells w h) (mem_allCells.2 hc) (by simp [hf]) (by simp) ?_
  intro d hd
  simp [Function.update_of_ne hd]

end RichDEM
