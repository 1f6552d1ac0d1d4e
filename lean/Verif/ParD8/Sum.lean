/-
Accumulation along a forest cut into parts: what a cell gets is what its own part gives it, plus what
enters the part anywhere upstream of it.
-/
import Verif.Flow.Kahn

namespace RichDEM

open Finset Relation

section
variable {V τ : Type*} [DecidableEq V] {verts : Finset V} {r : V → V → Prop}

theorem linear_of_fun (hf : ∀ a b c, r a b → r a c → b = c) {a x y : V} (hx : ReflTransGen r a x)
    (hy : ReflTransGen r a y) : ReflTransGen r x y ∨ ReflTransGen r y x := by
  induction hx using ReflTransGen.head_induction_on with
  | refl => exact .inl hy
  | head h1 h2 ih =>
    rcases ReflTransGen.cases_head hy with rfl | ⟨b, hb, hby⟩
    · exact .inr (.head h1 h2)
    · rw [hf _ _ _ hb h1] at hby
      exact ih hby

/-- Two cells that flow into the same cell and lie on one path are equal. -/
theorem same_pred (hf : ∀ a b c, r a b → r a c → b = c) (hac : ∀ a, ¬ TransGen r a a) {p b b' c : V}
    (h1 : ReflTransGen r p b) (h2 : ReflTransGen r p b') (hb : r b c) (hb' : r b' c) : b = b' := by
  have key : ∀ x y, ReflTransGen r x y → r x c → r y c → x = y := by
    intro x y hxy hx hy
    rcases ReflTransGen.cases_head hxy with h | ⟨z, hz, hzy⟩
    · exact h
    · rw [hf _ _ _ hz hx] at hzy
      exact absurd (TransGen.tail' hzy hy) (hac c)
  rcases linear_of_fun hf h1 h2 with h3 | h3
  · exact key _ _ h3 hb hb'
  · exact (key _ _ h3 hb' hb).symm

open Classical in
/-- Sum over everything upstream of `c`, taken apart at the cells flowing into `c`. -/
theorem upstream_sum_step (hr : ∀ a b, r a b → a ∈ verts ∧ b ∈ verts) (hf : ∀ a b c, r a b → r a c → b = c)
    (hac : ∀ a, ¬ TransGen r a a) (f : V → Int) {c : V} (hc : c ∈ verts) :
    ∑ p ∈ verts.filter (fun p => ReflTransGen r p c), f p =
      f c + ∑ b ∈ verts.filter (fun b => r b c), ∑ p ∈ verts.filter (fun p => ReflTransGen r p b), f p := by
  have hset : verts.filter (fun p => ReflTransGen r p c) =
      insert c ((verts.filter (fun b => r b c)).biUnion (fun b => verts.filter (fun p => ReflTransGen r p b))) := by
    ext p
    simp only [mem_filter, mem_insert, mem_biUnion]
    constructor
    · rintro ⟨hp, h1⟩
      rcases ReflTransGen.cases_tail h1 with h2 | ⟨b, h2, h3⟩
      · exact .inl h2.symm
      · exact .inr ⟨b, ⟨(hr b c h3).1, h3⟩, hp, h2⟩
    · rintro (rfl | ⟨b, ⟨_, h1⟩, hp, h2⟩)
      · exact ⟨hc, .refl⟩
      · exact ⟨hp, h2.tail h1⟩
  rw [hset, sum_insert, sum_biUnion]
  · intro b hb b' hb' hne
    simp only [coe_filter, Set.mem_setOf_eq] at hb hb'
    show Disjoint (verts.filter (fun p => ReflTransGen r p b)) (verts.filter (fun p => ReflTransGen r p b'))
    rw [Finset.disjoint_left]
    intro p h1 h2
    exact hne (same_pred hf hac (mem_filter.1 h1).2 (mem_filter.1 h2).2 hb.2 hb'.2)
  · simp only [mem_biUnion, mem_filter, not_exists, not_and, and_imp]
    intro b _ h1 _ h2
    exact hac c (TransGen.tail' h2 h1)

open Classical in
/-- If every part accumulates by itself, and what crosses from part to part is added along the paths in the
part it enters, the result is the accumulation of the whole. -/
theorem cut_accumulation (hr : ∀ a b, r a b → a ∈ verts ∧ b ∈ verts) (hf : ∀ a b c, r a b → r a c → b = c)
    (hac : ∀ a, ¬ TransGen r a a) (tile : V → τ) (al inn B : V → Int)
    (hal : ∀ c ∈ verts, al c = 1 + ∑ p ∈ verts.filter (fun p => r p c ∧ tile p = tile c), al p)
    (hB : ∀ c ∈ verts, B c = al c + ∑ p ∈ verts.filter (fun p => ReflTransGen (fun a b => r a b ∧ tile a = tile b) p c), inn p)
    (hinn : ∀ c ∈ verts, inn c = ∑ p ∈ verts.filter (fun p => r p c ∧ tile p ≠ tile c), B p) {c : V} (hc : c ∈ verts) :
    B c = 1 + ∑ p ∈ verts.filter (fun p => r p c), B p := by
  have hac' : ∀ a, ¬ TransGen (fun a b => r a b ∧ tile a = tile b) a a := fun a ha =>
    hac a (TransGen.mono (p := r) (fun _ _ hx => hx.1) _ _ ha)
  have e1 := upstream_sum_step (verts := verts) (r := fun a b => r a b ∧ tile a = tile b) (fun a b hab => hr a b hab.1)
    (fun a b c h1 h2 => hf a b c h1.1 h2.1) hac' inn hc
  have hsplit : ∑ p ∈ verts.filter (fun p => r p c), B p =
      ∑ p ∈ verts.filter (fun p => r p c ∧ tile p = tile c), B p + ∑ p ∈ verts.filter (fun p => r p c ∧ tile p ≠ tile c), B p := by
    rw [← sum_union]
    · congr 1
      ext p; simp only [mem_filter, mem_union]; tauto
    · rw [Finset.disjoint_left]
      intro p h1 h2
      exact (mem_filter.1 h2).2.2 (mem_filter.1 h1).2.2
  have hsame : ∑ p ∈ verts.filter (fun p => r p c ∧ tile p = tile c), B p =
      ∑ p ∈ verts.filter (fun p => r p c ∧ tile p = tile c), al p +
      ∑ b ∈ verts.filter (fun b => r b c ∧ tile b = tile c),
        ∑ p ∈ verts.filter (fun p => ReflTransGen (fun a b => r a b ∧ tile a = tile b) p b), inn p := by
    rw [← sum_add_distrib]
    exact sum_congr rfl (fun p hp => hB p (mem_filter.1 hp).1)
  have a1 := hB c hc
  have a2 := hinn c hc
  have a3 := hal c hc
  rw [e1] at a1
  rw [hsplit, hsame, ← a2, a1, a3]
  simp only [add_assoc, add_comm, add_left_comm]
  congr!

omit [DecidableEq V] in
open Classical in
/-- The accumulation is determined by the flow. -/
theorem accumulation_unique {f g : V → Int}
    (hf : ∀ c ∈ verts, f c = 1 + ∑ p ∈ verts.filter (fun p => r p c), f p)
    (hg : ∀ c ∈ verts, g c = 1 + ∑ p ∈ verts.filter (fun p => r p c), g p) {c : V} (hc : c ∈ verts) (hA : Acc r c) :
    f c = g c := by
  induction hA with
  | intro c _ ih =>
    rw [hf c hc, hg c hc]
    congr 1
    refine sum_congr rfl (fun p hp => ?_)
    rw [mem_filter] at hp
    exact ih p hp.2 hp.1

end

end RichDEM
