/-
Following flow paths within one tile.
-/
import Verif.ParD8.Model
import Verif.Props.Accum

namespace RichDEM

open Relation

/-! ### Accumulation of one tile -/

theorem pdLocal_eq (w h : Nat) (fd : Cell → Nat) (nd : Nat) : pdLocal w h fd nd = d8FlowAccum (lifo Cell) w h fd nd := by
  unfold pdLocal d8FlowAccum d8Loop
  have := zl_loop_sim (f := d8Step (lifo Cell) w h fd nd) (g := pdLocalStep w h fd nd) id
    (fun s => ∀ c ∈ s.q, fd c ≠ nd)
    (by
      intro s _ hs
      unfold d8Step at hs
      unfold pdLocalStep
      simp only [id]
      cases hp : (lifo Cell).pop s.q with
      | none => rfl
      | some cr =>
        rw [hp] at hs
        simp only at hs
        split_ifs at hs)
    (by
      intro s s' hi hs
      unfold d8Step at hs
      unfold pdLocalStep
      simp only [id]
      cases hp : (lifo Cell).pop s.q with
      | none => rw [hp] at hs; cases hs
      | some cr =>
        obtain ⟨c, rest⟩ := cr
        obtain ⟨hperm, -⟩ := (lifo Cell).pop_some hp
        rw [hp] at hs
        have hc : fd c ≠ nd := hi c (hperm.mem_iff.2 (by simp))
        have hr : ∀ x ∈ rest, fd x ≠ nd := fun x hx => hi x (hperm.mem_iff.2 (by simp [hx]))
        simp only at hs ⊢
        rw [if_neg hc]
        refine ⟨hs, ?_⟩
        split_ifs at hs with h1 h2 h3 h4
        · cases hs; exact hr
        · cases hs; exact hr
        · cases hs; exact hr
        · cases hs
          intro x hx
          rcases ((lifo Cell).mem_push).1 hx with rfl | hx
          · exact h3
          · exact hr x hx
        · cases hs; exact hr)
    (w * h) (d8Start (lifo Cell) w h fd nd)
    (by
      intro c hc
      simp only [d8Start] at hc
      rw [(lifo Cell).mem_pushAll] at hc
      simp only [List.mem_filter, Bool.and_eq_true, Bool.not_eq_true', beq_eq_false_iff_ne, List.not_mem_nil, or_false] at hc
      exact hc.2.2)
  rw [show loop (d8Step (lifo Cell) w h fd nd) (w * h) (d8Start (lifo Cell) w h fd nd) =
    loop (pdLocalStep w h fd nd) (w * h) (d8Start (lifo Cell) w h fd nd) from this.1]

/-! ### Paths -/

section
variable (w h : Nat) (fd : Cell → Nat) (nd : Nat)

/-- One step of a path that stays in the tile; the cell it leads to may be NoData. -/
def PathStep (a b : Cell) : Prop := InGrid w h a ∧ fd a ≠ nd ∧ fd a ≠ 0 ∧ InGrid w h b ∧ b = nbr .D8 a (fd a)

/-- The cell sends its flow off the tile. -/
def ExitCell (e : Cell) : Prop := InGrid w h e ∧ fd e ≠ nd ∧ fd e ≠ 0 ∧ ¬ InGrid w h (nbr .D8 e (fd e))

/-- No flow path runs in a circle. -/
def Acyclic8 : Prop := ∀ a, ¬ TransGen (D8FlowsTo w h fd nd) a a

variable {w h fd nd}

theorem PathStep.flows {a b : Cell} (hs : PathStep w h fd nd a b) (hb : fd b ≠ nd) : D8FlowsTo w h fd nd a b :=
  ⟨⟨hs.1, hs.2.1⟩, ⟨hs.2.2.2.1, hb⟩, hs.2.2.1, hs.2.2.2.2⟩

theorem D8FlowsTo.step {a b : Cell} (hs : D8FlowsTo w h fd nd a b) : PathStep w h fd nd a b :=
  ⟨hs.1.1, hs.1.2, hs.2.2.1, hs.2.1.1, hs.2.2.2⟩

theorem pathStep_fun {a b c : Cell} (h1 : PathStep w h fd nd a b) (h2 : PathStep w h fd nd a c) : b = c := by
  rw [h1.2.2.2.2, h2.2.2.2.2]

theorem pathStep_star {a b : Cell} (hs : ReflTransGen (PathStep w h fd nd) a b) (hb : fd b ≠ nd) :
    ReflTransGen (D8FlowsTo w h fd nd) a b := by
  induction hs using ReflTransGen.head_induction_on with
  | refl => exact .refl
  | head h1 h2 ih =>
    rename_i x y
    have : fd y ≠ nd := by
      rcases ReflTransGen.cases_head h2 with rfl | ⟨z, hz, _⟩
      · exact hb
      · exact hz.2.1
    exact .head (h1.flows this) ih

theorem pathStep_acyclic (K : Acyclic8 w h fd nd) (a : Cell) : ¬ TransGen (PathStep w h fd nd) a a := by
  intro hs
  obtain ⟨b, h1, h2⟩ := TransGen.head'_iff.1 hs
  have ha : fd a ≠ nd := h1.2.1
  have hb : fd b ≠ nd := by
    rcases ReflTransGen.cases_head h2 with rfl | ⟨z, hz, _⟩
    · exact ha
    · exact hz.2.1
  exact K a (TransGen.head' (h1.flows hb) (pathStep_star h2 ha))

open Classical in
/-- Number of cells on the rest of the path. -/
noncomputable def pathLeft (w h : Nat) (fd : Cell → Nat) (nd : Nat) (c : Cell) : Nat :=
  ((allCells w h).toFinset.filter (fun x => ReflTransGen (PathStep w h fd nd) c x)).card

theorem pathLeft_le (c : Cell) : pathLeft w h fd nd c ≤ w * h := by
  classical
  unfold pathLeft
  refine (Finset.card_filter_le _ _).trans ((List.toFinset_card_le _).trans ?_)
  rw [length_allCells]

theorem pathLeft_pos {c : Cell} (hc : InGrid w h c) : 0 < pathLeft w h fd nd c := by
  classical
  unfold pathLeft
  refine Finset.card_pos.2 ⟨c, ?_⟩
  rw [Finset.mem_filter, List.mem_toFinset, mem_allCells]
  exact ⟨hc, .refl⟩

theorem pathLeft_step (K : Acyclic8 w h fd nd) {a b : Cell} (hs : PathStep w h fd nd a b) :
    pathLeft w h fd nd b < pathLeft w h fd nd a := by
  classical
  unfold pathLeft
  refine Finset.card_lt_card ⟨?_, ?_⟩
  · intro x hx
    rw [Finset.mem_filter] at hx ⊢
    exact ⟨hx.1, .head hs hx.2⟩
  · intro hsub
    have : a ∈ (allCells w h).toFinset.filter (fun x => ReflTransGen (PathStep w h fd nd) a x) := by
      rw [Finset.mem_filter, List.mem_toFinset, mem_allCells]
      exact ⟨hs.1, .refl⟩
    have h2 := (Finset.mem_filter.1 (hsub this)).2
    exact pathStep_acyclic K a (TransGen.head' hs h2)

theorem exit_no_step {e b : Cell} (he : ExitCell w h fd nd e) : ¬ PathStep w h fd nd e b := by
  intro hs
  have h1 := hs.2.2.2.1
  rw [hs.2.2.2.2] at h1
  exact he.2.2.2 h1

/-- A path leaves the tile at one cell only. -/
theorem exit_unique {a e e' : Cell} (h1 : ReflTransGen (PathStep w h fd nd) a e) (h2 : ReflTransGen (PathStep w h fd nd) a e')
    (he : ExitCell w h fd nd e) (he' : ExitCell w h fd nd e') : e = e' := by
  induction h1 using ReflTransGen.head_induction_on with
  | refl =>
    rcases ReflTransGen.cases_head h2 with h | ⟨b, hb, _⟩
    · exact h
    · exact absurd hb (exit_no_step he)
  | head s1 s2 ih =>
    rcases ReflTransGen.cases_head h2 with rfl | ⟨b, hb, hbe⟩
    · exact absurd s1 (exit_no_step he')
    · rw [pathStep_fun hb s1] at hbe
      exact ih hbe

/-- What `FollowPath` finds. -/
theorem followFrom_spec (K : Acyclic8 w h fd nd) (c0 : Cell) : ∀ (k : Nat) (c : Cell), InGrid w h c →
    pathLeft w h fd nd c ≤ k → ∃ v, followFrom w h fd nd c0 k c = some v ∧
      ((v = FLOW_TERMINATES ∧ ∀ e, ReflTransGen (PathStep w h fd nd) c e → ¬ ExitCell w h fd nd e) ∨
       ∃ e, ReflTransGen (PathStep w h fd nd) c e ∧ ExitCell w h fd nd e ∧
        v = if e = c0 then FLOW_EXTERNAL else toLink (xyToSerial w h e)) := by
  intro k
  induction k with
  | zero => intro c hc hk; have := pathLeft_pos (fd := fd) (nd := nd) hc; omega
  | succ k ih =>
    intro c hc hk
    unfold followFrom
    by_cases h1 : fd c = nd ∨ fd c = 0
    · rw [if_pos h1]
      refine ⟨_, rfl, .inl ⟨rfl, ?_⟩⟩
      intro e hce he
      rcases ReflTransGen.cases_head hce with rfl | ⟨b, hb, _⟩
      · rcases h1 with h1 | h1
        · exact he.2.1 h1
        · exact he.2.2.1 h1
      · rcases h1 with h1 | h1
        · exact hb.2.1 h1
        · exact hb.2.2.1 h1
    rw [if_neg h1]
    rw [not_or] at h1
    by_cases h2 : inGrid w h (nbr .D8 c (fd c)) = false
    · rw [if_pos h2]
      refine ⟨_, rfl, .inr ⟨c, .refl, ⟨hc, h1.1, h1.2, ?_⟩, rfl⟩⟩
      intro h3
      rw [inGrid_iff.2 h3] at h2; cases h2
    rw [if_neg h2]
    have h3 : InGrid w h (nbr .D8 c (fd c)) := inGrid_iff.1 (by simpa using h2)
    have hs : PathStep w h fd nd c (nbr .D8 c (fd c)) := ⟨hc, h1.1, h1.2, h3, rfl⟩
    obtain ⟨v, hv, hcase⟩ := ih _ h3 (by have := pathLeft_step K hs; omega)
    refine ⟨v, hv, ?_⟩
    rcases hcase with ⟨rfl, hno⟩ | ⟨e, he1, he2, he3⟩
    · left
      refine ⟨rfl, fun e hce he => ?_⟩
      rcases ReflTransGen.cases_head hce with rfl | ⟨b, hb, hbe⟩
      · exact exit_no_step he hs
      · rw [pathStep_fun hb hs] at hbe
        exact hno e hbe he
    · exact .inr ⟨e, .head hs he1, he2, he3⟩

open Classical in
/-- What `FollowPathAdd` does. -/
theorem followAdd_spec (K : Acyclic8 w h fd nd) (a : Int) : ∀ (k : Nat) (c : Cell) (acc : Cell → Int), InGrid w h c →
    pathLeft w h fd nd c + 1 ≤ k → ∃ acc', followAdd w h fd nd a k c acc = some acc' ∧
      ∀ x, acc' x = acc x + if fd x ≠ nd ∧ ReflTransGen (PathStep w h fd nd) c x then a else 0 := by
  intro k
  induction k with
  | zero => intro c acc hc hk; omega
  | succ k ih =>
    intro c acc hc hk
    unfold followAdd
    have hin : ¬ inGrid w h c = false := by rw [inGrid_iff.2 hc]; simp
    rw [if_neg hin]
    by_cases h1 : fd c = nd
    · rw [if_pos h1]
      refine ⟨acc, rfl, fun x => ?_⟩
      rw [if_neg, add_zero]
      rintro ⟨h2, h3⟩
      rcases ReflTransGen.cases_head h3 with rfl | ⟨b, hb, _⟩
      · exact h2 h1
      · exact hb.2.1 h1
    rw [if_neg h1]
    by_cases h2 : fd c = 0
    · rw [if_pos h2]
      refine ⟨_, rfl, fun x => ?_⟩
      by_cases hx : x = c
      · subst hx; rw [Function.update_self, if_pos ⟨h1, .refl⟩]
      · rw [Function.update_of_ne hx, if_neg, add_zero]
        rintro ⟨_, h3⟩
        rcases ReflTransGen.cases_head h3 with rfl | ⟨b, hb, _⟩
        · exact hx rfl
        · exact hb.2.2.1 h2
    rw [if_neg h2]
    by_cases h3 : InGrid w h (nbr .D8 c (fd c))
    · have hs : PathStep w h fd nd c (nbr .D8 c (fd c)) := ⟨hc, h1, h2, h3, rfl⟩
      obtain ⟨acc', e1, e2⟩ := ih (nbr .D8 c (fd c)) (Function.update acc c (acc c + a)) h3
        (by have := pathLeft_step K hs; omega)
      refine ⟨acc', e1, fun x => ?_⟩
      rw [e2]
      by_cases hx : x = c
      · subst hx
        have hneg : ¬ (fd x ≠ nd ∧ ReflTransGen (PathStep w h fd nd) (nbr .D8 x (fd x)) x) := fun h4 =>
          pathStep_acyclic K x (TransGen.head' hs h4.2)
        rw [Function.update_self, if_neg hneg, if_pos ⟨h1, .refl⟩, add_zero]
      · rw [Function.update_of_ne hx]
        have : (ReflTransGen (PathStep w h fd nd) (nbr .D8 c (fd c)) x) ↔ ReflTransGen (PathStep w h fd nd) c x := by
          constructor
          · exact fun h4 => .head hs h4
          · intro h4
            rcases ReflTransGen.cases_head h4 with rfl | ⟨b, hb, hbe⟩
            · exact absurd rfl hx
            · rwa [pathStep_fun hb hs] at hbe
        rw [this]
    · have hk' : ∃ k', k = k' + 1 := ⟨k - 1, by have := pathLeft_pos (fd := fd) (nd := nd) hc; omega⟩
      obtain ⟨k', rfl⟩ := hk'
      unfold followAdd
      have hf : inGrid w h (nbr .D8 c (fd c)) = false := by
        rw [← Bool.not_eq_true, inGrid_iff]; exact h3
      rw [if_pos hf]
      refine ⟨_, rfl, fun x => ?_⟩
      by_cases hx : x = c
      · subst hx; rw [Function.update_self, if_pos ⟨h1, .refl⟩]
      · rw [Function.update_of_ne hx, if_neg, add_zero]
        rintro ⟨_, h4⟩
        rcases ReflTransGen.cases_head h4 with rfl | ⟨b, hb, _⟩
        · exact hx rfl
        · exact exit_no_step ⟨hc, h1, h2, h3⟩ hb

end

end RichDEM
