/-
Termination of the movement of water through the hierarchy: `OverflowInto` (with its jump table)
visits no depression twice in one chain of nested calls, so the recursion depth is bounded by the
number of depressions (include/richdem/depressions/fill_spill_merge.hpp:367-598).
-/
import Verif.DepHier.Move

namespace RichDEM

section Later
variable {E : Type} [LinearOrder E] {n0 n : Nat} {dep : Nat → Dep E}

/-- `Cross dep x k`: following parents from `x` to the ocean uses `k` links between different trees. -/
inductive Cross (dep : Nat → Dep E) : Nat → Nat → Prop
  | zero : Cross dep 0 0
  | up {x p k} : upOf dep x = some p → Cross dep p k → Cross dep x k
  | oc {x p k} : (dep x).oceanParent = true → (dep x).parent = some p → Cross dep p k → Cross dep x (k + 1)

omit [LinearOrder E] in
theorem Cross.unique (h0 : (dep 0).parent = none) {x k : Nat} (h : Cross dep x k) : ∀ k', Cross dep x k' → k = k' := by
  have hu0 : upOf dep 0 = none := by unfold upOf; simp [h0]
  induction h with
  | zero =>
    intro k' h'
    cases h' with
    | zero => rfl
    | up h1 _ => rw [hu0] at h1; cases h1
    | oc _ h1 _ => rw [h0] at h1; cases h1
  | @up x p k h1 _ ih =>
    intro k' h'
    cases h' with
    | zero => rw [hu0] at h1; cases h1
    | up h2 h3 => rw [h1] at h2; cases h2; exact ih _ h3
    | oc h2 _ _ => unfold upOf at h1; rw [h2] at h1; simp at h1
  | @oc x p k h1 h2 _ ih =>
    intro k' h'
    cases h' with
    | zero => rw [h0] at h2; cases h2
    | up h3 _ => unfold upOf at h3; rw [h1] at h3; simp at h3
    | oc _ h3 h4 => rw [h2] at h3; cases h3; rw [ih _ h4]

theorem FlowTree.cross (T : FlowTree n0 n dep) {x : Nat} (hx : x < n) : ∃ k, Cross dep x k := by
  have h := T.reach x hx
  generalize hz : (0 : Nat) = z at h
  induction h with
  | refl => subst hz; exact ⟨0, .zero⟩
  | @step l p x h _ ih =>
    have hp : p < n := by
      cases ho : (dep l).oceanParent with
      | true => have := (T.ocp l p h ho).2.1; have := T.le; omega
      | false => exact (T.up l p (by unfold upOf; simp [ho]; exact h)).2.1
    obtain ⟨k, hk⟩ := ih hp hz
    cases ho : (dep l).oceanParent with
    | true => exact ⟨k + 1, .oc ho h hk⟩
    | false => exact ⟨k, .up (by unfold upOf; simp [ho]; exact h) hk⟩

open Classical in
/-- Number of links between trees on the way to the ocean. -/
noncomputable def treeLevel (dep : Nat → Dep E) (x : Nat) : Nat :=
  if h : ∃ k, Cross dep x k then h.choose else 0

omit [LinearOrder E] in
theorem treeLevel_eq (h0 : (dep 0).parent = none) {x k : Nat} (h : Cross dep x k) : treeLevel dep x = k := by
  unfold treeLevel
  rw [dif_pos ⟨k, h⟩]
  exact Cross.unique h0 (Exists.choose_spec (⟨k, h⟩ : ∃ k, Cross dep x k)) k h

theorem FlowTree.level_up (T : FlowTree n0 n dep) {x p : Nat} (h : upOf dep x = some p) :
    treeLevel dep p = treeLevel dep x := by
  obtain ⟨k, hk⟩ := T.cross (T.up x p h).2.1
  rw [treeLevel_eq T.ocean hk, treeLevel_eq T.ocean (.up h hk)]

theorem FlowTree.level_anc (T : FlowTree n0 n dep) {x y : Nat} (h : Anc dep x y) :
    treeLevel dep y = treeLevel dep x := by
  induction h with
  | refl => rfl
  | step h _ ih => rw [ih, T.level_up h]

theorem FlowTree.level_oc (T : FlowTree n0 n dep) {x p : Nat} (h1 : (dep x).oceanParent = true)
    (h2 : (dep x).parent = some p) : treeLevel dep p < treeLevel dep x := by
  obtain ⟨k, hk⟩ := T.cross (lt_of_lt_of_le (T.ocp x p h2 h1).2.1 T.le)
  rw [treeLevel_eq T.ocean hk, treeLevel_eq T.ocean (.oc h1 h2 hk)]
  omega

/-- The two children of one metadepression. -/
def Sib (dep : Nat → Dep E) (m m' : Nat) : Prop := ∃ p, upOf dep m = some p ∧ upOf dep m' = some p ∧ m ≠ m'

/-- `y` comes later than `x`: it is in a tree nearer the ocean, or above `x`, or in the part of the
tree that a full depression around `x` overflowed into (`bef`). -/
def Later (dep : Nat → Dep E) (bef : Nat → Nat → Prop) (x y : Nat) : Prop :=
  treeLevel dep y < treeLevel dep x ∨ (Anc dep x y ∧ x ≠ y) ∨
  ∃ m m', Anc dep x m ∧ Anc dep y m' ∧ Sib dep m m' ∧ bef m m'

omit [LinearOrder E] in
theorem Later.mono {bef bef' : Nat → Nat → Prop} (h : ∀ a b, bef a b → bef' a b) {x y : Nat} (k : Later dep bef x y) :
    Later dep bef' x y := by
  rcases k with k | k | ⟨m, m', a, b, c, d⟩
  · exact .inl k
  · exact .inr (.inl k)
  · exact .inr (.inr ⟨m, m', a, b, c, h _ _ d⟩)

theorem FlowTree.later_level (T : FlowTree n0 n dep) {bef : Nat → Nat → Prop} {x y : Nat} (k : Later dep bef x y) :
    treeLevel dep y ≤ treeLevel dep x := by
  rcases k with k | k | ⟨m, m', a, b, ⟨p, c, d, _⟩, _⟩
  · exact k.le
  · rw [T.level_anc k.1]
  · rw [← T.level_anc a, ← T.level_anc b, ← T.level_up c, ← T.level_up d]

theorem FlowTree.not_sib_anc (T : FlowTree n0 n dep) {m m' : Nat} (h : Sib dep m m') : ¬ Anc dep m m' := by
  obtain ⟨p, a, b, c⟩ := h
  intro k
  cases k with
  | refl => exact c rfl
  | @step _ q _ h1 h2 =>
    rw [a] at h1; cases h1
    have h3 := AncU.lt_or_eq (fun x p h => (T.up x p h).1) h2
    have := (T.up _ _ b).1
    omega

theorem FlowTree.later_irrefl (T : FlowTree n0 n dep) {bef : Nat → Nat → Prop} {x : Nat} : ¬ Later dep bef x x := by
  rintro (k | k | ⟨m, m', a, b, c, _⟩)
  · omega
  · exact k.2 rfl
  · rcases AncU.chain a b with h | h
    · exact T.not_sib_anc c h
    · obtain ⟨p, c1, c2, c3⟩ := c
      exact T.not_sib_anc ⟨p, c2, c1, Ne.symm c3⟩ h

theorem FlowTree.sib_unique (T : FlowTree n0 n dep) {m m' m'' : Nat} (h : Sib dep m m') (h' : Sib dep m m'') : m' = m'' := by
  obtain ⟨p, a, b, c⟩ := h
  obtain ⟨q, a', b', c'⟩ := h'
  rw [a] at a'; cases a'
  rcases T.toDepTree.kids_of_up a b (Ne.symm c) with ⟨h1, h2⟩ | ⟨h1, h2⟩ <;>
    rcases T.toDepTree.kids_of_up a b' (Ne.symm c') with ⟨h3, h4⟩ | ⟨h3, h4⟩
  · rw [h2] at h4; exact Option.some.inj h4
  · rw [h1] at h3; exact absurd (Option.some.inj h3) c'
  · rw [h1] at h3; exact absurd (Option.some.inj h3).symm c
  · rw [h1] at h3; exact Option.some.inj h3

theorem FlowTree.later_trans (T : FlowTree n0 n dep) {bef : Nat → Nat → Prop} (has : ∀ a b, bef a b → ¬ bef b a)
    {x y z : Nat} (h1 : Later dep bef x y) (h2 : Later dep bef y z) : Later dep bef x z := by
  have l1 := T.later_level h1
  have l2 := T.later_level h2
  have hlt : ∀ {a b : Nat}, Anc dep a b → a = b ∨ a < b := fun h => AncU.lt_or_eq (fun x p h => (T.up x p h).1) h
  rcases h1 with k | ⟨k1, k2⟩ | ⟨m, m', a, b, c, d⟩
  · exact .inl (by omega)
  · rcases h2 with q | ⟨q1, q2⟩ | ⟨k, k', a', b', c', d'⟩
    · exact .inl (by omega)
    · refine .inr (.inl ⟨AncU.trans k1 q1, ?_⟩)
      have := hlt k1; have := hlt q1; omega
    · exact .inr (.inr ⟨k, k', AncU.trans k1 a', b', c', d'⟩)
  · rcases h2 with q | ⟨q1, q2⟩ | ⟨k, k', a', b', c', d'⟩
    · exact .inl (by omega)
    · rcases AncU.chain b q1 with h | h
      · cases h with
        | refl => exact .inr (.inr ⟨m, z, a, .refl _, c, d⟩)
        | @step _ p _ e1 e2 =>
          obtain ⟨p', c1, c2, c3⟩ := c
          rw [c2] at e1; cases e1
          refine .inr (.inl ⟨AncU.trans a (.step c1 e2), ?_⟩)
          have := hlt a; have := hlt e2; have := (T.up _ _ c1).1; omega
      · exact .inr (.inr ⟨m, m', a, h, c, d⟩)
    · rcases AncU.chain b a' with h | h
      · -- k is above m'
        cases h with
        | refl =>
          exfalso
          obtain ⟨p, c1, c2, c3⟩ := c
          have := T.sib_unique (m := m') ⟨p, c2, c1, Ne.symm c3⟩ c'
          subst this
          exact has _ _ d d'
        | @step _ p _ e1 e2 =>
          obtain ⟨p', c1, c2, c3⟩ := c
          rw [c2] at e1; cases e1
          exact .inr (.inr ⟨k, k', AncU.trans a (.step c1 e2), b', c', d'⟩)
      · -- k is below m'
        cases h with
        | refl =>
          exfalso
          obtain ⟨p, c1, c2, c3⟩ := c
          have := T.sib_unique (m := m') ⟨p, c2, c1, Ne.symm c3⟩ c'
          subst this
          exact has _ _ d d'
        | @step _ p _ e1 e2 =>
          obtain ⟨p', c1, c2, c3⟩ := c'
          rw [c1] at e1; cases e1
          exact .inr (.inr ⟨m, m', a, AncU.trans b' (.step c2 e2), c, d⟩)

end Later

section Total
variable {E : Type} [CommRing E] [LinearOrder E] [IsStrictOrderedRing E]
variable {n0 n : Nat} {dep : Nat → Dep E} {vol : Nat → E} {eps : E}

/-- Invariant for termination; `bef` holds the pairs of siblings `m`, `m'` of which `m` was full and
overflowed into `m'`. -/
structure ReturnInv (n : Nat) (dep : Nat → Dep E) (vol : Nat → E) (bef : Nat → Nat → Prop) (s : FSM E) : Prop where
  asym : ∀ a b, bef a b → ¬ bef b a
  full : ∀ a b, bef a b → vol a ≤ s.water a
  nn : ∀ d, d < n → 0 ≤ s.water d
  jm : ∀ x y, s.jump x = some y → y < n ∧ Later dep bef x y

/-- The call returns, and its result satisfies `P` unless it is a failure. -/
def FRes.Ret {α : Type} (P : α → Prop) : FRes α → Prop
  | .ok a => P a
  | .fail => True
  | .deep => False

/-- Water changes that keep full depressions full and amounts non-negative. -/
def KeepsFull (n : Nat) (vol : Nat → E) (w w' : Nat → E) : Prop :=
  (∀ d, vol d ≤ w d → vol d ≤ w' d) ∧ ∀ d, d < n → 0 ≤ w' d

omit [IsStrictOrderedRing E] in
theorem ReturnInv.water {bef : Nat → Nat → Prop} {s : FSM E} (I : ReturnInv n dep vol bef s) {w : Nat → E}
    (h : KeepsFull n vol s.water w) : ReturnInv n dep vol bef { s with water := w } :=
  ⟨I.asym, fun a b k => h.1 a (I.full a b k), h.2, I.jm⟩

omit [IsStrictOrderedRing E] in
theorem KeepsFull.trans {w w' w'' : Nat → E} (h : KeepsFull n vol w w') (h' : KeepsFull n vol w' w'') :
    KeepsFull n vol w w'' := ⟨fun d k => h'.1 d (h.1 d k), h'.2⟩

omit [IsStrictOrderedRing E] in
theorem keepsFull_upd {w : Nat → E} (hw : ∀ d, d < n → 0 ≤ w d) {r : Nat} {x : E} (hx : 0 ≤ x)
    (hf : vol r ≤ w r → vol r ≤ x) : KeepsFull n vol w (upd w r x) := by
  constructor
  · intro d h
    by_cases e : d = r
    · subst e; rw [upd_same]; exact hf h
    · rw [upd_ne _ _ _ e]; exact h
  · intro d h
    by_cases e : d = r
    · subst e; rw [upd_same]; exact hx
    · rw [upd_ne _ _ _ e]; exact hw d h

theorem pickUp_keeps (V : VolOk n0 n dep vol) {w : Nat → E} (hw : ∀ d, d < n → 0 ≤ w d) {r : Nat} (hr : r < n) {ex : E}
    (hex : 0 ≤ ex) : KeepsFull n vol w (pickUp vol w ex r).1 ∧ 0 ≤ (pickUp vol w ex r).2 := by
  unfold pickUp
  by_cases h : vol r < w r
  · simp only [if_pos h]
    exact ⟨keepsFull_upd hw (V.nonneg r hr) (fun _ => le_refl _), by linarith⟩
  · simp only [if_neg h]
    exact ⟨⟨fun _ h => h, hw⟩, hex⟩

theorem stash_keeps (V : VolOk n0 n dep vol) {w : Nat → E} (hw : ∀ d, d < n → 0 ≤ w d) {r : Nat} (hr : r < n) {ex : E}
    (hex : 0 ≤ ex) : KeepsFull n vol w (stash vol w ex r).1 ∧ 0 ≤ (stash vol w ex r).2 ∧
      ((stash vol w ex r).2 = 0 ∨ vol r ≤ (stash vol w ex r).1 r) := by
  unfold stash
  by_cases h : w r < vol r
  · simp only [if_pos h]
    by_cases h2 : ex < vol r - w r
    · simp only [if_pos h2]
      refine ⟨keepsFull_upd hw (le_min (by have := hw r hr; linarith) (V.nonneg r hr)) (fun k => absurd h (not_lt.2 k)),
        le_refl _, .inl trivial⟩
    · simp only [if_neg h2]
      exact ⟨keepsFull_upd hw (V.nonneg r hr) (fun _ => le_refl _), by linarith, .inr (by rw [upd_same])⟩
  · simp only [if_neg h]
    exact ⟨⟨fun _ h => h, hw⟩, hex, .inr (not_lt.1 h)⟩

theorem tellParent_keeps {w : Nat → E} (hw : ∀ d, d < n → 0 ≤ w d) {r p : Nat} (hr : r < n)
    (hb : ∀ b, (dep r).odep = some b → b < n) : KeepsFull n vol w (tellParent dep w r p) := by
  unfold tellParent
  by_cases h : w p = 0 ∧ (dep r).oceanParent = false
  · rw [if_pos h]
    have := hw r hr
    cases ho : (dep r).odep with
    | none =>
      refine keepsFull_upd hw ?_ (fun k => k.trans ?_)
      · show 0 ≤ w p + w r
        rw [h.1]; linarith
      · show w p ≤ w p + w r
        linarith
    | some b =>
      have := hw b (hb b ho)
      refine keepsFull_upd hw ?_ (fun k => k.trans ?_)
      · show 0 ≤ w p + w r + w b
        rw [h.1]; linarith
      · show w p ≤ w p + w r + w b
        linarith
  · rw [if_neg h]; exact ⟨fun _ h => h, hw⟩

/-- What the call returns. -/
def OvRet (n : Nat) (dep : Nat → Dep E) (vol : Nat → E) (bef : Nat → Nat → Prop) (root : Nat) (x : Nat × FSM E) : Prop :=
  ∃ bef' : Nat → Nat → Prop, (∀ a b, bef a b → bef' a b) ∧ ReturnInv n dep vol bef' x.2 ∧ x.1 < n ∧
    (root = x.1 ∨ Later dep bef' root x.1)

theorem setJump_ret (T : FlowTree n0 n dep) {root j : Nat} {bef bef1 : Nat → Nat → Prop} {res : FRes (Nat × FSM E)}
    (h01 : ∀ a b, bef a b → bef1 a b) (hl : Later dep bef1 root j) (hr : res.Ret (OvRet n dep vol bef1 j)) :
    (res.bind (setJump root)).Ret (OvRet n dep vol bef root) := by
  cases res with
  | fail => trivial
  | deep => exact hr
  | ok x =>
    obtain ⟨bef', k1, k2, k3, k4⟩ := hr
    have hrt : Later dep bef' root x.1 := by
      rcases k4 with k | k
      · rw [← k]; exact hl.mono k1
      · exact T.later_trans k2.asym (hl.mono k1) k
    refine ⟨bef', fun a b h => k1 a b (h01 a b h), ⟨k2.asym, k2.full, k2.nn, ?_⟩, k3, .inr hrt⟩
    intro y z h
    change upd x.2.jump root (some x.1) y = some z at h
    by_cases e : y = root
    · subst e; rw [upd_same] at h; cases h; exact ⟨k3, hrt⟩
    · rw [upd_ne _ _ _ e] at h; exact k2.jm y z h

/-- `OverflowInto` returns: `L` are the depressions of the enclosing calls. -/
theorem overflowInto_ret (T : FlowTree n0 n dep) (V : VolOk n0 n dep vol) (he : 0 < eps) :
    ∀ (f root stop : Nat) (s : FSM E) (ex : E) (bef : Nat → Nat → Prop) (L : List Nat), ReturnInv n dep vol bef s → root < n →
      0 ≤ ex → L.Nodup → (∀ v ∈ L, v < n ∧ Later dep bef v root) → n ≤ f + L.length →
      (overflowInto n dep vol eps f root stop s ex).Ret (OvRet n dep vol bef root) := by
  have hlen : ∀ (L : List Nat) (r : Nat) (bef : Nat → Nat → Prop), r < n → L.Nodup → (∀ v ∈ L, v < n ∧ Later dep bef v r) →
      L.length + 1 ≤ n := by
    intro L r bef hr hnd hL
    have h1 : (r :: L).Nodup := List.nodup_cons.2 ⟨fun h => T.later_irrefl (hL r h).2, hnd⟩
    have h2 : (r :: L).toFinset ⊆ Finset.range n := by
      intro x hx
      simp only [List.toFinset_cons, Finset.mem_insert, List.mem_toFinset] at hx
      rw [Finset.mem_range]
      rcases hx with rfl | hx
      · exact hr
      · exact (hL x hx).1
    have := Finset.card_le_card h2
    rw [List.toFinset_card_of_nodup h1, Finset.card_range] at this
    simpa using this
  intro f
  induction f with
  | zero =>
    intro root stop s ex bef L _ hr _ hnd hL hf
    have := hlen L root bef hr hnd hL
    omega
  | succ f ih =>
    intro root stop s ex bef L I hr hex hnd hL hf
    unfold overflowInto
    simp only [hr, not_true, if_false]
    obtain ⟨K1, e1⟩ := pickUp_keeps V I.nn hr hex
    set w1 := (pickUp vol s.water ex root).1 with hw1
    set ex1 := (pickUp vol s.water ex root).2 with hex1
    by_cases hstop : root = stop ∨ root = 0
    · rw [if_pos hstop]
      refine ⟨bef, fun _ _ h => h, I.water (K1.trans (keepsFull_upd K1.2 ?_ ?_)), hr, .inl rfl⟩
      · have := K1.2 root hr; linarith
      · intro k; linarith
    · rw [if_neg hstop]
      have hr0 : root ≠ 0 := fun h => hstop (.inr h)
      obtain ⟨K2, e2, f2⟩ := stash_keeps V K1.2 hr e1
      set w2 := (stash vol w1 ex1 root).1 with hw2
      set ex2 := (stash vol w1 ex1 root).2 with hex2
      by_cases hz : -eps < ex2 ∧ ex2 < eps
      · rw [if_pos hz]
        exact ⟨bef, fun _ _ h => h, I.water (K1.trans K2), hr, .inl rfl⟩
      · rw [if_neg hz]
        have hfull : vol root ≤ w2 root := by
          rcases f2 with h | h
          · exact absurd ⟨by rw [h]; linarith, by rw [h]; exact he⟩ hz
          · exact h
        -- the next call
        have hnext : ∀ (bef1 : Nat → Nat → Prop) (j : Nat) (w : Nat → E) (x : E), (∀ a b, bef a b → bef1 a b) →
            ReturnInv n dep vol bef1 { s with water := w } → j < n → 0 ≤ x → Later dep bef1 root j →
            ((overflowInto n dep vol eps f j stop { s with water := w } x).bind (setJump root)).Ret
              (OvRet n dep vol bef root) := by
          intro bef1 j w x h01 I1 hj hx hl
          refine setJump_ret T h01 hl (ih j stop _ x bef1 (root :: L) I1 hj hx ?_ ?_ ?_)
          · exact List.nodup_cons.2 ⟨fun h => T.later_irrefl (hL root h).2, hnd⟩
          · intro v hv
            rcases List.mem_cons.1 hv with rfl | hv
            · exact ⟨hr, hl⟩
            · exact ⟨(hL v hv).1, T.later_trans I1.asym ((hL v hv).2.mono h01) hl⟩
          · simp only [List.length_cons]; omega
        have hbn : ∀ b, (dep root).odep = some b → ∃ p g, upOf dep root = some p ∧ upOf dep b = some p ∧ b ≠ root ∧
            b < n ∧ (dep root).geolink = some g ∧ g < n ∧ Anc dep g b := by
          intro b hod
          obtain ⟨p, hup⟩ : ∃ p, upOf dep root = some p := by
            cases hp : (dep root).parent with
            | none => exact absurd hp (T.par root hr hr0)
            | some p =>
              cases hop : (dep root).oceanParent with
              | true => have := (T.ocp root p hp hop).2.2.1; rw [hod] at this; cases this
              | false => exact ⟨p, by unfold upOf; simp [hop, hp]⟩
          obtain ⟨b', g, b1, b2, b3, b4, b5, b6⟩ := T.od root p hup
          rw [hod] at b1; cases b1
          exact ⟨p, g, hup, b2, b3, by obtain ⟨q1, q2, _⟩ := T.up b p b2; omega, b4, lt_of_lt_of_le b5 T.le, b6⟩
        have hclimb : ∀ (w : Nat → E) (x : E), KeepsFull n vol s.water w → 0 ≤ x →
            FRes.Ret (OvRet n dep vol bef root)
              (match (dep root).parent with
              | none => FRes.fail
              | some p =>
                if ¬ p < n then FRes.fail
                else (overflowInto n dep vol eps f p stop { s with water := tellParent dep w root p } x).bind
                  (setJump root)) := by
          intro w x Kw hx
          cases hp : (dep root).parent with
          | none => trivial
          | some p =>
            by_cases hpn : p < n
            · simp only [hpn, not_true, if_false]
              refine hnext bef p _ x (fun _ _ h => h) (I.water (Kw.trans (tellParent_keeps Kw.2 hr ?_))) hpn hx ?_
              · intro b hb; obtain ⟨_, _, _, _, _, h, _⟩ := hbn b hb; exact h
              · cases hop : (dep root).oceanParent with
                | true => exact .inl (T.level_oc hop hp)
                | false =>
                  have hup : upOf dep root = some p := by unfold upOf; simp [hop, hp]
                  exact .inr (.inl ⟨.step hup (.refl _), by have := (T.up root p hup).1; omega⟩)
            · simp only [hpn, not_false_iff, if_true]; trivial
        cases hj : s.jump root with
        | some j =>
          obtain ⟨j1, j2⟩ := I.jm root j hj
          exact hnext bef j w2 ex2 (fun _ _ h => h) (I.water (K1.trans K2)) j1 e2 j2
        | none =>
          cases hod : (dep root).odep with
          | none => exact hclimb w2 ex2 (K1.trans K2) e2
          | some b =>
            obtain ⟨p, g, q1, q2, q3, q4, q5, q6, q7⟩ := hbn b hod
            simp only [q4, not_true, if_false]
            by_cases hlt : w2 b < vol b
            · rw [if_pos hlt, q5]
              have hnb : ∀ c, ¬ bef b c := fun c h => absurd ((K1.trans K2).1 b (I.full b c h)) (not_le.2 hlt)
              have I2 := I.water (K1.trans K2)
              refine hnext (fun a c => bef a c ∨ (a = root ∧ c = b)) g w2 ex2 (fun _ _ h => .inl h) ⟨?_, ?_, I2.nn, ?_⟩
                q6 e2 ?_
              · rintro a c (h | ⟨rfl, rfl⟩) (k | ⟨k1, k2⟩)
                · exact I.asym a c h k
                · subst k1 k2; exact hnb _ h
                · exact hnb _ k
                · exact q3 k1
              · rintro a c (h | ⟨rfl, rfl⟩)
                · exact I2.full a c h
                · exact hfull
              · intro x y h
                exact ⟨(I2.jm x y h).1, (I2.jm x y h).2.mono (fun _ _ h => .inl h)⟩
              · exact .inr (.inr ⟨root, b, .refl _, q7, ⟨p, q1, q2, Ne.symm q3⟩, .inr ⟨rfl, rfl⟩⟩)
            · rw [if_neg hlt]
              obtain ⟨K3, e3⟩ := pickUp_keeps V K2.2 q4 e2
              exact hclimb _ _ ((K1.trans K2).trans K3) e3

/-- A list of calls returns. -/
theorem moves_ret {call : Nat → FSM E → FRes (FSM E)} {cs : List Nat}
    (hcall : ∀ c ∈ cs, ∀ s bef, ReturnInv n dep vol bef s → (call c s).Ret fun s' => ∃ bef', ReturnInv n dep vol bef' s') :
    ∀ s, (∃ bef, ReturnInv n dep vol bef s) →
      (cs.foldl (fun (r : FRes (FSM E)) c => r.bind (call c)) (.ok s)).Ret fun s' => ∃ bef', ReturnInv n dep vol bef' s' := by
  induction cs using List.reverseRecOn with
  | nil => intro s I; exact I
  | append_singleton cs c ih =>
    intro s I
    rw [List.foldl_append]
    have h1 := ih (fun x hx => hcall x (by simp [hx])) s I
    show FRes.Ret _ ((cs.foldl (fun (r : FRes (FSM E)) c => r.bind (call c)) (.ok s)).bind (call c))
    cases hres : cs.foldl (fun (r : FRes (FSM E)) c => r.bind (call c)) (.ok s) with
    | fail => trivial
    | deep => rw [hres] at h1; exact h1
    | ok s1 =>
      rw [hres] at h1
      obtain ⟨bef, I1⟩ := h1
      exact hcall c (by simp) s1 bef I1

omit [CommRing E] [IsStrictOrderedRing E] in
/-- A child's descendants are fewer. -/
theorem FlowTree.under_card (T : FlowTree n0 n dep) {c d : Nat} (hd : d < n) (h : (dep c).parent = some d) :
    (underSet n dep c).card < (underSet n dep d).card := by
  refine Finset.card_lt_card ⟨?_, ?_⟩
  · intro x hx
    rw [mem_underSet] at hx ⊢
    exact ⟨hx.1, AncU.trans hx.2 (.step h (.refl _))⟩
  · intro hsub
    have := hsub (mem_underSet.2 ⟨hd, .refl _⟩)
    rw [mem_underSet] at this
    exact no_cycle (up := fun y => (dep y).parent) T.ocean (T.reach d hd) c h this.2

/-- `MoveWaterInDepHier` returns. -/
theorem moveWater_ret (T : FlowTree n0 n dep) (V : VolOk n0 n dep vol) (he : 0 < eps) :
    ∀ (f d : Nat) (s : FSM E) (bef : Nat → Nat → Prop), d < n → ReturnInv n dep vol bef s →
      n + (underSet n dep d).card ≤ f →
      (moveWater n dep vol eps f d s).Ret fun s' => ∃ bef', ReturnInv n dep vol bef' s' := by
  intro f
  induction f with
  | zero =>
    intro d s bef hd _ hf
    omega
  | succ f ih =>
    intro d s bef hd I hf
    have hself : 0 < (underSet n dep d).card := Finset.card_pos.2 ⟨d, mem_underSet.2 ⟨hd, .refl _⟩⟩
    unfold moveWater
    simp only [hd, not_true, if_false]
    obtain ⟨_, hmem⟩ := T.calls hd
    have h1 := moves_ret (n := n) (dep := dep) (vol := vol) (call := moveWater n dep vol eps f)
      (cs := (dep d).oceanLinked ++ (dep d).lchild.toList ++ (dep d).rchild.toList)
      (fun c hc s bef I => by
        obtain ⟨c1, c2⟩ := (hmem c).1 hc
        have := T.under_card hd c2
        exact ih c s bef c1 I (by omega)) s ⟨bef, I⟩
    set cs := (dep d).oceanLinked ++ (dep d).lchild.toList ++ (dep d).rchild.toList with hcs
    cases hres : cs.foldl (fun (r : FRes (FSM E)) c => r.bind (moveWater n dep vol eps f c)) (.ok s) with
    | fail => trivial
    | deep => rw [hres] at h1; exact h1
    | ok s1 =>
      rw [hres] at h1
      obtain ⟨bef1, I1⟩ := h1
      show FRes.Ret _ (if d = 0 then _ else _)
      by_cases hd0 : d = 0
      · rw [if_pos hd0]; exact ⟨bef1, I1⟩
      · rw [if_neg hd0]
        have K : KeepsFull n vol s1.water (fillFromKids dep vol s1.water d) := by
          unfold fillFromKids
          cases hl : (dep d).lchild with
          | none => exact ⟨fun _ h => h, I1.nn⟩
          | some a =>
            cases hr : (dep d).rchild with
            | none => exact ⟨fun _ h => h, I1.nn⟩
            | some b =>
              have hdn : n0 ≤ d := by
                by_contra hlt
                have := (T.leaf d (by omega)).1
                rw [hl] at this; cases this
              obtain ⟨a', b', k1, k2, _, k4, k5, _⟩ := T.kids d hdn hd
              rw [hl] at k1; cases k1
              rw [hr] at k2; cases k2
              have := I1.nn a (by omega)
              have := I1.nn b (by omega)
              have := I1.nn d hd
              by_cases hc : s1.water a = vol a ∧ s1.water b = vol b ∧ s1.water d = 0
              · simp only [if_pos hc]
                exact keepsFull_upd I1.nn (by linarith) (fun k => k.trans (by linarith))
              · simp only [if_neg hc]; exact ⟨fun _ h => h, I1.nn⟩
        set w := fillFromKids dep vol s1.water d with hw
        by_cases hover : vol d < w d
        · rw [if_pos hover]
          by_cases hk : kidsFull dep vol w d = true
          · simp only [hk, not_true, if_false]
            cases hp : (dep d).parent with
            | none => trivial
            | some p =>
              have hov := overflowInto_ret T V he f d p { s1 with water := w } 0 bef1 [] (I1.water K) hd (le_refl _)
                List.nodup_nil (by simp) (by simp; omega)
              show FRes.Ret _ (FRes.bind _ _)
              cases hr : overflowInto n dep vol eps f d p { s1 with water := w } 0 with
              | fail => trivial
              | deep => rw [hr] at hov; exact hov
              | ok x =>
                rw [hr] at hov
                obtain ⟨bef2, _, I2, _⟩ := hov
                show FRes.Ret _ (if x.2.water d ≤ vol d then _ else _)
                split
                · exact ⟨bef2, I2⟩
                · trivial
          · simp only [hk, not_false_iff, if_true]; trivial
        · rw [if_neg hover]
          exact ⟨bef1, I1.water K⟩

end Total
end RichDEM
