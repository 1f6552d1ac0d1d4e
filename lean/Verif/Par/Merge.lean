/-
The master graph: what merging the tiles' graphs and joining edges and corners produces.
-/
import Verif.Par.Graph
import Mathlib.Data.List.ProdSigma

namespace RichDEM

variable {E : Type*} [LinearOrder E]

/-- The unordered pair `{a, b}` is the renamed pair `{l, k}`. -/
def Match (off l k a b : Nat) : Prop := (a = ren off l ∧ b = ren off k) ∨ (b = ren off l ∧ a = ren off k)

theorem ren_pos {off l : Nat} (hl : 2 ≤ l) : ren off l = l + off := by unfold ren; rw [if_pos (by omega)]

theorem ren_le {off l : Nat} (hl : l ≤ 1) : ren off l = l := by unfold ren; rw [if_neg (by omega)]

theorem ren_inj {off l k : Nat} (hr : ren off l = ren off k) : l = k := by
  unfold ren at hr; split_ifs at hr <;> omega

theorem Match.unique {off l k l' k' a b : Nat} (h1 : Match off l k a b) (h2 : Match off l' k' a b) (hlk : l < k)
    (hlk' : l' < k') : l = l' ∧ k = k' := by
  rcases h1 with ⟨a1, a2⟩ | ⟨a1, a2⟩ <;> rcases h2 with ⟨b1, b2⟩ | ⟨b1, b2⟩
  · exact ⟨ren_inj (a1.symm.trans b1), ren_inj (a2.symm.trans b2)⟩
  · have c1 := ren_inj (a1.symm.trans b2); have c2 := ren_inj (a2.symm.trans b1); omega
  · have c1 := ren_inj (a1.symm.trans b2); have c2 := ren_inj (a2.symm.trans b1); omega
  · exact ⟨ren_inj (a1.symm.trans b1), ren_inj (a2.symm.trans b2)⟩

/-- A tile's graph: keys are ordered labels in range. -/
structure TG (g : SG E) : Prop where
  key : ∀ l k v, g.m l k = some v → 1 ≤ l ∧ l < k ∧ k < g.size
  two : 2 ≤ g.size

omit [LinearOrder E] in
theorem mergeTile_spec {off : Nat} {tg g : SG E} (T : TG tg) (hs : off + tg.size ≤ g.size) (ho : g.ok = true) :
    (mergeTile off tg g).size = g.size ∧ (mergeTile off tg g).ok = true ∧
    ∀ a b v, (mergeTile off tg g).m a b = some v ↔
      (∃ l k, tg.m l k = some v ∧ Match off l k a b) ∨
      (g.m a b = some v ∧ ∀ l k, tg.m l k ≠ none → ¬ Match off l k a b) := by
  have key : ∀ P : List (Nat × Nat),
      let r := P.foldl (fun g lk => match tg.m lk.1 lk.2 with
        | none => g
        | some v => g.setBoth (ren off lk.1) (ren off lk.2) v) g
      r.size = g.size ∧ r.ok = true ∧ ∀ a b v, r.m a b = some v ↔
        (∃ l k, (l, k) ∈ P ∧ tg.m l k = some v ∧ Match off l k a b) ∨
        (g.m a b = some v ∧ ∀ l k, (l, k) ∈ P → tg.m l k ≠ none → ¬ Match off l k a b) := by
    intro P
    induction P using List.reverseRecOn with
    | nil => simp [ho]
    | append_singleton P lk ih =>
      obtain ⟨l, k⟩ := lk
      simp only [List.foldl_append, List.foldl_cons, List.foldl_nil] at ih ⊢
      obtain ⟨i1, i2, i3⟩ := ih
      set r := P.foldl (fun g lk => match tg.m lk.1 lk.2 with
        | none => g
        | some v => g.setBoth (ren off lk.1) (ren off lk.2) v) g with hr
      cases ht : tg.m l k with
      | none =>
        simp only
        refine ⟨i1, i2, fun a b v => (i3 a b v).trans ?_⟩
        constructor
        · rintro (⟨l', k', h1, h2, h3⟩ | ⟨h1, h2⟩)
          · exact Or.inl ⟨l', k', List.mem_append_left _ h1, h2, h3⟩
          · refine Or.inr ⟨h1, fun l' k' h3 h4 => ?_⟩
            rcases List.mem_append.1 h3 with h3 | h3
            · exact h2 l' k' h3 h4
            · obtain ⟨rfl, rfl⟩ : l' = l ∧ k' = k := by simpa using h3
              exact absurd ht h4
        · rintro (⟨l', k', h1, h2, h3⟩ | ⟨h1, h2⟩)
          · rcases List.mem_append.1 h1 with h1 | h1
            · exact Or.inl ⟨l', k', h1, h2, h3⟩
            · obtain ⟨rfl, rfl⟩ : l' = l ∧ k' = k := by simpa using h1
              rw [ht] at h2; cases h2
          · exact Or.inr ⟨h1, fun l' k' h3 => h2 l' k' (List.mem_append_left _ h3)⟩
      | some u =>
        simp only
        obtain ⟨k1, k2, k3⟩ := T.key l k u ht
        have hb1 : ren off l < g.size := by unfold ren; split_ifs <;> omega
        have hb2 : ren off k < g.size := by unfold ren; split_ifs <;> omega
        refine ⟨i1, by simp [SG.setBoth, i1, i2, hb1, hb2], fun a b v => ?_⟩
        by_cases hm : Match off l k a b
        · have : (r.setBoth (ren off l) (ren off k) u).m a b = some u := by
            simp only [SG.setBoth]
            rw [if_pos]
            rcases hm with hm | hm
            · exact Or.inr hm
            · exact Or.inl ⟨hm.2, hm.1⟩
          rw [this]
          constructor
          · rintro h1
            obtain rfl := Option.some.inj h1
            exact Or.inl ⟨l, k, by simp, ht, hm⟩
          · rintro (⟨l', k', h1, h2, h3⟩ | ⟨h1, h2⟩)
            · obtain ⟨k1', k2', k3'⟩ := T.key l' k' v h2
              obtain ⟨rfl, rfl⟩ := hm.unique h3 k2 k2'
              rw [ht] at h2; exact h2
            · exact absurd hm (h2 l k (by simp) (by rw [ht]; simp))
        · have : (r.setBoth (ren off l) (ren off k) u).m a b = r.m a b := by
            simp only [SG.setBoth]
            rw [if_neg]
            rintro (h1 | h1)
            · exact hm (Or.inr ⟨h1.2, h1.1⟩)
            · exact hm (Or.inl h1)
          rw [this, i3]
          constructor
          · rintro (⟨l', k', h1, h2, h3⟩ | ⟨h1, h2⟩)
            · exact Or.inl ⟨l', k', List.mem_append_left _ h1, h2, h3⟩
            · refine Or.inr ⟨h1, fun l' k' h3 h4 => ?_⟩
              rcases List.mem_append.1 h3 with h3 | h3
              · exact h2 l' k' h3 h4
              · obtain ⟨rfl, rfl⟩ : l' = l ∧ k' = k := by simpa using h3
                exact hm
          · rintro (⟨l', k', h1, h2, h3⟩ | ⟨h1, h2⟩)
            · rcases List.mem_append.1 h1 with h1 | h1
              · exact Or.inl ⟨l', k', h1, h2, h3⟩
              · obtain ⟨rfl, rfl⟩ : l' = l ∧ k' = k := by simpa using h1
                exact absurd h3 hm
            · exact Or.inr ⟨h1, fun l' k' h3 => h2 l' k' (List.mem_append_left _ h3)⟩
  obtain ⟨a1, a2, a3⟩ := key (List.range tg.size ×ˢ List.range tg.size)
  have hin : ∀ l k v, tg.m l k = some v → (l, k) ∈ List.range tg.size ×ˢ List.range tg.size := by
    intro l k v hv
    obtain ⟨_, h2, h3⟩ := T.key l k v hv
    rw [List.mem_product, List.mem_range, List.mem_range]
    omega
  refine ⟨a1, a2, fun a b v => (a3 a b v).trans ?_⟩
  constructor
  · rintro (⟨l, k, _, h2, h3⟩ | ⟨h1, h2⟩)
    · exact Or.inl ⟨l, k, h2, h3⟩
    · refine Or.inr ⟨h1, fun l k h3 => ?_⟩
      obtain ⟨v', hv'⟩ := Option.ne_none_iff_exists'.1 h3
      exact h2 l k (hin l k v' hv') h3
  · rintro (⟨l, k, h2, h3⟩ | ⟨h1, h2⟩)
    · exact Or.inl ⟨l, k, hin l k v h2, h2, h3⟩
    · exact Or.inr ⟨h1, fun l k _ h3 => h2 l k h3⟩

/-- The offsets of two tiles do not overlap. -/
def Apart (jobs : Nat × Nat → PJob E) (offs : Nat × Nat → Nat) (t t' : Nat × Nat) : Prop :=
  offs t + (jobs t).graph.size ≤ offs t' ∨ offs t' + (jobs t').graph.size ≤ offs t

omit [LinearOrder E] in
theorem Match.apart {jobs : Nat × Nat → PJob E} {offs : Nat × Nat → Nat} {t t' : Nat × Nat}
    (ha : Apart jobs offs t t') {l k l' k' a b : Nat} (h1 : Match (offs t) l k a b) (h2 : Match (offs t') l' k' a b)
    (hl : 1 ≤ l ∧ l < k ∧ k < (jobs t).graph.size) (hl' : 1 ≤ l' ∧ l' < k' ∧ k' < (jobs t').graph.size) : False := by
  have e1 : ren (offs t) k = k + offs t := ren_pos (by omega)
  have e2 : ren (offs t') k' = k' + offs t' := ren_pos (by omega)
  have f1 : ren (offs t) l = l ∨ ren (offs t) l = l + offs t := by unfold ren; split_ifs <;> simp
  have f2 : ren (offs t') l' = l' ∨ ren (offs t') l' = l' + offs t' := by unfold ren; split_ifs <;> simp
  have g1 : ren (offs t) l = l → l = 1 ∨ offs t = 0 := by
    intro h; unfold ren at h; split_ifs at h <;> omega
  have g2 : ren (offs t') l' = l' → l' = 1 ∨ offs t' = 0 := by
    intro h; unfold ren at h; split_ifs at h <;> omega
  unfold Match at h1 h2
  unfold Apart at ha
  omega

/-- The state after the tiles `D` were merged. -/
structure MergeInv (jobs : Nat × Nat → PJob E) (N : Nat) (D : List (Nat × Nat)) (st : MG E) : Prop where
  off : st.off = (D.map (fun t => (jobs t).graph.size)).sum
  below : ∀ t ∈ D, st.offs t + (jobs t).graph.size ≤ st.off
  apart : ∀ t ∈ D, ∀ t' ∈ D, t ≠ t' → Apart jobs st.offs t t'
  size : st.g.size = N
  ok : st.g.ok = true
  iff : ∀ a b v, st.g.m a b = some v ↔ ∃ t ∈ D, ∃ l k, (jobs t).graph.m l k = some v ∧ Match (st.offs t) l k a b

omit [LinearOrder E] in
theorem mergeAll_spec {jobs : Nat × Nat → PJob E} {gh gw : Nat} (hj : ∀ t ∈ tileList gh gw, TG (jobs t).graph) :
    MergeInv jobs ((tileList gh gw).map (fun t => (jobs t).graph.size)).sum (tileList gh gw) (mergeAll jobs gh gw) := by
  have hnd : (tileList gh gw).Nodup := List.Nodup.product List.nodup_range List.nodup_range
  set N := ((tileList gh gw).map (fun t => (jobs t).graph.size)).sum with hN
  have key : ∀ D R : List (Nat × Nat), D ++ R = tileList gh gw →
      MergeInv jobs N D (D.foldl (mergeStep jobs) { g := emptyMaster jobs gh gw, offs := fun _ => 0, off := 0 }) := by
    intro D
    induction D using List.reverseRecOn with
    | nil =>
      intro R _
      exact ⟨rfl, by simp, by simp, rfl, rfl, by simp [emptyMaster]⟩
    | append_singleton D t ih =>
      intro R hR
      have I := ih (t :: R) (by rw [← hR]; simp)
      rw [List.foldl_append, List.foldl_cons, List.foldl_nil]
      set st := D.foldl (mergeStep jobs) { g := emptyMaster jobs gh gw, offs := fun _ => 0, off := 0 } with hst
      have htl : t ∈ tileList gh gw := by rw [← hR]; simp
      have hDl : ∀ d ∈ D, d ∈ tileList gh gw := fun d hd => by rw [← hR]; simp [hd]
      have htD : t ∉ D := by
        rw [← hR] at hnd
        intro hx
        have := (List.nodup_append.1 (List.nodup_append.1 hnd).1).2.2
        exact this t hx t (by simp) rfl
      have hsum : st.off + (jobs t).graph.size ≤ N := by
        rw [I.off, hN, ← hR]
        simp only [List.map_append, List.sum_append, List.map_cons, List.map_nil, List.sum_cons, List.sum_nil]
        omega
      have hne : ∀ d ∈ D, d ≠ t := fun d hd h => htD (h ▸ hd)
      have ho : ∀ d ∈ D, Function.update st.offs t st.off d = st.offs d := fun d hd => Function.update_of_ne (hne d hd) _ _
      obtain ⟨m1, m2, m3⟩ := mergeTile_spec (off := st.off) (hj t htl) (g := st.g) (by rw [I.size]; exact hsum) I.ok
      have hap : ∀ d ∈ D, Apart jobs (Function.update st.offs t st.off) d t := by
        intro d hd
        left
        rw [ho d hd, Function.update_self]
        exact I.below d hd
      refine ⟨?_, ?_, ?_, m1.trans I.size, m2, ?_⟩
      · simp only [mergeStep, I.off, List.map_append, List.sum_append, List.map_cons, List.map_nil, List.sum_cons, List.sum_nil]
        omega
      · intro d hd
        simp only [mergeStep]
        rcases List.mem_append.1 hd with hd | hd
        · rw [ho d hd]; have := I.below d hd; omega
        · obtain rfl : d = t := by simpa using hd
          rw [Function.update_self]
      · intro d hd0 d' hd0' hdd
        simp only [mergeStep]
        rcases List.mem_append.1 hd0 with hd | hd <;> rcases List.mem_append.1 hd0' with hd' | hd'
        · have := I.apart d hd d' hd' hdd
          unfold Apart at this ⊢
          rw [ho d hd, ho d' hd']; exact this
        · have e : d' = t := by simpa using hd'
          rw [e]; exact hap d hd
        · have e : d = t := by simpa using hd
          rw [e]; exact (hap d' hd').symm
        · have e : d = t := by simpa using hd
          have e' : d' = t := by simpa using hd'
          exact absurd (e.trans e'.symm) hdd
      · intro a b v
        simp only [mergeStep]
        rw [m3, I.iff]
        constructor
        · rintro (⟨l, k, h1, h2⟩ | ⟨⟨d, hd, l, k, h1, h2⟩, _⟩)
          · exact ⟨t, by simp, l, k, h1, by rw [Function.update_self]; exact h2⟩
          · exact ⟨d, by simp [hd], l, k, h1, by rw [ho d hd]; exact h2⟩
        · rintro ⟨d, hd, l, k, h1, h2⟩
          rcases List.mem_append.1 hd with hd | hd
          · right
            refine ⟨⟨d, hd, l, k, h1, by rw [← ho d hd]; exact h2⟩, ?_⟩
            intro l' k' h3 h4
            obtain ⟨v', hv'⟩ := Option.ne_none_iff_exists'.1 h3
            exact Match.apart (hap d hd) h2 (by rw [Function.update_self]; exact h4) ((hj d (hDl d hd)).key l k v h1)
              ((hj t htl).key l' k' v' hv')
          · obtain rfl : d = t := by simpa using hd
            rw [Function.update_self] at h2
            exact Or.inl ⟨l, k, h1, h2⟩
  exact key (tileList gh gw) [] (by simp)

/-! ### Joining -/

/-- The graph is symmetric. -/
def SG.Sym (g : SG E) : Prop := ∀ a b, g.m a b = g.m b a

/-- `g'` comes from `g` by noting spill elevations that satisfy `S`; all those in `C` are noted. -/
structure GJoined (S C : Nat → Nat → E → Prop) (g g' : SG E) : Prop where
  sym : g'.Sym
  size : g'.size = g.size
  ok : g.ok = true → g'.ok = true
  sound : ∀ a b v, g'.m a b = some v → g.m a b = some v ∨ S a b v ∨ S b a v
  keeps : ∀ a b v x, g.m a b = some v → v ≤ x → ∃ u, g'.m a b = some u ∧ u ≤ x
  has : ∀ a b v, C a b v → ∃ u, g'.m a b = some u ∧ u ≤ v

theorem GJoined.refl {S : Nat → Nat → E → Prop} {g : SG E} (hs : g.Sym) : GJoined S (fun _ _ _ => False) g g :=
  ⟨hs, rfl, fun h => h, fun _ _ _ h => Or.inl h, fun _ _ v _ h hx => ⟨v, h, hx⟩, fun _ _ _ h => h.elim⟩

theorem GJoined.trans {S C C' : Nat → Nat → E → Prop} {g g' g'' : SG E} (h1 : GJoined S C g g') (h2 : GJoined S C' g' g'') :
    GJoined S (fun a b v => C a b v ∨ C' a b v) g g'' := by
  refine ⟨h2.sym, h2.size.trans h1.size, fun h => h2.ok (h1.ok h), ?_, ?_, ?_⟩
  · intro a b v hv
    rcases h2.sound a b v hv with h | h
    · exact h1.sound a b v h
    · exact Or.inr h
  · intro a b v x hv hx
    obtain ⟨u, hu, hux⟩ := h1.keeps a b v x hv hx
    exact h2.keeps a b u x hu hux
  · rintro a b v (h | h)
    · obtain ⟨u, hu, hux⟩ := h1.has a b v h
      exact h2.keeps a b u v hu hux
    · exact h2.has a b v h

theorem GJoined.weaken {S C C' : Nat → Nat → E → Prop} {g g' : SG E} (h1 : GJoined S C g g')
    (hC : ∀ a b v, C' a b v → C a b v) : GJoined S C' g g' :=
  ⟨h1.sym, h1.size, h1.ok, h1.sound, h1.keeps, fun a b v h => h1.has a b v (hC a b v h)⟩

theorem join_joined {S : Nat → Nat → E → Prop} {g : SG E} (hs : g.Sym) {a b : Nat} {v : E} (hS : S a b v)
    (ha : a < g.size) (hb : b < g.size) : GJoined S (fun i j x => i = a ∧ j = b ∧ x = v) g (g.join a b v) := by
  unfold SG.join
  by_cases hl : lower (g.m a b) v = true
  · rw [if_pos hl]
    refine ⟨?_, rfl, fun h => by simp [SG.setBoth, h, ha, hb], ?_, ?_, ?_⟩
    · intro i j
      simp only [SG.setBoth]
      by_cases h1 : (i = b ∧ j = a) ∨ (i = a ∧ j = b)
      · rw [if_pos h1, if_pos (h1.symm.imp And.symm And.symm)]
      · rw [if_neg h1, if_neg (fun h => h1 (h.symm.imp And.symm And.symm)), hs]
    · intro i j u hu
      simp only [SG.setBoth] at hu
      split_ifs at hu with h1
      · obtain rfl := Option.some.inj hu
        rcases h1 with ⟨rfl, rfl⟩ | ⟨rfl, rfl⟩
        · exact Or.inr (Or.inr hS)
        · exact Or.inr (Or.inl hS)
      · exact Or.inl hu
    · intro i j u x hu hx
      simp only [SG.setBoth]
      by_cases h1 : (i = b ∧ j = a) ∨ (i = a ∧ j = b)
      · rw [if_pos h1]
        refine ⟨v, rfl, ?_⟩
        have : g.m a b = some u := by
          rcases h1 with ⟨rfl, rfl⟩ | ⟨rfl, rfl⟩
          · rw [hs]; exact hu
          · exact hu
        rw [this] at hl
        simp only [lower, decide_eq_true_eq] at hl
        exact hl.le.trans hx
      · rw [if_neg h1]; exact ⟨u, hu, hx⟩
    · rintro i j x ⟨rfl, rfl, rfl⟩
      exact ⟨x, by simp [SG.setBoth], le_rfl⟩
  · rw [if_neg hl]
    refine ⟨hs, rfl, fun h => by simp [h, ha], fun _ _ _ h => Or.inl h, fun _ _ u _ h hx => ⟨u, h, hx⟩, ?_⟩
    rintro i j x ⟨rfl, rfl, rfl⟩
    cases hg : g.m i j with
    | none => rw [hg] at hl; simp [lower] at hl
    | some u =>
      rw [hg] at hl
      simp only [lower, decide_eq_true_eq] at hl
      exact ⟨u, rfl, not_lt.1 hl⟩

/-- Folding operations of this kind. -/
theorem foldl_joined {A : Type*} {S : Nat → Nat → E → Prop} {f : SG E → A → SG E} {C : A → Nat → Nat → E → Prop}
    {N : Nat} (l : List A) (hf : ∀ g, g.Sym → g.size = N → ∀ x ∈ l, GJoined S (C x) g (f g x)) :
    ∀ g : SG E, g.Sym → g.size = N → GJoined S (fun a b v => ∃ x ∈ l, C x a b v) g (l.foldl f g) := by
  induction l with
  | nil =>
    intro g hg _
    exact (GJoined.refl hg).weaken (by rintro a b v ⟨x, hx, _⟩; simp at hx)
  | cons x l ih =>
    intro g hg hN
    have h1 := hf g hg hN x List.mem_cons_self
    have h2 := ih (fun g h1 h2 y hy => hf g h1 h2 y (List.mem_cons_of_mem _ hy)) (f g x) h1.sym (h1.size.trans hN)
    refine (h1.trans h2).weaken ?_
    rintro a b v ⟨y, hy, hc⟩
    rcases List.mem_cons.1 hy with rfl | hy
    · exact Or.inl hc
    · exact Or.inr ⟨y, hy, hc⟩

theorem mem_edgePairs {len i j : Nat} : (i, j) ∈ edgePairs len ↔ i < len ∧ j < len ∧ i ≤ j + 1 ∧ j ≤ i + 1 := by
  simp only [edgePairs, List.mem_flatMap, List.mem_range, List.mem_map, List.mem_filter, List.mem_cons,
    List.not_mem_nil, or_false, Prod.mk.injEq, Bool.not_eq_true', Bool.or_eq_false_iff, decide_eq_false_iff_not]
  constructor
  · rintro ⟨a, ha, n, ⟨h1, h2, h3⟩, rfl, rfl⟩
    omega
  · rintro ⟨h1, h2, h3, h4⟩
    exact ⟨i, h1, (j : Int), ⟨by omega, by omega, by omega⟩, rfl, by simp⟩

/-- `HandleEdge` compares all pairs of positions that differ by at most one. -/
theorem handleEdge_joined {S : Nat → Nat → E → Prop} {N : Nat} {a b : EdgeRow E} {oa ob : Nat}
    (hS : ∀ i j, i < a.len → j < a.len → i ≤ j + 1 → j ≤ i + 1 →
      S (ren oa (a.lbl i)) (ren ob (b.lbl j)) (max (a.elev i) (b.elev j)) ∧ ren oa (a.lbl i) < N ∧ ren ob (b.lbl j) < N)
    {g : SG E} (hg : g.Sym) (hN : g.size = N) :
    GJoined S (fun u v x => ∃ i j, i < a.len ∧ j < a.len ∧ i ≤ j + 1 ∧ j ≤ i + 1 ∧ u = ren oa (a.lbl i) ∧
      v = ren ob (b.lbl j) ∧ u ≠ v ∧ x = max (a.elev i) (b.elev j)) g (handleEdge a b oa ob g) := by
  unfold handleEdge
  refine (foldl_joined (S := S) (N := N) (C := fun p u v x => u = ren oa (a.lbl p.1) ∧ v = ren ob (b.lbl p.2) ∧ u ≠ v ∧
    x = max (a.elev p.1) (b.elev p.2)) (edgePairs a.len) ?_ g hg hN).weaken ?_
  · rintro g hg hN ⟨i, j⟩ hp
    obtain ⟨h1, h2, h3, h4⟩ := mem_edgePairs.1 hp
    obtain ⟨s1, s2, s3⟩ := hS i j h1 h2 h3 h4
    simp only
    by_cases hc : ren oa (a.lbl i) = ren ob (b.lbl j)
    · rw [if_pos hc]
      refine (GJoined.refl hg).weaken ?_
      rintro u v x ⟨rfl, rfl, h, _⟩
      exact h hc
    · rw [if_neg hc]
      refine (join_joined hg s1 (by omega) (by omega)).weaken ?_
      rintro u v x ⟨rfl, rfl, _, rfl⟩
      exact ⟨rfl, rfl, rfl⟩
  · rintro u v x ⟨i, j, h1, h2, h3, h4, h5, h6, h7, h8⟩
    exact ⟨(i, j), mem_edgePairs.2 ⟨h1, h2, h3, h4⟩, h5, h6, h7, h8⟩

theorem handleCorner_joined {S : Nat → Nat → E → Prop} {N : Nat} {ea eb : E} {la lb oa ob : Nat}
    (hS : S (ren oa la) (ren ob lb) (max ea eb) ∧ ren oa la < N ∧ ren ob lb < N)
    {g : SG E} (hg : g.Sym) (hN : g.size = N) :
    GJoined S (fun u v x => u = ren oa la ∧ v = ren ob lb ∧ x = max ea eb) g (handleCorner ea eb la lb oa ob g) :=
  join_joined hg hS.1 (by omega) (by omega)

/-- A conditional operation. -/
theorem ite_joined {S C : Nat → Nat → E → Prop} {P : Prop} [Decidable P] {g : SG E} {f : SG E} (hg : g.Sym)
    (hf : P → GJoined S C g f) : GJoined S (fun a b v => P ∧ C a b v) g (if P then f else g) := by
  by_cases hp : P
  · rw [if_pos hp]; exact (hf hp).weaken (fun _ _ _ h => h.2)
  · rw [if_neg hp]; exact (GJoined.refl hg).weaken (fun _ _ _ h => hp h.1)

end RichDEM
