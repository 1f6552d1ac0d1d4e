/-
Where a depression overflows towards the ocean, depression_hierarchy.hpp:617-670: the neighbour it is
linked to lies across its lowest outlet.
-/
import Verif.DepHier.LastLayer

namespace RichDEM

variable {E : Type} [LinearOrder E]

/-- A depression linked to the ocean through `p` has its outlet between one of its leaves and `p`. -/
def OceanPass (done : List (Outlet E)) (s : Hier E) : Prop :=
  ∀ x p, (s.dep x).oceanParent = true → (s.dep x).parent = some p →
    ∃ o ∈ done, ((Anc s.dep o.a x ∧ o.b = p) ∨ (Anc s.dep o.b x ∧ o.a = p)) ∧ (s.dep x).outElev = some o.elev

theorem OceanPass.step {done : List (Outlet E)} {o : Outlet E} {s s' : Hier E} (h : OceanPass done s)
    (hup : ∀ l p, upOf s.dep l = some p → upOf s'.dep l = some p)
    (hnew : ∀ x p, (s'.dep x).oceanParent = true → (s'.dep x).parent = some p →
      ((s.dep x).oceanParent = true ∧ (s.dep x).parent = some p ∧ (s'.dep x).outElev = (s.dep x).outElev) ∨
      (((Anc s.dep o.a x ∧ o.b = p) ∨ (Anc s.dep o.b x ∧ o.a = p)) ∧ (s'.dep x).outElev = some o.elev)) :
    OceanPass (done ++ [o]) s' := by
  have hanc : ∀ l x, Anc s.dep l x → Anc s'.dep l x := fun l x ha => AncU.mono hup ha
  intro x p h1 h2
  rcases hnew x p h1 h2 with ⟨k1, k2, k3⟩ | ⟨k1, k2⟩
  · obtain ⟨o', m1, m2, m3⟩ := h x p k1 k2
    refine ⟨o', by simp [m1], ?_, k3.trans m3⟩
    exact m2.imp (fun q => ⟨hanc _ _ q.1, q.2⟩) (fun q => ⟨hanc _ _ q.1, q.2⟩)
  · exact ⟨o, by simp, k1.imp (fun q => ⟨hanc _ _ q.1, q.2⟩) (fun q => ⟨hanc _ _ q.1, q.2⟩), k2⟩

theorem linkOcean_pass {done : List (Outlet E)} {s : Hier E} {o : Outlet E} (h : OceanPass done s) {ra ob : Nat}
    (hra : (s.dep ra).parent = none)
    (ho : (Anc s.dep o.a ra ∧ o.b = ob) ∨ (Anc s.dep o.b ra ∧ o.a = ob)) :
    OceanPass (done ++ [o]) (linkOcean s ra ob o) := by
  have hne : ∀ y, y ≠ ra → ((linkOcean s ra ob o).dep y).oceanParent = (s.dep y).oceanParent ∧
      ((linkOcean s ra ob o).dep y).parent = (s.dep y).parent ∧ ((linkOcean s ra ob o).dep y).outElev = (s.dep y).outElev := by
    intro y hy
    unfold linkOcean
    by_cases e : y = ob
    · subst e; simp [upd, hy]
    · simp [upd, hy, e]
  refine h.step (fun l p hl => ?_) (fun x p h1 h2 => ?_)
  · have hl' : l ≠ ra := by
      rintro rfl
      unfold upOf at hl
      rw [hra] at hl
      split at hl <;> cases hl
    obtain ⟨k1, k2, _⟩ := hne l hl'
    unfold upOf at hl ⊢
    rw [k1, k2]; exact hl
  · by_cases e : x = ra
    · subst e
      have e1 : ((linkOcean s x ob o).dep x).parent = some ob ∧ ((linkOcean s x ob o).dep x).outElev = some o.elev := by
        unfold linkOcean
        by_cases e : x = ob
        · subst e; simp [upd]
        · simp [upd, e]
      rw [e1.1] at h2
      cases h2
      exact Or.inr ⟨ho, e1.2⟩
    · obtain ⟨k1, k2, k3⟩ := hne x e
      exact Or.inl ⟨k1 ▸ h1, k2 ▸ h2, k3⟩

theorem mergeDeps_pass {done : List (Outlet E)} {s : Hier E} {o : Outlet E} (h : OceanPass done s) {ra rb : Nat}
    (hra : (s.dep ra).oceanParent = false ∧ (s.dep ra).parent = none)
    (hrb : (s.dep rb).oceanParent = false ∧ (s.dep rb).parent = none) (hn : ∀ p, upOf s.dep s.n ≠ some p) :
    OceanPass (done ++ [o]) (mergeDeps s ra rb o) := by
  refine h.step (fun l p hl => ?_) (fun x p h1 h2 => ?_)
  · have h1 : l ≠ s.n := by rintro rfl; exact hn p hl
    have h2 : l ≠ ra := by
      rintro rfl; unfold upOf at hl; rw [hra.2] at hl; split at hl <;> cases hl
    have h3 : l ≠ rb := by
      rintro rfl; unfold upOf at hl; rw [hrb.2] at hl; split at hl <;> cases hl
    unfold upOf at hl ⊢
    unfold mergeDeps
    simpa [upd, h1, h2, h3] using hl
  · left
    unfold mergeDeps at h1 h2 ⊢
    by_cases e1 : x = s.n
    · subst e1; simp [upd, Dep.leaf] at h1
    · by_cases e2 : x = rb
      · subst e2
        by_cases e3 : x = ra
        · subst e3; simp [upd, e1, hrb.1] at h1
        · simp [upd, e1, e3, hrb.1] at h1
      · by_cases e3 : x = ra
        · subst e3; simp [upd, e1, e2, hra.1] at h1
        · simp [upd, e1, e2, e3] at h1 h2 ⊢
          exact ⟨h1, h2⟩

theorem hierStep_pass {n0 : Nat} {done rest : List (Outlet E)} {rep : Nat → Nat} {s s' : Hier E} {o : Outlet E}
    (I : HierInv n0 done (o :: rest) rep s) (h : OceanPass done s) (hs : hierStep s o = some s') : OceanPass (done ++ [o]) s' := by
  obtain ⟨d, F⟩ := I.forest
  obtain ⟨hoa, hob⟩ := I.labs o (.inr (by simp))
  have hle := I.le
  obtain ⟨d1, e1, F1, z1, _⟩ := F.findSet (n := o.a) (by rw [I.size]; omega)
  obtain ⟨d2, e2, F2, z2, _⟩ := F1.findSet (n := o.b) (by rw [z1, I.size]; omega)
  have hd : OceanPass done { s with ds := d2 } := h
  have hroot : ∀ l, l < n0 → rep l ≠ 0 → ((s.dep (rep l)).oceanParent = false ∧ (s.dep (rep l)).parent = none) ∧
      Anc s.dep l (rep l) := by
    intro l hl h0
    have g1 := F.rep_lt l (by rw [I.size]; omega)
    have g2 := F.rep_self _ g1 (F.rep_root l (by rw [I.size]; omega))
    rw [I.size] at g1
    have g3 := (I.root (rep l) g1 h0).1 g2
    exact ⟨⟨(I.unl _ g3).2.2.2, g3⟩, (I.anc l (rep l) hl g1 g2 h0).2 rfl⟩
  unfold hierStep at hs
  simp only [e1, e2] at hs
  by_cases hab : rep o.a = rep o.b
  · rw [if_pos hab] at hs
    cases hs
    exact h.step (fun _ _ hl => hl) (fun x p h1 h2 => Or.inl ⟨h1, h2, rfl⟩)
  · rw [if_neg hab] at hs
    by_cases ha : rep o.a = 0
    · rw [if_pos ha] at hs
      have hb : rep o.b ≠ 0 := fun e => hab (ha.trans e.symm)
      split at hs
      · cases hs
      · cases hs
        exact linkOcean_pass hd (hroot o.b hob hb).1.2 (Or.inr ⟨(hroot o.b hob hb).2, rfl⟩)
    · rw [if_neg ha] at hs
      by_cases hb : rep o.b = 0
      · rw [if_pos hb] at hs
        split at hs
        · cases hs
        · cases hs
          exact linkOcean_pass hd (hroot o.a hoa ha).1.2 (Or.inl ⟨(hroot o.a hoa ha).2, rfl⟩)
      · rw [if_neg hb] at hs
        split at hs
        · cases hs
        · cases hs
          exact mergeDeps_pass hd (hroot o.a hoa ha).1 (hroot o.b hob hb).1 (fun p hp => by
            have := I.up s.n p hp; omega)

theorem buildFrom_pass {n0 : Nat} (h32 : 2 * n0 < 2 ^ 32) :
    ∀ (os done : List (Outlet E)) (rep : Nat → Nat) (s s' : Hier E), HierInv n0 done os rep s → OceanPass done s →
      os.Pairwise (fun a b => a.elev ≤ b.elev) → os.foldlM hierStep s = some s' → OceanPass (done ++ os) s' := by
  intro os
  induction os with
  | nil =>
    intro done rep s s' _ h _ hs
    cases hs
    simpa using h
  | cons o os ih =>
    intro done rep s s' I h hp hs
    obtain ⟨hp1, hp2⟩ := List.pairwise_cons.1 hp
    obtain ⟨s1, rep1, e1, I1⟩ := hierStep_inv h32 I hp1
    rw [List.foldlM_cons, e1] at hs
    have := ih _ _ _ _ I1 (hierStep_pass I h e1) hp2 hs
    simpa using this

theorem depHierarchy_pass {n0 : Nat} (h32 : 2 * n0 < 2 ^ 32) (hn : 1 ≤ n0) (pit : Nat → Option Cell) (os : List (Outlet E))
    (hos : ∀ o ∈ os, o.a < n0 ∧ o.b < n0) (hp : os.Pairwise (fun a b => a.elev ≤ b.elev)) {H : Hier E}
    (hH : buildHier n0 pit os = some H) : OceanPass os H := by
  have := buildFrom_pass h32 os [] id (hierInit n0 pit) H (hierInit_inv n0 hn pit os hos)
    (by intro x p h1; simp [hierInit, Dep.leaf] at h1) hp hH
  simpa using this

/-- From a place whose way up ends at 0 no way leads back to it. -/
theorem AncU.no_cycle {up : Nat → Option Nat} (h0 : up 0 = none) {x p : Nat} (hx : up x = some p)
    (h1 : AncU up x 0) (h2 : AncU up p x) : False := by
  -- the set of places from which `x` is reached, among those reached from `x`, has no end
  have step : ∀ y, AncU up y x → ∃ q, up y = some q ∧ AncU up q x := by
    intro y hy
    cases hy with
    | refl => exact ⟨p, hx, h2⟩
    | step h k => exact ⟨_, h, k⟩
  have : ∀ y, AncU up y 0 → AncU up y x → False := by
    intro y hy
    generalize hz : 0 = z at hy
    induction hy with
    | refl l =>
      intro hk
      subst hz
      obtain ⟨q, hq, _⟩ := step 0 hk
      rw [h0] at hq; cases hq
    | step h _ ih =>
      intro hk
      obtain ⟨q, hq, hq2⟩ := step _ hk
      rw [h] at hq; cases hq
      exact ih hz hq2
  exact this x h1 (.refl x)

end RichDEM
