/-
Model of `LastLayer`, depression_hierarchy.hpp:903-921.
-/
import Verif.DepHier.Main

namespace RichDEM

variable {E : Type} [LinearOrder E]

/-- `v >= out_elev`; `inf` is what `numeric_limits<elev_t>::infinity()` compares as (depression_hierarchy.hpp:75): `none` for floating-point
types, `some 0` for integers. -/
def reachesOut (inf : Option E) (v : E) : Option E → Bool
  | some z => decide (z ≤ v)
  | none => match inf with
    | none => false
    | some i => decide (i ≤ v)

/-- What `LastLayer` does to a cell. -/
inductive LLRes where
  /-- The new label. -/
  | label (l : Nat)
  /-- `depressions.at` throws. -/
  | throws
  /-- The loop has not ended. -/
  | running
deriving DecidableEq

/-- The label `-3`, as `dh_label_t` (`uint32_t`, depression_hierarchy.hpp:30). -/
def LAST_LAYER : Nat := 2 ^ 32 - 3

/-- depression_hierarchy.hpp:909-918: the loop for a cell of elevation `v` with label `l`; `n` is the number of depressions. -/
def lastLayerCell (inf : Option E) (n : Nat) (dep : Nat → Dep E) (v : E) : Nat → Nat → LLRes
  | 0, _ => .running
  | k + 1, l =>
    if n ≤ l then .throws
    else if reachesOut inf v (dep l).outElev = true then
      match (dep l).parent with
      | none => .throws
      | some p => lastLayerCell inf n dep v k p
    else if l ≠ 0 then .label LAST_LAYER
    else .label l

/-- depression_hierarchy.hpp:903-921 `LastLayer`, each cell for at most `fuel` rounds; a label `NO_DEP` makes `depressions.at` throw. -/
def lastLayer (inf : Option E) (H : Hier E) (dem : Cell → E) (label : Cell → Option Nat) (fuel : Nat) (c : Cell) : LLRes :=
  match label c with
  | none => .throws
  | some l => lastLayerCell inf H.n H.dep (dem c) fuel l

/-! ### Lemmas -/

/-- Where a depression overflows towards the ocean there is a way on to the ocean that is not higher. -/
def OceanWay (done : List (Outlet E)) (s : Hier E) : Prop :=
  ∀ x p z, (s.dep x).oceanParent = true → (s.dep x).parent = some p → (s.dep x).outElev = some z →
    Joined (done.filter (fun o => decide (o.elev ≤ z))) p 0

theorem OceanWay.mono {done : List (Outlet E)} {o : Outlet E} {s : Hier E} (h : OceanWay done s) : OceanWay (done ++ [o]) s := by
  intro x p z h1 h2 h3
  refine (h x p z h1 h2 h3).mono fun o' ho' => ?_
  obtain ⟨k1, k2⟩ := List.mem_filter.1 ho'
  exact List.mem_filter.2 ⟨by simp [k1], k2⟩

theorem linkOcean_way {n0 : Nat} {done rest : List (Outlet E)} {rep : Nat → Nat} {s : Hier E} {o : Outlet E}
    (I : HierInv n0 done (o :: rest) rep s) (h : OceanWay done s) {ra ob : Nat} (hob : ob < n0) (h0 : rep ob = 0) :
    OceanWay (done ++ [o]) (linkOcean s ra ob o) := by
  intro x p z h1 h2 h3
  have hne : ∀ y, y ≠ ra → ((linkOcean s ra ob o).dep y).oceanParent = (s.dep y).oceanParent ∧
      ((linkOcean s ra ob o).dep y).parent = (s.dep y).parent ∧ ((linkOcean s ra ob o).dep y).outElev = (s.dep y).outElev := by
    intro y hy
    unfold linkOcean
    by_cases e : y = ob
    · subst e; simp [upd, hy]
    · simp [upd, hy, e]
  by_cases e : x = ra
  · subst e
    have e1 : ((linkOcean s x ob o).dep x).parent = some ob ∧ ((linkOcean s x ob o).dep x).outElev = some o.elev := by
      unfold linkOcean
      by_cases e : x = ob
      · subst e; simp [upd]
      · simp [upd, e]
    rw [e1.1] at h2; rw [e1.2] at h3
    cases h2; cases h3
    refine (I.joined ob 0 hob (by have := I.pos; omega) (by rw [h0, I.rep0])).mono fun o' ho' => ?_
    exact List.mem_filter.2 ⟨by simp [ho'], by simpa using I.ord o' ho' o (by simp)⟩
  · obtain ⟨k1, k2, k3⟩ := hne x e
    rw [k1] at h1; rw [k2] at h2; rw [k3] at h3
    exact h.mono x p z h1 h2 h3

theorem mergeDeps_way {n0 : Nat} {done rest : List (Outlet E)} {rep : Nat → Nat} {s : Hier E} {o : Outlet E}
    (h : OceanWay done s) {ra rb : Nat} (hra : (s.dep ra).oceanParent = false)
    (hrb : (s.dep rb).oceanParent = false) : OceanWay (done ++ [o]) (mergeDeps s ra rb o) := by
  intro x p z h1 h2 h3
  unfold mergeDeps at h1 h2 h3
  by_cases e1 : x = s.n
  · subst e1; simp [upd, Dep.leaf] at h1
  · by_cases e2 : x = rb
    · subst e2
      by_cases e3 : x = ra
      · subst e3; simp [upd, e1, hrb] at h1
      · simp [upd, e1, e3, hrb] at h1
    · by_cases e3 : x = ra
      · subst e3; simp [upd, e1, e2, hra] at h1
      · simp [upd, e1, e2, e3] at h1 h2 h3
        exact h.mono x p z h1 h2 h3

theorem hierStep_way {n0 : Nat} {done rest : List (Outlet E)} {rep : Nat → Nat} {s s' : Hier E} {o : Outlet E}
    (I : HierInv n0 done (o :: rest) rep s) (h : OceanWay done s) (hs : hierStep s o = some s') : OceanWay (done ++ [o]) s' := by
  obtain ⟨d, F⟩ := I.forest
  obtain ⟨hoa, hob⟩ := I.labs o (.inr (by simp))
  have hle := I.le
  obtain ⟨d1, e1, F1, z1, _⟩ := F.findSet (n := o.a) (by rw [I.size]; omega)
  obtain ⟨d2, e2, F2, z2, _⟩ := F1.findSet (n := o.b) (by rw [z1, I.size]; omega)
  have J : HierInv n0 done (o :: rest) rep { s with ds := d2 } := I.setDs F2 (z2.trans z1)
  have hd : OceanWay done { s with ds := d2 } := h
  have hroot : ∀ l, l < s.n → rep l ≠ 0 → (s.dep (rep l)).oceanParent = false := by
    intro l hl h0
    have g1 := F.rep_lt l (by rw [I.size]; exact hl)
    have g2 := F.rep_self _ g1 (F.rep_root l (by rw [I.size]; exact hl))
    rw [I.size] at g1
    exact (I.unl _ ((I.root (rep l) g1 h0).1 g2)).2.2.2
  unfold hierStep at hs
  simp only [e1, e2] at hs
  by_cases hab : rep o.a = rep o.b
  · rw [if_pos hab] at hs
    cases hs
    exact hd.mono
  · rw [if_neg hab] at hs
    by_cases ha : rep o.a = 0
    · rw [if_pos ha] at hs
      split at hs
      · cases hs
      · cases hs; exact linkOcean_way J hd hoa ha
    · rw [if_neg ha] at hs
      by_cases hb : rep o.b = 0
      · rw [if_pos hb] at hs
        split at hs
        · cases hs
        · cases hs; exact linkOcean_way J hd hob hb
      · rw [if_neg hb] at hs
        split at hs
        · cases hs
        · cases hs
          exact mergeDeps_way (n0 := n0) (rest := rest) (rep := rep) hd (hroot o.a (by omega) ha) (hroot o.b (by omega) hb)

theorem buildFrom_way {n0 : Nat} (h32 : 2 * n0 < 2 ^ 32) :
    ∀ (os done : List (Outlet E)) (rep : Nat → Nat) (s s' : Hier E), HierInv n0 done os rep s → OceanWay done s →
      os.Pairwise (fun a b => a.elev ≤ b.elev) → os.foldlM hierStep s = some s' → OceanWay (done ++ os) s' := by
  intro os
  induction os with
  | nil =>
    intro done rep s s' _ h _ hs
    cases hs
    simpa using h
  | cons o os ih =>
    intro done rep s s' I h hp hs
    obtain ⟨hp1, hp2⟩ := List.pairwise_cons.1 hp
    obtain ⟨s1, rep1, e1, I1⟩ := hierStep_inv h32 I hp1
    rw [List.foldlM_cons, e1] at hs
    have := ih _ _ _ _ I1 (hierStep_way I h e1) hp2 hs
    simpa using this

theorem depHierarchy_way {n0 : Nat} (h32 : 2 * n0 < 2 ^ 32) (hn : 1 ≤ n0) (pit : Nat → Option Cell) (os : List (Outlet E))
    (hos : ∀ o ∈ os, o.a < n0 ∧ o.b < n0) (hp : os.Pairwise (fun a b => a.elev ≤ b.elev)) {H : Hier E}
    (hH : buildHier n0 pit os = some H) : OceanWay os H := by
  have := buildFrom_way h32 os [] id (hierInit n0 pit) H (hierInit_inv n0 hn pit os hos)
    (by intro x p z h1; simp [hierInit, Dep.leaf] at h1) hp hH
  simpa using this

/-- Cutting a chain of outlets. -/
theorem joined_cut {os : List (Outlet E)} {S : Nat → Prop} {a b : Nat} (j : Joined os a b) (h : ¬(S a ↔ S b)) :
    ∃ o ∈ os, ¬(S o.a ↔ S o.b) := by
  induction j with
  | refl => exact absurd Iff.rfl h
  | symm _ ih => exact ih (fun e => h e.symm)
  | @trans a b c _ _ i1 i2 =>
    by_cases e1 : S a ↔ S b
    · exact i2 (fun e2 => h (e1.trans e2))
    · exact i1 e1
  | out ho => exact ⟨_, ho, h⟩

variable {n0 : Nat} {os : List (Outlet E)} {rep : Nat → Nat} {H : Hier E}

/-- Spill elevations on the way from a neighbour that leads to the ocean. -/
theorem way_elev (J : HierInv n0 os [] rep H) {z : E} {p : Nat} (hj : Joined (os.filter (fun o => decide (o.elev ≤ z))) p 0) {y : Nat}
    (hy : Anc H.dep p y) (h0 : y ≠ 0) {zy : E} (hz : (H.dep y).outElev = some zy) : zy ≤ z := by
  obtain ⟨o, ho, hx⟩ := joined_cut (S := fun l => Anc H.dep l y) hj (by
    intro e
    exact h0 (anc_zero J (e.1 hy)))
  obtain ⟨k1, k2⟩ := List.mem_filter.1 ho
  have k2 : o.elev ≤ z := by simpa using k2
  refine ((J.cut y zy hz).1 o (Or.inl k1) ?_).trans k2
  unfold Crosses
  by_cases e : Anc H.dep o.a y
  · exact Or.inl ⟨e, fun e2 => hx ⟨fun _ => e2, fun _ => e⟩⟩
  · by_cases e2 : Anc H.dep o.b y
    · exact Or.inr ⟨e2, e⟩
    · exact absurd ⟨fun g => absurd g e, fun g => absurd g e2⟩ hx

/-- Every depression on the chain of parents that starts at `x` spills at most at `v`. -/
theorem chain_low (J : HierInv n0 os [] rep H) (hw : OceanWay os H) {v : E} {x y : Nat} (hc : AncU (fun y => (H.dep y).parent) x y)
    (hx : ∀ a za, Anc H.dep x a → a ≠ 0 → (H.dep a).outElev = some za → za ≤ v) :
    ∀ zy, y ≠ 0 → (H.dep y).outElev = some zy → zy ≤ v := by
  induction hc with
  | refl l => intro zy h0 hz; exact hx l zy (.refl _) h0 hz
  | @step l p x hp _ ih =>
    refine ih fun a za ha h0 hz => ?_
    have hp : (H.dep l).parent = some p := hp
    cases ho : (H.dep l).oceanParent with
    | false =>
      have hu : upOf H.dep l = some p := by unfold upOf; simp [ho, hp]
      exact hx a za (.step hu ha) h0 hz
    | true =>
      obtain ⟨z, hz'⟩ := J.elevs l p hp
      have hl0 : l ≠ 0 := by rintro rfl; rw [J.ocean0] at hp; cases hp
      exact (way_elev J (hw l p z ho hp hz') ha h0 hz).trans (hx l z (.refl _) hl0 hz')

/-- A chain of parents to the ocean on which every spill elevation is reached gives label 0. -/
theorem lastLayer_zero (J : HierInv n0 os [] rep H) {v : E} {x : Nat} (hc : AncU (fun y => (H.dep y).parent) x 0)
    (hlt : ∀ y, AncU (fun y => (H.dep y).parent) x y → y < H.n)
    (hx : ∀ y zy, AncU (fun y => (H.dep y).parent) x y → y ≠ 0 → (H.dep y).outElev = some zy → zy ≤ v) :
    ∃ k, ∀ f, k ≤ f → lastLayerCell none H.n H.dep v f x = .label 0 := by
  generalize hy : (0 : Nat) = y at hc
  induction hc with
  | refl l =>
    subst hy
    refine ⟨1, fun f hf => ?_⟩
    obtain ⟨f, rfl⟩ : ∃ g, f = g + 1 := ⟨f - 1, by omega⟩
    have h1 := hlt 0 (.refl _)
    have h2 : (H.dep 0).outElev = none := (J.unl 0 J.ocean0).2.2.1
    simp [lastLayerCell, h2, reachesOut]; omega
  | @step l p x hp hpx ih =>
    subst hy
    obtain ⟨k, hk⟩ := ih (fun y hy => hlt y (.step hp hy)) (fun y zy hy => hx y zy (.step hp hy)) rfl
    refine ⟨k + 1, fun f hf => ?_⟩
    obtain ⟨f, rfl⟩ : ∃ g, f = g + 1 := ⟨f - 1, by omega⟩
    have hp : (H.dep l).parent = some p := hp
    obtain ⟨z, hz⟩ := J.elevs l p hp
    have hl0 : l ≠ 0 := by rintro rfl; rw [J.ocean0] at hp; cases hp
    have h1 := hlt l (.refl _)
    have h2 := hx l z (.refl _) hl0 hz
    rw [lastLayerCell, if_neg (by omega), hz, if_pos (by simpa [reachesOut] using h2), hp]
    exact hk f (by omega)

/-- If a depression around the cell spills above the cell, the cell is marked. -/
theorem lastLayer_mark (J : HierInv n0 os [] rep H) {v : E} {x y : Nat} {zy : E} (ha : Anc H.dep x y) (h0 : y ≠ 0)
    (hz : (H.dep y).outElev = some zy) (hv : v < zy) (hlt : ∀ a, Anc H.dep x a → a < H.n) (hx0 : x ≠ 0) :
    ∃ k, ∀ f, k ≤ f → lastLayerCell none H.n H.dep v f x = .label LAST_LAYER := by
  induction ha with
  | refl l =>
    refine ⟨1, fun f hf => ?_⟩
    obtain ⟨f, rfl⟩ : ∃ g, f = g + 1 := ⟨f - 1, by omega⟩
    have h1 := hlt l (.refl _)
    rw [lastLayerCell, if_neg (by omega), hz, if_neg (by simpa [reachesOut] using hv), if_pos h0]
  | @step l p x hp hpx ih =>
    have hup := J.up l p hp
    obtain ⟨k, hk⟩ := ih h0 hz (fun a ha => hlt a (.step hp ha)) (by omega)
    refine ⟨k + 1, fun f hf => ?_⟩
    obtain ⟨f, rfl⟩ : ∃ g, f = g + 1 := ⟨f - 1, by omega⟩
    have hpar : (H.dep l).parent = some p := by
      unfold upOf at hp
      split at hp
      · cases hp
      · exact hp
    obtain ⟨z, hz'⟩ := J.elevs l p hpar
    have h1 := hlt l (.refl _)
    rw [lastLayerCell, if_neg (by omega), hz']
    by_cases g : reachesOut none v (some z) = true
    · rw [if_pos g, hpar]
      exact hk f (by omega)
    · rw [if_neg g, if_pos hx0]

end RichDEM
