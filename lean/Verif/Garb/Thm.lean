/-
Lemmas about the model of garbrecht.hpp: the increments are distances.
-/
import Verif.Garb.Model

namespace RichDEM

/-- A cell from which `k` steps of `r` lead to a cell of `Z`. -/
inductive StepsTo (r : Cell → Cell → Prop) (Z : Cell → Prop) : Nat → Cell → Prop
  | zero {c : Cell} : Z c → StepsTo r Z 0 c
  | step {k : Nat} {c b : Cell} : r c b → StepsTo r Z k b → StepsTo r Z (k + 1) c

/-- `k` is the smallest such number. -/
def StepDist (r : Cell → Cell → Prop) (Z : Cell → Prop) (k : Nat) (c : Cell) : Prop :=
  StepsTo r Z k c ∧ ∀ j < k, ¬StepsTo r Z j c

theorem stepsTo_zero {r : Cell → Cell → Prop} {Z : Cell → Prop} {c : Cell} : StepsTo r Z 0 c ↔ Z c :=
  ⟨fun h => by cases h; assumption, .zero⟩

theorem stepsTo_succ {r : Cell → Cell → Prop} {Z : Cell → Prop} {k : Nat} {c : Cell} :
    StepsTo r Z (k + 1) c ↔ ∃ b, r c b ∧ StepsTo r Z k b :=
  ⟨fun h => by cases h with | step h1 h2 => exact ⟨_, h1, h2⟩, fun ⟨_, h1, h2⟩ => .step h1 h2⟩

theorem stepDist_exists {r : Cell → Cell → Prop} {Z : Cell → Prop} {c : Cell} (h : ∃ k, StepsTo r Z k c) : ∃ k, StepDist r Z k c := by
  classical
  exact ⟨Nat.find h, Nat.find_spec h, fun j hj => Nat.find_min h hj⟩

theorem stepDist_unique {r : Cell → Cell → Prop} {Z : Cell → Prop} {c : Cell} {j k : Nat} (h1 : StepDist r Z j c) (h2 : StepDist r Z k c) :
    j = k := by
  rcases Nat.lt_trichotomy j k with g | g | g
  · exact absurd h1.1 (h2.2 j g)
  · exact g
  · exact absurd h2.1 (h1.2 k g)

section
variable {E : Type*} [LinearOrder E] {w h : Nat} {dem : Cell → E} {fd : Cell → Nat} {ndf : Nat}

theorem mem_garbFlats {c : Cell} : c ∈ garbFlats w h fd ↔ InGrid w h c ∧ fd c = 0 := by
  obtain ⟨x, y⟩ := c
  simp only [garbFlats, List.mem_filter, List.mem_flatMap, List.mem_map, List.mem_range, Prod.mk.injEq, beq_iff_eq, InGrid]
  refine and_congr_left fun _ => ?_
  constructor
  · rintro ⟨a, ha, b, hb, rfl, rfl⟩
    omega
  · rintro ⟨h1, h2, h3, h4⟩
    exact ⟨x.toNat, by omega, y.toNat, by omega, by omega, by omega⟩

theorem nodup_garbFlats : (garbFlats w h fd).Nodup := by
  refine List.Nodup.filter _ ?_
  rw [List.nodup_flatMap]
  constructor
  · intro x _
    refine List.Nodup.map ?_ List.nodup_range
    intro a b hab
    simpa using hab
  · refine List.Pairwise.imp_of_mem ?_ (List.nodup_range (n := w))
    intro a b _ _ hab
    rw [Function.onFun, List.disjoint_left]
    intro c h1 h2
    simp only [List.mem_map, List.mem_range] at h1 h2
    obtain ⟨_, _, rfl⟩ := h1
    obtain ⟨_, _, h3⟩ := h2
    simp only [Prod.mk.injEq] at h3
    omega

/-! ### Towards lower terrain -/

/-- Where the first gradient starts: cells that are not flat, and flat cells with a lower neighbour that has a direction. -/
def GarbExit (w h : Nat) (dem : Cell → E) (fd : Cell → Nat) (ndf : Nat) (c : Cell) : Prop :=
  (InGrid w h c → fd c ≠ 0) ∨ ∃ b, Adj .D8 c b ∧ dem b < dem c ∧ fd b ≠ 0 ∧ fd b ≠ ndf

/-- A step to an adjacent cell of the same elevation. -/
def LevelStep (dem : Cell → E) (a b : Cell) : Prop := Adj .D8 a b ∧ dem b = dem a

/-- Values after `L` rounds. -/
def G1Val (w h : Nat) (dem : Cell → E) (fd : Cell → Nat) (ndf L : Nat) (c : Cell) (v : Nat) : Prop :=
  v ≤ L ∧ (∀ j < v, ¬StepsTo (LevelStep dem) (GarbExit w h dem fd ndf) j c) ∧
    (v < L → StepsTo (LevelStep dem) (GarbExit w h dem fd ndf) v c)

/-- Before the next round is over cells have one of the two values. -/
def G1Mid (w h : Nat) (dem : Cell → E) (fd : Cell → Nat) (ndf L : Nat) (c : Cell) (v : Nat) : Prop :=
  G1Val w h dem fd ndf L c v ∨ G1Val w h dem fd ndf (L + 1) c v

theorem G1Mid.lt_iff {L v : Nat} {c : Cell} (hv : G1Mid w h dem fd ndf L c v) :
    v < L ↔ ∃ j < L, StepsTo (LevelStep dem) (GarbExit w h dem fd ndf) j c := by
  constructor
  · intro hl
    rcases hv with hv | hv
    · exact ⟨v, hl, hv.2.2 hl⟩
    · exact ⟨v, hl, hv.2.2 (by omega)⟩
  · rintro ⟨j, hj, hn⟩
    by_contra hc
    rcases hv with hv | hv
    · exact hv.2.1 j (by omega) hn
    · exact hv.2.1 j (by omega) hn

theorem g1_any {inc : Cell → Nat} {L : Nat} (hi : ∀ b, G1Mid w h dem fd ndf L b (inc b)) {c : Cell} (hc : InGrid w h c) (h0 : fd c = 0) :
    (dirs .D8).any (fun n => g1Stop dem fd ndf inc L c (nbr .D8 c n)) = true ↔
      ∃ j ≤ L, StepsTo (LevelStep dem) (GarbExit w h dem fd ndf) j c := by
  simp only [List.any_eq_true, g1Stop, Bool.or_eq_true, Bool.and_eq_true, decide_eq_true_eq, bne_iff_ne, ne_eq]
  constructor
  · rintro ⟨n, hn, ⟨⟨h1, h2⟩, h3⟩ | ⟨h1, h2⟩⟩
    · exact ⟨0, by omega, .zero (Or.inr ⟨_, nbr_adj hn, h1, h2, h3⟩)⟩
    · obtain ⟨j, hj, hs⟩ := ((hi _).lt_iff).1 h1
      exact ⟨j + 1, by omega, .step ⟨nbr_adj hn, h2⟩ hs⟩
  · rintro ⟨j, hj, hs⟩
    cases hs with
    | zero hz =>
      rcases hz with hz | ⟨b, hb, h1, h2, h3⟩
      · exact absurd h0 (hz hc)
      · obtain ⟨n, hn, rfl⟩ := adj_iff_nbr.1 hb
        exact ⟨n, hn, Or.inl ⟨⟨h1, h2⟩, h3⟩⟩
    | @step k _ b hr hs =>
      obtain ⟨n, hn, rfl⟩ := adj_iff_nbr.1 hr.1
      exact ⟨n, hn, Or.inr ⟨((hi _).lt_iff).2 ⟨k, by omega, hs⟩, hr.2⟩⟩

theorem g1_next {L v : Nat} {c : Cell} (hv : G1Val w h dem fd ndf L c v) (d : Prop) [Decidable d]
    (hd : d ↔ ∃ j ≤ L, StepsTo (LevelStep dem) (GarbExit w h dem fd ndf) j c) :
    G1Val w h dem fd ndf (L + 1) c (if d then v else v + 1) := by
  obtain ⟨h1, h2, h3⟩ := hv
  by_cases g : d
  · rw [if_pos g]
    refine ⟨by omega, h2, fun hlt => ?_⟩
    by_cases e : v < L
    · exact h3 e
    · obtain ⟨j, hj, hs⟩ := hd.1 g
      by_cases e2 : j < v
      · exact absurd hs (h2 j e2)
      · have : j = v := by omega
        exact this ▸ hs
  · rw [if_neg g]
    have hn : ∀ j ≤ L, ¬StepsTo (LevelStep dem) (GarbExit w h dem fd ndf) j c := fun j hj hs => g (hd.2 ⟨j, hj, hs⟩)
    have : v = L := by
      by_contra hne
      exact hn v h1 (h3 (by omega))
    refine ⟨by omega, fun j hj => hn j (by omega), fun hlt => by omega⟩

/-- One round: every flat cell goes to the next value, and the count is zero exactly if nothing changed. -/
theorem g1_round {L : Nat} (flats : List Cell) (hnd : flats.Nodup) (hfl : ∀ c ∈ flats, InGrid w h c ∧ fd c = 0) :
    ∀ (inc : Cell → Nat) (k : Nat), (∀ c ∈ flats, G1Val w h dem fd ndf L c (inc c)) → (∀ b, G1Mid w h dem fd ndf L b (inc b)) →
      let r := flats.foldl (g1Cell dem fd ndf L) (inc, k)
      (∀ c ∈ flats, G1Val w h dem fd ndf (L + 1) c (r.1 c)) ∧ (∀ c ∉ flats, r.1 c = inc c) ∧ k ≤ r.2 ∧
        (r.2 = k ↔ ∀ c ∈ flats, ∃ j ≤ L, StepsTo (LevelStep dem) (GarbExit w h dem fd ndf) j c) := by
  induction flats with
  | nil => intro inc k _ _; simp
  | cons c l ih =>
    intro inc k hv hm
    obtain ⟨hc, h0⟩ := hfl c (by simp)
    have hcl : c ∉ l := (List.nodup_cons.1 hnd).1
    have hany := g1_any hm hc h0
    have hnext := g1_next (hv c (by simp)) _ hany
    simp only [List.foldl_cons]
    by_cases g : (dirs .D8).any (fun n => g1Stop dem fd ndf inc L c (nbr .D8 c n)) = true
    · rw [if_pos g] at hnext
      have es : g1Cell dem fd ndf L (inc, k) c = (inc, k) := by rw [g1Cell, if_pos g]
      rw [es]
      obtain ⟨r1, r2, r3, r4⟩ := ih (List.nodup_cons.1 hnd).2 (fun b hb => hfl b (by simp [hb])) inc k (fun b hb => hv b (by simp [hb])) hm
      refine ⟨?_, fun b hb => r2 b (by simp at hb; tauto), r3, ?_⟩
      · intro b hb
        rcases List.mem_cons.1 hb with rfl | hb
        · rw [r2 b hcl]; exact hnext
        · exact r1 b hb
      · rw [r4]
        simp only [List.mem_cons, forall_eq_or_imp]
        exact ⟨fun x => ⟨hany.1 g, x⟩, fun x => x.2⟩
    · rw [if_neg g] at hnext
      have es : g1Cell dem fd ndf L (inc, k) c = (Function.update inc c (inc c + 1), k + 1) := by rw [g1Cell, if_neg g]
      rw [es]
      obtain ⟨r1, r2, r3, r4⟩ := ih (List.nodup_cons.1 hnd).2 (fun b hb => hfl b (by simp [hb])) (Function.update inc c (inc c + 1)) (k + 1)
        (fun b hb => by
          rw [Function.update_of_ne (show b ≠ c from fun e => hcl (e ▸ hb))]
          exact hv b (by simp [hb]))
        (fun b => by
          by_cases e : b = c
          · subst e; rw [Function.update_self]; exact Or.inr hnext
          · rw [Function.update_of_ne e]; exact hm b)
      refine ⟨?_, ?_, by omega, ?_⟩
      · intro b hb
        rcases List.mem_cons.1 hb with rfl | hb
        · rw [r2 b hcl, Function.update_self]; exact hnext
        · exact r1 b hb
      · intro b hb
        simp only [List.mem_cons, not_or] at hb
        rw [r2 b hb.2, Function.update_of_ne hb.1]
      · simp only [List.mem_cons, forall_eq_or_imp]
        constructor
        · intro e; omega
        · rintro ⟨x, -⟩
          exact absurd (hany.2 x) g

/-- State before round `L`. -/
structure G1Inv (w h : Nat) (dem : Cell → E) (fd : Cell → Nat) (ndf L : Nat) (inc : Cell → Nat) : Prop where
  val : ∀ c ∈ garbFlats w h fd, G1Val w h dem fd ndf L c (inc c)
  off : ∀ c ∉ garbFlats w h fd, inc c = 0

theorem g1_step {L : Nat} {inc : Cell → Nat} (I : G1Inv w h dem fd ndf L inc) :
    G1Inv w h dem fd ndf (L + 1) (g1Round dem fd ndf L (garbFlats w h fd) inc).1 ∧
    ((g1Round dem fd ndf L (garbFlats w h fd) inc).2 = 0 ↔
      ∀ c ∈ garbFlats w h fd, ∃ j ≤ L, StepsTo (LevelStep dem) (GarbExit w h dem fd ndf) j c) := by
  have hm : ∀ b, G1Mid w h dem fd ndf L b (inc b) := by
    intro b
    by_cases g : b ∈ garbFlats w h fd
    · exact Or.inl (I.val b g)
    · rw [I.off b g]
      exact Or.inl ⟨by omega, fun j hj => by omega, fun _ => .zero (Or.inl fun hb h0 => g (mem_garbFlats.2 ⟨hb, h0⟩))⟩
  obtain ⟨r1, r2, -, r4⟩ := g1_round (garbFlats w h fd) nodup_garbFlats (fun c hc => mem_garbFlats.1 hc) inc 0 I.val hm
  exact ⟨⟨r1, fun c hc => by rw [g1Round, r2 c hc]; exact I.off c hc⟩, r4⟩

/-- What the loop returns, if it returns. -/
theorem g1_result : ∀ (fuel L : Nat) (inc r : Cell → Nat), G1Inv w h dem fd ndf L inc →
    g1Loop dem fd ndf (garbFlats w h fd) fuel L inc = some r →
    (∀ c ∈ garbFlats w h fd, StepDist (LevelStep dem) (GarbExit w h dem fd ndf) (r c) c) ∧ ∀ c ∉ garbFlats w h fd, r c = 0 := by
  intro fuel
  induction fuel with
  | zero => intro L inc r _ hr; simp [g1Loop] at hr
  | succ n ih =>
    intro L inc r I hr
    obtain ⟨I', hz⟩ := g1_step I
    rw [g1Loop] at hr
    by_cases g : (g1Round dem fd ndf L (garbFlats w h fd) inc).2 = 0
    · simp only [g, if_true, Option.some.injEq] at hr
      subst hr
      refine ⟨fun c hc => ?_, I'.off⟩
      obtain ⟨h1, h2, h3⟩ := I'.val c hc
      obtain ⟨j, hj, hs⟩ := hz.1 g c hc
      have : ¬ j < (g1Round dem fd ndf L (garbFlats w h fd) inc).1 c := fun e => h2 j e hs
      exact ⟨h3 (by omega), h2⟩
    · simp only [g, if_false] at hr
      exact ih _ _ r I' hr

theorem g1_ends {K : Nat} (hK : ∀ c ∈ garbFlats w h fd, ∃ j ≤ K, StepsTo (LevelStep dem) (GarbExit w h dem fd ndf) j c) :
    ∀ (m L : Nat) (inc : Cell → Nat), K ≤ L + m → G1Inv w h dem fd ndf L inc →
      ∃ r, g1Loop dem fd ndf (garbFlats w h fd) (m + 1) L inc = some r := by
  intro m
  induction m with
  | zero =>
    intro L inc hL I
    have := (g1_step I).2.2 (fun c hc => by
      obtain ⟨j, hj, hs⟩ := hK c hc
      exact ⟨j, by omega, hs⟩)
    exact ⟨(g1Round dem fd ndf L (garbFlats w h fd) inc).1, by rw [g1Loop]; simp only [this, if_true]⟩
  | succ n ih =>
    intro L inc hL I
    by_cases g : (g1Round dem fd ndf L (garbFlats w h fd) inc).2 = 0
    · exact ⟨(g1Round dem fd ndf L (garbFlats w h fd) inc).1, by rw [g1Loop]; simp only [g, if_true]⟩
    · obtain ⟨r, hr⟩ := ih (L + 1) _ (by omega) (g1_step I).1
      exact ⟨r, by rw [g1Loop]; simp only [g, if_false]; exact hr⟩

theorem g1_init : G1Inv w h dem fd ndf 0 (fun _ => 0) :=
  ⟨fun _ _ => ⟨by omega, fun j hj => by omega, fun hlt => by omega⟩, fun _ _ => rfl⟩

theorem list_bound {l : List Cell} {P : Nat → Cell → Prop} (hp : ∀ c ∈ l, ∃ k, P k c) : ∃ K, ∀ c ∈ l, ∃ k ≤ K, P k c := by
  induction l with
  | nil => exact ⟨0, by simp⟩
  | cons c l ih =>
    obtain ⟨K, hK⟩ := ih (fun b hb => hp b (by simp [hb]))
    obtain ⟨k, hk⟩ := hp c (by simp)
    refine ⟨max k K, fun b hb => ?_⟩
    rcases List.mem_cons.1 hb with rfl | hb
    · exact ⟨k, by omega, hk⟩
    · obtain ⟨j, hj, hs⟩ := hK b hb
      exact ⟨j, by omega, hs⟩

/-! ### Away from higher terrain -/

/-- A flat cell beside higher terrain. -/
def BesideHigher (dem : Cell → E) (c : Cell) : Prop := ∃ b, Adj .D8 c b ∧ dem c < dem b

/-- A step to an adjacent flat cell. -/
def GFlatStep (w h : Nat) (fd : Cell → Nat) (a b : Cell) : Prop := Adj .D8 a b ∧ InGrid w h b ∧ fd b = 0

theorem g2Flag_fold {inc : Cell → Nat} {c : Cell} (hlow : ∀ b, Adj .D8 c b → dem c ≤ dem b) (l : List Nat) (hl : ∀ n ∈ l, n ∈ dirs .D8) :
    ∀ a : Bool, l.foldl (g2Flag dem inc c) (a, false) =
      (a || l.any (fun n => decide (dem c < dem (nbr .D8 c n) ∨ inc (nbr .D8 c n) = 2)), false) := by
  induction l with
  | nil => intro a; simp
  | cons n l ih =>
    intro a
    have hn : ¬ dem (nbr .D8 c n) < dem c := not_lt.2 (hlow _ (nbr_adj (hl n (by simp))))
    have e : g2Flag dem inc c (a, false) n = (a || decide (dem c < dem (nbr .D8 c n) ∨ inc (nbr .D8 c n) = 2), false) := by
      unfold g2Flag
      cases a
      · by_cases g : dem c < dem (nbr .D8 c n) ∨ inc (nbr .D8 c n) = 2
        · simp only [g, and_self, if_true, decide_true, Bool.or_true]
        · simp only [g, hn, and_false, if_false, decide_false, Bool.or_false]
      · simp only [Bool.true_eq_false, false_and, hn, and_false, if_false, Bool.true_or]
    rw [List.foldl_cons, e, ih (fun m hm => hl m (by simp [hm])), List.any_cons, Bool.or_assoc]

theorem g2Cell_eq {s : (Cell → Nat) × Nat} {c : Cell} (hlow : ∀ b, Adj .D8 c b → dem c ≤ dem b) :
    (s.1 c = 0 ∧ (BesideHigher dem c ∨ ∃ b, Adj .D8 c b ∧ s.1 b = 2) → g2Cell dem s c = (Function.update s.1 c 1, s.2 + 1)) ∧
    (¬(s.1 c = 0 ∧ (BesideHigher dem c ∨ ∃ b, Adj .D8 c b ∧ s.1 b = 2)) → g2Cell dem s c = s) := by
  have key : (dirs .D8).foldl (g2Flag dem s.1 c) (false, false) = (true, false) ↔ (BesideHigher dem c ∨ ∃ b, Adj .D8 c b ∧ s.1 b = 2) := by
    rw [g2Flag_fold hlow _ (fun _ hn => hn)]
    simp only [Bool.false_or, Prod.mk.injEq, and_true, List.any_eq_true, decide_eq_true_eq]
    constructor
    · rintro ⟨n, hn, hx | hx⟩
      · exact Or.inl ⟨_, nbr_adj hn, hx⟩
      · exact Or.inr ⟨_, nbr_adj hn, hx⟩
    · rintro (⟨b, hb, hx⟩ | ⟨b, hb, hx⟩)
      · obtain ⟨n, hn, rfl⟩ := adj_iff_nbr.1 hb
        exact ⟨n, hn, Or.inl hx⟩
      · obtain ⟨n, hn, rfl⟩ := adj_iff_nbr.1 hb
        exact ⟨n, hn, Or.inr hx⟩
  constructor
  · rintro ⟨h0, hx⟩
    rw [g2Cell, if_neg (by omega), if_pos (key.2 hx), h0]
  · intro hx
    rw [g2Cell]
    by_cases g : 0 < s.1 c
    · rw [if_pos g]
    · rw [if_neg g, if_neg (fun e => hx ⟨by omega, key.1 e⟩)]

theorem g2Raise_fold (l : List Cell) (hnd : l.Nodup) :
    ∀ inc : Cell → Nat, (∀ c ∈ l, l.foldl g2Raise inc c = if 0 < inc c then inc c + 1 else 0) ∧ ∀ c ∉ l, l.foldl g2Raise inc c = inc c := by
  induction l with
  | nil => intro inc; simp
  | cons a l ih =>
    intro inc
    obtain ⟨ha, hl⟩ := List.nodup_cons.1 hnd
    obtain ⟨i1, i2⟩ := ih hl (g2Raise inc a)
    have hself : g2Raise inc a a = if 0 < inc a then inc a + 1 else 0 := by
      unfold g2Raise
      by_cases g : 0 < inc a
      · rw [if_pos g, if_pos g, Function.update_self]
      · rw [if_neg g, if_neg g]; omega
    have hne : ∀ c, c ≠ a → g2Raise inc a c = inc c := by
      intro c hc
      unfold g2Raise
      by_cases g : 0 < inc a
      · rw [if_pos g, Function.update_of_ne hc]
      · rw [if_neg g]
    refine ⟨fun c hc => ?_, fun c hc => ?_⟩
    · rw [List.foldl_cons]
      rcases List.mem_cons.1 hc with rfl | hc
      · rw [i2 c ha, hself]
      · rw [i1 c hc, hne c (fun e => ha (e ▸ hc))]
    · simp only [List.mem_cons, not_or] at hc
      rw [List.foldl_cons, i2 c hc.2, hne c hc.1]

/-- The value of a cell `k` steps from the start, after `r` rounds. -/
def G2Val (w h : Nat) (dem : Cell → E) (fd : Cell → Nat) (r : Nat) (c : Cell) (v : Nat) : Prop :=
  (v = 0 ∧ ∀ j < r, ¬StepsTo (GFlatStep w h fd) (BesideHigher dem) j c) ∨
  (0 < v ∧ v ≤ r ∧ StepDist (GFlatStep w h fd) (BesideHigher dem) (r - v) c)

/-- Second half of a round: the value is the old one or the new one. -/
def G2Mid (w h : Nat) (dem : Cell → E) (fd : Cell → Nat) (r : Nat) (c : Cell) (v : Nat) : Prop :=
  (v = 0 ∧ ∀ j < r, ¬StepsTo (GFlatStep w h fd) (BesideHigher dem) j c) ∨
  (0 < v ∧ v ≤ r + 1 ∧ StepDist (GFlatStep w h fd) (BesideHigher dem) (r + 1 - v) c)

theorem G2Mid.two {r v : Nat} {c : Cell} (hv : G2Mid w h dem fd r c v) :
    v = 2 ↔ 1 ≤ r ∧ StepDist (GFlatStep w h fd) (BesideHigher dem) (r - 1) c := by
  constructor
  · rintro rfl
    rcases hv with hv | hv
    · omega
    · exact ⟨by omega, by rw [show r - 1 = r + 1 - 2 by omega]; exact hv.2.2⟩
  · rintro ⟨h1, h2⟩
    rcases hv with hv | hv
    · exact absurd h2.1 (hv.2 _ (by omega))
    · have := stepDist_unique h2 hv.2.2
      omega

theorem g2_new {r : Nat} {inc : Cell → Nat} (hm : ∀ b, InGrid w h b → fd b = 0 → G2Mid w h dem fd r b (inc b))
    (hoff : ∀ b, ¬(InGrid w h b ∧ fd b = 0) → inc b = 0) {c : Cell} (hc : InGrid w h c) (h0 : fd c = 0) (hz : inc c = 0) :
    (BesideHigher dem c ∨ ∃ b, Adj .D8 c b ∧ inc b = 2) ↔ StepDist (GFlatStep w h fd) (BesideHigher dem) r c := by
  have hno : ∀ j < r, ¬StepsTo (GFlatStep w h fd) (BesideHigher dem) j c := by
    rcases hm c hc h0 with g | g
    · exact g.2
    · omega
  constructor
  · rintro (hx | ⟨b, hb, hx⟩)
    · by_cases g : r = 0
      · subst g; exact ⟨.zero hx, hno⟩
      · exact absurd (.zero hx) (hno 0 (by omega))
    · by_cases g : InGrid w h b ∧ fd b = 0
      · obtain ⟨h1, h2⟩ := ((hm b g.1 g.2).two).1 hx
        have := StepsTo.step (r := GFlatStep w h fd) ⟨hb, g.1, g.2⟩ h2.1
        rw [show r - 1 + 1 = r by omega] at this
        exact ⟨this, hno⟩
      · rw [hoff b g] at hx; omega
  · intro hs
    by_cases g : r = 0
    · subst g; exact Or.inl (stepsTo_zero.1 hs.1)
    · obtain ⟨k, rfl⟩ : ∃ k, r = k + 1 := ⟨r - 1, by omega⟩
      obtain ⟨b, hb, hsb⟩ := stepsTo_succ.1 hs.1
      refine Or.inr ⟨b, hb.1, ((hm b hb.2.1 hb.2.2).two).2 ⟨by omega, hsb, ?_⟩⟩
      intro j hj hx
      exact hs.2 (j + 1) (by omega) (.step hb hx)

theorem g2_next {r v : Nat} {c : Cell} (hz : G2Mid w h dem fd r c v) (hv : v = 0 → ¬StepDist (GFlatStep w h fd) (BesideHigher dem) r c) :
    G2Val w h dem fd (r + 1) c v := by
  rcases hz with ⟨g1, g2⟩ | g
  · refine Or.inl ⟨g1, fun j hj hs => ?_⟩
    by_cases e : j < r
    · exact g2 j e hs
    · have : j = r := by omega
      subst this
      exact hv g1 ⟨hs, g2⟩
  · exact Or.inr g

/-- Second half of a round. -/
theorem g2_round {r : Nat} (F : List Cell) (hFm : ∀ c, c ∈ F ↔ InGrid w h c ∧ fd c = 0) (hlow : ∀ c ∈ F, ∀ b, Adj .D8 c b → dem c ≤ dem b)
    (l : List Cell) (hnd : l.Nodup) (hlF : ∀ c ∈ l, c ∈ F) :
    ∀ (inc : Cell → Nat) (k : Nat), (∀ b ∈ F, G2Mid w h dem fd r b (inc b)) → (∀ b ∉ F, inc b = 0) →
      let s := l.foldl (g2Cell dem) (inc, k)
      (∀ b ∈ F, G2Mid w h dem fd r b (s.1 b)) ∧ (∀ c ∈ l, G2Val w h dem fd (r + 1) c (s.1 c)) ∧ (∀ c ∉ l, s.1 c = inc c) ∧
        s.2 = k + l.countP (fun c => (inc c == 0) && (s.1 c != 0)) ∧ ∀ c ∈ l, inc c ≠ 0 → s.1 c ≠ 0 := by
  induction l with
  | nil => intro inc k hm _; exact ⟨hm, by simp, by simp, by simp, by simp⟩
  | cons c l ih =>
    intro inc k hm hoff
    obtain ⟨hcl, hl⟩ := List.nodup_cons.1 hnd
    have hcF := hlF c (by simp)
    obtain ⟨hc, h0⟩ := (hFm c).1 hcF
    obtain ⟨e1, e2⟩ := g2Cell_eq (s := (inc, k)) (hlow c hcF)
    dsimp only at e1 e2
    have hcongr : ∀ (inc' s' : Cell → Nat), (∀ b, b ≠ c → inc' b = inc b) →
        l.countP (fun c => (inc' c == 0) && (s' c != 0)) = l.countP (fun c => (inc c == 0) && (s' c != 0)) := by
      intro inc' s' he
      refine List.countP_congr fun b hb => ?_
      rw [he b (fun e => hcl (e ▸ hb))]
    simp only [List.foldl_cons]
    by_cases g : inc c = 0 ∧ (BesideHigher dem c ∨ ∃ b, Adj .D8 c b ∧ inc b = 2)
    · rw [e1 g]
      have hd := (g2_new (fun b hb h0b => hm b ((hFm b).2 ⟨hb, h0b⟩)) (fun b hb => hoff b (fun x => hb ((hFm b).1 x))) hc h0 g.1).1 g.2
      have hval : G2Mid w h dem fd r c 1 := Or.inr ⟨by omega, by omega, by rw [show r + 1 - 1 = r by omega]; exact hd⟩
      obtain ⟨r1, r2, r3, r4, r5⟩ := ih hl (fun b hb => hlF b (by simp [hb])) (Function.update inc c 1) (k + 1)
        (fun b hb => by
          by_cases e : b = c
          · subst e; rw [Function.update_self]; exact hval
          · rw [Function.update_of_ne e]; exact hm b hb)
        (fun b hb => by rw [Function.update_of_ne (show b ≠ c from fun e => hb (e ▸ hcF))]; exact hoff b hb)
      have hfin := r3 c hcl
      rw [Function.update_self] at hfin
      refine ⟨r1, ?_, ?_, ?_, ?_⟩
      · intro b hb
        rcases List.mem_cons.1 hb with rfl | hb
        · rw [hfin]; exact g2_next hval (fun e => by omega)
        · exact r2 b hb
      · intro b hb
        simp only [List.mem_cons, not_or] at hb
        rw [r3 b hb.2, Function.update_of_ne hb.1]
      · rw [r4, List.countP_cons, hfin, hcongr _ _ (fun b hb => Function.update_of_ne hb _ _)]
        rw [if_pos (by rw [g.1]; decide)]
        omega
      · intro b hb hne
        rcases List.mem_cons.1 hb with rfl | hb
        · rw [hfin]; omega
        · exact r5 b hb (by rw [Function.update_of_ne (show b ≠ c from fun e => hcl (e ▸ hb))]; exact hne)
    · rw [e2 g]
      obtain ⟨r1, r2, r3, r4, r5⟩ := ih hl (fun b hb => hlF b (by simp [hb])) inc k hm hoff
      have hfin := r3 c hcl
      refine ⟨r1, ?_, ?_, ?_, ?_⟩
      · intro b hb
        rcases List.mem_cons.1 hb with rfl | hb
        · rw [hfin]
          refine g2_next (hm b hcF) (fun e hd => g ⟨e, ?_⟩)
          exact (g2_new (fun b hb h0b => hm b ((hFm b).2 ⟨hb, h0b⟩)) (fun b hb => hoff b (fun x => hb ((hFm b).1 x))) hc h0 e).2 hd
        · exact r2 b hb
      · intro b hb
        simp only [List.mem_cons, not_or] at hb
        exact r3 b hb.2
      · rw [r4, List.countP_cons, hfin]
        rw [if_neg (by simp)]
        omega
      · intro b hb hne
        rcases List.mem_cons.1 hb with rfl | hb
        · rw [hfin]; exact hne
        · exact r5 b hb hne

/-- State after `r` rounds. -/
structure G2Inv (w h : Nat) (dem : Cell → E) (fd : Cell → Nat) (r : Nat) (s : (Cell → Nat) × Nat) : Prop where
  val : ∀ c ∈ garbFlats w h fd, G2Val w h dem fd r c (s.1 c)
  off : ∀ c ∉ garbFlats w h fd, s.1 c = 0
  cnt : s.2 = (garbFlats w h fd).countP (fun c => s.1 c != 0)

theorem countP_split {l : List Cell} {p q t : Cell → Bool}
    (h1 : ∀ c ∈ l, t c = true ↔ (p c = true ∨ q c = true)) (h2 : ∀ c ∈ l, ¬(p c = true ∧ q c = true)) :
    l.countP t = l.countP p + l.countP q := by
  induction l with
  | nil => simp
  | cons a l ih =>
    have ih' := ih (fun c hc => h1 c (by simp [hc])) (fun c hc => h2 c (by simp [hc]))
    have ha := h1 a (by simp)
    have hb := h2 a (by simp)
    rw [List.countP_cons, List.countP_cons, List.countP_cons, ih']
    cases hp : p a <;> cases hq : q a <;> cases ht : t a <;> simp_all <;> omega

theorem g2_step {r : Nat} {s : (Cell → Nat) × Nat} (hlow : ∀ c ∈ garbFlats w h fd, ∀ b, Adj .D8 c b → dem c ≤ dem b)
    (I : G2Inv w h dem fd r s) : G2Inv w h dem fd (r + 1) (g2Round dem (garbFlats w h fd) s) := by
  obtain ⟨a1, a2⟩ := g2Raise_fold (garbFlats w h fd) nodup_garbFlats s.1
  obtain ⟨r1, r2, r3, r4, r5⟩ := g2_round (r := r) (dem := dem) (garbFlats w h fd) (fun c => mem_garbFlats) hlow (garbFlats w h fd) nodup_garbFlats
    (fun _ hc => hc) ((garbFlats w h fd).foldl g2Raise s.1) s.2
    (fun b hb => by
      rw [a1 b hb]
      rcases I.val b hb with g | g
      · rw [if_neg (by omega)]; exact Or.inl ⟨rfl, g.2⟩
      · rw [if_pos g.1]
        exact Or.inr ⟨by omega, by omega, by rw [show r + 1 - (s.1 b + 1) = r - s.1 b by omega]; exact g.2.2⟩)
    (fun b hb => by rw [a2 b hb]; exact I.off b hb)
  refine ⟨r2, fun c hc => by rw [g2Round, r3 c hc, a2 c hc]; exact I.off c hc, ?_⟩
  rw [g2Round, r4]
  refine Eq.trans (congrArg (· + _) I.cnt) ?_
  refine (countP_split (fun c hc => ?_) (fun c hc => ?_)).symm
  · simp only [bne_iff_ne, Bool.and_eq_true, beq_iff_eq]
    rw [a1 c hc]
    have h5 := r5 c hc
    rw [a1 c hc] at h5
    by_cases g : 0 < s.1 c
    · rw [if_pos g] at h5 ⊢
      have := h5 (by omega)
      constructor
      · intro _; left; omega
      · intro _; exact this
    · rw [if_neg g] at h5 ⊢
      constructor
      · intro x; exact Or.inr ⟨rfl, x⟩
      · rintro (x | x)
        · omega
        · exact x.2
  · simp only [bne_iff_ne, Bool.and_eq_true, beq_iff_eq]
    rw [a1 c hc]
    rintro ⟨x1, x2, -⟩
    rw [if_pos (by omega)] at x2
    omega

theorem g2_done {r : Nat} {s : (Cell → Nat) × Nat} (I : G2Inv w h dem fd r s) :
    ¬ s.2 < (garbFlats w h fd).length ↔ ∀ c ∈ garbFlats w h fd, s.1 c ≠ 0 := by
  rw [I.cnt, not_lt]
  constructor
  · intro hle c hc
    have := List.countP_eq_length.1 (Nat.le_antisymm List.countP_le_length hle) c hc
    simpa using this
  · intro hall
    rw [List.countP_eq_length.2 (fun c hc => by simpa using hall c hc)]

theorem g2_init : G2Inv w h dem fd 0 (fun _ => 0, 0) := by
  refine ⟨fun c _ => Or.inl ⟨rfl, fun j hj => by omega⟩, fun _ _ => rfl, ?_⟩
  simp

/-- What the loop returns, if it returns; before the last round something was still unraised. -/
theorem g2_result (hlow : ∀ c ∈ garbFlats w h fd, ∀ b, Adj .D8 c b → dem c ≤ dem b) :
    ∀ (fuel r : Nat) (s : (Cell → Nat) × Nat) (v : Cell → Nat), G2Inv w h dem fd r s →
    (r = 0 ∨ ∃ c ∈ garbFlats w h fd, s.1 c < 2) →
    g2Loop dem (garbFlats w h fd) fuel s = some v →
    ∃ R, (∀ c ∈ garbFlats w h fd, 0 < v c ∧ v c ≤ R ∧ StepDist (GFlatStep w h fd) (BesideHigher dem) (R - v c) c) ∧
      (∀ c ∉ garbFlats w h fd, v c = 0) ∧ (R = 0 ∨ ∃ c ∈ garbFlats w h fd, v c = 1) := by
  have fin : ∀ (r : Nat) (s : (Cell → Nat) × Nat), G2Inv w h dem fd r s → (r = 0 ∨ ∃ c ∈ garbFlats w h fd, s.1 c < 2) →
      ¬ s.2 < (garbFlats w h fd).length →
      ∃ R, (∀ c ∈ garbFlats w h fd, 0 < s.1 c ∧ s.1 c ≤ R ∧ StepDist (GFlatStep w h fd) (BesideHigher dem) (R - s.1 c) c) ∧
      (∀ c ∉ garbFlats w h fd, s.1 c = 0) ∧ (R = 0 ∨ ∃ c ∈ garbFlats w h fd, s.1 c = 1) := by
    intro r s I hr g
    have hall := (g2_done I).1 g
    refine ⟨r, fun c hc => ?_, I.off, ?_⟩
    · rcases I.val c hc with x | x
      · exact absurd x.1 (hall c hc)
      · exact x
    · rcases hr with rfl | ⟨c, hc, hlt⟩
      · exact Or.inl rfl
      · exact Or.inr ⟨c, hc, by have := hall c hc; omega⟩
  intro fuel
  induction fuel with
  | zero =>
    intro r s v I hr hv
    rw [g2Loop] at hv
    by_cases g : s.2 < (garbFlats w h fd).length
    · simp [g] at hv
    · simp only [g, if_false, Option.some.injEq] at hv
      subst hv
      exact fin r s I hr g
  | succ n ih =>
    intro r s v I hr hv
    rw [g2Loop] at hv
    by_cases g : s.2 < (garbFlats w h fd).length
    · simp only [g, if_true] at hv
      have I' := g2_step hlow I
      refine ih (r + 1) _ v I' (Or.inr ?_) hv
      have : ¬∀ c ∈ garbFlats w h fd, s.1 c ≠ 0 := fun x => (g2_done I).2 x g
      push Not at this
      obtain ⟨c, hc, h0⟩ := this
      refine ⟨c, hc, ?_⟩
      have hno : ∀ j < r, ¬StepsTo (GFlatStep w h fd) (BesideHigher dem) j c := by
        rcases I.val c hc with x | x
        · exact x.2
        · omega
      rcases I'.val c hc with x | x
      · omega
      · by_contra hge
        exact hno _ (by omega) x.2.2.1
    · simp only [g, if_false, Option.some.injEq] at hv
      subst hv
      exact fin r s I hr g

theorem g2_ends (hlow : ∀ c ∈ garbFlats w h fd, ∀ b, Adj .D8 c b → dem c ≤ dem b) {K : Nat}
    (hK : ∀ c ∈ garbFlats w h fd, ∃ j ≤ K, StepsTo (GFlatStep w h fd) (BesideHigher dem) j c) :
    ∀ (m r : Nat) (s : (Cell → Nat) × Nat), K + 1 ≤ r + m → G2Inv w h dem fd r s →
      ∃ v, g2Loop dem (garbFlats w h fd) m s = some v := by
  intro m
  induction m with
  | zero =>
    intro r s hle I
    have : ¬ s.2 < (garbFlats w h fd).length := (g2_done I).2 (fun c hc h0 => by
      rcases I.val c hc with x | x
      · obtain ⟨j, hj, hs⟩ := hK c hc
        exact x.2 j (by omega) hs
      · omega)
    exact ⟨s.1, by rw [g2Loop, if_neg this]⟩
  | succ n ih =>
    intro r s hle I
    by_cases g : s.2 < (garbFlats w h fd).length
    · obtain ⟨v, hv⟩ := ih (r + 1) _ (by omega) (g2_step hlow I)
      exact ⟨v, by rw [g2Loop, if_pos g, hv]⟩
    · exact ⟨s.1, by rw [g2Loop, if_neg g]⟩

end

end RichDEM
