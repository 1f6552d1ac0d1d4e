import Verif.Flats.Core

/-!
What the flat mask contains, for any classification of the cells into flat cells and cells with an
outlet.
-/

namespace RichDEM

variable {E : Type*} [LinearOrder E]

/-- The classification and the edge queues handed to the mask construction. -/
structure FlatSys (w h : Nat) (dem : Cell → E) (flat out hi : Cell → Prop) (flatb : Cell → Bool)
    (low high : List Cell) : Prop where
  flatIn : ∀ c, flat c → InGrid w h c
  outIn : ∀ c, out c → InGrid w h c
  disj : ∀ c, flat c → ¬ out c
  step : ∀ a b, flat a → EqStep w h dem a b → flat b ∨ out b
  flatb : ∀ c, InGrid w h c → (flatb c = true ↔ flat c)
  low : ∀ c, c ∈ low ↔ LowEdgeOf dem flat out c
  high : ∀ c, c ∈ high ↔ hi c
  hi : ∀ c, hi c → flat c

variable {w h : Nat} {dem : Cell → E} {flat out hi : Cell → Prop} {flatb : Cell → Bool}
  {low high : List Cell}

theorem FlatSys.lowIn (hq : FlatSys w h dem flat out hi flatb low high) : ∀ l ∈ low, InGrid w h l :=
  fun l hl => hq.outIn l ((hq.low l).1 hl).1

theorem FlatSys.lab (hq : FlatSys w h dem flat out hi flatb low high) :
    LabInv w h dem low low (labelLoop w h dem low) := labelLoop_inv low hq.lowIn

theorem core_labels : (flatMaskCore w h dem flatb low high).2 = (labelLoop w h dem low).1 := by
  unfold flatMaskCore
  split
  · rename_i h1; subst h1; rfl
  · rfl

theorem core_labelled (hq : FlatSys w h dem flat out hi flatb low high) (c : Cell) :
    0 ≤ (flatMaskCore w h dem flatb low high).2 c ∧
    (0 < (flatMaskCore w h dem flatb low high).2 c ↔
      ∃ l, LowEdgeOf dem flat out l ∧ SameRegion w h dem l c) := by
  have I := hq.lab
  rw [core_labels]
  refine ⟨(I.range c).1, ?_, ?_⟩
  · intro h1
    obtain ⟨l, h2, h3⟩ := I.sound c h1
    exact ⟨l, (hq.low l).1 h2, h3⟩
  · rintro ⟨l, h1, h2⟩
    rw [← I.closed l c h2]
    exact I.cover l ((hq.low l).2 h1)

theorem core_same_label (hq : FlatSys w h dem flat out hi flatb low high) (a b : Cell)
    (h1 : 0 < (flatMaskCore w h dem flatb low high).2 a) :
    (flatMaskCore w h dem flatb low high).2 a = (flatMaskCore w h dem flatb low high).2 b ↔
      SameRegion w h dem a b := by
  rw [core_labels] at *
  exact ⟨hq.lab.same a b h1, hq.lab.closed a b⟩

/-- From a drainable flat cell, flat cells lead to a low edge. -/
theorem drainable_hops (hq : FlatSys w h dem flat out hi flatb low high) {c : Cell}
    (hd : DrainableOf w h dem flat out c) :
    ∃ n, Hops (LowEdgeOf dem flat out) (FlatStepOf dem flat) n c := by
  obtain ⟨hf, o, ho, hr⟩ := hd
  -- walk from `c` towards `o`
  have key : ∀ a, SameRegion w h dem a o → flat a →
      ∃ n, Hops (LowEdgeOf dem flat out) (FlatStepOf dem flat) n a := by
    intro a ha
    induction ha using Relation.ReflTransGen.head_induction_on with
    | refl => intro h1; exact absurd ho (hq.disj _ h1)
    | @head a b hab _ ih =>
      intro haf
      rcases hq.step a b haf hab with h1 | h1
      · obtain ⟨n, hn⟩ := ih h1
        exact ⟨n + 1, hn.succ ⟨hab.2.2.1.symm, hab.2.2.2.symm, haf⟩⟩
      · exact ⟨1, Hops.succ (.zero ⟨h1, a, hab.2.2.1.symm, haf, hab.2.2.2.symm⟩)
          ⟨hab.2.2.1.symm, hab.2.2.2.symm, haf⟩⟩
  exact key c hr hf

theorem hops_region {S : Cell → Prop} (hf : ∀ c, flat c → InGrid w h c)
    (hS : ∀ s, S s → InGrid w h s) {n : Nat} {c : Cell}
    (hn : Hops S (FlatStepOf dem flat) n c) : ∃ s, S s ∧ SameRegion w h dem s c := by
  induction hn with
  | zero h1 => exact ⟨_, h1, .refl⟩
  | succ _ hR ih =>
    obtain ⟨s, h1, h2⟩ := ih
    exact ⟨s, h1, h2.tail ⟨h2.inGrid (hS s h1), hf _ hR.2.2, hR.1, hR.2.1⟩⟩

theorem core_drainable (hq : FlatSys w h dem flat out hi flatb low high) (c : Cell) (hc : flat c) :
    0 < (flatMaskCore w h dem flatb low high).2 c ↔ DrainableOf w h dem flat out c := by
  rw [(core_labelled hq c).2]
  constructor
  · rintro ⟨l, h1, h2⟩
    exact ⟨hc, l, h1.1, h2.symm⟩
  · intro hd
    obtain ⟨n, hn⟩ := drainable_hops hq hd
    exact hops_region hq.flatIn (fun s hs => hq.outIn s hs.1) hn

theorem gradEdge_iff (hq : FlatSys w h dem flat out hi flatb low high) {a b : Cell} (ha : InGrid w h a)
    (hp : 0 < (labelLoop w h dem low).1 a) :
    GradEdge w h (flatb) (labelLoop w h dem low).1 a b ↔
      FlatStepOf dem flat a b := by
  have I := hq.lab
  constructor
  · rintro ⟨h1, h2, h3, h4⟩
    exact ⟨h2, (I.same a b hp h3.symm).elev, (hq.flatb b h1).1 h4⟩
  · rintro ⟨h1, h2, h3⟩
    have hb := hq.flatIn b h3
    exact ⟨hb, h1, (I.closed a b (.single ⟨ha, hb, h1, h2⟩)).symm, (hq.flatb b hb).2 h3⟩

theorem hops_iff (hq : FlatSys w h dem flat out hi flatb low high) {S S' : Cell → Prop}
    (hS : ∀ s, S s ↔ S' s ∧ 0 < (labelLoop w h dem low).1 s) (hin : ∀ s, S' s → InGrid w h s)
    (n : Nat) (c : Cell) :
    Hops S (GradEdge w h (flatb) (labelLoop w h dem low).1) n c ↔
      Hops S' (FlatStepOf dem flat) n c ∧ 0 < (labelLoop w h dem low).1 c := by
  have I := hq.lab
  have hin' : ∀ n c, Hops S' (FlatStepOf dem flat) n c → InGrid w h c := by
    intro n c hn
    cases hn with
    | zero h1 => exact hin _ h1
    | succ _ h2 => exact hq.flatIn _ h2.2.2
  constructor
  · intro hn
    induction hn with
    | zero h1 => exact ⟨.zero ((hS _).1 h1).1, ((hS _).1 h1).2⟩
    | succ _ hR ih =>
      refine ⟨ih.1.succ ((gradEdge_iff hq (hin' _ _ ih.1) ih.2).1 hR), ?_⟩
      rw [hR.2.2.1]; exact ih.2
  · rintro ⟨hn, hp⟩
    induction hn with
    | zero h1 => exact .zero ((hS _).2 ⟨h1, hp⟩)
    | @succ n a b h1 hR ih =>
      have hag := hin' _ _ h1
      have hpa : 0 < (labelLoop w h dem low).1 a := by
        rw [I.closed a b (.single ⟨hag, hq.flatIn _ hR.2.2, hR.1, hR.2.1⟩)]; exact hp
      exact (ih hpa).succ ((gradEdge_iff hq hag hpa).2 hR)

/-- Description of the mask: `t` and `a` are one plus the distances from the low and high
edges (0 when there is no path), `H` the height of a flat. -/
theorem mask_description (hq : FlatSys w h dem flat out hi flatb low high) :
    ∃ (t : Cell → Nat) (a : Cell → Int) (H : Int → Int),
      (∀ c, 0 < t c → IsHopDist (LowEdgeOf dem flat out) (FlatStepOf dem flat) c (t c - 1)) ∧
      (∀ c n, Hops (LowEdgeOf dem flat out) (FlatStepOf dem flat) n c → 0 < t c) ∧
      (∀ c, a c = 0 ∨ ∃ n : Nat, a c = n + 1 ∧
        IsHopDist (hi) (FlatStepOf dem flat) c n) ∧
      (∀ c n, 0 < t c → Hops (hi) (FlatStepOf dem flat) n c → 0 < a c) ∧
      (∀ c, a c ≠ 0 → 0 < t c) ∧
      (∀ c, a c ≠ 0 → a c ≤ H ((flatMaskCore w h dem flatb low high).2 c)) ∧
      (∀ l, H l = 0 ∨ ∃ c, (flatMaskCore w h dem flatb low high).2 c = l ∧ a c = H l) ∧
      (∀ c, (flatMaskCore w h dem flatb low high).1 c = if 0 < t c then
        combined a H (flatMaskCore w h dem flatb low high).2 c (t c) else 0) := by
  have hmemL : ∀ l, l ∈ low ↔ LowEdgeOf dem flat out l := hq.low
  have hmemH : ∀ l, l ∈ high ↔ hi l := hq.high
  have hl := hq.lowIn
  have I := hq.lab
  have hLin : ∀ s, LowEdgeOf dem flat out s → InGrid w h s := fun s hs => hq.outIn s hs.1
  by_cases h0 : low = []
  · -- no low edges: nothing is done
    refine ⟨fun _ => 0, fun _ => 0, fun _ => 0, by simp, ?_, by simp, by simp, by simp, by simp,
      fun _ => .inl rfl, ?_⟩
    · intro c n hn
      obtain ⟨s, h1, _⟩ := hops_region hq.flatIn (fun s hs => hq.outIn s hs.1) hn
      rw [← hmemL, h0] at h1; simp at h1
    · intro c; simp [flatMaskCore, h0]
  set labels := (labelLoop w h dem low).1 with hlab
  set high' := high.filter (fun i => !(decide (labels i = 0))) with hhigh
  have hS1 : ∀ s, s ∈ low ↔ LowEdgeOf dem flat out s ∧ 0 < labels s := by
    intro s
    exact ⟨fun k => ⟨(hmemL s).1 k, I.cover s k⟩, fun k => (hmemL s).2 k.1⟩
  have hS2 : ∀ s, s ∈ high' ↔ hi s ∧ 0 < labels s := by
    intro s
    simp only [hhigh, List.mem_filter, hmemH]
    have : 0 ≤ labels s := (I.range s).1
    constructor
    · rintro ⟨k1, k2⟩
      have k3 : labels s ≠ 0 := by simpa using k2
      exact ⟨k1, by omega⟩
    · rintro ⟨k1, k2⟩
      have k3 : labels s ≠ 0 := by omega
      exact ⟨k1, by simpa using k3⟩
  have hH := fun n c => hops_iff hq hS2 (fun s hs => hq.flatIn s (hq.hi s hs)) n c
  have hL := fun n c => hops_iff hq hS1 hLin n c
  obtain ⟨a1, a2, a3, a4⟩ := buildAway_final (w := w) (h := h) (flatb := flatb) (labels := labels)
    high' (fun c hc => hq.flatIn c (hq.hi c ((hS2 c).1 hc).1))
  set A := buildAway w h flatb labels high' with hA
  have ha0 : ∀ c, 0 ≤ A.mask c := by
    intro c
    rcases a1 c with k | ⟨n, k, _⟩ <;> omega
  obtain ⟨t, t1, t2, t3⟩ := buildToward_final (w := w) (h := h) (flatb := flatb)
    (labels := labels) (a := A.mask) (height := A.height) ha0 a3 low hl
  have hm : flatMaskCore w h dem flatb low high =
      ((buildToward w h flatb labels A.height A.mask low).mask, labels) := by
    unfold flatMaskCore; rw [if_neg h0]
  have hlabt : ∀ c n, Hops (LowEdgeOf dem flat out) (FlatStepOf dem flat) n c → 0 < labels c := by
    intro c n hn
    obtain ⟨s, h1, h2⟩ := hops_region hq.flatIn (fun s hs => hq.outIn s hs.1) hn
    have e : labels s = labels c := I.closed s c h2
    rw [← e]; exact ((hS1 s).1 ((hmemL s).2 h1)).2
  have ht2 : ∀ c n, Hops (LowEdgeOf dem flat out) (FlatStepOf dem flat) n c → 0 < t c :=
    fun c n hn => t2 c n ((hL n c).2 ⟨hn, hlabt c n hn⟩)
  have hat : ∀ c, A.mask c ≠ 0 → 0 < t c := by
    intro c hc
    rcases a1 c with k | ⟨n, k, k2, _⟩
    · exact absurd k hc
    obtain ⟨k3, k4⟩ := (hH n c).1 k2
    -- c is a labelled flat cell, so its region has a low edge
    have hcf : flat c := by
      cases k3 with
      | zero k5 => exact hq.hi _ k5
      | succ _ k5 => exact k5.2.2
    obtain ⟨l, k6, k7⟩ := I.sound c k4
    obtain ⟨m, k8⟩ := drainable_hops hq ⟨hcf, l, ((hmemL l).1 k6).1, k7.symm⟩
    exact ht2 c m k8
  rw [hm]
  refine ⟨t, A.mask, A.height, ?_, ht2, ?_, ?_, hat, a3, a4, ?_⟩
  · intro c hc
    obtain ⟨k1, k2⟩ := t1 c hc
    refine ⟨((hL _ c).1 k1).1, fun m hm => k2 m ((hL m c).2 ⟨hm, hlabt c m hm⟩)⟩
  · intro c
    rcases a1 c with k | ⟨n, k, k1, k2⟩
    · exact .inl k
    · right
      have k3 := ((hH n c).1 k1)
      exact ⟨n, k, k3.1, fun m hm => k2 m ((hH m c).2 ⟨hm, k3.2⟩)⟩
  · intro c n hc hn
    refine a2 c n ((hH n c).2 ⟨hn, ?_⟩)
    exact hlabt c _ ((hL _ c).1 (t1 c hc).1).1
  · intro c
    show (buildToward w h flatb labels A.height A.mask low).mask c = _
    rw [t3 c]
    by_cases hc : 0 < t c
    · rw [if_pos hc, if_pos hc]
    · rw [if_neg hc, if_neg hc]
      have : A.mask c = 0 := by
        by_contra k; exact hc (hat c k)
      rw [this]; rfl

/-- the mask of a cell at distance `n` from the low edges (in steps through flat cells of
its own elevation) is `2(n+1)`, plus, if high ground drains into its flat, `H - (k+1)`, where `k`
is its distance from the high edges and `H` is the largest such `k+1` in its flat. -/
theorem core_distances (hq : FlatSys w h dem flat out hi flatb low high) (c : Cell) (n : Nat)
    (hn : IsHopDist (LowEdgeOf dem flat out) (FlatStepOf dem flat) c n) :
    let mask := (flatMaskCore w h dem flatb low high).1
    ((¬ ∃ k, Hops (hi) (FlatStepOf dem flat) k c) ∧
        mask c = 2 * (n + 1)) ∨
    (∃ k top : Nat, IsHopDist (hi) (FlatStepOf dem flat) c k ∧
        mask c = 2 * (n + 1) + (top - k) ∧ k ≤ top ∧
        (∀ c' k', SameRegion w h dem c c' →
          IsHopDist (hi) (FlatStepOf dem flat) c' k' → k' ≤ top) ∧
        ∃ c', SameRegion w h dem c c' ∧
          IsHopDist (hi) (FlatStepOf dem flat) c' top) := by
  intro mask
  obtain ⟨t, a, H, t1, t2, a1, a2, a3, a4, a5, hm⟩ := mask_description hq
  have huniq : ∀ {S R c n m}, IsHopDist S R c n → IsHopDist S R c m → n = m :=
    fun h1 h2 => le_antisymm (h1.2 _ h2.1) (h2.2 _ h1.1)
  have htc := t2 c n hn.1
  have htn : t c = n + 1 := by
    have := huniq hn (t1 c htc); omega
  have hlp : 0 < (flatMaskCore w h dem flatb low high).2 c := by
    rw [(core_labelled hq c).2]; exact hops_region hq.flatIn (fun s hs => hq.outIn s hs.1) hn.1
  have hmc : mask c = (if a c = 0 then 0 else H ((flatMaskCore w h dem flatb low high).2 c) - a c)
      + 2 * ((t c : Nat) : Int) := by
    show (flatMaskCore w h dem flatb low high).1 c = _
    rw [hm c, if_pos htc]; rfl
  rcases a1 c with h1 | ⟨k, h1, h2⟩
  · left
    refine ⟨?_, ?_⟩
    · rintro ⟨k, hk⟩
      have := a2 c k htc hk; omega
    · rw [hmc, if_pos h1, htn]; push_cast; omega
  · right
    have hac : a c ≠ 0 := by omega
    have hle := a4 c hac
    rcases a5 ((flatMaskCore w h dem flatb low high).2 c) with h3 | ⟨c', h3, h4⟩
    · omega
    have hreg : SameRegion w h dem c c' :=
      (core_same_label hq c c' hlp).1 h3.symm
    have hac' : a c' ≠ 0 := by omega
    rcases a1 c' with h5 | ⟨k', h5, h6⟩
    · exact absurd h5 hac'
    refine ⟨k, k', h2, ?_, ?_, ?_, c', hreg, h6⟩
    · rw [hmc, if_neg hac, htn, ← h4, h5, h1]; push_cast; omega
    · omega
    · intro d kd hcd hkd
      have hlab : (flatMaskCore w h dem flatb low high).2 c =
          (flatMaskCore w h dem flatb low high).2 d :=
        (core_same_label hq c d hlp).2 hcd
      have htd : 0 < t d := by
        have hdf : flat d := by
          cases hkd.1 with
          | zero k5 => exact hq.hi _ k5
          | succ _ k5 => exact k5.2.2
        have hpd : 0 < (flatMaskCore w h dem flatb low high).2 d := by rw [← hlab]; exact hlp
        obtain ⟨m, hm⟩ := drainable_hops hq ((core_drainable hq d hdf).1 hpd)
        exact t2 d m hm
      have had := a2 d kd htd hkd.1
      have := a4 d (by omega)
      rcases a1 d with h7 | ⟨kk, h7, h8⟩
      · omega
      · have := huniq hkd h8
        rw [← hlab] at *
        omega

/-- a cell that is neither a low edge nor a drainable flat cell has mask 0, and no mask is
negative. -/
theorem core_zero_elsewhere (hq : FlatSys w h dem flat out hi flatb low high) (c : Cell) :
    let mask := (flatMaskCore w h dem flatb low high).1
    0 ≤ mask c ∧ (mask c ≠ 0 ↔ LowEdgeOf dem flat out c ∨ DrainableOf w h dem flat out c) := by
  intro mask
  obtain ⟨t, a, H, t1, t2, a1, a2, a3, a4, a5, hm⟩ := mask_description hq
  have hmc : mask c = _ := hm c
  by_cases htc : 0 < t c
  · have hpos : 0 < mask c := by
      rw [hmc, if_pos htc, combined]
      split
      · omega
      · rename_i h1; have := a4 c h1; omega
    refine ⟨by omega, fun _ => ?_, fun _ => by omega⟩
    have h0 := (t1 c htc).1
    generalize t c - 1 = k at h0
    cases h0 with
    | zero h1 => exact .inl h1
    | succ h1 h2 =>
      right
      obtain ⟨s, h3, h4⟩ := hops_region hq.flatIn (fun s hs => hq.outIn s hs.1) (h1.succ h2)
      exact ⟨h2.2.2, s, h3.1, h4.symm⟩
  · rw [hmc, if_neg htc]
    refine ⟨le_refl _, fun h => absurd rfl h, ?_⟩
    rintro (h1 | h1)
    · exact absurd (t2 c 0 (.zero h1)) htc
    · obtain ⟨n, hn⟩ := drainable_hops hq h1
      exact absurd (t2 c n hn) htc

/-- every drainable flat cell has a neighbour of the same elevation and label whose mask is
strictly smaller. -/
theorem core_descends (hq : FlatSys w h dem flat out hi flatb low high) (c : Cell) (hd : DrainableOf w h dem flat out c) :
    let mask := (flatMaskCore w h dem flatb low high).1
    let labels := (flatMaskCore w h dem flatb low high).2
    ∃ b, Adj .D8 c b ∧ InGrid w h b ∧ dem b = dem c ∧ labels b = labels c ∧ mask b < mask c ∧
      (LowEdgeOf dem flat out b ∨ DrainableOf w h dem flat out b) := by
  intro mask labels
  obtain ⟨t, a, H, t1, t2, a1, a2, a3, a4, a5, hm⟩ := mask_description hq
  have hmc : ∀ c, mask c = _ := hm
  obtain ⟨n, hn⟩ := drainable_hops hq hd
  have htc := t2 c n hn
  obtain ⟨h1, hmin⟩ := t1 c htc
  have hlp : 0 < labels c := (core_drainable hq c hd.1).2 hd
  generalize hk : t c - 1 = k at h1 hmin
  cases h1 with
  | zero h2 => exact absurd h2.1 (hq.disj _ hd.1)
  | @succ m b _ h2 h3 =>
    have htb := t2 b m h2
    have htb' : t b ≤ m + 1 := by
      have := (t1 b htb).2 m h2; omega
    have hbg : InGrid w h b := by
      cases h2 with
      | zero h4 => exact hq.outIn _ h4.1
      | succ _ h4 => exact hq.flatIn _ h4.2.2
    have hcb : SameRegion w h dem c b := .single ⟨hq.flatIn _ hd.1, hbg, h3.1.symm, h3.2.1.symm⟩
    have hlab : labels c = labels b :=
      (core_same_label hq c b hlp).2 hcb
    refine ⟨b, h3.1.symm, hbg, h3.2.1.symm, hlab.symm, ?_, ?_⟩
    · rw [hmc, hmc, if_pos htc, if_pos htb]
      unfold combined
      have hH0 : a c ≠ 0 → a c ≤ H (labels c) := a4 c
      change (if a b = 0 then 0 else H (labels b) - a b) + _ <
        (if a c = 0 then 0 else H (labels c) - a c) + _
      rw [← hlab]
      by_cases hb : a b = 0
      · rw [if_pos hb]
        split
        · push_cast; omega
        · rename_i hc; have := hH0 hc; push_cast; omega
      · rw [if_neg hb]
        rcases a1 b with h5 | ⟨kb, h5, h6⟩
        · exact absurd h5 hb
        -- c is one step from b, so it is reached too
        have h7 := a2 c (kb + 1) htc (h6.1.succ h3)
        rcases a1 c with h8 | ⟨kc, h8, h9⟩
        · omega
        have h10 := h9.2 (kb + 1) (h6.1.succ h3)
        rw [if_neg (by omega)]
        have h11 := hH0 (by omega)
        have h12 : flat b := by
          cases h6.1 with
          | zero k5 => exact hq.hi _ k5
          | succ _ k5 => exact k5.2.2
        push_cast
        omega
    · cases h2 with
      | zero h4 => exact .inl h4
      | succ h4 h5 =>
        right
        obtain ⟨s, h6, h7⟩ := hops_region hq.flatIn (fun s hs => hq.outIn s hs.1) (h4.succ h5)
        exact ⟨h5.2.2, s, h6.1, h7.symm⟩

/-- following decreasing masks leads from every drainable flat cell, through cells of the
same elevation, to a cell with an outlet. -/
theorem core_leads_out (hq : FlatSys w h dem flat out hi flatb low high) (c : Cell) (hd : DrainableOf w h dem flat out c) :
    let mask := (flatMaskCore w h dem flatb low high).1
    ∃ o, out o ∧
      Relation.ReflTransGen (fun a b => EqStep w h dem a b ∧ mask b < mask a) c o := by
  intro mask
  have key : ∀ (k : Nat) (c : Cell), (mask c).toNat ≤ k → DrainableOf w h dem flat out c →
      ∃ o, out o ∧
        Relation.ReflTransGen (fun a b => EqStep w h dem a b ∧ mask b < mask a) c o := by
    intro k
    induction k with
    | zero =>
      intro c hk hd
      have h1 := core_zero_elsewhere hq c
      have h2 := h1.2.2 (.inr hd)
      have h3 : 0 ≤ mask c := h1.1
      have h4 : mask c ≠ 0 := h2
      omega
    | succ k ih =>
      intro c hk hd
      obtain ⟨b, h1, h2, h3, h4, h5, h6⟩ := core_descends hq c hd
      have hstep : EqStep w h dem c b ∧ mask b < mask c := ⟨⟨hq.flatIn _ hd.1, h2, h1, h3⟩, h5⟩
      rcases h6 with h6 | h6
      · exact ⟨b, h6.1, .single hstep⟩
      · have h7 : 0 ≤ mask b := (core_zero_elsewhere hq b).1
        have h8 := hstep.2
        obtain ⟨o, h9, h10⟩ := ih b (by omega) h6
        exact ⟨o, h9, .head hstep h10⟩
  exact key _ c (le_refl _) hd

end RichDEM
