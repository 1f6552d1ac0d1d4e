/-
CalculateMarginalVolumes and CalculateTotalVolumes (include/richdem/depressions/depression_hierarchy.hpp:793-900) with
sums and products rounded to double precision.
-/
import Verif.DepHier.Volume
import Verif.Py.Rounding

namespace RichDEM

open Py (roundBits)

/-- `a + b` on doubles. -/
def addD (a b : ℚ) : ℚ := roundBits 53 (a + b)

/-- depression_hierarchy.hpp:811-858: one turn of a thread's loop.  `none`: an exception. -/
def mvCellR (n : Nat) (dep : Nat → Dep ℚ) (dem : Cell → ℚ) (label : Cell → Option Nat)
    (st : Option (COC ℚ × Tally ℚ)) (c : Cell) : Option (COC ℚ × Tally ℚ) :=
  match st, label c with
  | some (k, t), some l =>
    match mvClimb dep (dem c) (n + 1) (k.findStart l (dem c)).1 (k.findStart l (dem c)).2 with
    | none => none
    | some (r, k') =>
      if r = 0 then some (k', t)                                                          -- :852
      else some (k', ⟨upd t.count r (t.count r + 1), upd t.tot r (addD (t.tot r) (dem c))⟩)  -- :856-857
  | _, _ => none

/-- depression_hierarchy.hpp:805-858: a thread's loop over the cells it is given. -/
def mvThreadR (n : Nat) (dep : Nat → Dep ℚ) (dem : Cell → ℚ) (label : Cell → Option Nat)
    (cells : List Cell) : Option (COC ℚ × Tally ℚ) :=
  cells.foldl (mvCellR n dep dem label) (some (⟨none, []⟩, Tally.zero))

/-- depression_hierarchy.hpp:860-864: the critical section adds a thread's tally. -/
def mvMergeR (n : Nat) (dep : Nat → Dep ℚ) (dem : Cell → ℚ) (label : Cell → Option Nat)
    (acc : Option (Tally ℚ)) (cells : List Cell) : Option (Tally ℚ) :=
  match acc, mvThreadR n dep dem label cells with
  | some a, some (_, t) => some ⟨fun d => a.count d + t.count d, fun d => addD (a.tot d) (t.tot d)⟩
  | _, _ => none

/-- depression_hierarchy.hpp:793-868 (`CalculateMarginalVolumes`): `parts` are the cells of each thread in the order the
threads enter the critical section. -/
def calcMarginalR (n : Nat) (dep : Nat → Dep ℚ) (dem : Cell → ℚ) (label : Cell → Option Nat)
    (parts : List (List Cell)) : Option (Tally ℚ) :=
  parts.foldl (mvMergeR n dep dem label) (some Tally.zero)

/-- depression_hierarchy.hpp:894: `dep_vol`.  Simplified: `cell_count` does not overflow. -/
def volOfR (count : Nat) (z : Option ℚ) (tot : ℚ) : Option ℚ :=
  match z with
  | none => none
  | some z => some (roundBits 53 (roundBits 53 ((count : ℚ) * z) - tot))

/-- depression_hierarchy.hpp:877-897: one turn of `CalculateTotalVolumes`, without the assertion of line 896. -/
def tvStepR (dep : Nat → Dep ℚ) (v : Option (Vols ℚ)) (d : Nat) : Option (Vols ℚ) :=
  match v with
  | none => none
  | some v =>
    match (dep d).lchild with
    | none => some { v with vol := upd v.vol d (volOfR (v.count d) (dep d).outElev (v.tot d)) }
    | some a =>
      match (dep d).rchild with
      | none => none                                                              -- :882
      | some b =>
        if ¬ (a < d ∧ b < d) then none                                            -- :883-884
        else
          let cnt := v.count d + v.count a + v.count b
          let tot := addD (addD (v.tot d) (v.tot a)) (v.tot b)
          some ⟨upd v.count d cnt, upd v.tot d tot, upd v.vol d (volOfR cnt (dep d).outElev tot)⟩

/-- depression_hierarchy.hpp:871-900 (`CalculateTotalVolumes`). -/
def calcTotalR (n : Nat) (dep : Nat → Dep ℚ) (t : Tally ℚ) : Option (Vols ℚ) :=
  (List.range n).foldl (tvStepR dep) (some ⟨t.count, t.tot, fun _ => none⟩)

/-! ### The rounded run beside the exact run -/

/-- A relation between the number of summands, their exact sum and a sum computed in doubles that survives additions. -/
structure SumRel (dem : Cell → ℚ) (cells : List Cell) (R : Nat → ℚ → ℚ → Prop) : Prop where
  zero : R 0 0 0
  cell : ∀ k S v, ∀ c ∈ cells, R k S v → R (k + 1) (S + dem c) (addD v (dem c))
  add : ∀ k1 S1 v1 k2 S2 v2, R k1 S1 v1 → R k2 S2 v2 → R (k1 + k2) (S1 + S2) (addD v1 v2)

variable {n : Nat} {dep : Nat → Dep ℚ} {dem : Cell → ℚ} {label : Cell → Option Nat} {cells : List Cell}
  {R : Nat → ℚ → ℚ → Prop}

theorem mvThreadR_sim (hR : SumRel dem cells R) (l : List Cell) (hl : ∀ c ∈ l, c ∈ cells) {k : COC ℚ} {t : Tally ℚ}
    (he : mvThread n dep dem label l = some (k, t)) :
    ∃ t', mvThreadR n dep dem label l = some (k, t') ∧ t'.count = t.count ∧ ∀ d, R (t.count d) (t.tot d) (t'.tot d) := by
  induction l using List.reverseRecOn generalizing k t with
  | nil =>
    cases he
    exact ⟨Tally.zero, rfl, rfl, fun d => hR.zero⟩
  | append_singleton cs c ih =>
    have e1 : mvThread n dep dem label (cs ++ [c]) = mvCell n dep dem label (mvThread n dep dem label cs) c := by
      unfold mvThread; rw [List.foldl_append]; rfl
    have e2 : mvThreadR n dep dem label (cs ++ [c]) = mvCellR n dep dem label (mvThreadR n dep dem label cs) c := by
      unfold mvThreadR; rw [List.foldl_append]; rfl
    rw [e1] at he
    cases hs : mvThread n dep dem label cs with
    | none => rw [hs] at he; simp [mvCell] at he
    | some st =>
      obtain ⟨k0, t0⟩ := st
      obtain ⟨t', f1, f2, f3⟩ := ih (fun x hx => hl x (by simp [hx])) hs
      rw [hs] at he
      rw [e2, f1]
      unfold mvCell at he
      unfold mvCellR
      cases hlc : label c with
      | none => rw [hlc] at he; simp at he
      | some lc =>
        rw [hlc] at he
        dsimp only at he ⊢
        cases hm : mvClimb dep (dem c) (n + 1) (k0.findStart lc (dem c)).1 (k0.findStart lc (dem c)).2 with
        | none => rw [hm] at he; simp at he
        | some rk =>
          obtain ⟨r, k'⟩ := rk
          rw [hm] at he
          dsimp only at he ⊢
          by_cases h0 : r = 0
          · rw [if_pos h0] at he ⊢
            cases he
            exact ⟨t', rfl, f2, f3⟩
          · rw [if_neg h0] at he ⊢
            cases he
            refine ⟨_, rfl, by rw [f2], fun d => ?_⟩
            show R (upd t0.count r _ d) (upd t0.tot r _ d) (upd t'.tot r _ d)
            by_cases hd : d = r
            · subst hd
              rw [upd_same, upd_same, upd_same]
              exact hR.cell _ _ _ c (hl c (by simp)) (f3 d)
            · rw [upd_ne _ _ _ hd, upd_ne _ _ _ hd, upd_ne _ _ _ hd]
              exact f3 d

theorem calcMarginalR_sim (hR : SumRel dem cells R) (parts : List (List Cell)) (hl : ∀ c ∈ parts.flatten, c ∈ cells)
    {t : Tally ℚ} (he : calcMarginal n dep dem label parts = some t) :
    ∃ t', calcMarginalR n dep dem label parts = some t' ∧ t'.count = t.count ∧
      ∀ d, R (t.count d) (t.tot d) (t'.tot d) := by
  induction parts using List.reverseRecOn generalizing t with
  | nil =>
    cases he
    exact ⟨Tally.zero, rfl, rfl, fun d => hR.zero⟩
  | append_singleton ps p ih =>
    have e1 : calcMarginal n dep dem label (ps ++ [p]) = mvMerge n dep dem label (calcMarginal n dep dem label ps) p := by
      unfold calcMarginal; rw [List.foldl_append]; rfl
    have e2 : calcMarginalR n dep dem label (ps ++ [p]) = mvMergeR n dep dem label (calcMarginalR n dep dem label ps) p := by
      unfold calcMarginalR; rw [List.foldl_append]; rfl
    rw [e1] at he
    cases hs : calcMarginal n dep dem label ps with
    | none => rw [hs] at he; simp [mvMerge] at he
    | some t0 =>
      obtain ⟨t1, f1, f2, f3⟩ := ih (fun c hc => hl c (by simp [List.flatten_append]; left; simpa using hc)) hs
      rw [hs] at he
      unfold mvMerge at he
      cases ht : mvThread n dep dem label p with
      | none => rw [ht] at he; simp at he
      | some kt =>
        obtain ⟨k, t2⟩ := kt
        rw [ht] at he
        cases he
        obtain ⟨t3, g1, g2, g3⟩ := mvThreadR_sim hR p (fun c hc => hl c (by simp [List.flatten_append, hc])) ht
        rw [e2, f1]
        unfold mvMergeR
        rw [g1]
        refine ⟨_, rfl, ?_, fun d => hR.add _ _ _ _ _ _ (f3 d) (g3 d)⟩
        funext d
        show t1.count d + t3.count d = _
        rw [f2, g2]

/-- What the run has computed for the depressions below `m`. -/
theorem calcTotalR_sim (hR : SumRel dem cells R) {t t' : Tally ℚ} (hc : t'.count = t.count)
    (ht : ∀ d, R (t.count d) (t.tot d) (t'.tot d)) {v : Vols ℚ} (he : calcTotal n dep t = some v) :
    ∃ v', calcTotalR n dep t' = some v' ∧ v'.count = v.count ∧ (∀ d, R (v.count d) (v.tot d) (v'.tot d)) ∧
      ∀ d, d < n → v'.vol d = volOfR (v.count d) (dep d).outElev (v'.tot d) := by
  have main : ∀ m, ∀ v, (List.range m).foldl (tvStep dep) (some ⟨t.count, t.tot, fun _ => none⟩) = some v →
      ∃ v', (List.range m).foldl (tvStepR dep) (some ⟨t'.count, t'.tot, fun _ => none⟩) = some v' ∧
        v'.count = v.count ∧ (∀ d, R (v.count d) (v.tot d) (v'.tot d)) ∧
        ∀ d, d < m → v'.vol d = volOfR (v.count d) (dep d).outElev (v'.tot d) := by
    intro m
    induction m with
    | zero =>
      intro v hv
      simp only [List.range_zero, List.foldl_nil, Option.some.injEq] at hv
      subst hv
      exact ⟨_, rfl, hc, ht, fun d hd => absurd hd (by omega)⟩
    | succ m ih =>
      intro v hv
      rw [List.range_succ, List.foldl_append] at hv ⊢
      simp only [List.foldl_cons, List.foldl_nil] at hv ⊢
      cases hs : (List.range m).foldl (tvStep dep) (some ⟨t.count, t.tot, fun _ => none⟩) with
      | none => rw [hs] at hv; simp [tvStep] at hv
      | some v0 =>
        obtain ⟨v1, f1, f2, f3, f4⟩ := ih v0 hs
        rw [hs] at hv
        rw [f1]
        unfold tvStep at hv
        unfold tvStepR
        dsimp only at hv ⊢
        cases hlc : (dep m).lchild with
        | none =>
          rw [hlc] at hv
          dsimp only at hv ⊢
          cases hv
          refine ⟨_, rfl, f2, f3, fun d hd => ?_⟩
          by_cases hdm : d = m
          · subst hdm
            show upd v1.vol d _ d = _
            rw [upd_same, f2]
          · show upd v1.vol m _ d = _
            rw [upd_ne _ _ _ hdm]
            exact f4 d (by omega)
        | some a =>
          rw [hlc] at hv
          dsimp only at hv ⊢
          cases hrc : (dep m).rchild with
          | none => rw [hrc] at hv; simp at hv
          | some b =>
            rw [hrc] at hv
            dsimp only at hv ⊢
            by_cases hab : ¬ (a < m ∧ b < m)
            · rw [if_pos hab] at hv; cases hv
            rw [if_neg hab] at hv ⊢
            split at hv
            swap
            · cases hv
            cases hv
            push Not at hab
            refine ⟨_, rfl, ?_, fun d => ?_, fun d hd => ?_⟩
            · rw [f2]
            · show R (upd v0.count m _ d) (upd v0.tot m _ d) (upd v1.tot m _ d)
              by_cases hdm : d = m
              · subst hdm
                rw [upd_same, upd_same, upd_same]
                exact hR.add _ _ _ _ _ _ (hR.add _ _ _ _ _ _ (f3 d) (f3 a)) (f3 b)
              · rw [upd_ne _ _ _ hdm, upd_ne _ _ _ hdm, upd_ne _ _ _ hdm]
                exact f3 d
            · show upd v1.vol m _ d = volOfR (upd v0.count m _ d) _ (upd v1.tot m _ d)
              by_cases hdm : d = m
              · subst hdm
                rw [upd_same, upd_same, upd_same, f2]
              · rw [upd_ne _ _ _ hdm, upd_ne _ _ _ hdm, upd_ne _ _ _ hdm]
                exact f4 d (by omega)
  exact main n v he

/-! ### The assertion -/

/-- common/math.hpp:22-24 (`fp_le`) on doubles, with the tolerance of math.hpp:15. -/
def fpLeD (a b : ℚ) : Bool := decide (a < b) || decide (|roundBits 53 (a - b)| < roundBits 53 (1 / 10 ^ 6))

/-- depression_hierarchy.hpp:896.  Simplified: an infinite volume fails the assertion. -/
def tvCheck (dep : Nat → Dep ℚ) (vol : Nat → Option ℚ) (d : Nat) : Bool :=
  match (dep d).lchild, (dep d).rchild with
  | none, _ => true
  | some a, some b =>
    match vol a, vol b, vol d with
    | some x, some y, some z => fpLeD (addD x y) z
    | _, _, _ => false
  | some _, none => false

/-- depression_hierarchy.hpp:877-897, with the assertion of line 896. -/
def tvStepC (dep : Nat → Dep ℚ) (v : Option (Vols ℚ)) (d : Nat) : Option (Vols ℚ) :=
  match tvStepR dep v d with
  | none => none
  | some v' => if tvCheck dep v'.vol d then some v' else none

/-- depression_hierarchy.hpp:871-900 (`CalculateTotalVolumes`) with assertions enabled. -/
def calcTotalC (n : Nat) (dep : Nat → Dep ℚ) (t : Tally ℚ) : Option (Vols ℚ) :=
  (List.range n).foldl (tvStepC dep) (some ⟨t.count, t.tot, fun _ => none⟩)

theorem tvStepR_some {v : Option (Vols ℚ)} {d : Nat} {v' : Vols ℚ} (he : tvStepR dep v d = some v') :
    ∃ v0, v = some v0 ∧ (∀ e, e ≠ d → v'.vol e = v0.vol e) ∧
      ((dep d).lchild = none ∨ ∃ a b, (dep d).lchild = some a ∧ (dep d).rchild = some b ∧ a < d ∧ b < d) := by
  unfold tvStepR at he
  cases v with
  | none => cases he
  | some v0 =>
    dsimp only at he
    refine ⟨v0, rfl, ?_⟩
    cases hl : (dep d).lchild with
    | none =>
      rw [hl] at he
      cases he
      exact ⟨fun e hne => upd_ne _ _ _ hne, Or.inl rfl⟩
    | some a =>
      rw [hl] at he
      dsimp only at he
      cases hr : (dep d).rchild with
      | none => rw [hr] at he; cases he
      | some b =>
        rw [hr] at he
        dsimp only at he
        by_cases hab : ¬ (a < d ∧ b < d)
        · rw [if_pos hab] at he; cases he
        rw [if_neg hab] at he
        cases he
        push Not at hab
        exact ⟨fun e hne => upd_ne _ _ _ hne, Or.inr ⟨a, b, rfl, rfl, hab.1, hab.2⟩⟩

/-- The volumes of a part of the run are final. -/
theorem calcTotalR_prefix (t : Tally ℚ) (m k : Nat) {v : Vols ℚ}
    (he : (List.range (m + k)).foldl (tvStepR dep) (some ⟨t.count, t.tot, fun _ => none⟩) = some v) :
    ∃ v0, (List.range m).foldl (tvStepR dep) (some ⟨t.count, t.tot, fun _ => none⟩) = some v0 ∧
      ∀ d, d < m → v0.vol d = v.vol d := by
  induction k generalizing v with
  | zero => exact ⟨v, he, fun _ _ => rfl⟩
  | succ k ih =>
    rw [← Nat.add_assoc, List.range_succ, List.foldl_append, List.foldl_cons, List.foldl_nil] at he
    obtain ⟨v1, h1, h2, -⟩ := tvStepR_some he
    obtain ⟨v0, g1, g2⟩ := ih h1
    exact ⟨v0, g1, fun d hd => (g2 d hd).trans (h2 d (by omega)).symm⟩

/-- The assertions change nothing if they hold of the final volumes. -/
theorem calcTotalC_eq {t : Tally ℚ} {v : Vols ℚ} (he : calcTotalR n dep t = some v)
    (hok : ∀ d, d < n → tvCheck dep v.vol d = true) : calcTotalC n dep t = some v := by
  have main : ∀ m, m ≤ n → (List.range m).foldl (tvStepC dep) (some ⟨t.count, t.tot, fun _ => none⟩) =
      (List.range m).foldl (tvStepR dep) (some ⟨t.count, t.tot, fun _ => none⟩) := by
    intro m
    induction m with
    | zero => intro _; rfl
    | succ m ih =>
      intro hm
      rw [List.range_succ, List.foldl_append, List.foldl_append, ih (by omega), List.foldl_cons, List.foldl_nil,
        List.foldl_cons, List.foldl_nil]
      obtain ⟨v1, h1, h2⟩ := calcTotalR_prefix (dep := dep) t (m + 1) (n - (m + 1)) (v := v)
        (by rw [Nat.add_sub_cancel' hm]; exact he)
      rw [List.range_succ, List.foldl_append, List.foldl_cons, List.foldl_nil] at h1
      unfold tvStepC
      rw [h1]
      dsimp only
      have hc : tvCheck dep v1.vol m = true := by
        rw [← hok m (by omega)]
        obtain ⟨-, -, -, hch⟩ := tvStepR_some h1
        unfold tvCheck
        rcases hch with hl | ⟨a, b, hl, hr, ha, hb⟩
        · rw [hl]
        · rw [hl, hr]
          dsimp only
          rw [h2 a (by omega), h2 b (by omega), h2 m (by omega)]
      rw [if_pos hc]
  unfold calcTotalC
  rw [main n le_rfl]
  exact he

theorem tvStepC_some {v : Option (Vols ℚ)} {d : Nat} {v' : Vols ℚ} (he : tvStepC dep v d = some v') :
    tvStepR dep v d = some v' ∧ tvCheck dep v'.vol d = true := by
  unfold tvStepC at he
  cases hs : tvStepR dep v d with
  | none => rw [hs] at he; cases he
  | some v1 =>
    rw [hs] at he
    dsimp only at he
    split at he
    · next hc => cases he; exact ⟨rfl, hc⟩
    · cases he

/-- With assertions the run computes the same or fails. -/
theorem calcTotalC_le {t : Tally ℚ} {v : Vols ℚ} (he : calcTotalC n dep t = some v) : calcTotalR n dep t = some v := by
  have main : ∀ m v, (List.range m).foldl (tvStepC dep) (some ⟨t.count, t.tot, fun _ => none⟩) = some v →
      (List.range m).foldl (tvStepR dep) (some ⟨t.count, t.tot, fun _ => none⟩) = some v := by
    intro m
    induction m with
    | zero => intro v hv; exact hv
    | succ m ih =>
      intro v hv
      rw [List.range_succ, List.foldl_append, List.foldl_cons, List.foldl_nil] at hv ⊢
      obtain ⟨hs, -⟩ := tvStepC_some hv
      obtain ⟨v0, h0, -⟩ := tvStepR_some hs
      rw [ih v0 h0, ← h0]
      exact hs
  exact main n v he

end RichDEM
