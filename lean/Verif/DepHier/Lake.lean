/-
Model of `FillDepressions`, `DepressionVolume`, `DetermineWaterLevel` and `BackfillDepression`
(include/richdem/depressions/fill_spill_merge.hpp:775-1058): spreading the water of a
depression over its cells.  Arithmetic is exact (the code uses `double`).
-/
import Verif.DepHier.Move
import Mathlib.Algebra.Order.Field.Basic
import Mathlib.Algebra.BigOperators.Group.Finset.Basic
import Mathlib.Tactic.Linarith
import Mathlib.Tactic.FieldSimp

namespace RichDEM

variable {E : Type} [Field E] [LinearOrder E]

/-- common/math.hpp:32-34: `fp_eq`. -/
def nearEq (eps a b : E) : Bool := decide (|a - b| < eps)
/-- common/math.hpp:22-24: `fp_le`. -/
def nearLe (eps a b : E) : Bool := decide (a < b) || nearEq eps a b
/-- common/math.hpp:27-29: `fp_ge`. -/
def nearGe (eps a b : E) : Bool := decide (b < a) || nearEq eps a b

/-- fill_spill_merge.hpp:938-945: `DepressionVolume`. -/
def depVol (sill : E) (n : Nat) (tot : E) : E := n * sill - tot

/-- fill_spill_merge.hpp:1001-1046: `DetermineWaterLevel`.  Returns the water level and the new
water table depth of the sill; `none` is a failed assertion. -/
def waterLevel (eps sillWtd v sill : E) (n : Nat) (tot : E) : Option (E × E) :=
  let cur := depVol sill n tot
  if cur < v then
    let v1 := if nearEq eps v cur then cur else v
    if nearLe eps v1 (cur - sillWtd) = false then none
    else
      let fill := v1 - cur
      if fill < 0 ∨ -sillWtd < fill then none
      else some (sill, sillWtd + fill)
  else if nearEq eps v cur then some (sill, sillWtd)
  else
    let nominal := (v + tot) / n
    if nearEq eps nominal sill then some (sill, sillWtd) else some (nominal, sillWtd)

/-- fill_spill_merge.hpp:954-983: `BackfillDepression`; `none` is a failed assertion. -/
def backfill (eps level : E) (dem : Cell → E) : List Cell → (Cell → E) → Option (Cell → E)
  | [], wtd => some wtd
  | c :: l, wtd =>
    if wtd c ≠ 0 then none
    else if level < dem c ∧ nearGe eps level (dem c) = false then none
    else backfill eps level dem l (Function.update wtd c (max 0 (level - dem c)))

/-- The local variables of `FillDepressions`. -/
structure Lake (E : Type) where
  q : List (E × Cell)
  vis : Cell → Bool
  aff : List Cell
  tot : E
  v : E
  wtd : Cell → E

/-- fill_spill_merge.hpp:872: the last cell that joined the lake lies above the water level. -/
def lakeLastBad (eps level : E) (dem : Cell → E) (aff : List Cell) : Bool :=
  match aff.getLast? with
  | none => false
  | some a => !nearLe eps (dem a) level

/-- fill_spill_merge.hpp:866-881: enough room was found below cell `c`. -/
def lakeStop (eps : E) (dem : Cell → E) (out c : Cell) (s : Lake E) : Option (Cell → E) :=
  match waterLevel eps (s.wtd c) s.v (dem c) s.aff.length s.tot with
  | none => none
  | some (lv, sw) =>
    let level := if nearEq eps lv (dem out) then dem out else lv
    if lakeLastBad eps level dem s.aff = true then none
    else if ¬ (level < dem c) ∧ nearEq eps (dem c) level = false then none
    else backfill eps level dem s.aff (Function.update s.wtd c sw)

/-- `dep_labels.count(label(q))==1`. -/
def inLabs (label : Cell → Option Nat) (labs : Nat → Bool) (q : Cell) : Bool :=
  match label q with
  | some l => labs l
  | none => false

/-- fill_spill_merge.hpp:901-924: one neighbour. -/
def lakeNbr (pq : PQ (E × Cell) zLt) (w h : Nat) (dem : Cell → E) (label : Cell → Option Nat)
    (labs : Nat → Bool) (out : Cell) (s : Lake E) (q : Cell) : Lake E :=
  if inGrid w h q = false then s
  else if inLabs label labs q = false ∧ q ≠ out then s
  else if dem out < dem q then s
  else if s.vis q then s
  else { s with q := pq.push (dem q, q) s.q, vis := Function.update s.vis q true }

/-- fill_spill_merge.hpp:887-898: the cell joins the lake unless it is the outlet. -/
def lakeAdd (dem : Cell → E) (out c : Cell) (s : Lake E) : Lake E :=
  if c = out then s
  else { s with aff := s.aff ++ [c], v := s.v + s.wtd c, wtd := Function.update s.wtd c 0,
                tot := s.tot + dem c }

/-- fill_spill_merge.hpp:926-936: re-add the outlet if the queue has run dry. -/
def lakeRefill (pq : PQ (E × Cell) zLt) (dem : Cell → E) (out : Cell) (s : Lake E) : Lake E :=
  if s.q = [] then { s with q := pq.push (dem out, out) s.q, vis := Function.update s.vis out true }
  else s

/-- fill_spill_merge.hpp:831-944: the loop, at most `f` iterations. -/
def lakeRun (pq : PQ (E × Cell) zLt) (w h : Nat) (dem : Cell → E) (label : Cell → Option Nat)
    (labs : Nat → Bool) (eps : E) (out : Cell) : Nat → Lake E → FRes (Cell → E)
  | 0, _ => .deep
  | f + 1, s =>
    match pq.pop s.q with
    | none => .fail
    | some (e, q) =>
      let c := e.2
      if s.v < 0 then .fail
      else if inLabs label labs c = true ∧ 0 < s.wtd c then .fail
      else if nearLe eps s.v (depVol (dem c) s.aff.length s.tot - s.wtd c) then
        match lakeStop eps dem out c s with
        | none => .fail
        | some wtd => .ok wtd
      else if c ≠ out ∧ 0 < s.wtd c then .fail
      else
        lakeRun pq w h dem label labs eps out f
          (lakeRefill pq dem out
            ((dirs .D8).foldl (fun s n => lakeNbr pq w h dem label labs out s (nbr .D8 c n))
              (lakeAdd dem out c { s with q := q })))

/-- fill_spill_merge.hpp:775-944: `FillDepressions`; `v` is `water_vol`. -/
def fillDep (pq : PQ (E × Cell) zLt) (w h : Nat) (dem : Cell → E) (label : Cell → Option Nat)
    (labs : Nat → Bool) (eps : E) (f : Nat) (pit out : Cell) (v : E) (wtd : Cell → E) :
    FRes (Cell → E) :=
  if v = 0 then .ok wtd
  else lakeRun pq w h dem label labs eps out f
    ⟨pq.push (dem pit, pit) [], Function.update (fun _ => false) pit true, [], 0, v, wtd⟩

/-! ### Spreading the water -/

variable [IsStrictOrderedRing E]

theorem nearEq_iff {eps a b : E} : nearEq eps a b = true ↔ a - b < eps ∧ b - a < eps := by
  unfold nearEq
  rw [decide_eq_true_iff, abs_lt]
  constructor
  · rintro ⟨h1, h2⟩; exact ⟨h2, by linarith⟩
  · rintro ⟨h1, h2⟩; exact ⟨by linarith, h1⟩

theorem nearLe_iff {eps a b : E} (he : 0 < eps) : nearLe eps a b = true ↔ a < b + eps := by
  unfold nearLe
  rw [Bool.or_eq_true, decide_eq_true_iff, nearEq_iff]
  constructor
  · rintro (h | ⟨h1, h2⟩) <;> linarith
  · intro h
    by_cases hab : a < b
    · exact Or.inl hab
    · exact Or.inr ⟨by linarith, by linarith⟩

theorem nearGe_iff {eps a b : E} (he : 0 < eps) : nearGe eps a b = true ↔ b < a + eps := by
  unfold nearGe
  rw [Bool.or_eq_true, decide_eq_true_iff, nearEq_iff]
  constructor
  · rintro (h | ⟨h1, h2⟩) <;> linarith
  · intro h
    by_cases hab : b < a
    · exact Or.inl hab
    · exact Or.inr ⟨by linarith, by linarith⟩

/-- The lake-level equation: the water below the returned level, plus what went into the sill's
water table, is the given volume, up to the tolerance. -/
theorem waterLevel_spec {eps sw v sill tot lv sw' : E} {n : Nat} (he : 0 < eps) (hv : 0 ≤ v)
    (h0 : n = 0 → tot = 0) (h : waterLevel eps sw v sill n tot = some (lv, sw')) :
    lv ≤ sill ∧ sw ≤ sw' ∧ (sw' = sw ∨ sw' ≤ 0) ∧
    |(n * lv - tot) + (sw' - sw) - v| ≤ eps * (n + 1) ∧ (n = 0 → lv = sill) ∧
    (lv = sill ∨ (sw' = sw ∧ n * lv = v + tot)) := by
  have hn : (0 : E) ≤ n := Nat.cast_nonneg n
  unfold waterLevel depVol at h
  simp only at h
  set cur := (n : E) * sill - tot with hcur
  by_cases hlt : cur < v
  · rw [if_pos hlt] at h
    set v1 := if nearEq eps v cur = true then cur else v with hv1
    by_cases h1 : nearLe eps v1 (cur - sw) = false
    · rw [if_pos h1] at h; cases h
    rw [if_neg h1] at h
    by_cases h2 : v1 - cur < 0 ∨ -sw < v1 - cur
    · rw [if_pos h2] at h; cases h
    rw [if_neg h2] at h
    push Not at h2
    cases h
    refine ⟨le_rfl, by linarith [h2.1], Or.inr (by linarith [h2.2]), ?_, fun _ => rfl, Or.inl rfl⟩
    have hd : |v1 - v| ≤ eps := by
      rw [hv1]
      split
      · next hq =>
        obtain ⟨k1, k2⟩ := nearEq_iff.1 hq
        rw [abs_le]; constructor <;> linarith
      · simpa using he.le
    have e : (n : E) * sill - tot + (sw + (v1 - cur) - sw) - v = v1 - v := by rw [hcur]; ring
    rw [e]
    nlinarith
  · rw [if_neg hlt] at h
    by_cases hq : nearEq eps v cur = true
    · rw [if_pos hq] at h
      obtain ⟨k1, k2⟩ := nearEq_iff.1 hq
      cases h
      refine ⟨le_rfl, le_rfl, Or.inl rfl, ?_, fun _ => rfl, Or.inl rfl⟩
      rw [abs_le]; constructor <;> nlinarith
    · rw [if_neg hq] at h
      have hp : (0 : E) < n := by
        rcases lt_or_eq_of_le hn with h | h
        · exact h
        · exfalso
          apply hq
          have hz : n = 0 := by exact_mod_cast h.symm
          have : cur = 0 := by rw [hcur, ← h, h0 hz]; ring
          rw [this] at hlt ⊢
          have : v = 0 := le_antisymm (not_lt.1 hlt) hv
          rw [this, nearEq_iff]; constructor <;> linarith
      have hp' : n ≠ 0 := by rintro rfl; simp at hp
      have e : (n : E) * ((v + tot) / n) = v + tot := mul_div_cancel₀ _ hp.ne'
      by_cases hs : nearEq eps ((v + tot) / n) sill = true
      · rw [if_pos hs] at h
        obtain ⟨k1, k2⟩ := nearEq_iff.1 hs
        cases h
        refine ⟨le_rfl, le_rfl, Or.inl rfl, ?_, fun _ => rfl, Or.inl rfl⟩
        rw [abs_le]; constructor <;> nlinarith
      · rw [if_neg hs] at h
        cases h
        refine ⟨?_, le_rfl, Or.inl rfl, ?_, fun h => absurd h hp', Or.inr ⟨rfl, e⟩⟩
        · rw [div_le_iff₀ hp]; rw [hcur] at hlt; linarith
        · rw [e]; simp only [sub_self, add_zero]
          have : v + tot - tot - v = 0 := by ring
          rw [this, abs_zero]; positivity

omit [IsStrictOrderedRing E] in
/-- What `BackfillDepression` leaves behind. -/
theorem backfill_spec {eps level : E} {dem : Cell → E} : ∀ (l : List Cell) (wtd wtd' : Cell → E), l.Nodup →
    backfill eps level dem l wtd = some wtd' →
    (∀ c ∈ l, wtd c = 0 ∧ wtd' c = max 0 (level - dem c) ∧
      (level < dem c → nearGe eps level (dem c) = true)) ∧ ∀ c, c ∉ l → wtd' c = wtd c := by
  intro l
  induction l with
  | nil => intro wtd wtd' _ h; simp only [backfill] at h; cases h; simp
  | cons c l ih =>
    intro wtd wtd' hnd h
    obtain ⟨hc, hnd⟩ := List.nodup_cons.1 hnd
    simp only [backfill] at h
    by_cases h0 : wtd c ≠ 0
    · rw [if_pos h0] at h; cases h
    rw [if_neg h0] at h
    by_cases h1 : level < dem c ∧ nearGe eps level (dem c) = false
    · rw [if_pos h1] at h; cases h
    rw [if_neg h1] at h
    obtain ⟨k1, k2⟩ := ih _ _ hnd h
    refine ⟨?_, ?_⟩
    · intro d hd
      rcases List.mem_cons.1 hd with rfl | hdl
      · refine ⟨not_not.1 h0, ?_, ?_⟩
        · rw [k2 d hc]; simp
        · intro hlt
          by_contra hn
          exact h1 ⟨hlt, by simpa using hn⟩
      · have hne : d ≠ c := by rintro rfl; exact hc hdl
        obtain ⟨a, b, e⟩ := k1 d hdl
        exact ⟨by simpa [hne] using a, b, e⟩
    · intro d hd
      rw [List.mem_cons, not_or] at hd
      rw [k2 d hd.2]; simp [hd.1]

/-- The sum of clipped depths is close to the sum of depths. -/
theorem sum_depth {eps level lv : E} {dem : Cell → E} (l : List Cell) (h : ∀ c ∈ l, dem c ≤ level + eps)
    (hl : |level - lv| ≤ eps) (he : 0 < eps) :
    |(l.map (fun c => max 0 (level - dem c))).sum - (l.length * lv - (l.map dem).sum)| ≤ 2 * eps * l.length := by
  induction l with
  | nil => simp
  | cons c l ih =>
    have ih := ih (fun d hd => h d (List.mem_cons_of_mem _ hd))
    have hc := h c List.mem_cons_self
    rw [abs_le] at ih hl ⊢
    simp only [List.map_cons, List.sum_cons, List.length_cons, Nat.cast_add, Nat.cast_one]
    have h1 : max 0 (level - dem c) - (lv - dem c) ≤ 2 * eps := by
      rcases max_cases 0 (level - dem c) with ⟨e, _⟩ | ⟨e, _⟩ <;> rw [e] <;> linarith [hl.1, hl.2]
    have h2 : -(2 * eps) ≤ max 0 (level - dem c) - (lv - dem c) := by
      have := le_max_right 0 (level - dem c)
      linarith [hl.1, hl.2]
    constructor <;> nlinarith [ih.1, ih.2]

/-- What the return branch of `FillDepressions` does. -/
theorem lakeStop_spec {eps : E} {dem : Cell → E} {out c : Cell} {s : Lake E} {wtd' : Cell → E}
    (he : 0 < eps) (hv : 0 ≤ s.v) (hnd : s.aff.Nodup) (hc : c ∉ s.aff) (htot : s.tot = (s.aff.map dem).sum)
    (h : lakeStop eps dem out c s = some wtd') :
    ∃ level, (level ≤ dem c + eps ∧ (dem c ≤ dem out → level ≤ dem out)) ∧
      (∀ a ∈ s.aff, s.wtd a = 0 ∧ dem a ≤ level + eps ∧ wtd' a = max 0 (level - dem a)) ∧
      s.wtd c ≤ wtd' c ∧ (wtd' c = s.wtd c ∨ wtd' c ≤ 0) ∧
      (∀ q, q ∉ s.aff → q ≠ c → wtd' q = s.wtd q) ∧
      |(s.aff.map wtd').sum + (wtd' c - s.wtd c) - s.v| ≤ 3 * eps * (s.aff.length + 1) := by
  unfold lakeStop at h
  cases hw : waterLevel eps (s.wtd c) s.v (dem c) s.aff.length s.tot with
  | none => rw [hw] at h; cases h
  | some r =>
    obtain ⟨lv, sw⟩ := r
    rw [hw] at h
    simp only at h
    obtain ⟨w1, w2, w3, w4, _⟩ := waterLevel_spec he hv (fun h0 => by
      rw [htot, List.length_eq_zero_iff.1 h0]; rfl) hw
    set level := if nearEq eps lv (dem out) = true then dem out else lv with hlevel
    have hll : |level - lv| ≤ eps := by
      rw [hlevel]
      split
      · next hq =>
        obtain ⟨k1, k2⟩ := nearEq_iff.1 hq
        rw [abs_le]; constructor <;> linarith
      · simpa using he.le
    by_cases a1 : lakeLastBad eps level dem s.aff = true
    · rw [if_pos a1] at h; cases h
    rw [if_neg a1] at h
    by_cases a2 : ¬ (level < dem c) ∧ nearEq eps (dem c) level = false
    · rw [if_pos a2] at h; cases h
    rw [if_neg a2] at h
    obtain ⟨b1, b2⟩ := backfill_spec _ _ _ hnd h
    have hlc : level ≤ dem c + eps := by
      by_cases hl : level < dem c
      · linarith
      · have : nearEq eps (dem c) level = true := by
          by_contra hn
          exact a2 ⟨hl, by simpa using hn⟩
        have := nearEq_iff.1 this
        linarith [this.2]
    have hwc : wtd' c = sw := by rw [b2 c hc]; simp
    have hle : ∀ a ∈ s.aff, dem a ≤ level + eps := by
      intro a ha
      by_cases hl : level < dem a
      · exact ((nearGe_iff he).1 ((b1 a ha).2.2 hl)).le
      · push Not at hl; linarith
    have hlo : dem c ≤ dem out → level ≤ dem out := by
      intro hco
      rw [hlevel]
      split
      · exact le_rfl
      · exact w1.trans hco
    refine ⟨level, ⟨hlc, hlo⟩, ?_, ?_, ?_, ?_, ?_⟩
    · intro a ha
      have hne : a ≠ c := by rintro rfl; exact hc ha
      exact ⟨by simpa [hne] using (b1 a ha).1, hle a ha, (b1 a ha).2.1⟩
    · rw [hwc]; exact w2
    · rw [hwc]; exact w3
    · intro q hq hqc; rw [b2 q hq]; simp [hqc]
    · have e1 : (s.aff.map wtd').sum = (s.aff.map (fun c => max 0 (level - dem c))).sum := by
        congr 1; exact List.map_congr_left (fun a ha => (b1 a ha).2.1)
      have e2 := sum_depth s.aff hle hll he
      rw [hwc, e1]
      rw [← htot] at e2
      rw [abs_le] at e2 w4 ⊢
      have hn : (0 : E) ≤ s.aff.length := Nat.cast_nonneg _
      constructor <;> nlinarith [e2.1, e2.2, w4.1, w4.2]

/-! ### The loop -/

section loop
variable {pq : PQ (E × Cell) zLt} {w h : Nat} {dem : Cell → E} {label : Cell → Option Nat}
  {labs : Nat → Bool} {eps : E} {out : Cell}

/-- The cells over which the water may be spread. -/
def Reg (w h : Nat) (dem : Cell → E) (label : Cell → Option Nat) (labs : Nat → Bool) (out q : Cell) : Prop :=
  InGrid w h q ∧ inLabs label labs q = true ∧ dem q ≤ dem out ∧ q ≠ out

structure LakeInv (w h : Nat) (dem : Cell → E) (label : Cell → Option Nat) (labs : Nat → Bool) (out : Cell)
    (w0 : Cell → E) (v0 : E) (s : Lake E) : Prop where
  nd : s.aff.Nodup
  reg : ∀ a ∈ s.aff, Reg w h dem label labs out a ∧ s.vis a = true ∧ s.wtd a = 0 ∧ w0 a ≤ 0
  tot : s.tot = (s.aff.map dem).sum
  v : s.v = v0 + (s.aff.map w0).sum
  oth : ∀ q, q ∉ s.aff → s.wtd q = w0 q
  qn : (s.q.map Prod.snd).Nodup
  qok : ∀ e ∈ s.q, e.1 = dem e.2 ∧ s.vis e.2 = true ∧ e.2 ∉ s.aff ∧
    (Reg w h dem label labs out e.2 ∨ e.2 = out)

/-- The cell has been taken from the queue. -/
def Popped (out : Cell) (s : Lake E) (op : Bool) (q : Cell) : Prop := q ∈ s.aff ∨ (q = out ∧ op = true)

structure LakeFront (w h : Nat) (dem : Cell → E) (label : Cell → Option Nat) (labs : Nat → Bool)
    (out pit : Cell) (s : Lake E) (op : Bool) (cur : Option Cell) : Prop where
  pitVis : s.vis pit = true
  outVis : op = true → s.vis out = true
  front : ∀ q, s.vis q = true → Popped out s op q ∨ (dem q, q) ∈ s.q
  nbrs : ∀ a, Popped out s op a → cur ≠ some a → ∀ b, Adj .D8 a b → InGrid w h b →
    (Reg w h dem label labs out b ∨ b = out) → s.vis b = true

omit [IsStrictOrderedRing E] in
theorem lakeNbr_same (s : Lake E) (q : Cell) :
    (lakeNbr pq w h dem label labs out s q).aff = s.aff ∧
    (lakeNbr pq w h dem label labs out s q).tot = s.tot ∧
    (lakeNbr pq w h dem label labs out s q).v = s.v ∧
    (lakeNbr pq w h dem label labs out s q).wtd = s.wtd ∧
    (∀ p, s.vis p = true → (lakeNbr pq w h dem label labs out s q).vis p = true) := by
  unfold lakeNbr
  split
  · exact ⟨rfl, rfl, rfl, rfl, fun _ h => h⟩
  split
  · exact ⟨rfl, rfl, rfl, rfl, fun _ h => h⟩
  split
  · exact ⟨rfl, rfl, rfl, rfl, fun _ h => h⟩
  split
  · exact ⟨rfl, rfl, rfl, rfl, fun _ h => h⟩
  · refine ⟨rfl, rfl, rfl, rfl, fun p hp => ?_⟩
    show Function.update s.vis q true p = true
    by_cases h : p = q
    · subst h; simp
    · simpa [h] using hp

omit [IsStrictOrderedRing E] in
theorem lakeNbr_inv {w0 : Cell → E} {v0 : E} {s : Lake E} (q : Cell)
    (I : LakeInv w h dem label labs out w0 v0 s) (F : ∀ e, s.vis e = false → e ∉ s.q.map Prod.snd) :
    LakeInv w h dem label labs out w0 v0 (lakeNbr pq w h dem label labs out s q) ∧
    (∀ e, (lakeNbr pq w h dem label labs out s q).vis e = false →
      e ∉ (lakeNbr pq w h dem label labs out s q).q.map Prod.snd) := by
  have hs := lakeNbr_same (pq := pq) (w := w) (h := h) (dem := dem) (label := label) (labs := labs) (out := out) s q
  unfold lakeNbr at hs ⊢
  by_cases h1 : inGrid w h q = false
  · rw [if_pos h1]; exact ⟨I, F⟩
  rw [if_neg h1] at hs ⊢
  by_cases h2 : inLabs label labs q = false ∧ q ≠ out
  · rw [if_pos h2]; exact ⟨I, F⟩
  rw [if_neg h2] at hs ⊢
  by_cases h3 : dem out < dem q
  · rw [if_pos h3]; exact ⟨I, F⟩
  rw [if_neg h3] at hs ⊢
  by_cases h4 : s.vis q = true
  · rw [if_pos h4]; exact ⟨I, F⟩
  rw [if_neg h4] at hs ⊢
  have hg : InGrid w h q := by
    rw [← inGrid_iff]; simpa using h1
  have hR : Reg w h dem label labs out q ∨ q = out := by
    by_cases ho : q = out
    · exact Or.inr ho
    · refine Or.inl ⟨hg, ?_, not_lt.1 h3, ho⟩
      by_contra hn
      exact h2 ⟨by simpa using hn, ho⟩
  have hqa : q ∉ s.aff := fun ha => h4 (I.reg q ha).2.1
  refine ⟨⟨I.nd, ?_, I.tot, I.v, I.oth, ?_, ?_⟩, ?_⟩
  · intro a ha
    obtain ⟨a1, a2, a3⟩ := I.reg a ha
    exact ⟨a1, hs.2.2.2.2 a a2, a3⟩
  · have hp := (pq.push_perm (dem q, q) s.q).map Prod.snd
    show ((pq.push (dem q, q) s.q).map Prod.snd).Nodup
    rw [hp.nodup_iff]
    exact List.nodup_cons.2 ⟨F q (by simpa using h4), I.qn⟩
  · intro e he
    rcases pq.mem_push.1 he with rfl | he
    · exact ⟨rfl, by show Function.update s.vis q true q = true; simp, hqa, hR⟩
    · obtain ⟨e1, e2, e3, e4⟩ := I.qok e he
      exact ⟨e1, hs.2.2.2.2 _ e2, e3, e4⟩
  · intro e he
    have he' : Function.update s.vis q true e = false := he
    have hne : e ≠ q := by rintro rfl; simp at he'
    rw [Function.update_of_ne hne] at he'
    intro hm
    have hm' : e ∈ (pq.push (dem q, q) s.q).map Prod.snd := hm
    rw [((pq.push_perm (dem q, q) s.q).map Prod.snd).mem_iff] at hm'
    rcases List.mem_cons.1 hm' with h | h
    · exact hne h
    · exact F e he' h

omit [IsStrictOrderedRing E] in
theorem lakeNbr_front {pit : Cell} {op : Bool} {cur : Option Cell} {s : Lake E} (q : Cell)
    (F : LakeFront w h dem label labs out pit s op cur) :
    LakeFront w h dem label labs out pit (lakeNbr pq w h dem label labs out s q) op cur ∧
    (InGrid w h q → (Reg w h dem label labs out q ∨ q = out) →
      (lakeNbr pq w h dem label labs out s q).vis q = true) := by
  unfold lakeNbr
  by_cases h1 : inGrid w h q = false
  · rw [if_pos h1]; exact ⟨F, fun hg => absurd hg (inGrid_false.1 h1)⟩
  rw [if_neg h1]
  by_cases h2 : inLabs label labs q = false ∧ q ≠ out
  · rw [if_pos h2]
    refine ⟨F, fun _ hR => ?_⟩
    rcases hR with hR | hR
    · rw [hR.2.1] at h2; exact absurd h2.1 (by simp)
    · exact absurd hR h2.2
  rw [if_neg h2]
  by_cases h3 : dem out < dem q
  · rw [if_pos h3]
    refine ⟨F, fun _ hR => ?_⟩
    rcases hR with hR | hR
    · exact absurd h3 (not_lt.2 hR.2.2.1)
    · subst hR; exact absurd h3 (lt_irrefl _)
  rw [if_neg h3]
  by_cases h4 : s.vis q = true
  · rw [if_pos h4]; exact ⟨F, fun _ _ => h4⟩
  rw [if_neg h4]
  have mono : ∀ p, s.vis p = true → Function.update s.vis q true p = true := by
    intro p hp
    by_cases h : p = q
    · subst h; simp
    · simpa [h] using hp
  refine ⟨⟨mono _ F.pitVis, fun ho => mono _ (F.outVis ho), ?_, ?_⟩, fun _ _ => ?_⟩
  · intro p hp
    have hp' : Function.update s.vis q true p = true := hp
    by_cases h : p = q
    · subst h; exact Or.inr (pq.mem_push.2 (Or.inl rfl))
    · rw [Function.update_of_ne h] at hp'
      rcases F.front p hp' with h1 | h1
      · exact Or.inl h1
      · exact Or.inr (pq.mem_push.2 (Or.inr h1))
  · intro a ha hc b hab hb hR
    exact mono _ (F.nbrs a ha hc b hab hb hR)
  · show Function.update s.vis q true q = true; simp

omit [IsStrictOrderedRing E] in
/-- All neighbours. -/
theorem lakeNbrs_inv {w0 : Cell → E} {v0 : E} {s : Lake E} (l : List Cell)
    (I : LakeInv w h dem label labs out w0 v0 s) (F : ∀ e, s.vis e = false → e ∉ s.q.map Prod.snd) :
    let s' := l.foldl (fun s q => lakeNbr pq w h dem label labs out s q) s
    LakeInv w h dem label labs out w0 v0 s' ∧ (∀ e, s'.vis e = false → e ∉ s'.q.map Prod.snd) ∧
    s'.aff = s.aff ∧ s'.tot = s.tot ∧ s'.v = s.v ∧ s'.wtd = s.wtd := by
  induction l generalizing s with
  | nil => exact ⟨I, F, rfl, rfl, rfl, rfl⟩
  | cons q l ih =>
    obtain ⟨I', F'⟩ := lakeNbr_inv (pq := pq) q I F
    obtain ⟨a1, a2, a3, a4, _⟩ := lakeNbr_same (pq := pq) (w := w) (h := h) (dem := dem) (label := label)
      (labs := labs) (out := out) s q
    obtain ⟨b1, b2, b3, b4, b5, b6⟩ := ih I' F'
    exact ⟨b1, b2, b3.trans a1, b4.trans a2, b5.trans a3, b6.trans a4⟩

omit [IsStrictOrderedRing E] in
theorem lakeNbrs_new {s : Lake E} (l : List Cell) {x : E × Cell}
    (hx : x ∈ (l.foldl (fun s q => lakeNbr pq w h dem label labs out s q) s).q) :
    x ∈ s.q ∨ s.vis x.2 = false := by
  induction l generalizing s with
  | nil => exact Or.inl hx
  | cons q l ih =>
    rw [List.foldl_cons] at hx
    have hm := (lakeNbr_same (pq := pq) (w := w) (h := h) (dem := dem) (label := label)
      (labs := labs) (out := out) s q).2.2.2.2
    rcases ih hx with h1 | h1
    · unfold lakeNbr at h1
      split at h1
      · exact Or.inl h1
      split at h1
      · exact Or.inl h1
      split at h1
      · exact Or.inl h1
      split at h1
      · exact Or.inl h1
      · next hv =>
        rcases pq.mem_push.1 h1 with rfl | h1
        · exact Or.inr (by simpa using hv)
        · exact Or.inl h1
    · right
      by_contra hv
      rw [hm x.2 (by simpa using hv)] at h1
      cases h1

omit [IsStrictOrderedRing E] in
theorem lakeNbrs_front {pit : Cell} {op : Bool} {cur : Option Cell} {s : Lake E} (l : List Cell)
    (F : LakeFront w h dem label labs out pit s op cur) :
    let s' := l.foldl (fun s q => lakeNbr pq w h dem label labs out s q) s
    LakeFront w h dem label labs out pit s' op cur ∧ (∀ p, s.vis p = true → s'.vis p = true) ∧
    ∀ q ∈ l, InGrid w h q → (Reg w h dem label labs out q ∨ q = out) → s'.vis q = true := by
  induction l generalizing s with
  | nil => exact ⟨F, fun _ h => h, by simp⟩
  | cons q l ih =>
    obtain ⟨F', hq⟩ := lakeNbr_front (pq := pq) q F
    have hm := (lakeNbr_same (pq := pq) (w := w) (h := h) (dem := dem) (label := label)
      (labs := labs) (out := out) s q).2.2.2.2
    obtain ⟨b1, b2, b3⟩ := ih F'
    refine ⟨b1, fun p hp => b2 p (hm p hp), ?_⟩
    intro p hp hg hR
    rcases List.mem_cons.1 hp with rfl | hp
    · exact b2 _ (hq hg hR)
    · exact b3 p hp hg hR

/-- The next state of the loop. -/
def lakeNext (pq : PQ (E × Cell) zLt) (w h : Nat) (dem : Cell → E) (label : Cell → Option Nat)
    (labs : Nat → Bool) (out c : Cell) (q : List (E × Cell)) (s : Lake E) : Lake E :=
  lakeRefill pq dem out
    ((dirs .D8).foldl (fun s n => lakeNbr pq w h dem label labs out s (nbr .D8 c n))
      (lakeAdd dem out c { s with q := q }))

omit [IsStrictOrderedRing E] in
theorem lakeNext_inv {w0 : Cell → E} {v0 : E} {s : Lake E} {e : E × Cell} {q : List (E × Cell)}
    (I : LakeInv w h dem label labs out w0 v0 s)
    (F : ∀ e, s.vis e = false → e ∉ s.q.map Prod.snd)
    (hpop : pq.pop s.q = some (e, q)) (hw : e.2 ≠ out → s.wtd e.2 ≤ 0) :
    let s' := lakeNext pq w h dem label labs out e.2 q s
    LakeInv w h dem label labs out w0 v0 s' ∧ (∀ e, s'.vis e = false → e ∉ s'.q.map Prod.snd) ∧
    s'.q ≠ [] ∧
    s'.aff = (if e.2 = out then s.aff else s.aff ++ [e.2]) := by
  obtain ⟨hperm, hmin⟩ := pq.pop_some hpop
  have hpm := hperm.map Prod.snd
  have hnd : (e.2 :: q.map Prod.snd).Nodup := by
    have := I.qn; rw [hpm.nodup_iff] at this; exact this
  obtain ⟨hn1, hn2⟩ := List.nodup_cons.1 hnd
  have heq : ∀ x ∈ q, x ∈ s.q := fun x hx => hperm.mem_iff.2 (List.mem_cons_of_mem _ hx)
  obtain ⟨e1, e2, e3, e4⟩ := I.qok e (hperm.mem_iff.2 List.mem_cons_self)
  set s1 := lakeAdd dem out e.2 { s with q := q } with hs1
  have haff : s1.aff = if e.2 = out then s.aff else s.aff ++ [e.2] := by
    rw [hs1]; unfold lakeAdd; split <;> rfl
  have hq1 : s1.q = q := by rw [hs1]; unfold lakeAdd; split <;> rfl
  have hvis1 : s1.vis = s.vis := by rw [hs1]; unfold lakeAdd; split <;> rfl
  have I1 : LakeInv w h dem label labs out w0 v0 s1 := by
    by_cases ho : e.2 = out
    · have : s1 = { s with q := q } := by rw [hs1]; unfold lakeAdd; rw [if_pos ho]
      rw [this]
      exact ⟨I.nd, I.reg, I.tot, I.v, I.oth, hn2, fun x hx => I.qok x (heq x hx)⟩
    · have hR := e4.resolve_right ho
      have : s1 = ⟨q, s.vis, s.aff ++ [e.2], s.tot + dem e.2, s.v + s.wtd e.2,
          Function.update s.wtd e.2 0⟩ := by
        rw [hs1]; unfold lakeAdd; rw [if_neg ho]
      rw [this]
      refine ⟨?_, ?_, ?_, ?_, ?_, hn2, ?_⟩
      · show (s.aff ++ [e.2]).Nodup
        rw [List.nodup_append]
        refine ⟨I.nd, by simp, ?_⟩
        intro a ha b hb
        rw [List.mem_singleton] at hb
        rintro rfl; subst hb; exact e3 ha
      · intro a ha
        have ha' : a ∈ s.aff ++ [e.2] := ha
        rcases List.mem_append.1 ha' with ha' | ha'
        · obtain ⟨r1, r2, r3, r4⟩ := I.reg a ha'
          refine ⟨r1, r2, ?_, r4⟩
          show Function.update s.wtd e.2 0 a = 0
          by_cases h : a = e.2
          · rw [h]; simp
          · rw [Function.update_of_ne h]; exact r3
        · rw [List.mem_singleton] at ha'
          subst ha'
          exact ⟨hR, e2, by show Function.update s.wtd e.2 0 e.2 = 0; simp,
            by rw [← I.oth _ e3]; exact hw ho⟩
      · show s.tot + dem e.2 = ((s.aff ++ [e.2]).map dem).sum
        simp [I.tot]
      · show s.v + s.wtd e.2 = v0 + ((s.aff ++ [e.2]).map w0).sum
        simp [I.v, I.oth _ e3, add_assoc]
      · intro x hx
        have hx' : x ∉ s.aff ++ [e.2] := hx
        simp only [List.mem_append, List.mem_singleton, not_or] at hx'
        show Function.update s.wtd e.2 0 x = w0 x
        rw [Function.update_of_ne hx'.2]; exact I.oth x hx'.1
      · intro x hx
        obtain ⟨x1, x2, x3, x4⟩ := I.qok x (heq x hx)
        refine ⟨x1, x2, ?_, x4⟩
        show x.2 ∉ s.aff ++ [e.2]
        simp only [List.mem_append, List.mem_singleton, not_or]
        exact ⟨x3, fun h => hn1 (h ▸ List.mem_map_of_mem hx)⟩
  have F1 : ∀ x, s1.vis x = false → x ∉ s1.q.map Prod.snd := by
    intro x hx
    rw [hvis1] at hx
    rw [hq1]
    intro hm
    exact F x hx ((hpm.mem_iff).2 (List.mem_cons_of_mem _ hm))
  have hfold : (dirs .D8).foldl (fun s n => lakeNbr pq w h dem label labs out s (nbr .D8 e.2 n)) s1 =
      ((dirs .D8).map (nbr .D8 e.2)).foldl (fun s q => lakeNbr pq w h dem label labs out s q) s1 := by
    rw [List.foldl_map]
  obtain ⟨I2, F2, a2, t2, v2, w2⟩ := lakeNbrs_inv (pq := pq) ((dirs .D8).map (nbr .D8 e.2)) I1 F1
  rw [← hfold] at I2 F2 a2 t2 v2 w2
  set s2 := (dirs .D8).foldl (fun s n => lakeNbr pq w h dem label labs out s (nbr .D8 e.2 n)) s1 with hs2
  have hnext : lakeNext pq w h dem label labs out e.2 q s = lakeRefill pq dem out s2 := rfl
  rw [hnext]
  have ho2 : out ∉ s2.aff := fun ho => (I2.reg out ho).1.2.2.2 rfl
  by_cases hq : s2.q = []
  · have hr : lakeRefill pq dem out s2 = { s2 with q := pq.push (dem out, out) s2.q, vis := Function.update s2.vis out true } := by
      unfold lakeRefill; rw [if_pos hq]
    rw [hr]
    have hmem : ∀ x, x ∈ pq.push (dem out, out) s2.q ↔ x = (dem out, out) := by
      intro x; rw [pq.mem_push, hq]; simp
    refine ⟨⟨I2.nd, ?_, I2.tot, I2.v, I2.oth, ?_, ?_⟩, ?_, ?_, a2.trans haff⟩
    · intro a ha
      obtain ⟨r1, r2, r3⟩ := I2.reg a ha
      refine ⟨r1, ?_, r3⟩
      show Function.update s2.vis out true a = true
      by_cases h : a = out
      · subst h; simp
      · simpa [h] using r2
    · show ((pq.push (dem out, out) s2.q).map Prod.snd).Nodup
      rw [((pq.push_perm (dem out, out) s2.q).map Prod.snd).nodup_iff, hq]; simp
    · intro x hx
      have := (hmem x).1 hx
      subst this
      exact ⟨rfl, by show Function.update s2.vis out true out = true; simp, ho2, Or.inr rfl⟩
    · intro x hx hm
      have hm' : x ∈ (pq.push (dem out, out) s2.q).map Prod.snd := hm
      rw [List.mem_map] at hm'
      obtain ⟨y, hy, rfl⟩ := hm'
      have := (hmem y).1 hy
      subst this
      have hx' : Function.update s2.vis out true out = false := hx
      simp at hx'
    · show pq.push (dem out, out) s2.q ≠ []
      intro hc
      have := (hmem (dem out, out)).2 rfl
      rw [hc] at this; simp at this
  · have hr : lakeRefill pq dem out s2 = s2 := by unfold lakeRefill; rw [if_neg hq]
    rw [hr]
    exact ⟨I2, F2, hq, a2.trans haff⟩

/-- What a completed run has done: `lake` is flooded to a common level, the sill's water table has
risen, nothing else has changed and the water is all there, up to the tolerance. -/
structure Spread (w h : Nat) (dem : Cell → E) (label : Cell → Option Nat) (labs : Nat → Bool) (eps : E)
    (out : Cell) (v : E) (w0 w1 : Cell → E) (lake : List Cell) (sill : Cell) (level : E) : Prop where
  nd : lake.Nodup
  inside : ∀ a ∈ lake, Reg w h dem label labs out a ∧ w0 a ≤ 0
  sillOk : sill ∉ lake ∧ (Reg w h dem label labs out sill ∨ sill = out) ∧
    w0 sill ≤ w1 sill ∧ (w1 sill = w0 sill ∨ w1 sill ≤ 0)
  levelOk : level ≤ dem sill + eps
  levelOut : level ≤ dem out
  flat : ∀ a ∈ lake, dem a ≤ level + eps ∧ w1 a = max 0 (level - dem a)
  frame : ∀ q, q ∉ lake → q ≠ sill → w1 q = w0 q
  water : |((sill :: lake).map w1).sum - ((sill :: lake).map w0).sum - v| ≤ 3 * eps * (lake.length + 1)

/-- The return branch has spread the water. -/
theorem lakeStop_spread {w0 w1 : Cell → E} {v0 : E} {s : Lake E} {c : Cell} (he : 0 < eps)
    (I : LakeInv w h dem label labs out w0 v0 s) (hv : 0 ≤ s.v) (e3 : c ∉ s.aff)
    (e4 : Reg w h dem label labs out c ∨ c = out)
    (hst : lakeStop eps dem out c s = some w1) :
    ∃ level, Spread w h dem label labs eps out v0 w0 w1 s.aff c level := by
  obtain ⟨level, ⟨k1, k1'⟩, k2, k3, k4, k5, k6⟩ := lakeStop_spec he hv I.nd e3 I.tot hst
  have hc0 : s.wtd c = w0 c := I.oth _ e3
  refine ⟨level, ⟨I.nd, ?_, ⟨e3, e4, ?_, ?_⟩, k1, ?_, ?_, ?_, ?_⟩⟩
  · intro a ha; exact ⟨(I.reg a ha).1, (I.reg a ha).2.2.2⟩
  · rw [← hc0]; exact k3
  · rw [← hc0]; exact k4
  · rcases e4 with h | h
    · exact k1' h.2.2.1
    · exact k1' (by rw [h])
  · intro a ha; exact (k2 a ha).2
  · intro x hx hxc; rw [k5 x hx hxc]; exact I.oth x hx
  · rw [I.v] at k6
    rw [hc0] at k6
    simp only [List.map_cons, List.sum_cons]
    have : w1 c + (s.aff.map w1).sum - (w0 c + (s.aff.map w0).sum) - v0 =
        (s.aff.map w1).sum + (w1 c - w0 c) - (v0 + (s.aff.map w0).sum) := by ring
    rw [this]; exact k6

/-- Every run that returns has spread the water. -/
theorem lakeRun_ok {w0 : Cell → E} {v0 : E} (he : 0 < eps) : ∀ (f : Nat) (s : Lake E) (w1 : Cell → E),
    LakeInv w h dem label labs out w0 v0 s → (∀ e, s.vis e = false → e ∉ s.q.map Prod.snd) →
    lakeRun pq w h dem label labs eps out f s = .ok w1 →
    ∃ lake sill level, Spread w h dem label labs eps out v0 w0 w1 lake sill level := by
  intro f
  induction f with
  | zero => intro s w1 _ _ h; simp only [lakeRun] at h; cases h
  | succ f ih =>
    intro s w1 I F hr
    simp only [lakeRun] at hr
    cases hpop : pq.pop s.q with
    | none => rw [hpop] at hr; cases hr
    | some r =>
      obtain ⟨e, q⟩ := r
      rw [hpop] at hr
      simp only at hr
      by_cases h1 : s.v < 0
      · rw [if_pos h1] at hr; cases hr
      rw [if_neg h1] at hr
      by_cases h2 : inLabs label labs e.2 = true ∧ 0 < s.wtd e.2
      · rw [if_pos h2] at hr; cases hr
      rw [if_neg h2] at hr
      obtain ⟨hperm, _⟩ := pq.pop_some hpop
      obtain ⟨e1, e2, e3, e4⟩ := I.qok e (hperm.mem_iff.2 List.mem_cons_self)
      by_cases h3 : nearLe eps s.v (depVol (dem e.2) s.aff.length s.tot - s.wtd e.2) = true
      · rw [if_pos h3] at hr
        cases hst : lakeStop eps dem out e.2 s with
        | none => rw [hst] at hr; cases hr
        | some w' =>
          rw [hst] at hr
          cases hr
          exact ⟨s.aff, e.2, lakeStop_spread he I (not_lt.1 h1) e3 e4 hst⟩
      · rw [if_neg h3] at hr
        by_cases h4 : e.2 ≠ out ∧ 0 < s.wtd e.2
        · rw [if_pos h4] at hr; cases hr
        rw [if_neg h4] at hr
        obtain ⟨I', F', _⟩ := lakeNext_inv I F hpop (fun ho => by
          by_contra hn; exact h4 ⟨ho, not_le.1 hn⟩)
        exact ih _ _ I' F' hr

end loop

end RichDEM
