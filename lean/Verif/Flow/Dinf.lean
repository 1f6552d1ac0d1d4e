import Verif.Flow.Accum
import Mathlib.Algebra.Order.Round
import Mathlib.Data.Rat.Floor

/-!
`dinf_upslope_area` (include/richdem/methods/dinf_methods.hpp).

Simplifications.  Angles are exact numbers (an ordered field with floor) measured in units of π/4,
the unit to which `where_do_i_flow` converts them; areas are exact; the FIFO queue may serve its
entries in any order; the parallel dependency count is executed sequentially (its increments race
in the same way as those of `d8_flow_accum`, see `Verif/Flow/Race.lean`).
-/

namespace RichDEM

open Finset

section
variable {K : Type*} [Field K] [LinearOrder K] [IsStrictOrderedRing K] [FloorRing K]

/-- dinf_methods.hpp:54-76 (`where_do_i_flow`): `(nhigh, nlow)` for angle `f`, which is not
negative (the code's `assert`), so that the conversion to `int` is the floor. -/
def whereFlow (f : K) : Int × Int :=
  if |f - (⌊f⌋ : K)| < 1 / 1000000 then (round f, -1) else (⌊f⌋ + 1, ⌊f⌋)

/-- dinf_methods.hpp:79-89 (`area_proportion`): `(phigh, plow)`. -/
def areaProportion (f : K) (nhigh nlow : Int) : K × K :=
  if nlow = -1 then (1, 0) else ((nhigh : K) - f, 1 - ((nhigh : K) - f))

/-- dinf_methods.hpp:25-26 (`dinf_dx`, `dinf_dy`): the neighbour of `c` in octant `n`. -/
def dinfNbr (c : Cell) (n : Int) : Cell :=
  (c.1 + ([1, 1, 0, -1, -1, -1, 0, 1, 1] : List Int).getD n.toNat 0,
   c.2 + ([0, -1, -1, -1, 0, 1, 1, 1, 0] : List Int).getD n.toNat 0)

/-- dinf_methods.hpp:172, 174: may flow enter this cell. -/
def dinfOk (w h : Nat) (fd : Cell → K) (nd : K) (c : Cell) : Bool := inGrid w h c && decide (fd c ≠ nd)

/-- dinf_methods.hpp:150-175: the effect of one cell on the dependency matrix.  NoData cells,
whose counter is set to 9, are never enqueued; their counter is not modelled. -/
def dinfDepCell (w h : Nat) (fd : Cell → K) (nd : K) (d : Cell → Int) (c : Cell) : Cell → Int :=
  if fd c = nd then d
  else if fd c = 0 then d
  else
    let n := whereFlow (fd c)
    let d1 := if n.2 ≠ -1 ∧ dinfOk w h fd nd (dinfNbr c n.2) then
      Function.update d (dinfNbr c n.2) (d (dinfNbr c n.2) + 1) else d
    if dinfOk w h fd nd (dinfNbr c n.1) then
      Function.update d1 (dinfNbr c n.1) (d1 (dinfNbr c n.1) + 1) else d1

/-- dinf_methods.hpp:129-177: the dependency matrix. -/
def dinfDeps (w h : Nat) (fd : Cell → K) (nd : K) : Cell → Int :=
  (allCells w h).foldl (dinfDepCell w h fd nd) (fun _ => 0)

/-- dinf_methods.hpp:133-135, 150-151, 189-198: initial areas and source queue. -/
def dinfStart (q : AnyQ Cell) (w h : Nat) (fd : Cell → K) (nd : K) : KS Cell K :=
  let deps := dinfDeps w h fd nd
  { deps := deps
    acc := fun c => if fd c = nd then -1 else 0
    q := q.pushAll ((allCells w h).filter (fun c =>
      !decide (fd c = nd) && (!decide (fd c = 0) && deps c == 0))) [] }

/-- dinf_methods.hpp:240-244 and 247-248: decrement the counter of `c`, enqueue it at zero. -/
def dinfDec (q : AnyQ Cell) (s : KS Cell K) (c : Cell) : KS Cell K :=
  { s with
    deps := Function.update s.deps c (s.deps c - 1)
    q := if s.deps c - 1 = 0 then q.push c s.q else s.q }

/-- dinf_methods.hpp:213-249: one iteration of the main loop. -/
def dinfStep (q : AnyQ Cell) (w h : Nat) (fd : Cell → K) (nd : K) (s : KS Cell K) :
    Option (KS Cell K) :=
  match q.pop s.q with
  | none => none
  | some (c, rest) =>
    let s := { s with q := rest }
    if fd c = nd then some s
    else
      let s := { s with acc := Function.update s.acc c (s.acc c + 1) }
      if fd c = 0 then some s
      else
        let n := whereFlow (fd c)
        let p := areaProportion (fd c) n.1 n.2
        let nh := dinfNbr c n.1
        let nl := dinfNbr c n.2
        let s := if dinfOk w h fd nd nh then
          { s with acc := Function.update s.acc nh (s.acc nh + s.acc c * p.1) } else s
        let s := if n.2 ≠ -1 ∧ dinfOk w h fd nd nl then
          dinfDec q { s with acc := Function.update s.acc nl (s.acc nl + s.acc c * p.2) } nl else s
        some (if dinfOk w h fd nd nh then dinfDec q s nh else s)

/-- The state when the main loop stops. -/
def dinfLoop (q : AnyQ Cell) (w h : Nat) (fd : Cell → K) (nd : K) : KS Cell K :=
  loop (dinfStep q w h fd nd) (w * h) (dinfStart q w h fd nd)

/-- dinf_methods.hpp:117-251 (`dinf_upslope_area`): the resulting area raster. -/
def dinfUpslopeArea (q : AnyQ Cell) (w h : Nat) (fd : Cell → K) (nd : K) : Cell → K :=
  (dinfLoop q w h fd nd).acc

/-! ### Lemmas -/

/-- The angles of the data cells are in the range the code asserts. -/
def AngleRange (w h : Nat) (fd : Cell → K) (nd : K) : Prop :=
  ∀ c, InGrid w h c → fd c ≠ nd → 0 ≤ fd c ∧ fd c ≤ 8

theorem whereFlow_spec {f : K} (h0 : 0 ≤ f) (h8 : f ≤ 8) :
    (Int.fract f < 1 / 1000000 ∧ whereFlow f = (⌊f⌋, -1) ∧ 0 ≤ ⌊f⌋ ∧ ⌊f⌋ ≤ 8) ∨
    (1 / 1000000 ≤ Int.fract f ∧ whereFlow f = (⌊f⌋ + 1, ⌊f⌋) ∧ 0 ≤ ⌊f⌋ ∧ ⌊f⌋ ≤ 7) := by
  have hfl : 0 ≤ ⌊f⌋ := Int.floor_nonneg.2 h0
  have hfl8 : ⌊f⌋ ≤ 8 := by
    have : ((⌊f⌋ : Int) : K) ≤ ((8 : Int) : K) := le_trans (Int.floor_le f) (by push_cast; exact h8)
    exact_mod_cast this
  have hfr : |f - (⌊f⌋ : K)| = Int.fract f := abs_of_nonneg (Int.fract_nonneg f)
  unfold whereFlow
  rw [hfr]
  by_cases hlt : Int.fract f < 1 / 1000000
  · left
    refine ⟨hlt, ?_, hfl, hfl8⟩
    rw [if_pos hlt]
    have hhalf : Int.fract f < 1 / 2 := lt_trans hlt (by norm_num)
    have : round f = ⌊f⌋ := by
      rw [round, if_pos (by linarith)]
    rw [this]
  · right
    refine ⟨not_lt.1 hlt, if_neg hlt, hfl, ?_⟩
    by_contra hgt
    have h8' : ⌊f⌋ = 8 := by omega
    have : f = 8 := le_antisymm h8 (by
      have := Int.floor_le f; rw [h8'] at this; push_cast at this; exact this)
    rw [this] at hlt
    apply hlt
    have : Int.fract (8 : K) = 0 := by
      have := Int.fract_intCast (R := K) 8; push_cast at this; exact this
    rw [this]; norm_num

theorem dinfNbr_adj : ∀ n : Nat, n < 9 → ∀ c : Cell,
    dinfNbr c (n : Int) ≠ c ∧ ((n < 8) → dinfNbr c (n : Int) ≠ dinfNbr c ((n : Int) + 1)) := by
  intro n hn c
  have key : ∀ n < 9, (dinfNbr (0, 0) ((n : Nat) : Int)) ≠ (0, 0) := by decide
  have key2 : ∀ n < 8, dinfNbr (0, 0) ((n : Nat) : Int) ≠ dinfNbr (0, 0) (((n : Nat) : Int) + 1) := by decide
  have shift : ∀ m : Int, dinfNbr c m = (c.1 + (dinfNbr (0, 0) m).1, c.2 + (dinfNbr (0, 0) m).2) := by
    intro m; simp [dinfNbr]
  constructor
  · intro e
    rw [shift] at e
    apply key n hn
    have h1 := congrArg Prod.fst e
    have h2 := congrArg Prod.snd e
    simp only at h1 h2
    exact Prod.ext (by simp only; omega) (by simp only; omega)
  · intro h8 e
    rw [shift, shift] at e
    apply key2 n h8
    have h1 := congrArg Prod.fst e
    have h2 := congrArg Prod.snd e
    simp only at h1 h2
    exact Prod.ext (by omega) (by omega)

/-- The outgoing flow of a cell. -/
def dinfOut (w h : Nat) (fd : Cell → K) (nd : K) (c : Cell) : List (Cell × K) :=
  if fd c = 0 then []
  else
    (if (whereFlow (fd c)).2 ≠ -1 ∧ dinfOk w h fd nd (dinfNbr c (whereFlow (fd c)).2) then
      [(dinfNbr c (whereFlow (fd c)).2,
        (areaProportion (fd c) (whereFlow (fd c)).1 (whereFlow (fd c)).2).2)] else []) ++
    (if dinfOk w h fd nd (dinfNbr c (whereFlow (fd c)).1) then
      [(dinfNbr c (whereFlow (fd c)).1,
        (areaProportion (fd c) (whereFlow (fd c)).1 (whereFlow (fd c)).2).1)] else [])

theorem loop_congr {S : Type*} {step step' : S → Option S} (Inv : S → Prop)
    (heq : ∀ s, Inv s → step s = step' s) (hinv : ∀ s s', Inv s → step' s = some s' → Inv s') :
    ∀ (fuel : Nat) (s : S), Inv s → loop step fuel s = loop step' fuel s := by
  intro fuel
  induction fuel with
  | zero => intro s _; rfl
  | succ n ih =>
    intro s hi
    simp only [loop]
    rw [heq s hi]
    cases h : step' s with
    | none => rfl
    | some s' => exact ih s' (hinv s s' hi h)

theorem dinfNbr_facts {f : K} (h0 : 0 ≤ f) (h8 : f ≤ 8) (c : Cell) :
    dinfNbr c (whereFlow f).1 ≠ c ∧ ((whereFlow f).2 ≠ -1 →
      dinfNbr c (whereFlow f).2 ≠ c ∧ dinfNbr c (whereFlow f).2 ≠ dinfNbr c (whereFlow f).1) := by
  rcases whereFlow_spec h0 h8 with ⟨_, e, h1, h2⟩ | ⟨_, e, h1, h2⟩
  · rw [e]
    obtain ⟨m, hm⟩ := Int.eq_ofNat_of_zero_le h1
    refine ⟨?_, fun hh => absurd rfl hh⟩
    have := (dinfNbr_adj m (by omega) c).1
    simp only [hm]; exact this
  · rw [e]
    obtain ⟨m, hm⟩ := Int.eq_ofNat_of_zero_le h1
    have a1 := dinfNbr_adj m (by omega) c
    have a2 := dinfNbr_adj (m + 1) (by omega) c
    simp only [hm]
    exact ⟨by have := a2.1; push_cast at this; exact this, fun _ => ⟨a1.1, a1.2 (by omega)⟩⟩

theorem dinfStep_eq (q : AnyQ Cell) {w h : Nat} {fd : Cell → K} {nd : K}
    (hr : AngleRange w h fd nd) (s : KS Cell K)
    (hs : ∀ c ∈ s.q, InGrid w h c ∧ fd c ≠ nd) :
    dinfStep q w h fd nd s = kStep q (dinfOut w h fd nd) 1 s := by
  unfold dinfStep kStep
  rcases hpop : q.pop s.q with _ | ⟨c, rest⟩
  · rfl
  · obtain ⟨hperm, -⟩ := q.pop_some hpop
    obtain ⟨hcg, hcd⟩ := hs c (hperm.mem_iff.2 (by simp))
    obtain ⟨h0, h8⟩ := hr c hcg hcd
    obtain ⟨f1, f2⟩ := dinfNbr_facts h0 h8 c
    simp only [dinfOut, if_neg hcd]
    by_cases hz : fd c = 0
    · simp [hz]
    · simp only [if_neg hz]
      generalize (areaProportion (fd c) (whereFlow (fd c)).1 (whereFlow (fd c)).2) = p
      generalize hnl : dinfNbr c (whereFlow (fd c)).2 = nl at *
      generalize hnh : dinfNbr c (whereFlow (fd c)).1 = nh at *
      by_cases b1 : (whereFlow (fd c)).2 ≠ -1 ∧ dinfOk w h fd nd nl = true
      · obtain ⟨g1, g2⟩ := f2 b1.1
        by_cases b2 : dinfOk w h fd nd nh = true
        · simp only [if_pos b1, if_pos b2, List.cons_append, List.nil_append, List.foldl_cons,
            List.foldl_nil, dinfDec, kRelax, Function.update_self, Function.update_of_ne f1,
            Function.update_of_ne g1, Function.update_of_ne g2, Function.update_of_ne g2.symm,
            Function.update_of_ne f1.symm]
          congr 2
          rw [Function.update_comm g2]
          congr 1
          · congr 1; ring
          · ring
        · simp only [if_pos b1, if_neg b2, List.append_nil, List.foldl_cons,
            List.foldl_nil, dinfDec, kRelax, Function.update_self,
            Function.update_of_ne g1]
          congr 3
          ring
      · by_cases b2 : dinfOk w h fd nd nh = true
        · simp only [if_neg b1, if_pos b2, List.nil_append, List.foldl_cons,
            List.foldl_nil, dinfDec, kRelax, Function.update_self, Function.update_of_ne f1]
          congr 3
          ring
        · simp only [if_neg b1, if_neg b2, List.nil_append, List.foldl_nil]

/-- The cells that take part: data cells, except those of direction 0 that receive nothing. -/
def dinfVerts (w h : Nat) (fd : Cell → K) (nd : K) : Finset Cell :=
  (allCells w h).toFinset.filter (fun c => fd c ≠ nd ∧ ¬ (fd c = 0 ∧ dinfDeps w h fd nd c = 0))

theorem mem_dinfVerts {w h : Nat} {fd : Cell → K} {nd : K} {c : Cell} :
    c ∈ dinfVerts w h fd nd ↔
      InGrid w h c ∧ fd c ≠ nd ∧ ¬ (fd c = 0 ∧ dinfDeps w h fd nd c = 0) := by
  simp [dinfVerts, mem_allCells]

theorem bump_apply (d : Cell → Int) (a x : Cell) (P : Prop) [Decidable P] :
    (if P then Function.update d a (d a + 1) else d) x = d x + if P ∧ a = x then 1 else 0 := by
  by_cases h : P
  · by_cases e : a = x
    · subst e; simp [h]
    · simp [h, e, Function.update_of_ne (Ne.symm e)]
  · simp [h]

theorem countP_opt (a x : Cell) (k : K) (P : Prop) [Decidable P] :
    (((if P then [(a, k)] else []).countP (fun e => decide (e.1 = x)) : Nat) : Int) =
      if P ∧ a = x then 1 else 0 := by
  by_cases h : P
  · by_cases e : a = x <;> simp [h, e]
  · simp [h]

theorem dinfDepCell_apply {w h : Nat} {fd : Cell → K} {nd : K} (d : Cell → Int) (c x : Cell) :
    dinfDepCell w h fd nd d c x =
      d x + if fd c = nd then 0 else (cnt (dinfOut w h fd nd) c x : Int) := by
  unfold dinfDepCell cnt dinfOut
  by_cases h1 : fd c = nd
  · simp [h1]
  by_cases h2 : fd c = 0
  · simp [h1, h2]
  simp only [if_neg h1, if_neg h2]
  rw [List.countP_append, Nat.cast_add, countP_opt, countP_opt, bump_apply, bump_apply, add_assoc]

theorem dinfDeps_all {w h : Nat} {fd : Cell → K} {nd : K} {x : Cell} :
    dinfDeps w h fd nd x =
      ∑ p ∈ (allCells w h).toFinset.filter (fun c => fd c ≠ nd), (cnt (dinfOut w h fd nd) p x : Int) := by
  unfold dinfDeps
  rw [foldl_pointwise _ (fun c x => if fd c = nd then (0 : Int) else (cnt (dinfOut w h fd nd) c x : Int))
    x _ (fun d a _ => dinfDepCell_apply d a x)]
  rw [zero_add, sum_toFinset' _ (nodup_allCells w h), Finset.sum_filter]
  apply Finset.sum_congr rfl
  intro p _
  by_cases h0 : fd p = nd <;> simp [h0]

theorem dinfDeps_eq {w h : Nat} {fd : Cell → K} {nd : K} {x : Cell} :
    dinfDeps w h fd nd x = ∑ p ∈ dinfVerts w h fd nd, (cnt (dinfOut w h fd nd) p x : Int) := by
  rw [dinfDeps_all]
  symm
  apply Finset.sum_subset
  · intro p hp
    have := mem_dinfVerts.1 hp
    simp [mem_allCells, this.1, this.2.1]
  · intro p hp hpn
    simp only [Finset.mem_filter, List.mem_toFinset, mem_allCells] at hp
    have : fd p = 0 := by
      by_contra h0
      exact hpn (mem_dinfVerts.2 ⟨hp.1, hp.2, fun hh => h0 hh.1⟩)
    simp [cnt, dinfOut, this]

theorem dinfOut_data {w h : Nat} {fd : Cell → K} {nd : K} :
    ∀ p, ∀ e ∈ dinfOut w h fd nd p, InGrid w h e.1 ∧ fd e.1 ≠ nd := by
  intro p e he
  unfold dinfOut at he
  split at he
  · simp at he
  rw [List.mem_append] at he
  have ok : ∀ c, dinfOk w h fd nd c = true → InGrid w h c ∧ fd c ≠ nd := by
    intro c hc
    unfold dinfOk at hc
    rw [Bool.and_eq_true] at hc
    exact ⟨inGrid_iff.1 hc.1, by simpa using hc.2⟩
  rcases he with he | he
  · split at he
    · rename_i hb
      rw [List.mem_singleton] at he; rw [he]; exact ok _ hb.2
    · simp at he
  · split at he
    · rename_i hb
      rw [List.mem_singleton] at he; rw [he]; exact ok _ hb
    · simp at he

theorem dinfOut_verts {w h : Nat} {fd : Cell → K} {nd : K} :
    ∀ p ∈ dinfVerts w h fd nd, ∀ e ∈ dinfOut w h fd nd p, e.1 ∈ dinfVerts w h fd nd := by
  intro p hp e he
  have hd := dinfOut_data p e he
  refine mem_dinfVerts.2 ⟨hd.1, hd.2, fun hh => ?_⟩
  have h0 := hh.2
  rw [dinfDeps_eq] at h0
  have h1 := (Finset.sum_eq_zero_iff_of_nonneg (by intro i _; exact Int.natCast_nonneg _)).1 h0 p hp
  have : 0 < cnt (dinfOut w h fd nd) p e.1 := by
    unfold cnt; rw [List.countP_pos_iff]; exact ⟨e, he, by simp⟩
  omega

theorem card_dinfVerts_le (w h : Nat) (fd : Cell → K) (nd : K) :
    (dinfVerts w h fd nd).card ≤ w * h := by
  refine (Finset.card_filter_le _ _).trans ?_
  refine (List.toFinset_card_le _).trans ?_
  rw [length_allCells]

theorem dinf_start_q (q : AnyQ Cell) (w h : Nat) (fd : Cell → K) (nd : K) :
    (dinfStart q w h fd nd).q.Nodup ∧ ∀ c, c ∈ (dinfStart q w h fd nd).q ↔
      c ∈ dinfVerts w h fd nd ∧ dinfDeps w h fd nd c = 0 := by
  obtain ⟨n1, n2⟩ := nodup_pushAll_filter q (allCells w h) (nodup_allCells w h)
    (fun c => !decide (fd c = nd) && (!decide (fd c = 0) && dinfDeps w h fd nd c == 0))
  refine ⟨n1, fun c => ?_⟩
  simp only [dinfStart]
  rw [n2, mem_allCells, mem_dinfVerts]
  simp only [Bool.and_eq_true, beq_iff_eq, Bool.not_eq_true', decide_eq_false_iff_not]
  tauto

theorem dinfLoop_eq (q : AnyQ Cell) {w h : Nat} {fd : Cell → K} {nd : K}
    (hr : AngleRange w h fd nd) :
    dinfLoop q w h fd nd = loop (kStep q (dinfOut w h fd nd) 1) (w * h) (dinfStart q w h fd nd) := by
  unfold dinfLoop
  refine loop_congr (fun s => ∀ c ∈ s.q, InGrid w h c ∧ fd c ≠ nd)
    (fun s hs => dinfStep_eq q hr s hs) ?_ _ _ ?_
  · intro s s' hs hstep
    unfold kStep at hstep
    split at hstep
    · cases hstep
    rename_i c rest hpop
    obtain ⟨hperm, -⟩ := q.pop_some hpop
    injection hstep with hstep
    rw [← hstep]
    apply foldl_inv' (P := fun s : KS Cell K => ∀ c ∈ s.q, InGrid w h c ∧ fd c ≠ nd)
    · intro s e he hi d hd
      simp only [kRelax] at hd
      split at hd
      · rw [q.mem_push] at hd
        rcases hd with rfl | hd
        · exact dinfOut_data c e he
        · exact hi d hd
      · exact hi d hd
    · intro d hd
      exact hs d (hperm.mem_iff.2 (by simp at hd; simp [hd]))
  · intro c hc
    have := mem_dinfVerts.1 ((dinf_start_q q w h fd nd).2 c |>.1 hc).1
    exact ⟨this.1, this.2.1⟩

/-- The final state of `dinf_upslope_area`. -/
theorem dinf_final (q : AnyQ Cell) {w h : Nat} {fd : Cell → K} {nd : K}
    (hr : AngleRange w h fd nd) :
    let r := dinfLoop q w h fd nd
    let V := dinfVerts w h fd nd
    let out := dinfOut w h fd nd
    r.q = [] ∧ (∀ c ∈ V, 0 ≤ r.deps c) ∧
    (∀ c, InGrid w h c → fd c ≠ nd → c ∉ V → r.acc c = 0) ∧
    (∀ c, fd c = nd → r.acc c = -1) ∧
    ∃ done : Finset Cell, done ⊆ V ∧
      (∀ c ∈ V, c ∈ done ↔ Acc (fun p c => p ∈ V ∧ 0 < cnt out p c) c) ∧
      (∀ c ∈ done, r.acc c = 1 + ∑ p ∈ V, wt out p c * r.acc p) := by
  intro r V out
  obtain ⟨n1, n2⟩ := dinf_start_q q w h fd nd
  have key := kahn_final q (verts := V) (out := out) dinfOut_verts 1 (dinfStart q w h fd nd)
    (fun c _ => dinfDeps_eq) n1 n2
    (w * h) (card_dinfVerts_le w h fd nd)
  have frame := (kStep_frame q (verts := V) (out := out) dinfOut_verts (own := 1)
    (s0 := dinfStart q w h fd nd) (fun c hc => ((n2 c).1 hc).1) (w * h)).2
  have hr' : r = loop (kStep q out 1) (w * h) (dinfStart q w h fd nd) := dinfLoop_eq q hr
  rw [← hr'] at key frame
  obtain ⟨k1, k2, done, k3, k4, _, k6, _⟩ := key
  refine ⟨k1, k2, ?_, ?_, done, k3, k4, ?_⟩
  · intro c hc hd hv
    rw [(frame c hv).1]; simp [dinfStart, hd]
  · intro c hd
    rw [(frame c (fun hv => (mem_dinfVerts.1 hv).2.1 hd)).1]; simp [dinfStart, hd]
  · intro c hc
    rw [k6 c hc]
    have : (dinfStart q w h fd nd).acc c = 0 := by
      simp [dinfStart, (mem_dinfVerts.1 (k3 hc)).2.1]
    rw [this]; ring

end

end RichDEM
