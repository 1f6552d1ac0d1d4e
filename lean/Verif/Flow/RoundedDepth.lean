/-
Rounded flow accumulation: the error grows with the length of the flow paths, not with the number of cells.
-/
import Verif.Flow.Rounded

namespace RichDEM

open Finset Relation

/-- A flow path of `n` cells ends at a cell. -/
inductive PathCells {K : Type*} [CommRing K] [LinearOrder K] (w h : Nat) (props : Cell → Nat → K) : Nat → Cell → Prop
  | one {c : Cell} : FlowData w h props c → PathCells w h props 1 c
  | step {n : Nat} {p c : Cell} : PathCells w h props n p → FlowEdge w h props p c → PathCells w h props (n + 1) c

section
variable {K : Type*} [Field K] [LinearOrder K] [IsStrictOrderedRing K]

/-- `b` is `a` up to `i` relative errors `v` and `j` relative errors `u`. -/
def NearE (v u : ℚ) (i j : Nat) (a : K) (b : ℚ) : Prop :=
  0 ≤ a ∧ ((1 - v : ℚ) : K) ^ i * ((1 - u : ℚ) : K) ^ j * a ≤ (b : K) ∧
    (b : K) ≤ ((1 + v : ℚ) : K) ^ i * ((1 + u : ℚ) : K) ^ j * a

theorem NearE.mono {v u : ℚ} (hv : 0 ≤ v) (hv1 : v ≤ 1) (hu : 0 ≤ u) (hu1 : u ≤ 1) {i i' j j' : Nat} {a : K} {b : ℚ}
    (hn : NearE v u i j a b) (hi : i ≤ i') (hj : j ≤ j') : NearE v u i' j' a b := by
  obtain ⟨h0, h1, h2⟩ := hn
  have v1 : (0 : K) ≤ ((1 - v : ℚ) : K) := by exact_mod_cast (by linarith : (0 : ℚ) ≤ 1 - v)
  have u1 : (0 : K) ≤ ((1 - u : ℚ) : K) := by exact_mod_cast (by linarith : (0 : ℚ) ≤ 1 - u)
  have u1' : ((1 - u : ℚ) : K) ≤ 1 := by exact_mod_cast (by linarith : 1 - u ≤ (1 : ℚ))
  have v1' : ((1 - v : ℚ) : K) ≤ 1 := by exact_mod_cast (by linarith : 1 - v ≤ (1 : ℚ))
  have v2 : (1 : K) ≤ ((1 + v : ℚ) : K) := by exact_mod_cast (by linarith : (1 : ℚ) ≤ 1 + v)
  have u2 : (1 : K) ≤ ((1 + u : ℚ) : K) := by exact_mod_cast (by linarith : (1 : ℚ) ≤ 1 + u)
  refine ⟨h0, le_trans (mul_le_mul_of_nonneg_right ?_ h0) h1, le_trans h2 (mul_le_mul_of_nonneg_right ?_ h0)⟩
  · exact mul_le_mul (pow_le_pow_of_le_one v1 v1' hi) (pow_le_pow_of_le_one u1 u1' hj) (pow_nonneg u1 _) (pow_nonneg v1 _)
  · exact mul_le_mul (pow_le_pow_right₀ v2 hi) (pow_le_pow_right₀ u2 hj) (pow_nonneg (by linarith) _)
      (pow_nonneg (by linarith) _)

theorem NearE.mac {v u : ℚ} (hv : 0 ≤ v) (hv1 : v ≤ 1) (hu : 0 ≤ u) (hu1 : u ≤ 1) {mac : ℚ → ℚ → ℚ → ℚ}
    (hm : MacErr u mac) {i j I J : Nat} {a A p : K} {b B p' : ℚ} (hn : NearE v u i j a b) (hN : NearE v u I J A B)
    (hI : I + 1 ≤ i) (hJ : J + 1 ≤ j)
    (hp : 0 ≤ p) (hp1 : ((1 - v : ℚ) : K) * p ≤ (p' : K)) (hp2 : (p' : K) ≤ ((1 + v : ℚ) : K) * p) :
    NearE v u i (j + 1) (a + p * A) (mac b p' B) := by
  have hN' : NearE v u (i - 1) (j - 1) A B := hN.mono hv hv1 hu hu1 (by omega) (by omega)
  obtain ⟨i', rfl⟩ : ∃ k, i = k + 1 := ⟨i - 1, by omega⟩
  obtain ⟨j', rfl⟩ : ∃ k, j = k + 1 := ⟨j - 1, by omega⟩
  rw [Nat.add_sub_cancel, Nat.add_sub_cancel] at hN'
  obtain ⟨a0, a1, a2⟩ := hn
  obtain ⟨A0, A1, A2⟩ := hN'
  have v1 : (0 : K) ≤ ((1 - v : ℚ) : K) := by exact_mod_cast (by linarith : (0 : ℚ) ≤ 1 - v)
  have u1 : (0 : K) ≤ ((1 - u : ℚ) : K) := by exact_mod_cast (by linarith : (0 : ℚ) ≤ 1 - u)
  have v2 : (0 : K) ≤ ((1 + v : ℚ) : K) := by exact_mod_cast (by linarith : (0 : ℚ) ≤ 1 + v)
  have u2 : (0 : K) ≤ ((1 + u : ℚ) : K) := by exact_mod_cast (by linarith : (0 : ℚ) ≤ 1 + u)
  have b0 : (0 : K) ≤ (b : K) := le_trans (by positivity) a1
  have B0 : (0 : K) ≤ (B : K) := le_trans (by positivity) A1
  have p0 : (0 : K) ≤ (p' : K) := le_trans (mul_nonneg v1 hp) hp1
  obtain ⟨m1, m2⟩ := hm b p' B (by exact_mod_cast b0) (by exact_mod_cast p0) (by exact_mod_cast B0)
  have m1' : ((1 - u : ℚ) : K) * (b + ((1 - u : ℚ) : K) * ((p' : K) * B)) ≤ (mac b p' B : K) := by exact_mod_cast m1
  have m2' : (mac b p' B : K) ≤ ((1 + u : ℚ) : K) * (b + ((1 + u : ℚ) : K) * ((p' : K) * B)) := by exact_mod_cast m2
  refine ⟨add_nonneg a0 (mul_nonneg hp A0), le_trans ?_ m1', le_trans m2' ?_⟩
  · set V := ((1 - v : ℚ) : K)
    set U := ((1 - u : ℚ) : K)
    have s1 : V * p * (V ^ i' * U ^ j' * A) ≤ (p' : K) * B := mul_le_mul hp1 A1 (by positivity) p0
    calc V ^ (i' + 1) * U ^ (j' + 1 + 1) * (a + p * A)
        = U * (V ^ (i' + 1) * U ^ (j' + 1) * a + U * (V * p * (V ^ i' * U ^ j' * A))) := by ring
      _ ≤ U * (b + U * ((p' : K) * B)) :=
          mul_le_mul_of_nonneg_left (add_le_add a1 (mul_le_mul_of_nonneg_left s1 u1)) u1
  · set V := ((1 + v : ℚ) : K)
    set U := ((1 + u : ℚ) : K)
    have s1 : (p' : K) * B ≤ V * p * (V ^ i' * U ^ j' * A) := mul_le_mul hp2 A2 B0 (mul_nonneg v2 hp)
    calc U * (b + U * ((p' : K) * B))
        ≤ U * (V ^ (i' + 1) * U ^ (j' + 1) * a + U * (V * p * (V ^ i' * U ^ j' * A))) :=
          mul_le_mul_of_nonneg_left (add_le_add a2 (mul_le_mul_of_nonneg_left s1 u2)) u2
      _ = V ^ (i' + 1) * U ^ (j' + 1 + 1) * (a + p * A) := by ring

/-- A cell has at most eight senders. -/
theorem faDeps_le (w h : Nat) (props : Cell → Nat → K) (hedge : EdgesSilent w h props) {x : Cell}
    (hx : x ∈ faVerts w h props) : faDeps w h props x ≤ 8 := by
  rw [faDeps_eq hedge hx]
  have h1 : ∀ p, (cnt (faOut props) p x : Int) ≤ ∑ n ∈ (dirs .D8).toFinset, if nbr .D8 p n = x then (1 : Int) else 0 := by
    intro p
    unfold cnt faOut
    have hnod : (dirs .D8).Nodup := List.nodup_range'
    rw [← sum_toFinset' _ hnod]
    clear hnod
    generalize dirs .D8 = l
    induction l with
    | nil => simp
    | cons n l ih =>
      rw [List.filterMap_cons, List.map_cons, List.sum_cons]
      have hnn : (0 : Int) ≤ if nbr .D8 p n = x then (1 : Int) else 0 := by split <;> norm_num
      split
      · linarith
      · rename_i b hb
        have : b.1 = nbr .D8 p n := by
          split at hb
          · cases hb
          split at hb
          · cases hb
          cases hb; rfl
        rw [List.countP_cons, this]
        push_cast
        by_cases hnx : nbr .D8 p n = x
        · simp only [hnx, decide_true, if_true]; push_cast; linarith
        · simp only [hnx, decide_false, if_false]; simpa using ih
  refine (Finset.sum_le_sum (fun p _ => h1 p)).trans ?_
  rw [Finset.sum_comm]
  have h2 : ∀ n ∈ (dirs .D8).toFinset, ∑ p ∈ faVerts w h props, (if nbr .D8 p n = x then (1 : Int) else 0) ≤ 1 := by
    intro n _
    rw [Finset.sum_ite, Finset.sum_const_zero, add_zero, Finset.sum_const, nsmul_eq_mul, mul_one]
    have : ((faVerts w h props).filter (fun p => nbr .D8 p n = x)).card ≤ 1 := by
      rw [Finset.card_le_one]
      intro a ha b hb
      simp only [Finset.mem_filter] at ha hb
      have e := ha.2.trans hb.2.symm
      obtain ⟨a1, a2⟩ := a
      obtain ⟨b1, b2⟩ := b
      simp only [nbr, Prod.mk.injEq] at e
      ext <;> simp only <;> omega
    exact_mod_cast this
  refine (Finset.sum_le_sum h2).trans ?_
  rw [Finset.sum_const, nsmul_eq_mul, mul_one]
  have : (dirs .D8).toFinset.card = 8 := by decide
  rw [this]; norm_num

variable {v u : ℚ} {props : Cell → Nat → K} {fprops : Cell → Nat → ℚ} {mac : ℚ → ℚ → ℚ → ℚ}

/-- The relation between the exact and the rounded run. -/
structure DepthRel (w h : Nat) (v u : ℚ) (props : Cell → Nat → K) (T : Cell → Nat) (s : KS Cell K) (s' : KS Cell ℚ) :
    Prop where
  deps : s'.deps = s.deps
  q : s'.q = s.q
  le : ∀ x ∈ faVerts w h props, s.deps x ≤ faDeps w h props x
  near : ∀ x ∈ faVerts w h props,
    NearE v u (T x) (9 * T x - 8 + (faDeps w h props x - s.deps x).toNat) (s.acc x) (s'.acc x)

theorem dir_depth {w h : Nat} (hv : 0 ≤ v) (hv1 : v ≤ 1) (hu : 0 ≤ u) (hu1 : u ≤ 1) (hm : MacErr u mac)
    (hedge : EdgesSilent w h props)
    (hP : PropsErr v props fprops) {T : Cell → Nat} (hT : ∀ p c, FlowEdge w h props p c → T p + 1 ≤ T c)
    (q : AnyQ Cell) (c : Cell) (hc : c ∈ faVerts w h props) (A : K) (B : ℚ) (hA : NearE v u (T c) (9 * T c) A B)
    (l : List Nat) (hd : ∀ n ∈ l, n ∈ dirs .D8) :
    ∀ (s : KS Cell K) (s' : KS Cell ℚ), DepthRel w h v u props T s s' →
      DepthRel w h v u props T (l.foldl (faDir q props c A) s) (l.foldl (faDirR mac q fprops c B) s') := by
  induction l with
  | nil => intro s s' h1; exact h1
  | cons n l ih =>
    intro s s' hR
    have hnd := hd n (by simp)
    simp only [List.foldl_cons]
    refine ih (fun m hm' => hd m (by simp [hm'])) _ _ ?_
    by_cases hp : props c n ≤ 0
    · have e1 : faDir q props c A s n = s := by simp [faDir, hp]
      have e2 : faDirR mac q fprops c B s' n = s' := by simp [faDirR, (hP.pos c hnd).2 hp]
      rw [e1, e2]
      exact hR
    · have hp' : ¬ fprops c n ≤ 0 := fun x => hp ((hP.pos c hnd).1 x)
      by_cases hN : propNoData props (nbr .D8 c n) = true
      · have e1 : faDir q props c A s n = s := by simp [faDir, hN]
        have e2 : faDirR mac q fprops c B s' n = s' := by simp [faDirR, hP.nd, hN]
        rw [e1, e2]
        exact hR
      · have e1 : faDir q props c A s n =
            { deps := Function.update s.deps (nbr .D8 c n) (s.deps (nbr .D8 c n) - 1)
              acc := Function.update s.acc (nbr .D8 c n) (s.acc (nbr .D8 c n) + props c n * A)
              q := if s.deps (nbr .D8 c n) - 1 = 0 then q.push (nbr .D8 c n) s.q else s.q } := by
          simp [faDir, hp, hN]
        have e2 : faDirR mac q fprops c B s' n =
            { deps := Function.update s'.deps (nbr .D8 c n) (s'.deps (nbr .D8 c n) - 1)
              acc := Function.update s'.acc (nbr .D8 c n) (mac (s'.acc (nbr .D8 c n)) (fprops c n) B)
              q := if s'.deps (nbr .D8 c n) - 1 = 0 then q.push (nbr .D8 c n) s'.q else s'.q } := by
          simp [faDirR, hp', hP.nd, hN]
        obtain ⟨_, q1, q2⟩ := hP.some c n hnd (not_le.1 hp)
        have hnv : nbr .D8 c n ∈ faVerts w h props := by
          refine faOut_verts hedge c hc (nbr .D8 c n, props c n) ?_
          simp only [faOut, List.mem_filterMap]
          exact ⟨n, hnd, by rw [if_neg hp, if_neg hN]⟩
        have hTn : T c + 1 ≤ T (nbr .D8 c n) :=
          hT c _ ⟨mem_faVerts_iff.1 hc, mem_faVerts_iff.1 hnv, n, hnd, not_le.1 hp, rfl⟩
        rw [e1, e2]
        constructor
        · simp only [hR.deps]
        · simp only [hR.deps, hR.q]
        · intro x hx
          have := hR.le x hx
          by_cases hxn : x = nbr .D8 c n
          · subst hxn; simp only [Function.update_self]; omega
          · simp only [Function.update_of_ne hxn]; exact this
        · intro x hx
          by_cases hxn : x = nbr .D8 c n
          · subst hxn
            simp only [Function.update_self]
            have hle := hR.le _ hx
            rw [show 9 * T (nbr .D8 c n) - 8 + (faDeps w h props (nbr .D8 c n) - (s.deps (nbr .D8 c n) - 1)).toNat
              = 9 * T (nbr .D8 c n) - 8 + (faDeps w h props (nbr .D8 c n) - s.deps (nbr .D8 c n)).toNat + 1 by omega]
            exact (hR.near _ hx).mac hv hv1 hu hu1 hm hA hTn (by omega) (le_of_lt (not_le.1 hp)) q1 q2
          · simp only [Function.update_of_ne hxn]
            exact hR.near x hx

theorem loop_depth {w h : Nat} (hv : 0 ≤ v) (hv1 : v ≤ 1) (hu : 0 ≤ u) (hu1 : u ≤ 1) (hm : MacErr u mac)
    (hedge : EdgesSilent w h props)
    (hP : PropsErr v props fprops) {T : Cell → Nat} (hT : ∀ p c, FlowEdge w h props p c → T p + 1 ≤ T c)
    (hT1 : ∀ c ∈ faVerts w h props, 1 ≤ T c) (q : AnyQ Cell) (init : Cell → K) (fuel : Nat) :
    ∀ (s : KS Cell K) (s' : KS Cell ℚ) (done : Finset Cell),
      KInv (faVerts w h props) (faOut props) 0 init done s → DepthRel w h v u props T s s' →
      ∃ done', KInv (faVerts w h props) (faOut props) 0 init done' (loop (faStep q props) fuel s) ∧
        DepthRel w h v u props T (loop (faStep q props) fuel s) (loop (faStepR mac q fprops) fuel s') := by
  induction fuel with
  | zero => intro s s' done hI hR; exact ⟨done, hI, hR⟩
  | succ k ih =>
    intro s s' done hI hR
    simp only [loop]
    rcases hpop : q.pop s.q with _ | ⟨c, rest⟩
    · have e1 : faStep q props s = none := by simp [faStep, hpop]
      have e2 : faStepR mac q fprops s' = none := by simp [faStepR, hR.q, hpop]
      rw [e1, e2]
      exact ⟨done, hI, hR⟩
    · have e1 : faStep q props s = some ((dirs .D8).foldl (faDir q props c (s.acc c)) { s with q := rest }) := by
        simp [faStep, hpop]
      have e2 : faStepR mac q fprops s' =
          some ((dirs .D8).foldl (faDirR mac q fprops c (s'.acc c)) { s' with q := rest }) := by
        simp [faStepR, hR.q, hpop]
      have hk : kStep q (faOut props) 0 s = some ((dirs .D8).foldl (faDir q props c (s.acc c)) { s with q := rest }) := by
        rw [← faStep_eq, e1]
      obtain ⟨done', hI', _⟩ := kStep_inv q (faOut_verts hedge) hI hk
      rw [e1, e2]
      refine ih _ _ done' hI' ?_
      have hcq : c ∈ s.q := (q.pop_some hpop).1.symm.subset (by simp)
      obtain ⟨hcv, _, hc0⟩ := (hI.mem_q c).1 hcq
      refine dir_depth hv hv1 hu hu1 hm hedge hP hT q c hcv _ _ ?_ (dirs .D8) (fun n hn => hn) _ _
        ⟨hR.deps, rfl, hR.le, hR.near⟩
      refine (hR.near c hcv).mono hv hv1 hu hu1 (le_refl _) ?_
      have := faDeps_le w h props hedge hcv
      have := hT1 c hcv
      rw [hc0]
      omega

theorem accum_depth {w h : Nat} (hv : 0 ≤ v) (hv1 : v ≤ 1) (hu : 0 ≤ u) (hu1 : u ≤ 1) (hm : MacErr u mac)
    (hedge : EdgesSilent w h props)
    (hP : PropsErr v props fprops) {T : Cell → Nat} (hT : ∀ p c, FlowEdge w h props p c → T p + 1 ≤ T c)
    (hT1 : ∀ c ∈ faVerts w h props, 1 ≤ T c) (q : AnyQ Cell) (init : Cell → ℚ) (hi : ∀ c, 0 ≤ init c)
    (c : Cell) (hc : FlowData w h props c) :
    NearE v u (T c) (9 * T c) (flowAccumulation q w h props (fun c => (init c : K)) c)
      (flowAccumulationR mac q w h fprops init c) := by
  have hnd : propNoData props c = false := by simp [propNoData, hc.2]
  have hnd' : propNoData fprops c = false := by rw [hP.nd]; exact hnd
  simp only [flowAccumulation, flowAccumulationR, hnd, hnd', if_neg Bool.false_ne_true]
  obtain ⟨n1, n2⟩ := nodup_pushAll_filter q (allCells w h) (nodup_allCells w h)
    (fun c => faDeps w h props c == 0 && !propNoData props c)
  have I0 : KInv (faVerts w h props) (faOut props) 0 (fun c => (init c : K)) ∅
      (faStart q w h props (fun c => (init c : K))) := by
    refine ⟨by simp, by simp [faStart], ?_, n1, ?_, by simp, by simp⟩
    · intro c hc'
      simp only [faStart, Finset.sdiff_empty]
      exact faDeps_eq hedge hc'
    · intro c
      simp only [faStart]
      rw [n2, mem_allCells, mem_faVerts]
      simp only [Bool.and_eq_true, beq_iff_eq, Bool.not_eq_true', Finset.notMem_empty, not_false_eq_true, true_and]
      tauto
  obtain ⟨done, hI, hR⟩ := loop_depth hv hv1 hu hu1 hm hedge hP hT hT1 q (fun c => (init c : K)) (w * h)
    (faStart q w h props (fun c => (init c : K))) (faStart q w h fprops init) ∅ I0
    ⟨by simp [faStart, hP.deps], by simp [faStart, hP.deps, hP.nd], fun x _ => by simp [faStart], fun x hx => by
      have : NearE (K := K) v u 0 0 (init x : K) (init x) := by
        simp only [NearE, pow_zero, one_mul]
        exact ⟨by exact_mod_cast hi x, le_refl _, le_refl _⟩
      exact this.mono hv hv1 hu hu1 (Nat.zero_le _) (Nat.zero_le _)⟩
  have hcv := mem_faVerts_iff.2 hc
  refine (hR.near c hcv).mono hv hv1 hu hu1 (le_refl _) ?_
  have h1 := faDeps_le w h props hedge hcv
  have h2 := hT1 c hcv
  have h3 : 0 ≤ (loop (faStep q props) (w * h) (faStart q w h props fun c => (init c : K))).deps c := by
    rw [hI.deps c hcv]
    exact Finset.sum_nonneg (by intro i _; exact Int.natCast_nonneg _)
  omega

/-- In a network without cycles the longest path ending at a cell ranks the cells. -/
theorem longest_path (w h : Nat) (props : Cell → Nat → K) (hac : ∀ c, ¬ TransGen (FlowEdge w h props) c c) :
    ∃ T : Cell → Nat, (∀ p c, FlowEdge w h props p c → T p + 1 ≤ T c) ∧ (∀ c ∈ faVerts w h props, 1 ≤ T c) ∧
      ∀ c ∈ faVerts w h props, PathCells w h props (T c) c := by
  classical
  set anc : Cell → Finset Cell := fun c => (faVerts w h props).filter (fun a => TransGen (FlowEdge w h props) a c) with hanc
  have hstep : ∀ p c, FlowEdge w h props p c → (anc p).card + 1 ≤ (anc c).card := by
    intro p c hpc
    have hsub : insert p (anc p) ⊆ anc c := by
      intro a ha
      simp only [hanc, Finset.mem_insert, Finset.mem_filter] at ha ⊢
      rcases ha with rfl | ⟨h1, h2⟩
      · exact ⟨mem_faVerts_iff.2 hpc.1, TransGen.single hpc⟩
      · exact ⟨h1, h2.tail hpc⟩
    have hnot : p ∉ anc p := by
      simp only [hanc, Finset.mem_filter]
      exact fun hh => hac p hh.2
    have := Finset.card_le_card hsub
    rw [Finset.card_insert_of_notMem hnot] at this
    exact this
  have hlen : ∀ n c, PathCells w h props n c → n ≤ (anc c).card + 1 := by
    intro n c hp
    induction hp with
    | one _ => omega
    | step _ he ih => have := hstep _ _ he; omega
  set N := (faVerts w h props).card + 1
  have hN : ∀ n c, PathCells w h props n c → n ≤ N := by
    intro n c hp
    refine (hlen n c hp).trans ?_
    have := Finset.card_le_card (Finset.filter_subset (fun a => TransGen (FlowEdge w h props) a c) (faVerts w h props))
    simp only [N, hanc]; omega
  have hspec : ∀ c ∈ faVerts w h props, PathCells w h props (Nat.findGreatest (fun n => PathCells w h props n c) N) c := by
    intro c hc
    have h1 : PathCells w h props 1 c := .one (mem_faVerts_iff.1 hc)
    exact Nat.findGreatest_spec (P := fun n => PathCells w h props n c) (hN 1 c h1) h1
  refine ⟨fun c => Nat.findGreatest (fun n => PathCells w h props n c) N, ?_, ?_, hspec⟩
  · intro p c hpc
    have h1 := (hspec p (mem_faVerts_iff.2 hpc.1)).step hpc
    exact Nat.le_findGreatest (hN _ _ h1) h1
  · intro c hc
    have h1 : PathCells w h props 1 c := .one (mem_faVerts_iff.1 hc)
    exact Nat.le_findGreatest (hN _ _ h1) h1

end

end RichDEM
