import Verif.Omp.Model

/-!
Loops whose iterations depend on nothing another iteration writes: every schedule ends with the same numbers.
-/

namespace RichDEM.Omp

variable {I A V : Type} [DecidableEq A] [DecidableEq I] {own : A → Own I} {init fin : A → V}

theorem leaves_congr {i : I} : ∀ (p : Prog A V) (m m' : A → V), (∀ a, own a = .mine i → m a = m' a) →
    Leaves own init fin i p m → Leaves own init fin i p m' := by
  intro p
  induction p with
  | done => intro m m' hm hl a ha; rw [← hm a ha]; exact hl a ha
  | load a k ih =>
    intro m m' hm hl
    simp only [Leaves] at hl ⊢
    split
    · rename_i ho
      rw [if_pos ho] at hl
      rw [← hm a ho]
      exact ih _ m m' hm hl
    · rename_i ho
      rw [if_neg ho] at hl
      split
      · rename_i hc
        rw [if_pos hc] at hl
        exact ih _ m m' hm hl
      · rename_i hc
        rw [if_neg hc] at hl
        exact fun v => ih v m m' hm (hl v)
  | store a v k ih =>
    intro m m' hm hl
    refine ⟨hl.1, ih _ _ (fun b hb => ?_) hl.2⟩
    by_cases hab : b = a
    · subst hab; simp
    · rw [Function.update_of_ne hab, Function.update_of_ne hab]; exact hm b hb

/-- Where an iteration is. -/
inductive Where where
  | outside
  | waiting (t : Nat)
  | running (t : Nat)
  | over

/-- The invariant of the parallel loop. -/
structure Inv (own : A → Own I) (init fin : A → V) (s : State I A V) (st : I → Where) : Prop where
  wait : ∀ t i, i ∈ (s.thr t).todo ↔ st i = .waiting t
  nodup : ∀ t, (s.thr t).todo.Nodup
  one : ∀ t i j, st i = .running t → st j = .running t → i = j
  idle : ∀ t, (∀ i, st i ≠ .running t) → (s.thr t).cur = .done
  runs : ∀ t i, st i = .running t → Leaves own init fin i (s.thr t).cur s.mem
  todo : ∀ i, (st i = .outside ∨ ∃ t, st i = .waiting t) → ∀ a, own a = .mine i → s.mem a = init a
  ended : ∀ i, st i = .over → ∀ a, own a = .mine i → s.mem a = fin a
  const : ∀ a, own a = .const → s.mem a = init a

theorem inv_step {body : I → Prog A V} {s : State I A V} {st : I → Where} (H : Inv own init fin s st)
    (hb : ∀ i, st i ≠ .outside → Leaves own init fin i (body i) init) (t : Nat) :
    ∃ st', Inv own init fin (step body s t) st' ∧ ∀ i, st i = .outside ↔ st' i = .outside := by
  unfold step
  by_cases hrun : ∃ i, st i = .running t
  · obtain ⟨i, hi⟩ := hrun
    have hL := H.runs t i hi
    match hc : (s.thr t).cur with
    | .load a k =>
      rw [hc] at hL
      refine ⟨st, ?_, fun _ => Iff.rfl⟩
      dsimp only
      refine ⟨?_, ?_, H.one, ?_, ?_, H.todo, H.ended, H.const⟩
      · intro t' j
        by_cases ht : t' = t
        · subst ht; simpa using H.wait t' j
        · simpa [Function.update_of_ne ht] using H.wait t' j
      · intro t'
        by_cases ht : t' = t
        · subst ht; simpa using H.nodup t'
        · simpa [Function.update_of_ne ht] using H.nodup t'
      · intro t' hn
        by_cases ht : t' = t
        · subst ht; exact absurd hi (hn i)
        · simpa [Function.update_of_ne ht] using H.idle t' hn
      · intro t' j hj
        by_cases ht : t' = t
        · subst ht
          have : j = i := H.one _ _ _ hj hi
          subst this
          simp only [Function.update_self]
          simp only [Leaves] at hL
          split at hL
          · exact hL
          · split at hL
            · rename_i hco
              rw [H.const a hco]; exact hL
            · exact hL _
        · simpa [Function.update_of_ne ht] using H.runs t' j hj
    | .store a v k =>
      rw [hc] at hL
      obtain ⟨ho, hL⟩ := hL
      -- nobody else's number changes
      have other : ∀ j, j ≠ i → ∀ b, own b = .mine j → Function.update s.mem a v b = s.mem b := by
        intro j hj b hb'
        refine Function.update_of_ne ?_ _ _
        rintro rfl
        rcases ho with ho | ho
        · rw [ho] at hb'; exact hj (by simpa using hb'.symm)
        · rw [ho] at hb'; cases hb'
      refine ⟨st, ?_, fun _ => Iff.rfl⟩
      dsimp only
      refine ⟨?_, ?_, H.one, ?_, ?_, ?_, ?_, ?_⟩
      · intro t' j
        by_cases ht : t' = t
        · subst ht; simpa using H.wait t' j
        · simpa [Function.update_of_ne ht] using H.wait t' j
      · intro t'
        by_cases ht : t' = t
        · subst ht; simpa using H.nodup t'
        · simpa [Function.update_of_ne ht] using H.nodup t'
      · intro t' hn
        by_cases ht : t' = t
        · subst ht; exact absurd hi (hn i)
        · simpa [Function.update_of_ne ht] using H.idle t' hn
      · intro t' j hj
        by_cases ht : t' = t
        · subst ht
          have : j = i := H.one _ _ _ hj hi
          subst this
          simpa only [Function.update_self] using hL
        · dsimp only; rw [Function.update_of_ne ht]
          have hji : j ≠ i := by
            rintro rfl
            rw [hi] at hj
            exact ht (by simpa using hj.symm)
          exact leaves_congr _ _ _ (fun b hb' => (other j hji b hb').symm) (H.runs t' j hj)
      · intro j hj b hb'
        have hji : j ≠ i := by
          rintro rfl
          rw [hi] at hj
          rcases hj with hj | ⟨_, hj⟩ <;> cases hj
        dsimp only
        rw [other j hji b hb']
        exact H.todo j hj b hb'
      · intro j hj b hb'
        have hji : j ≠ i := by
          rintro rfl
          rw [hi] at hj
          cases hj
        dsimp only
        rw [other j hji b hb']
        exact H.ended j hj b hb'
      · intro b hb'
        have : b ≠ a := by
          rintro rfl
          rcases ho with ho | ho <;> rw [ho] at hb' <;> cases hb'
        dsimp only
        rw [Function.update_of_ne this]
        exact H.const b hb'
    | .done =>
      rw [hc] at hL
      -- the iteration is over; the thread goes on to the next, if there is one
      have hover : ∀ a, own a = .mine i → s.mem a = fin a := hL
      match htd : (s.thr t).todo with
      | [] =>
        dsimp only
        exact ⟨st, H, fun _ => Iff.rfl⟩
      | j :: js =>
        dsimp only
        have hj : st j = .waiting t := (H.wait t j).1 (by rw [htd]; simp)
        have hij : j ≠ i := by rintro rfl; rw [hi] at hj; cases hj
        have hnd : (j :: js).Nodup := by rw [← htd]; exact H.nodup t
        refine ⟨Function.update (Function.update st i .over) j (.running t), ?_, ?_⟩
        · have e1 : Function.update (Function.update st i .over) j (.running t) i = .over := by
            rw [Function.update_of_ne hij.symm, Function.update_self]
          have e2 : ∀ x, x ≠ i → x ≠ j → Function.update (Function.update st i .over) j (.running t) x = st x := by
            intro x h1 h2
            rw [Function.update_of_ne h2, Function.update_of_ne h1]
          have e3 : Function.update (Function.update st i .over) j (Where.running t) j = .running t := by simp
          refine ⟨?_, ?_, ?_, ?_, ?_, ?_, ?_, H.const⟩
          · intro t' x
            by_cases h1 : x = i
            · subst h1
              rw [e1]
              constructor
              · intro hx
                by_cases ht : t' = t
                · subst ht
                  simp only [Function.update_self] at hx
                  have := (H.wait t' x).1 (by rw [htd]; exact List.mem_cons_of_mem _ hx)
                  rw [hi] at this; cases this
                · dsimp only at hx; rw [Function.update_of_ne ht] at hx
                  have := (H.wait t' x).1 hx
                  rw [hi] at this; cases this
              · intro hx; cases hx
            · by_cases h2 : x = j
              · subst h2
                rw [e3]
                constructor
                · intro hx
                  by_cases ht : t' = t
                  · subst ht
                    simp only [Function.update_self] at hx
                    exact absurd hx (List.nodup_cons.1 hnd).1
                  · dsimp only at hx; rw [Function.update_of_ne ht] at hx
                    have := (H.wait t' x).1 hx
                    rw [hj] at this
                    exact absurd (by simpa using this) (Ne.symm ht)
                · intro hx; cases hx
              · rw [e2 x h1 h2, ← H.wait t' x]
                by_cases ht : t' = t
                · subst ht
                  simp only [Function.update_self]
                  rw [htd, List.mem_cons]
                  simp [h2]
                · dsimp only; rw [Function.update_of_ne ht]
          · intro t'
            by_cases ht : t' = t
            · subst ht
              simpa only [Function.update_self] using (List.nodup_cons.1 hnd).2
            · dsimp only; rw [Function.update_of_ne ht]; exact H.nodup t'
          · intro t' x y hx hy
            by_cases h1 : x = i
            · subst h1; rw [e1] at hx; cases hx
            by_cases h1' : y = i
            · subst h1'; rw [e1] at hy; cases hy
            by_cases h2 : x = j
            · by_cases h2' : y = j
              · rw [h2, h2']
              · subst h2
                rw [e3] at hx
                have : t = t' := by simpa using hx
                subst this
                rw [e2 y h1' h2'] at hy
                exact absurd (H.one _ _ _ hy hi) h1'
            · by_cases h2' : y = j
              · subst h2'
                rw [e3] at hy
                have : t = t' := by simpa using hy
                subst this
                rw [e2 x h1 h2] at hx
                exact absurd (H.one _ _ _ hx hi) h1
              · rw [e2 x h1 h2] at hx
                rw [e2 y h1' h2'] at hy
                exact H.one _ _ _ hx hy
          · intro t' hn
            by_cases ht : t' = t
            · subst ht; exact absurd e3 (hn j)
            · dsimp only; rw [Function.update_of_ne ht]
              refine H.idle t' (fun x hx => ?_)
              have h1 : x ≠ i := by rintro rfl; rw [hi] at hx; exact ht (by simpa using hx.symm)
              have h2 : x ≠ j := by rintro rfl; rw [hj] at hx; cases hx
              exact hn x (by rw [e2 x h1 h2]; exact hx)
          · intro t' x hx
            by_cases h1 : x = i
            · subst h1; rw [e1] at hx; cases hx
            by_cases h2 : x = j
            · subst h2
              rw [e3] at hx
              have : t = t' := by simpa using hx
              subst this
              simp only [Function.update_self]
              exact leaves_congr _ _ _ (fun b hb' => (H.todo x (.inr ⟨_, hj⟩) b hb').symm)
                (hb x (by rw [hj]; simp))
            · rw [e2 x h1 h2] at hx
              have ht : t' ≠ t := by rintro rfl; exact h1 (H.one _ _ _ hx hi)
              dsimp only; rw [Function.update_of_ne ht]
              exact H.runs t' x hx
          · intro x hx b hb'
            have h1 : x ≠ i := by
              rintro rfl; rw [e1] at hx; rcases hx with hx | ⟨_, hx⟩ <;> cases hx
            have h2 : x ≠ j := by
              rintro rfl; rw [e3] at hx; rcases hx with hx | ⟨_, hx⟩ <;> cases hx
            rw [e2 x h1 h2] at hx
            exact H.todo x hx b hb'
          · intro x hx b hb'
            by_cases h1 : x = i
            · subst h1; exact hover b hb'
            have h2 : x ≠ j := by rintro rfl; rw [e3] at hx; cases hx
            rw [e2 x h1 h2] at hx
            exact H.ended x hx b hb'
        · intro x
          by_cases h2 : x = j
          · subst h2; simp [hj]
          · rw [Function.update_of_ne h2]
            by_cases h1 : x = i
            · subst h1; simp [hi]
            · rw [Function.update_of_ne h1]
  · push Not at hrun
    have hc := H.idle t hrun
    rw [hc]
    dsimp only
    match htd : (s.thr t).todo with
    | [] => exact ⟨st, H, fun _ => Iff.rfl⟩
    | j :: js =>
      dsimp only
      have hj : st j = .waiting t := (H.wait t j).1 (by rw [htd]; simp)
      have hnd : (j :: js).Nodup := by rw [← htd]; exact H.nodup t
      have e3 : Function.update st j (Where.running t) j = .running t := by simp
      refine ⟨Function.update st j (.running t), ⟨?_, ?_, ?_, ?_, ?_, ?_, ?_, H.const⟩, ?_⟩
      · intro t' x
        by_cases h2 : x = j
        · subst h2
          rw [e3]
          constructor
          · intro hx
            by_cases ht : t' = t
            · subst ht
              simp only [Function.update_self] at hx
              exact absurd hx (List.nodup_cons.1 hnd).1
            · dsimp only at hx; rw [Function.update_of_ne ht] at hx
              have := (H.wait t' x).1 hx
              rw [hj] at this
              exact absurd (by simpa using this) (Ne.symm ht)
          · intro hx; cases hx
        · rw [Function.update_of_ne h2, ← H.wait t' x]
          by_cases ht : t' = t
          · subst ht
            simp only [Function.update_self]
            rw [htd, List.mem_cons]
            simp [h2]
          · dsimp only; rw [Function.update_of_ne ht]
      · intro t'
        by_cases ht : t' = t
        · subst ht
          simpa only [Function.update_self] using (List.nodup_cons.1 hnd).2
        · dsimp only; rw [Function.update_of_ne ht]; exact H.nodup t'
      · intro t' x y hx hy
        by_cases h2 : x = j
        · by_cases h2' : y = j
          · rw [h2, h2']
          · subst h2
            rw [e3] at hx
            have : t = t' := by simpa using hx
            subst this
            rw [Function.update_of_ne h2'] at hy
            exact absurd hy (hrun y)
        · by_cases h2' : y = j
          · subst h2'
            rw [e3] at hy
            have : t = t' := by simpa using hy
            subst this
            rw [Function.update_of_ne h2] at hx
            exact absurd hx (hrun x)
          · rw [Function.update_of_ne h2] at hx
            rw [Function.update_of_ne h2'] at hy
            exact H.one _ _ _ hx hy
      · intro t' hn
        by_cases ht : t' = t
        · subst ht; exact absurd e3 (hn j)
        · dsimp only; rw [Function.update_of_ne ht]
          refine H.idle t' (fun x hx => ?_)
          have h2 : x ≠ j := by rintro rfl; rw [hj] at hx; cases hx
          exact hn x (by rw [Function.update_of_ne h2]; exact hx)
      · intro t' x hx
        by_cases h2 : x = j
        · subst h2
          rw [e3] at hx
          have : t = t' := by simpa using hx
          subst this
          simp only [Function.update_self]
          exact leaves_congr _ _ _ (fun b hb' => (H.todo x (.inr ⟨_, hj⟩) b hb').symm)
            (hb x (by rw [hj]; simp))
        · rw [Function.update_of_ne h2] at hx
          have ht : t' ≠ t := by rintro rfl; exact hrun x hx
          dsimp only; rw [Function.update_of_ne ht]
          exact H.runs t' x hx
      · intro x hx b hb'
        have h2 : x ≠ j := by
          rintro rfl; rw [e3] at hx; rcases hx with hx | ⟨_, hx⟩ <;> cases hx
        rw [Function.update_of_ne h2] at hx
        exact H.todo x hx b hb'
      · intro x hx b hb'
        have h2 : x ≠ j := by rintro rfl; rw [e3] at hx; cases hx
        rw [Function.update_of_ne h2] at hx
        exact H.ended x hx b hb'
      · intro x
        by_cases h2 : x = j
        · subst h2; simp [hj]
        · rw [Function.update_of_ne h2]

theorem dealt_thread {m : Nat} {iters : List I} {work : Nat → List I} (hd : Dealt m iters work) (i : I) :
    i ∈ iters ↔ ∃ t, i ∈ work t := by
  rw [← hd.all.mem_iff, List.mem_flatMap]
  constructor
  · rintro ⟨t, _, h1⟩; exact ⟨t, h1⟩
  · rintro ⟨t, h1⟩
    by_cases ht : t < m
    · exact ⟨t, List.mem_range.2 ht, h1⟩
    · rw [hd.none t (by omega)] at h1; cases h1

theorem dealt_unique {m : Nat} {iters : List I} {work : Nat → List I} (hd : Dealt m iters work) (hn : iters.Nodup) :
    (∀ t, (work t).Nodup) ∧ ∀ i t t', i ∈ work t → i ∈ work t' → t = t' := by
  have hN : ((List.range m).flatMap work).Nodup := hd.all.nodup_iff.2 hn
  rw [List.nodup_flatMap] at hN
  have out : ∀ t, m ≤ t → work t = [] := hd.none
  constructor
  · intro t
    by_cases ht : t < m
    · exact hN.1 t (List.mem_range.2 ht)
    · rw [out t (by omega)]; exact List.nodup_nil
  · intro i t t' h1 h2
    have lt : ∀ t, i ∈ work t → t < m := by
      intro t h
      by_contra hc
      rw [out t (by omega)] at h; cases h
    have P := hN.2
    rcases lt_trichotomy t t' with h3 | h3 | h3
    · have := (List.pairwise_iff_getElem.1 P) t t' (by simpa using lt t h1) (by simpa using lt t' h2) h3
      simp only [List.getElem_range, Function.onFun] at this
      exact absurd h2 (this h1)
    · exact h3
    · have := (List.pairwise_iff_getElem.1 P) t' t (by simpa using lt t' h2) (by simpa using lt t h1) h3
      simp only [List.getElem_range, Function.onFun] at this
      exact absurd h1 (this h2)

open Classical in
theorem inv_start {m : Nat} {iters : List I} {work : Nat → List I} (hd : Dealt m iters work) (hn : iters.Nodup) :
    ∃ st, Inv own init fin (start init work) st ∧ ∀ i, st i = .outside ↔ i ∉ iters := by
  obtain ⟨hN, hU⟩ := dealt_unique hd hn
  refine ⟨fun i => if hi : ∃ t, i ∈ work t then .waiting hi.choose else .outside,
    ⟨?_, hN, ?_, fun _ _ => rfl, ?_, fun _ _ _ _ => rfl, ?_, fun _ _ => rfl⟩, ?_⟩
  · intro t i
    show i ∈ work t ↔ _
    constructor
    · intro hi
      rw [dif_pos ⟨t, hi⟩]
      congr 1
      exact hU i _ _ (Exists.choose_spec (⟨t, hi⟩ : ∃ t, i ∈ work t)) hi
    · intro hi
      split at hi
      · rename_i hx
        have := hx.choose_spec
        have e : hx.choose = t := by simpa using hi
        rwa [e] at this
      · cases hi
  · intro t i j hi
    split at hi <;> cases hi
  · intro t i hi
    split at hi <;> cases hi
  · intro i hi
    split at hi <;> cases hi
  · intro i
    rw [dealt_thread hd i]
    dsimp only
    constructor
    · intro hi
      split at hi
      · cases hi
      · assumption
    · intro hi; rw [dif_neg hi]

theorem run_inv {body : I → Prog A V} {iters : List I} (hb : ∀ i ∈ iters, Leaves own init fin i (body i) init)
    (sched : List Nat) (s : State I A V) (hs : ∃ st, Inv own init fin s st ∧ ∀ i, st i = .outside ↔ i ∉ iters) :
    ∃ st, Inv own init fin (run body s sched) st ∧ ∀ i, st i = .outside ↔ i ∉ iters := by
  induction sched generalizing s with
  | nil => exact hs
  | cons t l ih =>
    obtain ⟨st, H, ho⟩ := hs
    apply ih
    obtain ⟨st', H', ho'⟩ := inv_step (body := body) H
      (fun i hi => hb i (by by_contra hc; exact hi ((ho i).2 hc))) t
    exact ⟨st', H', fun i => by rw [← ho' i, ho i]⟩

/-- Every schedule of a loop with independent iterations ends with the numbers `fin`. -/
theorem parallel_for {body : I → Prog A V} {m : Nat} {iters : List I} {work : Nat → List I} (hd : Dealt m iters work)
    (hn : iters.Nodup) (hb : ∀ i ∈ iters, Leaves own init fin i (body i) init) (sched : List Nat)
    (hf : Finished (run body (start init work) sched)) :
    (∀ a i, own a = .mine i → (run body (start init work) sched).mem a = if i ∈ iters then fin a else init a) ∧
    ∀ a, own a = .const → (run body (start init work) sched).mem a = init a := by
  obtain ⟨st, H, ho⟩ := run_inv hb sched _ (inv_start hd hn)
  refine ⟨fun a i ha => ?_, H.const⟩
  split
  · rename_i hi
    match e : st i with
    | .outside => exact absurd hi ((ho i).1 e)
    | .waiting t =>
      have := (H.wait t i).2 e
      rw [(hf t).1] at this; cases this
    | .running t =>
      have := H.runs t i e
      rw [(hf t).2] at this
      exact this a ha
    | .over => exact H.ended i e a ha
  · rename_i hi
    exact H.todo i (.inl ((ho i).2 hi)) a ha

omit [DecidableEq I] in
/-- A thread that runs alone finishes, without touching the others. -/
theorem thread_finishes (body : I → Prog A V) (t : Nat) (s : State I A V) :
    ∃ n, (((run body s (List.replicate n t)).thr t).todo = [] ∧ ((run body s (List.replicate n t)).thr t).cur = .done) ∧
      ∀ t', t' ≠ t → (run body s (List.replicate n t)).thr t' = s.thr t' := by
  obtain ⟨td, p, hs⟩ : ∃ td p, s.thr t = ⟨td, p⟩ := ⟨_, _, rfl⟩
  induction td generalizing p s with
  | nil =>
    induction p generalizing s with
    | done => exact ⟨0, by simp [run, hs], fun t' _ => rfl⟩
    | load a k ih =>
      obtain ⟨n, h1, h2⟩ := ih (s.mem a) (step body s t) (by unfold step; simp [hs])
      refine ⟨n + 1, h1, fun t' ht => ?_⟩
      have := h2 t' ht
      rw [List.replicate_succ]
      simp only [run, List.foldl_cons] at this ⊢
      rw [this]
      unfold step; simp [hs, Function.update_of_ne ht]
    | store a v k ih =>
      obtain ⟨n, h1, h2⟩ := ih (step body s t) (by unfold step; simp [hs])
      refine ⟨n + 1, h1, fun t' ht => ?_⟩
      have := h2 t' ht
      rw [List.replicate_succ]
      simp only [run, List.foldl_cons] at this ⊢
      rw [this]
      unfold step; simp [hs, Function.update_of_ne ht]
  | cons i is ihl =>
    induction p generalizing s with
    | done =>
      obtain ⟨n, h1, h2⟩ := ihl (step body s t) (body i) (by unfold step; simp [hs])
      refine ⟨n + 1, h1, fun t' ht => ?_⟩
      have := h2 t' ht
      rw [List.replicate_succ]
      simp only [run, List.foldl_cons] at this ⊢
      rw [this]
      unfold step; simp [hs, Function.update_of_ne ht]
    | load a k ih =>
      obtain ⟨n, h1, h2⟩ := ih (s.mem a) (step body s t) (by unfold step; simp [hs])
      refine ⟨n + 1, h1, fun t' ht => ?_⟩
      have := h2 t' ht
      rw [List.replicate_succ]
      simp only [run, List.foldl_cons] at this ⊢
      rw [this]
      unfold step; simp [hs, Function.update_of_ne ht]
    | store a v k ih =>
      obtain ⟨n, h1, h2⟩ := ih (step body s t) (by unfold step; simp [hs])
      refine ⟨n + 1, h1, fun t' ht => ?_⟩
      have := h2 t' ht
      rw [List.replicate_succ]
      simp only [run, List.foldl_cons] at this ⊢
      rw [this]
      unfold step; simp [hs, Function.update_of_ne ht]

omit [DecidableEq I] in
/-- From every state of a loop of `m` threads some schedule finishes. -/
theorem can_finish (body : I → Prog A V) (m : Nat) (s : State I A V)
    (hm : ∀ t, m ≤ t → (s.thr t).todo = [] ∧ (s.thr t).cur = .done) :
    ∃ sched, Finished (run body s sched) := by
  induction m generalizing s with
  | zero => exact ⟨[], fun t => hm t (Nat.zero_le t)⟩
  | succ m ih =>
    obtain ⟨n, h1, h2⟩ := thread_finishes body m s
    obtain ⟨sched, hf⟩ := ih (run body s (List.replicate n m)) (fun t ht => by
      rcases Nat.lt_or_ge m t with h3 | h3
      · rw [h2 t (by omega)]; exact hm t (by omega)
      · obtain rfl : t = m := by omega
        exact h1)
    refine ⟨List.replicate n m ++ sched, ?_⟩
    simpa [run, List.foldl_append] using hf

end RichDEM.Omp
