/-
`FillDepressions` returns: on saturated ground, with an amount of water between the capacity of
the part already known to be full and the capacity of the depression, no assertion fails and the
loop ends.
-/
import Verif.DepHier.Lake
import Mathlib.Algebra.Order.BigOperators.Group.Finset

namespace RichDEM

variable {E : Type} [Field E] [LinearOrder E] [IsStrictOrderedRing E]
variable {pq : PQ (E × Cell) zLt} {w h : Nat} {dem : Cell → E} {label : Cell → Option Nat}
  {labs : Nat → Bool} {eps : E} {out pit : Cell}

/-- `q` can be reached from the pit through cells of the region or the outlet, none above `m`. -/
inductive LakePath (w h : Nat) (dem : Cell → E) (label : Cell → Option Nat) (labs : Nat → Bool)
    (out pit : Cell) (m : E) : Cell → Prop
  | pit : LakePath w h dem label labs out pit m pit
  | step {a b} : LakePath w h dem label labs out pit m a → Adj .D8 a b → InGrid w h b →
      (Reg w h dem label labs out b ∨ b = out) → dem b ≤ m → LakePath w h dem label labs out pit m b

omit [Field E] [IsStrictOrderedRing E] in
theorem lpath_front {m : E} {s : Lake E} {op : Bool} {cur : Option Cell} (hpit : dem pit ≤ m)
    (F : LakeFront w h dem label labs out pit s op cur) (hcur : ∀ c, cur = some c → False) {q : Cell}
    (h : LakePath w h dem label labs out pit m q) :
    Popped out s op q ∨ ∃ e ∈ s.q, e.1 ≤ m := by
  have base : ∀ q, s.vis q = true → dem q ≤ m → Popped out s op q ∨ ∃ e ∈ s.q, e.1 ≤ m := by
    intro q hv hm
    rcases F.front q hv with h | h
    · exact Or.inl h
    · exact Or.inr ⟨_, h, hm⟩
  induction h with
  | pit => exact base _ F.pitVis hpit
  | @step a b _ hab hb hR hm ih =>
    rcases ih with h | h
    · exact base _ (F.nbrs a h (fun hc => hcur _ hc) b hab hb hR) hm
    · exact Or.inr h

/-- The queue front after one more cell. -/
theorem lakeNext_front {w0 : Cell → E} {v0 : E} {s : Lake E} {op : Bool} {e : E × Cell} {q : List (E × Cell)}
    (I : LakeInv w h dem label labs out w0 v0 s)
    (F : LakeFront w h dem label labs out pit s op none) (hpop : pq.pop s.q = some (e, q)) :
    let s' := lakeNext pq w h dem label labs out e.2 q s
    LakeFront w h dem label labs out pit s' (op || decide (e.2 = out)) none ∧
    ((∃ x ∈ s'.q, x.2 = out) → (op || decide (e.2 = out)) = true →
      (op = true ∧ (∃ x ∈ s.q, x.2 = out) ∧ e.2 ≠ out) ∨
      ∃ s2, LakeFront w h dem label labs out pit s2 (op || decide (e.2 = out)) none ∧ s2.q = [] ∧
        s2.aff = s'.aff) := by
  obtain ⟨hperm, hmin⟩ := pq.pop_some hpop
  have hpm := hperm.map Prod.snd
  obtain ⟨e1, e2, e3, e4⟩ := I.qok e (hperm.mem_iff.2 List.mem_cons_self)
  set s1 := lakeAdd dem out e.2 { s with q := q } with hs1
  have haff : s1.aff = if e.2 = out then s.aff else s.aff ++ [e.2] := by
    rw [hs1]; unfold lakeAdd; split <;> rfl
  have hq1 : s1.q = q := by rw [hs1]; unfold lakeAdd; split <;> rfl
  have hvis1 : s1.vis = s.vis := by rw [hs1]; unfold lakeAdd; split <;> rfl
  set op' := op || decide (e.2 = out) with hop'
  have pop1 : ∀ a, Popped out s op a → Popped out s1 op' a := by
    rintro a (ha | ⟨ha, ho⟩)
    · left; rw [haff]; split
      · exact ha
      · exact List.mem_append_left _ ha
    · right; exact ⟨ha, by rw [hop', ho]; rfl⟩
  have popc : Popped out s1 op' e.2 := by
    by_cases ho : e.2 = out
    · right; exact ⟨ho, by rw [hop']; simp [ho]⟩
    · left; rw [haff, if_neg ho]; simp
  have unpop : ∀ a, Popped out s1 op' a → a = e.2 ∨ Popped out s op a := by
    rintro a (ha | ⟨ha, ho⟩)
    · rw [haff] at ha
      split at ha
      · exact Or.inr (Or.inl ha)
      · rcases List.mem_append.1 ha with h | h
        · exact Or.inr (Or.inl h)
        · exact Or.inl (List.mem_singleton.1 h)
    · rw [hop', Bool.or_eq_true, decide_eq_true_iff] at ho
      rcases ho with ho | ho
      · exact Or.inr (Or.inr ⟨ha, ho⟩)
      · exact Or.inl (ha.trans ho.symm)
  have F1 : LakeFront w h dem label labs out pit s1 op' (some e.2) := by
    refine ⟨by rw [hvis1]; exact F.pitVis, ?_, ?_, ?_⟩
    · intro ho
      rw [hop', Bool.or_eq_true, decide_eq_true_iff] at ho
      rw [hvis1]
      rcases ho with ho | ho
      · exact F.outVis ho
      · rw [← ho]; exact e2
    · intro x hx
      rw [hvis1] at hx
      rcases F.front x hx with h | h
      · exact Or.inl (pop1 x h)
      · rcases List.mem_cons.1 (hperm.mem_iff.1 h) with h | h
        · left
          have : x = e.2 := by rw [← h]
          rw [this]; exact popc
        · right; rw [hq1]; exact h
    · intro a ha hc b hab hb hR
      rw [hvis1]
      rcases unpop a ha with h | h
      · exact absurd (by rw [h]) hc
      · exact F.nbrs a h (by simp) b hab hb hR
  have hfold : (dirs .D8).foldl (fun s n => lakeNbr pq w h dem label labs out s (nbr .D8 e.2 n)) s1 =
      ((dirs .D8).map (nbr .D8 e.2)).foldl (fun s q => lakeNbr pq w h dem label labs out s q) s1 := by
    rw [List.foldl_map]
  obtain ⟨F2, hm2, hv2⟩ := lakeNbrs_front (pq := pq) ((dirs .D8).map (nbr .D8 e.2)) F1
  rw [← hfold] at F2 hm2 hv2
  set s2 := (dirs .D8).foldl (fun s n => lakeNbr pq w h dem label labs out s (nbr .D8 e.2 n)) s1 with hs2
  have F3 : LakeFront w h dem label labs out pit s2 op' none := by
    refine ⟨F2.pitVis, F2.outVis, F2.front, ?_⟩
    intro a ha _ b hab hb hR
    by_cases hc : a = e.2
    · subst hc
      obtain ⟨n, hn, rfl⟩ := adj_iff_nbr.1 hab
      exact hv2 _ (List.mem_map_of_mem hn) hb hR
    · exact F2.nbrs a ha (fun h => hc (by cases h; rfl)) b hab hb hR
  have hnext : lakeNext pq w h dem label labs out e.2 q s = lakeRefill pq dem out s2 := rfl
  rw [hnext]
  by_cases hq : s2.q = []
  · have hr : lakeRefill pq dem out s2 = { s2 with q := pq.push (dem out, out) s2.q, vis := Function.update s2.vis out true } := by
      unfold lakeRefill; rw [if_pos hq]
    rw [hr]
    have mono : ∀ p, s2.vis p = true → Function.update s2.vis out true p = true := by
      intro p hp
      by_cases h : p = out
      · subst h; simp
      · simpa [h] using hp
    refine ⟨?_, fun _ _ => Or.inr ⟨s2, F3, hq, rfl⟩⟩
    refine ⟨mono _ F3.pitVis, fun ho => mono _ (F3.outVis ho), ?_, ?_⟩
    · intro x hx
      have hx' : Function.update s2.vis out true x = true := hx
      by_cases h : x = out
      · subst h; right; exact pq.mem_push.2 (Or.inl rfl)
      · rw [Function.update_of_ne h] at hx'
        rcases F3.front x hx' with h | h
        · exact Or.inl h
        · right; exact pq.mem_push.2 (Or.inr h)
    · intro a ha hc b hab hb hR
      exact mono _ (F3.nbrs a ha hc b hab hb hR)
  · have hr : lakeRefill pq dem out s2 = s2 := by unfold lakeRefill; rw [if_neg hq]
    rw [hr]
    refine ⟨F3, ?_⟩
    rintro ⟨x, hx, hxo⟩ ho
    left
    have hnew := lakeNbrs_new (pq := pq) (w := w) (h := h) (dem := dem) (label := label) (labs := labs)
      (out := out) ((dirs .D8).map (nbr .D8 e.2)) (s := s1) (x := x) (by rw [← hfold]; exact hx)
    have hin : x ∈ q := by
      rcases hnew with h | h
      · rwa [hq1] at h
      · rw [hxo, F1.outVis ho] at h; cases h
    have hne : e.2 ≠ out := by
      intro hc
      have := I.qn
      rw [hpm.nodup_iff, List.map_cons] at this
      apply (List.nodup_cons.1 this).1
      rw [hc, ← hxo]
      exact List.mem_map_of_mem hin
    refine ⟨?_, ⟨x, hperm.mem_iff.2 (List.mem_cons_of_mem _ hin), hxo⟩, hne⟩
    rw [hop', Bool.or_eq_true, decide_eq_true_iff] at ho
    exact ho.resolve_right hne

/-- What the caller of `FillDepressions` has to provide.  `full` is an elevation up to which the
depression is known to be full (below the pit for a leaf), `R` the cells of the region. -/
structure LakePre (w h : Nat) (dem : Cell → E) (label : Cell → Option Nat) (labs : Nat → Bool)
    (out pit : Cell) (R : Finset Cell) (full v : E) (w0 : Cell → E) : Prop where
  mem : ∀ q, q ∈ R ↔ Reg w h dem label labs out q
  sat : ∀ q, Reg w h dem label labs out q → w0 q = 0
  satOut : w0 out = 0
  pos : 0 < v
  cap : v ≤ R.sum (fun q => dem out - dem q)
  low : (R.filter (fun q => dem q ≤ full)).sum (fun q => full - dem q) ≤ v
  pitOk : Reg w h dem label labs out pit ∨ pit = out
  path : ∀ q, Reg w h dem label labs out q →
    dem pit ≤ max full (dem q) ∧ LakePath w h dem label labs out pit (max full (dem q)) q

structure LakeTot (w h : Nat) (dem : Cell → E) (label : Cell → Option Nat) (labs : Nat → Bool)
    (out : Cell) (full : E) (s : Lake E) (op : Bool) : Prop where
  mono : ∀ a ∈ s.aff, ∀ q, Reg w h dem label labs out q → q ∉ s.aff → dem a ≤ max full (dem q)
  vol : ∀ a ∈ s.aff, full < dem a → s.aff.length * dem a - s.tot ≤ s.v
  redo : op = true → (∃ e ∈ s.q, e.2 = out) → ∀ q, Reg w h dem label labs out q → q ∈ s.aff

omit [IsStrictOrderedRing E] [LinearOrder E] in
theorem sum_map_sub (l : List Cell) (f : Cell → E) (k : E) :
    (l.map (fun q => k - f q)).sum = l.length * k - (l.map f).sum := by
  induction l with
  | nil => simp
  | cons a l ih => simp only [List.map_cons, List.sum_cons, List.length_cons, ih]; push_cast; ring

/-- The return branch succeeds. -/
theorem lakeStop_total {R : Finset Cell} {full v0 : E} {w0 : Cell → E} (he : 0 < eps)
    (P : LakePre w h dem label labs out pit R full v0 w0) {s : Lake E} {op : Bool}
    (I : LakeInv w h dem label labs out w0 v0 s)
    (F : LakeFront w h dem label labs out pit s op none)
    (T : LakeTot w h dem label labs out full s op) {e : E × Cell} {q : List (E × Cell)}
    (hpop : pq.pop s.q = some (e, q)) (hv : s.v = v0)
    (hst : s.v < depVol (dem e.2) s.aff.length s.tot + eps) :
    ∃ w1, lakeStop eps dem out e.2 s = some w1 := by
  obtain ⟨hperm, hmin⟩ := pq.pop_some hpop
  obtain ⟨e1, e2, e3, e4⟩ := I.qok e (hperm.mem_iff.2 List.mem_cons_self)
  have hz : s.wtd e.2 = 0 := by
    rw [I.oth _ e3]
    rcases e4 with h | h
    · exact P.sat _ h
    · rw [h]; exact P.satOut
  have hco : dem e.2 ≤ dem out := by
    rcases e4 with h | h
    · exact h.2.2.1
    · rw [h]
  have hao : ∀ a ∈ s.aff, dem a ≤ dem out := fun a ha => (I.reg a ha).1.2.2.1
  set c := e.2 with hc
  set n := s.aff.length with hn
  set cur := (n : E) * dem c - s.tot with hcur
  have hst' : s.v < cur + eps := hst
  have sumk : ∀ k : E, (s.aff.toFinset).sum (fun q => k - dem q) = n * k - s.tot := by
    intro k
    rw [List.sum_toFinset _ I.nd, sum_map_sub, I.tot]
  have hsubR : s.aff.toFinset ⊆ R := by
    intro a ha; rw [P.mem]; exact (I.reg a (List.mem_toFinset.1 ha)).1
  have hac : full < dem c ∨ c = out → ∀ a ∈ s.aff, dem a ≤ dem c := by
    intro hh a ha
    rcases e4 with h | h
    · rcases hh with hh | hh
      · have := T.mono a ha c h e3
        rwa [max_eq_right hh.le] at this
      · rw [hh]; exact hao a ha
    · rw [h]; exact hao a ha
  -- the level returned by `waterLevel`
  have hlev : ∃ lv, waterLevel eps (s.wtd c) s.v (dem c) n s.tot = some (lv, 0) ∧ lv ≤ dem c ∧
      ∀ a ∈ s.aff, dem a < lv + eps := by
    unfold waterLevel depVol
    simp only
    rw [← hcur, hz]
    by_cases hA : dem c ≤ full
    · -- still within the part known to be full
      have haf : ∀ a ∈ s.aff, dem a ≤ full := by
        intro a ha
        rcases e4 with h | h
        · have := T.mono a ha c h e3
          rwa [max_eq_left hA] at this
        · exact (hao a ha).trans (by rw [← h]; exact hA)
      have hsub : s.aff.toFinset ⊆ R.filter (fun q => dem q ≤ full) := by
        intro a ha
        rw [Finset.mem_filter]
        exact ⟨hsubR ha, haf a (List.mem_toFinset.1 ha)⟩
      have hge : n * full - s.tot ≤ s.v := by
        rw [← sumk, hv]
        refine le_trans (Finset.sum_le_sum_of_subset_of_nonneg hsub ?_) P.low
        intro i hi _
        have := (Finset.mem_filter.1 hi).2
        linarith
      have hn0 : (0 : E) ≤ n := Nat.cast_nonneg _
      have hcv : cur ≤ s.v := by rw [hcur]; nlinarith
      have hbound : ∀ a ∈ s.aff, dem a < dem c + eps := by
        intro a ha
        have h1 : (1 : E) ≤ n := by
          have : 0 < n := List.length_pos_of_mem ha
          exact_mod_cast this
        have h2 : n * (full - dem c) < eps := by rw [hcur] at hst'; nlinarith
        have := haf a ha
        nlinarith
      by_cases hlt : cur < s.v
      · have hne : nearEq eps s.v cur = true := nearEq_iff.2 ⟨by linarith, by linarith⟩
        rw [if_pos hlt, if_pos hne]
        have : nearLe eps cur (cur - 0) = true := (nearLe_iff he).2 (by linarith)
        rw [this]
        refine ⟨dem c, ?_, le_rfl, hbound⟩
        simp
      · have hne : nearEq eps s.v cur = true := nearEq_iff.2 ⟨by linarith, by linarith⟩
        rw [if_neg hlt, if_pos hne]
        exact ⟨dem c, rfl, le_rfl, hbound⟩
    · push Not at hA
      have hle := hac (Or.inl hA)
      have hb : ∀ a ∈ s.aff, dem a < dem c + eps := fun a ha => by linarith [hle a ha]
      by_cases hlt : cur < s.v
      · have hne : nearEq eps s.v cur = true := nearEq_iff.2 ⟨by linarith, by linarith⟩
        rw [if_pos hlt, if_pos hne]
        have : nearLe eps cur (cur - 0) = true := (nearLe_iff he).2 (by linarith)
        rw [this]
        refine ⟨dem c, ?_, le_rfl, hb⟩
        simp
      · rw [if_neg hlt]
        by_cases hne : nearEq eps s.v cur = true
        · rw [if_pos hne]; exact ⟨dem c, rfl, le_rfl, hb⟩
        · rw [if_neg hne]
          by_cases hnear : nearEq eps ((s.v + s.tot) / n) (dem c) = true
          · rw [if_pos hnear]; exact ⟨dem c, rfl, le_rfl, hb⟩
          · rw [if_neg hnear]
            have hn1 : (0 : E) < n := by
              rcases Nat.eq_zero_or_pos n with h0 | h0
              · exfalso
                have ht : s.tot = 0 := by rw [I.tot, List.length_eq_zero_iff.1 (show s.aff.length = 0 from h0)]; rfl
                have : cur = 0 := by rw [hcur, h0, ht]; simp
                have hp := P.pos
                rw [← hv] at hp
                rw [this] at hlt
                exact hlt hp
              · exact_mod_cast h0
            have hmul : (n : E) * ((s.v + s.tot) / n) = s.v + s.tot := mul_div_cancel₀ _ hn1.ne'
            set lv := (s.v + s.tot) / n with hlv
            have hup : lv ≤ dem c := by
              have : cur ≥ s.v := not_lt.1 hlt
              rw [hcur] at this
              by_contra hcon
              push Not at hcon
              nlinarith
            -- cells above the full part
            have habove : ∀ a ∈ s.aff, full < dem a → dem a ≤ lv := by
              intro a ha hfa
              have := T.vol a ha hfa
              by_contra hcon
              push Not at hcon
              nlinarith
            have hall : ∀ a ∈ s.aff, dem a ≤ lv := by
              intro a ha
              by_cases hfa : full < dem a
              · exact habove a ha hfa
              · push Not at hfa
                by_cases hex : ∃ b ∈ s.aff, full < dem b
                · obtain ⟨b, hb1, hb2⟩ := hex
                  exact hfa.trans (hb2.le.trans (habove b hb1 hb2))
                · push Not at hex
                  have heq : s.aff.toFinset = R.filter (fun q => dem q ≤ full) := by
                    apply Finset.Subset.antisymm
                    · intro b hb
                      rw [Finset.mem_filter]
                      exact ⟨hsubR hb, hex b (List.mem_toFinset.1 hb)⟩
                    · intro b hb
                      obtain ⟨hb1, hb2⟩ := Finset.mem_filter.1 hb
                      have hbR := (P.mem b).1 hb1
                      rw [List.mem_toFinset]
                      by_contra hnb
                      obtain ⟨p1, p2⟩ := P.path b hbR
                      rcases lpath_front p1 F (by simp) p2 with hp | ⟨x, hx, hx2⟩
                      · rcases hp with hp | hp
                        · exact hnb hp
                        · exact hbR.2.2.2 hp.1
                      · have hm := hmin x hx
                        rw [max_eq_left hb2] at hx2
                        have : ¬ x.1 < e.1 := hm
                        rw [e1] at this
                        exact this (lt_of_le_of_lt hx2 hA)
                  have := P.low
                  rw [← heq, sumk, ← hv] at this
                  have : full ≤ lv := by
                    by_contra hcon
                    push Not at hcon
                    nlinarith
                  exact hfa.trans this
            exact ⟨lv, rfl, hup, fun a ha => by linarith [hall a ha]⟩
  obtain ⟨lv, h1, h2, h3⟩ := hlev
  unfold lakeStop
  rw [h1]
  simp only
  set level := if nearEq eps lv (dem out) = true then dem out else lv with hlevel
  have hab : ∀ a ∈ s.aff, dem a < level + eps := by
    intro a ha
    rw [hlevel]
    split
    · linarith [hao a ha]
    · exact h3 a ha
  have g1 : ¬ lakeLastBad eps level dem s.aff = true := by
    unfold lakeLastBad
    cases hl : s.aff.getLast? with
    | none => simp
    | some a =>
      have : a ∈ s.aff := List.mem_of_getLast? hl
      simp [(nearLe_iff he).2 (hab a this)]
  rw [if_neg g1]
  have g2 : ¬ (¬ (level < dem c) ∧ nearEq eps (dem c) level = false) := by
    rintro ⟨k1, k2⟩
    have : nearEq eps (dem c) level = true := by
      rw [nearEq_iff]
      rw [hlevel] at k1 ⊢
      split
      · next hq =>
        obtain ⟨q1, q2⟩ := nearEq_iff.1 hq
        constructor <;> linarith
      · next hq =>
        rw [if_neg hq] at k1
        constructor <;> linarith [not_lt.1 k1]
    rw [this] at k2; cases k2
  rw [if_neg g2]
  -- the backfill
  have main : ∀ (l : List Cell) (wtd : Cell → E), l.Nodup → (∀ a ∈ l, wtd a = 0 ∧ dem a < level + eps) →
      ∃ w1, backfill eps level dem l wtd = some w1 := by
    intro l
    induction l with
    | nil => intro wtd _ _; exact ⟨wtd, rfl⟩
    | cons a l ih =>
      intro wtd hnd hl
      obtain ⟨n1, n2⟩ := List.nodup_cons.1 hnd
      simp only [backfill]
      rw [if_neg (not_not.2 (hl a List.mem_cons_self).1), if_neg]
      · refine ih _ n2 ?_
        intro b hb
        have hne : b ≠ a := by rintro rfl; exact n1 hb
        rw [Function.update_of_ne hne]
        exact hl b (List.mem_cons_of_mem _ hb)
      · rintro ⟨_, k2⟩
        rw [(nearGe_iff he).2 (hl a List.mem_cons_self).2] at k2
        cases k2
  refine main _ _ I.nd ?_
  intro a ha
  have hne : a ≠ c := by rintro rfl; exact e3 ha
  rw [Function.update_of_ne hne]
  exact ⟨(I.reg a ha).2.2.1, hab a ha⟩

/-- The loop ends and returns. -/
theorem lakeRun_total {R : Finset Cell} {full v0 : E} {w0 : Cell → E} (he : 0 < eps)
    (P : LakePre w h dem label labs out pit R full v0 w0) :
    ∀ (f : Nat) (s : Lake E) (op : Bool), LakeInv w h dem label labs out w0 v0 s →
      (∀ e, s.vis e = false → e ∉ s.q.map Prod.snd) →
      LakeFront w h dem label labs out pit s op none → LakeTot w h dem label labs out full s op →
      s.q ≠ [] → (R.card - s.aff.length) + (if op then 0 else 1) < f →
      ∃ w1, lakeRun pq w h dem label labs eps out f s = .ok w1 ∧
        ∃ lake sill level, Spread w h dem label labs eps out v0 w0 w1 lake sill level ∧
          ∀ q, Reg w h dem label labs out q → q ∉ lake → level ≤ dem q + 2 * eps := by
  intro f
  induction f with
  | zero => intro s op _ _ _ _ _ hf; omega
  | succ f ih =>
    intro s op I N F T hq hf
    have hv : s.v = v0 := by
      rw [I.v]
      have : (s.aff.map w0).sum = 0 := by
        apply List.sum_eq_zero
        intro x hx
        obtain ⟨a, ha, rfl⟩ := List.mem_map.1 hx
        exact P.sat a (I.reg a ha).1
      rw [this, add_zero]
    cases hpop : pq.pop s.q with
    | none => exact absurd (pq.pop_none.1 hpop) hq
    | some r =>
      obtain ⟨e, q⟩ := r
      obtain ⟨hperm, hmin⟩ := pq.pop_some hpop
      have heq := hperm.mem_iff.2 (List.mem_cons_self (a := e) (l := q))
      obtain ⟨e1, e2, e3, e4⟩ := I.qok e heq
      have hz : s.wtd e.2 = 0 := by
        rw [I.oth _ e3]
        rcases e4 with h | h
        · exact P.sat _ h
        · rw [h]; exact P.satOut
      simp only [lakeRun]
      rw [hpop]
      simp only
      rw [if_neg (by rw [hv]; exact not_lt.2 P.pos.le), if_neg (by rw [hz]; simp)]
      rw [hz, sub_zero]
      have hsubR : s.aff.toFinset ⊆ R := by
        intro a ha; rw [P.mem]; exact (I.reg a (List.mem_toFinset.1 ha)).1
      -- the order of the cells
      have hnext : ∀ x, Reg w h dem label labs out x → x ∉ s.aff → dem e.2 ≤ max full (dem x) := by
        intro x hx hxa
        obtain ⟨p1, p2⟩ := P.path x hx
        rcases lpath_front p1 F (by simp) p2 with hp | ⟨y, hy, hy2⟩
        · rcases hp with hp | hp
          · exact absurd hp hxa
          · exact absurd hp.1 hx.2.2.2
        · have hm : ¬ y.1 < e.1 := hmin y hy
          rw [e1] at hm
          exact (not_lt.1 hm).trans hy2
      by_cases hst : nearLe eps s.v (depVol (dem e.2) s.aff.length s.tot) = true
      · rw [if_pos hst]
        obtain ⟨w1, hw1⟩ := lakeStop_total he P I F T hpop hv ((nearLe_iff he).1 hst)
        rw [hw1]
        obtain ⟨level, S⟩ := lakeStop_spread he I (by rw [hv]; exact P.pos.le) e3 e4 hw1
        refine ⟨w1, rfl, s.aff, e.2, level, S, ?_⟩
        intro x hx hxa
        have hl := S.levelOk
        have hn := hnext x hx hxa
        by_cases hdx : dem e.2 ≤ dem x
        · linarith
        · push Not at hdx
          have hcf : dem e.2 ≤ full := by
            rcases le_max_iff.1 hn with h | h
            · exact h
            · exact absurd hdx (not_lt.2 h)
          have hxf : dem x ≤ full := hdx.le.trans hcf
          have haf : ∀ a ∈ s.aff, dem a ≤ full := by
            intro a ha
            have := T.mono a ha x hx hxa
            rwa [max_eq_left hxf] at this
          have sumk : ∀ k : E, (s.aff.toFinset).sum (fun q => k - dem q) = s.aff.length * k - s.tot := by
            intro k
            rw [List.sum_toFinset _ I.nd, sum_map_sub, I.tot]
          have hsub : insert x s.aff.toFinset ⊆ R.filter (fun q => dem q ≤ full) := by
            intro a ha
            rw [Finset.mem_filter]
            rcases Finset.mem_insert.1 ha with h | h
            · rw [h]; exact ⟨(P.mem x).2 hx, hxf⟩
            · exact ⟨hsubR h, haf a (List.mem_toFinset.1 h)⟩
          have h1 : (insert x s.aff.toFinset).sum (fun q => full - dem q) ≤ v0 := by
            refine le_trans (Finset.sum_le_sum_of_subset_of_nonneg hsub ?_) P.low
            intro i hi _
            have := (Finset.mem_filter.1 hi).2
            linarith
          rw [Finset.sum_insert (by rwa [List.mem_toFinset]), sumk] at h1
          have h2 := (nearLe_iff he).1 hst
          unfold depVol at h2
          rw [hv] at h2
          have hn0 : (0 : E) ≤ s.aff.length := Nat.cast_nonneg _
          have h3 : (s.aff.length : E) * dem e.2 ≤ s.aff.length * full := mul_le_mul_of_nonneg_left hcf hn0
          linarith
      · rw [if_neg hst, if_neg (by simp)]
        have hst' : depVol (dem e.2) s.aff.length s.tot + eps ≤ s.v := by
          by_contra hcon
          exact hst ((nearLe_iff he).2 (not_le.1 hcon))
        unfold depVol at hst'
        obtain ⟨I', N', q', a'⟩ := lakeNext_inv (pq := pq) I N hpop (fun _ => hz.le)
        obtain ⟨F', hredo⟩ := lakeNext_front I F hpop
        have hcov : op = true → e.2 = out → False := by
          intro ho hc
          have hall := T.redo ho ⟨e, heq, hc⟩
          have hsum : R.sum (fun q => dem out - dem q) = s.aff.length * dem out - s.tot := by
            have : R = s.aff.toFinset := by
              ext x
              rw [List.mem_toFinset, P.mem]
              exact ⟨hall x, fun hx => (I.reg x hx).1⟩
            rw [this, List.sum_toFinset _ I.nd, sum_map_sub, I.tot]
          have := P.cap
          rw [hsum, ← hv] at this
          rw [hc] at hst'
          linarith
        have hv' : (lakeNext pq w h dem label labs out e.2 q s).v = v0 := by
          rw [I'.v]
          have : ((lakeNext pq w h dem label labs out e.2 q s).aff.map w0).sum = 0 := by
            apply List.sum_eq_zero
            intro x hx
            obtain ⟨a, ha, rfl⟩ := List.mem_map.1 hx
            exact P.sat a (I'.reg a ha).1
          rw [this, add_zero]
        have T' : LakeTot w h dem label labs out full (lakeNext pq w h dem label labs out e.2 q s)
            (op || decide (e.2 = out)) := by
          refine ⟨?_, ?_, ?_⟩
          · intro a ha x hx hxa
            rw [a'] at ha hxa
            by_cases hc : e.2 = out
            · rw [if_pos hc] at ha hxa; exact T.mono a ha x hx hxa
            · rw [if_neg hc] at ha hxa
              rw [List.mem_append, List.mem_singleton, not_or] at hxa
              rcases List.mem_append.1 ha with ha | ha
              · exact T.mono a ha x hx hxa.1
              · rw [List.mem_singleton] at ha; subst ha
                exact hnext x hx hxa.1
          · intro a ha hfa
            rw [hv', I'.tot, a']
            rw [a'] at ha
            by_cases hc : e.2 = out
            · rw [if_pos hc] at ha ⊢
              have := T.vol a ha hfa
              rw [hv, I.tot] at this; exact this
            · rw [if_neg hc] at ha ⊢
              have hR := e4.resolve_right hc
              have hfc : full < dem e.2 := by
                rcases List.mem_append.1 ha with h | h
                · have := T.mono a h e.2 hR e3
                  by_contra hcon
                  rw [max_eq_left (not_lt.1 hcon)] at this
                  exact absurd hfa (not_lt.2 this)
                · rw [List.mem_singleton] at h; rw [← h]; exact hfa
              have hac : dem a ≤ dem e.2 := by
                rcases List.mem_append.1 ha with h | h
                · have := T.mono a h e.2 hR e3
                  rwa [max_eq_right hfc.le] at this
                · rw [List.mem_singleton] at h; rw [h]
              have hn0 : (0 : E) ≤ s.aff.length := Nat.cast_nonneg _
              rw [I.tot] at hst'
              simp only [List.length_append, List.length_singleton, Nat.cast_add, Nat.cast_one,
                List.map_append, List.map_cons, List.map_nil, List.sum_append, List.sum_cons,
                List.sum_nil, add_zero]
              rw [← hv]
              nlinarith
          · intro ho hex x hx
            -- the outlet is back in the queue: everything has been taken
            rcases hredo hex ho with ⟨k1, k2, k3⟩ | ⟨s2, k1, k2, k3⟩
            · rw [a', if_neg k3]
              exact List.mem_append_left _ (T.redo k1 k2 x hx)
            · obtain ⟨p1, p2⟩ := P.path x hx
              rcases lpath_front p1 k1 (by simp) p2 with hp | ⟨y, hy, _⟩
              · rcases hp with hp | hp
                · rw [← k3]; exact hp
                · exact absurd hp.1 hx.2.2.2
              · rw [k2] at hy; simp at hy
        have hcard : ∀ l : List Cell, l.Nodup → (∀ a ∈ l, Reg w h dem label labs out a) → l.length ≤ R.card := by
          intro l hl hr
          rw [← List.toFinset_card_of_nodup hl]
          apply Finset.card_le_card
          intro a ha
          rw [P.mem]; exact hr a (List.mem_toFinset.1 ha)
        have hlen := hcard _ I'.nd (fun a ha => (I'.reg a ha).1)
        refine ih (lakeNext pq w h dem label labs out e.2 q s) _ I' N' F' T' q' ?_
        rw [a'] at hlen ⊢
        by_cases hc : e.2 = out
        · have hop : op = false := by
            cases op
            · rfl
            · exact (hcov rfl hc).elim
          rw [if_pos hc]
          rw [hop] at hf ⊢
          simp [hc] at hf ⊢
          omega
        · rw [if_neg hc] at hlen ⊢
          simp only [hc, decide_false, Bool.or_false]
          simp only [List.length_append, List.length_singleton] at hlen ⊢
          omega

end RichDEM
