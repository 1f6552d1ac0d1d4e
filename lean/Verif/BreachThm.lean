/-
Invariants of the breaching algorithms (`Verif.Breach`).
-/
import Verif.Breach

namespace RichDEM

variable {E : Type*} [LinearOrder E]

/-- Data cells of the raster. -/
def breg (w h : Nat) (dem : Cell → E) (nd : E) (c : Cell) : Prop := InGrid w h c ∧ dem c ≠ nd
/-- Cells on the edge of the raster or beside NoData. -/
def bout (t : Topo) (w h : Nat) (dem : Cell → E) (nd : E) (c : Cell) : Prop :=
  OnEdge w h c ∨ ∃ b, Adj t c b ∧ InGrid w h b ∧ dem b = nd

/-- A never-ascending path from a cell at level `e` reaches an outlet, a cell in `stop` or a cell
below `e`. -/
inductive Flows (t : Topo) (reg out stop : Cell → Prop) (dem : Cell → E) (e : E) : Cell → Prop
  | out {c} : reg c → dem c = e → out c → Flows t reg out stop dem e c
  | stop {c} : reg c → dem c = e → stop c → Flows t reg out stop dem e c
  | low {c} : reg c → dem c < e → Flows t reg out stop dem e c
  | step {c d} : reg c → dem c = e → Adj t c d → Flows t reg out stop dem e d → Flows t reg out stop dem e c

variable {t : Topo} {w h : Nat} {reg out stop stop' : Cell → Prop} {dem : Cell → E}

/-- Stops may be replaced by cells from which the path goes on. -/
theorem Flows.trans {e : E} {c : Cell} (hf : Flows t reg out stop dem e c)
    (hs : ∀ x, reg x → stop x → dem x = e → Flows t reg out stop' dem e x) : Flows t reg out stop' dem e c := by
  induction hf with
  | out a b c => exact .out a b c
  | stop a b c => exact hs _ a c b
  | low a b => exact .low a b
  | step a b c _ ih => exact .step a b c ih

/-- Lowering one cell `x` next to the stop `l`. -/
theorem Flows.lower {e v : E} {l x c : Cell} (hx : reg x) (hv : v ≤ dem x) (hl : v ≤ dem l) (hlx : x = l ∨ Adj t l x)
    (hf : Flows t reg out (fun y => stop y ∨ y = l) dem e c) :
    Flows t reg out (fun y => stop y ∨ y = x) (Function.update dem x v) e c := by
  have hxe : dem x ≤ e → Flows t reg out (fun y => stop y ∨ y = x) (Function.update dem x v) e x := by
    intro he
    rcases (hv.trans he).lt_or_eq with h1 | h1
    · exact .low hx (by simpa using h1)
    · exact .stop hx (by simpa using h1) (Or.inr rfl)
  induction hf with
  | @out c a b d =>
    by_cases hc : c = x
    · subst hc; exact hxe b.le
    · exact .out a (by rw [Function.update_of_ne hc]; exact b) d
  | @stop c a b d =>
    by_cases hc : c = x
    · subst hc; exact hxe b.le
    · rcases d with d | rfl
      · exact .stop a (by rw [Function.update_of_ne hc]; exact b) (Or.inl d)
      · rcases hlx with rfl | hlx
        · exact absurd rfl hc
        refine .step a (by rw [Function.update_of_ne hc]; exact b) hlx ?_
        rcases (hl.trans b.le).lt_or_eq with h1 | h1
        · exact .low hx (by simpa using h1)
        · exact .stop hx (by simpa using h1) (Or.inr rfl)
  | @low c a b =>
    by_cases hc : c = x
    · subst hc; exact hxe b.le
    · exact .low a (by rw [Function.update_of_ne hc]; exact b)
  | @step c d a b ha _ ih =>
    by_cases hc : c = x
    · subst hc; exact hxe b.le
    · exact .step a (by rw [Function.update_of_ne hc]; exact b) ha ih

/-- The part of the back-links the carving relies on. -/
structure Links (t : Topo) (w h : Nat) (out : Cell → Prop) (vis : Cell → Bool) (back : Cell → Option Cell) :
    Prop where
  root : ∀ c, vis c = true → back c = none → out c
  link : ∀ c p, back c = some p → vis c = true ∧ vis p = true ∧ Adj t c p
  rank : ∃ T : Cell → Nat, (∀ c p, back c = some p → T p < T c) ∧
    ∀ c, vis c = true → T c + unflagged w h vis + 1 ≤ w * h

/-- Carving from `c`: no cell rises, only cells already visited change, and `c` is no longer a
place where flow stops. -/
theorem carve_ok {dn : E → E} (hdn : ∀ x, dn x ≤ x) {G : E → Prop} (hG : ∀ x, G x → G (dn x))
    {vis : Cell → Bool} {back : Cell → Option Cell} (L : Links t w h out vis back)
    (hvr : ∀ c, vis c = true → reg c) {c : Cell} (hc : vis c = true)
    (hgd : ∀ x, reg x → G (dem x))
    (hf : ∀ x, reg x → Flows t reg out (fun y => stop y ∨ y = c) dem (dem x) x) :
    carveStep dn back (carve (w * h) dn dem back c) = none ∧
    (∀ x, (carve (w * h) dn dem back c).dem x ≤ dem x) ∧
    (∀ x, vis x = false → (carve (w * h) dn dem back c).dem x = dem x) ∧
    (∀ x, reg x → G ((carve (w * h) dn dem back c).dem x)) ∧
    (∀ x, reg x → Flows t reg out stop (carve (w * h) dn dem back c).dem
      ((carve (w * h) dn dem back c).dem x) x) := by
  obtain ⟨T, hT1, hT2⟩ := L.rank
  obtain ⟨⟨k1, k2, k3, k4, l, k5, k6, k7, k8, k9, k10⟩, hn⟩ := loop_spec (step := carveStep dn back)
    (fun s : CV E => (∀ x, s.dem x ≤ dem x) ∧ (∀ x, vis x = false → s.dem x = dem x) ∧
      (∀ x, reg x → G (s.dem x)) ∧ G s.tgt ∧
      ∃ l, reg l ∧ vis l = true ∧ s.tgt ≤ s.dem l ∧
        (∀ x, s.cc = some x → (x = l ∨ Adj t l x) ∧ vis x = true) ∧ (s.cc = none → out l) ∧
        ∀ x, reg x → Flows t reg out (fun y => stop y ∨ y = l) s.dem (s.dem x) x)
    (fun s => match s.cc with | none => 0 | some x => T x + 1)
    (by
      rintro ⟨d, cc, tg⟩ s' ⟨a1, a2, a3, a4, l, a5, a6, a7, a8, a9, a10⟩ hs
      cases cc with
      | none => simp [carveStep] at hs
      | some x =>
        simp only [carveStep] at hs
        by_cases hle : tg ≤ d x
        · rw [if_pos hle] at hs
          simp only [Option.some.injEq] at hs
          subst hs
          obtain ⟨b1, b2⟩ := a8 x rfl
          have hrx := hvr x b2
          refine ⟨⟨?_, ?_, ?_, hG _ a4, x, hrx, b2, ?_, ?_, ?_, ?_⟩, ?_⟩
          · intro y
            by_cases hy : y = x
            · subst hy; simp only [Function.update_self]; exact hle.trans (a1 y)
            · simp only [Function.update_of_ne hy]; exact a1 y
          · intro y hy
            have : y ≠ x := by rintro rfl; rw [b2] at hy; cases hy
            simp only [Function.update_of_ne this]; exact a2 y hy
          · intro y hy
            by_cases hyx : y = x
            · subst hyx; simp only [Function.update_self]; exact a4
            · simp only [Function.update_of_ne hyx]; exact a3 y hy
          · simp only [Function.update_self]; exact hdn tg
          · intro p hp
            obtain ⟨_, h2, h3⟩ := L.link x p hp
            exact ⟨Or.inr h3, h2⟩
          · intro hb; exact L.root x b2 hb
          · intro y hy
            by_cases hyx : y = x
            · subst hyx
              exact .stop hy rfl (Or.inr rfl)
            · have := (a10 y hy).lower (v := tg) hrx hle a7 b1
              simpa only [Function.update_of_ne hyx] using this
          · show (match back x with | none => 0 | some y => T y + 1) < T x + 1
            cases hb : back x with
            | none => simp
            | some p => have := hT1 x p hb; simp only; omega
        · rw [if_neg hle] at hs; cases hs)
    (w * h) ⟨dem, some c, dem c⟩
    ⟨fun _ => le_rfl, fun _ _ => rfl, hgd, hgd c (hvr c hc), c, hvr c hc, hc, le_rfl,
      fun x hx => (by cases hx; exact ⟨Or.inl rfl, hc⟩), fun hx => (by cases hx), hf⟩
    (by have := hT2 c hc; show T c + 1 ≤ w * h; omega)
  refine ⟨hn, k1, k2, k3, ?_⟩
  intro x hx
  refine (k10 x hx).trans ?_
  intro y hy hs he
  rcases hs with hs | rfl
  · exact .stop hy he hs
  · have hkk : (carve (w * h) dn dem back c) = loop (carveStep dn back) (w * h) ⟨dem, some c, dem c⟩ := rfl
    rw [← hkk] at hn k7 k8 k9 he
    rw [← hkk]
    cases hcc : (carve (w * h) dn dem back c).cc with
    | none => exact .out hy he (k9 hcc)
    | some z =>
      unfold carveStep at hn
      rw [hcc] at hn
      simp only [ite_eq_right_iff, reduceCtorEq, imp_false, not_le] at hn
      obtain ⟨h1, h2⟩ := k8 z hcc
      have hlt : (carve (w * h) dn dem back c).dem z < (carve (w * h) dn dem back c).dem y := hn.trans_le k7
      rcases h1 with rfl | h1
      · exact absurd hlt (lt_irrefl _)
      · exact .step hy he h1 (.low (hvr z h2) (by rw [← he]; exact hlt))

/-! ### The first scan -/

theorem foldl_nodup {α σ : Type*} (f : σ → α → σ) (P : List α → σ → Prop) :
    ∀ (l pre : List α) (s : σ), (pre ++ l).Nodup → P pre s →
      (∀ pre a s, a ∉ pre → a ∈ l → P pre s → P (pre ++ [a]) (f s a)) → P (pre ++ l) (l.foldl f s) := by
  intro l
  induction l with
  | nil => intro pre s _ h _; simpa using h
  | cons a l ih =>
    intro pre s hnd h hs
    have hna : a ∉ pre := by
      intro hm
      rw [List.nodup_append] at hnd
      exact hnd.2.2 a hm a List.mem_cons_self rfl
    have := ih (pre ++ [a]) (f s a) (by simpa using hnd) (hs pre a s hna List.mem_cons_self h)
      (fun pre' b s' h1 h2 h3 => hs pre' b s' h1 (List.mem_cons_of_mem _ h2) h3)
    simpa using this

theorem lsLow_le {top : E} {c : Cell} {n : Nat} (hn : n ∈ dirs t) : lsLow t top dem c ≤ dem (nbr t c n) := by
  unfold lsLow
  have key : ∀ (l : List Nat) (m : E), l.foldl (fun m n => min (dem (nbr t c n)) m) m ≤ m ∧
      ∀ n ∈ l, l.foldl (fun m n => min (dem (nbr t c n)) m) m ≤ dem (nbr t c n) := by
    intro l
    induction l with
    | nil => intro m; simp
    | cons a l ih =>
      intro m
      obtain ⟨h1, h2⟩ := ih (min (dem (nbr t c a)) m)
      refine ⟨h1.trans (min_le_right _ _), ?_⟩
      intro n hn
      rcases List.mem_cons.1 hn with rfl | hn
      · exact h1.trans (min_le_left _ _)
      · exact h2 n hn
  exact (key (dirs t) top).2 n hn

theorem lsLow_mem {top : E} {c : Cell} : lsLow t top dem c = top ∨
    ∃ n ∈ dirs t, lsLow t top dem c = dem (nbr t c n) := by
  unfold lsLow
  have key : ∀ (l : List Nat) (m : E), l.foldl (fun m n => min (dem (nbr t c n)) m) m = m ∨
      ∃ n ∈ l, l.foldl (fun m n => min (dem (nbr t c n)) m) m = dem (nbr t c n) := by
    intro l
    induction l with
    | nil => intro m; simp
    | cons a l ih =>
      intro m
      rcases ih (min (dem (nbr t c a)) m) with h1 | ⟨n, h1, h2⟩
      · rcases min_choice (dem (nbr t c a)) m with h3 | h3
        · right; refine ⟨a, List.mem_cons_self, ?_⟩
          simp only [List.foldl_cons]; rw [h1, h3]
        · left; simp only [List.foldl_cons]; rw [h1, h3]
      · right; exact ⟨n, List.mem_cons_of_mem _ h1, h2⟩
  exact key (dirs t) top

theorem interior_nbr' {c : Cell} (hc : InGrid w h c) (he : ¬ OnEdge w h c) {n : Nat} (hn : n ∈ dirs t) :
    InGrid w h (nbr t c n) := by
  have ha := nbr_adj (c := c) hn
  obtain ⟨x, y⟩ := c
  simp only [OnEdge, not_and, not_or] at he
  have he := he hc
  cases t
  · obtain ⟨_, h1, h2⟩ := ha
    simp only [InGrid] at hc ⊢ h1 h2 he
    omega
  · simp only [Adj] at ha
    simp only [InGrid] at hc ⊢ he
    omega

/-- State of the first scan when the cells `pre` have been looked at. -/
structure ScanInv (t : Topo) (w h : Nat) (nd top : E) (dn : E → E) (G : E → Prop) (dem : Cell → E) (pre : List Cell) (s : LS E) :
    Prop where
  nodata : ∀ c, InGrid w h c → (s.dem c = nd ↔ dem c = nd)
  good : ∀ c, breg w h dem nd c → G (s.dem c)
  un : ∀ c, c ∉ pre → s.dem c = dem c ∧ s.pits c = false ∧ s.vis c = false
  le_top : ∀ c, InGrid w h c → s.dem c ≤ top
  vis : ∀ c ∈ pre, (s.vis c = true ↔ breg w h dem nd c ∧ bout t w h dem nd c)
  desc : ∀ c ∈ pre, breg w h dem nd c → ¬ bout t w h dem nd c → s.pits c = true ∨
    ∃ q, Adj t c q ∧ breg w h dem nd q ∧ (s.dem q < s.dem c ∨ (s.pits q = true ∧ s.dem q ≤ s.dem c))
  pit : ∀ c, s.pits c = true → breg w h dem nd c ∧ ¬ bout t w h dem nd c
  pqv : ∀ e ∈ s.pq, s.vis e.2 = true
  visq : ∀ c, s.vis c = true → ∃ e ∈ s.pq, e.2 = c
  nodup : (s.pq.map Prod.snd).Nodup
  tot : s.tot = (allCells w h).countP (fun c => s.pits c)
  len : s.pq.length + unflagged w h s.vis ≤ w * h
  rest : s.back = (fun _ => none) ∧ s.done = (fun _ => false) ∧ s.fin = false ∧ s.flood = []
  raised : ∀ c, dem c ≤ s.dem c ∧ (s.dem c ≠ dem c → s.pits c = true)
  pitlow : ∀ c, s.pits c = true → ∀ q, Adj t c q → s.dem c ≤ s.dem q
  strict : ∀ c, s.dem c ≠ dem c → ∀ q, Adj t c q → dem c < dem q

theorem ScanInv.start {nd top : E} {dn : E → E} {G : E → Prop} (hG : ∀ c, breg w h dem nd c → G (dem c))
    (htop : ∀ c, InGrid w h c → dem c ≤ top) : ScanInv t w h nd top dn G dem [] (lsStart dem) where
  nodata := fun _ _ => Iff.rfl
  good := hG
  un := fun _ _ => ⟨rfl, rfl, rfl⟩
  le_top := htop
  vis := by simp
  desc := by simp
  pit := fun c hc => by cases hc
  pqv := fun e he => by cases he
  visq := fun c hc => by cases hc
  nodup := by simp [lsStart]
  tot := by simp [lsStart]
  len := by have := unflagged_le w h (lsStart dem).vis; simpa [lsStart] using this
  rest := ⟨rfl, rfl, rfl, rfl⟩
  raised := fun c => ⟨le_rfl, fun hc => absurd rfl hc⟩
  pitlow := fun c hc => by cases hc
  strict := fun c hc => absurd rfl hc

/-- An outlet is put on the queue. -/
theorem ScanInv.push {pq : PQ (E × Cell) zLt} {nd top : E} {dn : E → E} {G : E → Prop} {pre : List Cell} {s : LS E}
    {c : Cell} (I : ScanInv t w h nd top dn G dem pre s) (hc : c ∉ pre) (hr : breg w h dem nd c)
    (ho : bout t w h dem nd c) :
    ScanInv t w h nd top dn G dem (pre ++ [c])
      { s with pq := pq.push (s.dem c, c) s.pq, vis := Function.update s.vis c true } where
  nodata := I.nodata
  good := I.good
  un := by
    intro d hd
    simp only [List.mem_append, List.mem_singleton, not_or] at hd
    obtain ⟨a, b, e⟩ := I.un d hd.1
    exact ⟨a, b, by simp only [Function.update_of_ne hd.2]; exact e⟩
  le_top := I.le_top
  vis := by
    intro d hd
    by_cases hdc : d = c
    · subst hdc; simp [hr, ho]
    · simp only [Function.update_of_ne hdc]
      exact I.vis d (by simpa [hdc] using hd)
  desc := by
    intro d hd h1 h2
    have hdc : d ≠ c := by rintro rfl; exact h2 ho
    exact I.desc d (by simpa [hdc] using hd) h1 h2
  pit := I.pit
  pqv := by
    intro e he
    rcases pq.mem_push.1 he with rfl | he
    · simp
    · simp only
      by_cases hec : e.2 = c
      · rw [hec]; simp
      · rw [Function.update_of_ne hec]; exact I.pqv e he
  visq := by
    intro d hd
    by_cases hdc : d = c
    · exact ⟨_, pq.mem_push.2 (Or.inl rfl), hdc.symm⟩
    · simp only [Function.update_of_ne hdc] at hd
      obtain ⟨e, he, h1⟩ := I.visq d hd
      exact ⟨e, pq.mem_push.2 (Or.inr he), h1⟩
  nodup := by
    have hp := (pq.push_perm (s.dem c, c) s.pq).map Prod.snd
    rw [hp.nodup_iff]
    simp only [List.map_cons, List.nodup_cons]
    refine ⟨?_, I.nodup⟩
    intro hm
    obtain ⟨e, he, h1⟩ := List.mem_map.1 hm
    have h2 := I.pqv e he
    rw [h1, (I.un c hc).2.2] at h2
    cases h2
  tot := I.tot
  len := by
    have := I.len
    have h2 := unflagged_update (w := w) (h := h) hr.1 (I.un c hc).2.2
    simp only [pq.length_push]; omega
  rest := I.rest
  raised := I.raised
  pitlow := I.pitlow
  strict := I.strict

/-- A pit is recorded and raised to `v`. -/
theorem ScanInv.addPit {nd top : E} {dn : E → E} {G : E → Prop} {pre : List Cell} {s : LS E}
    {c : Cell} {v : E} (I : ScanInv t w h nd top dn G dem pre s) (hc : c ∉ pre) (hr : breg w h dem nd c)
    (ho : ¬ bout t w h dem nd c) (hv : s.dem c ≤ v) (hvq : ∀ q, Adj t c q → v ≤ s.dem q) (hvn : v ≠ nd) (hvG : G v)
    (hvt : v ≤ top) :
    ScanInv t w h nd top dn G dem (pre ++ [c])
      { s with dem := Function.update s.dem c v, pits := Function.update s.pits c true, tot := s.tot + 1 } where
  nodata := by
    intro d hd
    by_cases hdc : d = c
    · subst hdc; simp [hvn, hr.2]
    · simp only [Function.update_of_ne hdc]; exact I.nodata d hd
  good := by
    intro d hd
    by_cases hdc : d = c
    · subst hdc; simpa using hvG
    · simp only [Function.update_of_ne hdc]; exact I.good d hd
  un := by
    intro d hd
    simp only [List.mem_append, List.mem_singleton, not_or] at hd
    simp only [Function.update_of_ne hd.2]
    exact I.un d hd.1
  le_top := by
    intro d hd
    by_cases hdc : d = c
    · subst hdc; simpa using hvt
    · simp only [Function.update_of_ne hdc]; exact I.le_top d hd
  vis := by
    intro d hd
    by_cases hdc : d = c
    · subst hdc; simp [(I.un d hc).2.2, ho]
    · exact I.vis d (by simpa [hdc] using hd)
  desc := by
    intro d hd h1 h2
    by_cases hdc : d = c
    · left; simp [hdc]
    · simp only [Function.update_of_ne hdc]
      rcases I.desc d (by simpa [hdc] using hd) h1 h2 with h3 | ⟨q, h3, h4, h5⟩
      · exact Or.inl h3
      · right
        by_cases hqc : q = c
        · subst hqc
          refine ⟨q, h3, h4, Or.inr ⟨by simp, ?_⟩⟩
          simp only [Function.update_self]
          exact hvq d h3.symm
        · refine ⟨q, h3, h4, ?_⟩
          simp only [Function.update_of_ne hqc]
          exact h5
  pit := by
    intro d hd
    by_cases hdc : d = c
    · subst hdc; exact ⟨hr, ho⟩
    · simp only [Function.update_of_ne hdc] at hd; exact I.pit d hd
  pqv := I.pqv
  visq := I.visq
  nodup := I.nodup
  tot := by
    have := countP_update (nodup_allCells w h) (p := fun d => !(s.pits d)) (q := fun d => !(Function.update s.pits c true d))
      (mem_allCells.2 hr.1) (by simp [(I.un c hc).2.1]) (by simp) (fun d hd => by simp [Function.update_of_ne hd])
    have h1 := List.length_eq_countP_add_countP (fun d => s.pits d) (l := allCells w h)
    have h2 := List.length_eq_countP_add_countP (fun d => Function.update s.pits c true d) (l := allCells w h)
    have := I.tot
    simp only [Bool.not_eq_true, Bool.decide_eq_false] at h1 h2
    simp only
    omega
  len := I.len
  rest := I.rest
  raised := by
    intro d
    by_cases hdc : d = c
    · subst hdc
      simp only [Function.update_self]
      rw [(I.un d hc).1] at hv
      exact ⟨hv, fun _ => trivial⟩
    · simp only [Function.update_of_ne hdc]; exact I.raised d
  pitlow := by
    intro d hd q hq
    have hdq : d ≠ q := by
      rintro rfl
      cases t
      · exact hq.1 rfl
      · simp [Adj] at hq
    by_cases hdc : d = c
    · subst hdc
      simp only [Function.update_self, Function.update_of_ne hdq.symm]
      exact hvq q hq
    · simp only [Function.update_of_ne hdc] at hd ⊢
      by_cases hqc : q = c
      · subst hqc
        simp only [Function.update_self]
        exact (I.pitlow d hd q hq).trans hv
      · simp only [Function.update_of_ne hqc]
        exact I.pitlow d hd q hq
  strict := by
    intro d hd q hq
    by_cases hdc : d = c
    · subst hdc
      simp only [Function.update_self] at hd
      have h0 := (I.un d hc).1
      rw [h0] at hv
      have hlt : dem d < v := lt_of_le_of_ne hv (Ne.symm hd)
      by_cases hqe : s.dem q = dem q
      · exact hlt.trans_le (by rw [← hqe]; exact hvq q hq)
      · have h1 := I.pitlow q ((I.raised q).2 hqe) d hq.symm
        rw [h0] at h1
        exact absurd (hlt.trans_le ((hvq q hq).trans h1)) (lt_irrefl _)
    · simp only [Function.update_of_ne hdc] at hd
      exact I.strict d hd q hq

/-- A cell that needs nothing. -/
theorem ScanInv.skip {nd top : E} {dn : E → E} {G : E → Prop} {pre : List Cell} {s : LS E}
    {c : Cell} (I : ScanInv t w h nd top dn G dem pre s) (hc : c ∉ pre)
    (hcase : ¬ breg w h dem nd c ∨ (breg w h dem nd c ∧ ¬ bout t w h dem nd c ∧
      ∃ q, Adj t c q ∧ breg w h dem nd q ∧ s.dem q < s.dem c)) :
    ScanInv t w h nd top dn G dem (pre ++ [c]) s where
  nodata := I.nodata
  good := I.good
  un := by
    intro d hd
    simp only [List.mem_append, List.mem_singleton, not_or] at hd
    exact I.un d hd.1
  le_top := I.le_top
  vis := by
    intro d hd
    by_cases hdc : d = c
    · subst hdc
      rw [(I.un d hc).2.2]
      simp only [Bool.false_eq_true, false_iff, not_and]
      intro h1
      rcases hcase with h2 | ⟨_, h2, _⟩
      · exact absurd h1 h2
      · exact h2
    · exact I.vis d (by simpa [hdc] using hd)
  desc := by
    intro d hd h1 h2
    by_cases hdc : d = c
    · subst hdc
      rcases hcase with h3 | ⟨_, _, q, h3, h4, h5⟩
      · exact absurd h1 h3
      · exact Or.inr ⟨q, h3, h4, Or.inl h5⟩
    · exact I.desc d (by simpa [hdc] using hd) h1 h2
  pit := I.pit
  pqv := I.pqv
  visq := I.visq
  nodup := I.nodup
  tot := I.tot
  len := I.len
  rest := I.rest
  raised := I.raised
  pitlow := I.pitlow
  strict := I.strict

theorem lsScan_ok {pq : PQ (E × Cell) zLt} {nd top : E} {dn : E → E} {G : E → Prop} (hdn : ∀ x, dn x ≤ x)
    (hdn2 : ∀ x y, x < y → x ≤ dn y) (hG : ∀ x, G x → G (dn x)) (hGn : ∀ x, G x → x ≠ nd)
    {pre : List Cell} {s : LS E} {c : Cell}
    (I : ScanInv t w h nd top dn G dem pre s) (hc : c ∉ pre) (hg : InGrid w h c) :
    ScanInv t w h nd top dn G dem (pre ++ [c]) (lsScan pq t w h nd top dn s c) := by
  unfold lsScan
  by_cases h1 : s.dem c = nd
  · rw [if_pos h1]
    exact I.skip hc (Or.inl fun hr => hr.2 ((I.nodata c hg).1 h1))
  rw [if_neg h1]
  have hr : breg w h dem nd c := ⟨hg, fun h => h1 ((I.nodata c hg).2 h)⟩
  by_cases h2 : isEdgeCell w h c = true
  · rw [if_pos h2]
    exact I.push hc hr (Or.inl ((isEdgeCell_iff hg).1 h2))
  rw [if_neg h2]
  have he : ¬ OnEdge w h c := fun h => h2 ((isEdgeCell_iff hg).2 h)
  by_cases h3 : (dirs t).any (fun n => decide (s.dem (nbr t c n) = nd)) = true
  · rw [if_pos h3]
    obtain ⟨n, hn, h4⟩ := List.any_eq_true.1 h3
    have hin := interior_nbr' hg he hn
    exact I.push hc hr (Or.inr ⟨_, nbr_adj hn, hin, (I.nodata _ hin).1 (by simpa using h4)⟩)
  rw [if_neg h3]
  have hnd : ∀ n ∈ dirs t, s.dem (nbr t c n) ≠ nd := by
    intro n hn h4
    exact h3 (List.any_eq_true.2 ⟨n, hn, by simpa using h4⟩)
  have ho : ¬ bout t w h dem nd c := by
    rintro (h4 | ⟨b, hb, hbg, hbn⟩)
    · exact he h4
    · obtain ⟨n, hn, rfl⟩ := adj_iff_nbr.1 hb
      exact hnd n hn ((I.nodata _ hbg).2 hbn)
  have hreg : ∀ n ∈ dirs t, breg w h dem nd (nbr t c n) := fun n hn =>
    ⟨interior_nbr' hg he hn, fun h4 => hnd n hn ((I.nodata _ (interior_nbr' hg he hn)).2 h4)⟩
  have hlow : ∀ q, Adj t c q → lsLow t top s.dem c ≤ s.dem q := by
    intro q hq
    obtain ⟨n, hn, rfl⟩ := adj_iff_nbr.1 hq
    exact lsLow_le hn
  have h1d : (1 : Nat) ∈ dirs t := mem_dirs.2 ⟨le_rfl, by cases t <;> simp [nmax]⟩
  have hat : ∃ n ∈ dirs t, lsLow t top s.dem c = s.dem (nbr t c n) := by
    rcases lsLow_mem (t := t) (top := top) (dem := s.dem) (c := c) with h4 | h4
    · refine ⟨1, h1d, le_antisymm (lsLow_le h1d) ?_⟩
      rw [h4]; exact I.le_top _ (hreg 1 h1d).1
    · exact h4
  obtain ⟨n, hn, hlo⟩ := hat
  have hgl : G (lsLow t top s.dem c) := by rw [hlo]; exact I.good _ (hreg n hn)
  by_cases h4 : s.dem c < lsLow t top s.dem c
  · rw [if_pos h4]
    refine I.addPit hc hr ho (hdn2 _ _ h4) (fun q hq => (hdn _).trans (hlow q hq)) (hGn _ (hG _ hgl)) (hG _ hgl)
      ((hdn _).trans ?_)
    rw [hlo]; exact I.le_top _ (hreg n hn).1
  rw [if_neg h4]
  by_cases h5 : s.dem c ≤ lsLow t top s.dem c
  · rw [if_pos h5]
    have := I.addPit hc hr ho le_rfl (fun q hq => h5.trans (hlow q hq)) h1 (I.good c hr) (I.le_top c hg)
    simpa only [Function.update_eq_self] using this
  · rw [if_neg h5]
    refine I.skip hc (Or.inr ⟨hr, ho, _, nbr_adj hn, hreg n hn, ?_⟩)
    rw [← hlo]; exact not_le.1 h5

theorem lsInit_ok (pq : PQ (E × Cell) zLt) {nd top : E} {dn : E → E} {G : E → Prop} (hdn : ∀ x, dn x ≤ x)
    (hdn2 : ∀ x y, x < y → x ≤ dn y) (hG : ∀ x, G x → G (dn x)) (hGn : ∀ x, G x → x ≠ nd)
    (hGd : ∀ c, breg w h dem nd c → G (dem c)) (htop : ∀ c, InGrid w h c → dem c ≤ top) :
    ScanInv t w h nd top dn G dem (allCells w h) (lsInit pq t w h nd top dn dem) := by
  have := foldl_nodup (lsScan pq t w h nd top dn) (ScanInv t w h nd top dn G dem) (allCells w h) [] (lsStart dem)
    (by simpa using nodup_allCells w h) (ScanInv.start hGd htop)
    (fun pre a s h1 h2 h3 => lsScan_ok hdn hdn2 hG hGn h3 h1 (mem_allCells.1 h2))
  rw [List.nil_append] at this
  exact this

/-! ### The second phase -/

/-- The back-links, whatever is done with the pits. -/
structure LTree (t : Topo) (w h : Nat) (out : Cell → Prop) (s : LS E) : Prop where
  visg : ∀ c, s.vis c = true → InGrid w h c
  links : Links t w h out s.vis s.back
  pqv : ∀ e ∈ s.pq, s.vis e.2 = true
  fnodup : s.flood.Nodup
  fmem : ∀ f, f ∈ s.flood ↔ s.vis f = true ∧ ∃ p, s.back f = some p
  ford : s.flood.Pairwise (fun a b => s.back a ≠ some b)

theorem LTree.visit {pq : PQ (E × Cell) zLt} {s : LS E} {c q : Cell} {v : E} (I : LTree t w h out s) (hc : s.vis c = true)
    (hq : s.vis q = false) (hg : InGrid w h q) (ha : Adj t q c) :
    LTree t w h out { s with pq := pq.push (v, q) s.pq, flood := s.flood ++ [q]
                             vis := Function.update s.vis q true, back := Function.update s.back q (some c) } := by
  have hu := unflagged_update (w := w) (h := h) hg hq
  have hcq : c ≠ q := by rintro rfl; rw [hq] at hc; cases hc
  have hlv : ∀ d p, s.back d = some p → d ≠ q ∧ p ≠ q := by
    intro d p hd
    obtain ⟨h1, h2, _⟩ := I.links.link d p hd
    exact ⟨(by rintro rfl; rw [hq] at h1; cases h1), (by rintro rfl; rw [hq] at h2; cases h2)⟩
  refine ⟨?_, ⟨?_, ?_, ?_⟩, ?_, ?_, ?_, ?_⟩
  · intro d hd
    by_cases hdq : d = q
    · rw [hdq]; exact hg
    · simp only [Function.update_of_ne hdq] at hd; exact I.visg d hd
  · intro d hd hb
    by_cases hdq : d = q
    · subst hdq; simp at hb
    · simp only [Function.update_of_ne hdq] at hd hb; exact I.links.root d hd hb
  · intro d p hd
    by_cases hdq : d = q
    · subst hdq
      simp only [Function.update_self, Option.some.injEq] at hd
      subst hd
      exact ⟨by simp, by simp only [Function.update_of_ne hcq]; exact hc, ha⟩
    · simp only [Function.update_of_ne hdq] at hd
      obtain ⟨h1, h2, h3⟩ := I.links.link d p hd
      exact ⟨by simp only [Function.update_of_ne hdq]; exact h1,
        by simp only [Function.update_of_ne (hlv d p hd).2]; exact h2, h3⟩
  · obtain ⟨T, h1, h2⟩ := I.links.rank
    refine ⟨Function.update T q (w * h - unflagged w h s.vis), ?_, ?_⟩
    · intro d p hd
      by_cases hdq : d = q
      · subst hdq
        simp only [Function.update_self, Option.some.injEq] at hd
        subst hd
        simp only [Function.update_self, Function.update_of_ne hcq]
        have := h2 c hc
        omega
      · simp only [Function.update_of_ne hdq] at hd
        simp only [Function.update_of_ne hdq, Function.update_of_ne (hlv d p hd).2]
        exact h1 d p hd
    · intro d hd
      have hle := unflagged_le w h s.vis
      by_cases hdq : d = q
      · subst hdq; simp only [Function.update_self]; omega
      · simp only [Function.update_of_ne hdq] at hd ⊢
        have := h2 d hd
        omega
  · intro e he
    rcases pq.mem_push.1 he with rfl | he
    · simp
    · by_cases heq : e.2 = q
      · simp [heq]
      · simp only [Function.update_of_ne heq]; exact I.pqv e he
  · simp only
    rw [List.nodup_append]
    refine ⟨I.fnodup, by simp, ?_⟩
    rintro a ha' b hb rfl
    rw [List.mem_singleton] at hb
    subst hb
    rw [((I.fmem a).1 ha').1] at hq; cases hq
  · intro f
    simp only [List.mem_append, List.mem_singleton, I.fmem]
    by_cases hfq : f = q
    · subst hfq; simp
    · simp only [Function.update_of_ne hfq, hfq, or_false]
  · simp only
    rw [List.pairwise_append]
    refine ⟨?_, by simp, ?_⟩
    · refine I.ford.imp_of_mem ?_
      intro a b ha' hb h1
      have haq : a ≠ q := by rintro rfl; rw [((I.fmem a).1 ha').1] at hq; cases hq
      simp only [Function.update_of_ne haq]; exact h1
    · intro a ha' b hb
      rw [List.mem_singleton] at hb
      subst hb
      have haq : a ≠ b := by rintro rfl; rw [((I.fmem a).1 ha').1] at hq; cases hq
      simp only [Function.update_of_ne haq]
      intro h1
      exact (hlv a b h1).2 rfl

theorem lsNbr_tree {pq : PQ (E × Cell) zLt} {nd : E} {s : LS E} {c : Cell} {n : Nat} (hn : n ∈ dirs t)
    (I : LTree t w h out s) (hc : s.vis c = true) :
    LTree t w h out (lsNbr pq t w h nd c s n) ∧ (lsNbr pq t w h nd c s n).vis c = true ∧
    (lsNbr pq t w h nd c s n).pq.length + unflagged w h (lsNbr pq t w h nd c s n).vis =
      s.pq.length + unflagged w h s.vis := by
  unfold lsNbr
  simp only
  split
  · exact ⟨I, hc, rfl⟩
  next h1 =>
  split
  · exact ⟨I, hc, rfl⟩
  split
  · exact ⟨I, hc, rfl⟩
  next h3 =>
  have hg : InGrid w h (nbr t c n) := inGrid_iff.1 (by simpa using h1)
  have hq : s.vis (nbr t c n) = false := by simpa using h3
  refine ⟨I.visit hc hq hg (nbr_adj hn).symm, ?_, ?_⟩
  · have : c ≠ nbr t c n := by intro h; rw [← h] at hq; rw [hc] at hq; cases hq
    simp only [Function.update_of_ne this]; exact hc
  · have := unflagged_update (w := w) (h := h) hg hq
    simp only [pq.length_push]; omega

theorem lsStep_tree {breach : (Cell → E) → (Cell → Option Cell) → Cell → CV E} {pq : PQ (E × Cell) zLt} {nd : E}
    {s s' : LS E} (I : LTree t w h out s) (hs : lsStep breach pq t w h nd s = some s') :
    LTree t w h out s' ∧ s'.pq.length + unflagged w h s'.vis < s.pq.length + unflagged w h s.vis := by
  unfold lsStep at hs
  by_cases hfin : s.fin = true
  · rw [if_pos hfin] at hs; cases hs
  rw [if_neg hfin] at hs
  cases hp : pq.pop s.pq with
  | none => rw [hp] at hs; cases hs
  | some er =>
    obtain ⟨e, r⟩ := er
    rw [hp] at hs
    simp only at hs
    obtain ⟨hperm, _⟩ := pq.pop_some hp
    have hlen : s.pq.length = r.length + 1 := by rw [hperm.length_eq]; simp
    have hev : s.vis e.2 = true := I.pqv e (hperm.mem_iff.2 List.mem_cons_self)
    have hrv : ∀ x ∈ r, s.vis x.2 = true := fun x hx => I.pqv x (hperm.mem_iff.2 (List.mem_cons_of_mem _ hx))
    have key : ∀ s1 : LS E, s1.pq = r → s1.vis = s.vis → s1.back = s.back → s1.flood = s.flood →
        (LTree t w h out s1 ∧ s1.pq.length + unflagged w h s1.vis < s.pq.length + unflagged w h s.vis) ∧
        (LTree t w h out ((dirs t).foldl (lsNbr pq t w h nd e.2) s1) ∧
          ((dirs t).foldl (lsNbr pq t w h nd e.2) s1).pq.length +
            unflagged w h ((dirs t).foldl (lsNbr pq t w h nd e.2) s1).vis < s.pq.length + unflagged w h s.vis) := by
      intro s1 e1 e2 e3 e4
      have I1 : LTree t w h out s1 := ⟨by rw [e2]; exact I.visg, by rw [e2, e3]; exact I.links,
        by rw [e1, e2]; exact hrv, by rw [e4]; exact I.fnodup, by rw [e4, e2, e3]; exact I.fmem,
        by rw [e4, e3]; exact I.ford⟩
      have hm : s1.pq.length + unflagged w h s1.vis < s.pq.length + unflagged w h s.vis := by rw [e1, e2]; omega
      refine ⟨⟨I1, hm⟩, ?_⟩
      have := foldl_inv' (f := lsNbr pq t w h nd e.2)
        (fun s2 => LTree t w h out s2 ∧ s2.vis e.2 = true ∧
          s2.pq.length + unflagged w h s2.vis = s1.pq.length + unflagged w h s1.vis) (dirs t) s1
        (fun s2 n hn hP => ⟨(lsNbr_tree hn hP.1 hP.2.1).1, (lsNbr_tree hn hP.1 hP.2.1).2.1,
          (lsNbr_tree hn hP.1 hP.2.1).2.2.trans hP.2.2⟩) ⟨I1, by rw [e2]; exact hev, rfl⟩
      exact ⟨this.1, by rw [this.2.2]; exact hm⟩
    split at hs
    · split at hs
      · cases hs; exact (key { s with pq := r, done := Function.update s.done e.2 true, dem := (breach s.dem s.back e.2).dem, tot := s.tot - 1, fin := true } rfl rfl rfl rfl).1
      · cases hs; exact (key { s with pq := r, done := Function.update s.done e.2 true, dem := (breach s.dem s.back e.2).dem, tot := s.tot - 1 } rfl rfl rfl rfl).2
    · cases hs; exact (key { s with pq := r, done := Function.update s.done e.2 true } rfl rfl rfl rfl).2

theorem ScanInv.tree {nd top : E} {dn : E → E} {G : E → Prop} {s : LS E}
    (I : ScanInv t w h nd top dn G dem (allCells w h) s) : LTree t w h (bout t w h dem nd) s := by
  have hv : ∀ c, s.vis c = true → breg w h dem nd c ∧ bout t w h dem nd c := by
    intro c hc
    by_cases hm : c ∈ allCells w h
    · exact (I.vis c hm).1 hc
    · rw [(I.un c hm).2.2] at hc; cases hc
  refine ⟨fun c hc => (hv c hc).1.1, ⟨fun c hc _ => (hv c hc).2, ?_, ⟨fun _ => 0, ?_, ?_⟩⟩, I.pqv, ?_, ?_, ?_⟩
  · intro c p hb; rw [I.rest.1] at hb; cases hb
  · intro c p hb; rw [I.rest.1] at hb; cases hb
  · intro c hc
    have : unflagged w h s.vis < (allCells w h).length := by
      unfold unflagged
      refine lt_of_le_of_ne List.countP_le_length ?_
      intro he
      rw [List.countP_eq_length] at he
      have := he c (mem_allCells.2 (hv c hc).1.1)
      rw [hc] at this; cases this
    rw [length_allCells] at this
    show 0 + unflagged w h s.vis + 1 ≤ w * h
    omega
  · rw [I.rest.2.2.2]; simp
  · intro f; rw [I.rest.2.2.2, I.rest.1]; simp
  · rw [I.rest.2.2.2]; simp

/-- Invariant of the second phase of complete breaching.  `demR` are the elevations after the first
scan, `ex` the cell whose neighbours are being looked at. -/
structure LInv (t : Topo) (w h : Nat) (nd : E) (G : E → Prop) (dem demR : Cell → E) (ex : List Cell) (s : LS E) : Prop where
  T : LTree t w h (bout t w h dem nd) s
  visr : ∀ c, s.vis c = true → breg w h dem nd c
  outv : ∀ c, breg w h dem nd c → bout t w h dem nd c → s.vis c = true
  nodata : ∀ c, InGrid w h c → (s.dem c = nd ↔ dem c = nd)
  good : ∀ c, breg w h dem nd c → G (s.dem c)
  pqd : ∀ e ∈ s.pq, s.done e.2 = false
  visq : ∀ c, s.vis c = true → s.done c = false → ∃ e ∈ s.pq, e.2 = c
  donev : ∀ c, s.done c = true → s.vis c = true
  pqnd : (s.pq.map Prod.snd).Nodup
  closed : s.fin = false → ∀ c, c ∉ ex → s.done c = true → ∀ b, Adj t c b → breg w h dem nd b → s.vis b = true
  pit : ∀ c, s.pits c = true → breg w h dem nd c
  tot : s.tot = (allCells w h).countP (fun c => s.pits c && !s.done c)
  fin : s.fin = true → s.tot = 0
  flow : ∀ c, breg w h dem nd c → Flows t (breg w h dem nd) (bout t w h dem nd)
    (fun x => s.pits x = true ∧ s.done x = false) s.dem (s.dem c) c
  le : ∀ c, s.dem c ≤ demR c

variable {nd : E} {G : E → Prop} {demR : Cell → E} {ex : List Cell}

theorem ScanInv.linv {top : E} {dn : E → E} {s : LS E} (I : ScanInv t w h nd top dn G dem (allCells w h) s) :
    LInv t w h nd G dem s.dem [] s where
  T := I.tree
  visr := by
    intro c hc
    by_cases hm : c ∈ allCells w h
    · exact ((I.vis c hm).1 hc).1
    · rw [(I.un c hm).2.2] at hc; cases hc
  outv := fun c h1 h2 => (I.vis c (mem_allCells.2 h1.1)).2 ⟨h1, h2⟩
  nodata := I.nodata
  good := I.good
  pqd := by rw [I.rest.2.1]; simp
  visq := fun c hc _ => I.visq c hc
  donev := by rw [I.rest.2.1]; simp
  pqnd := I.nodup
  closed := by rw [I.rest.2.1]; simp
  pit := fun c hc => (I.pit c hc).1
  tot := by rw [I.tot, I.rest.2.1]; simp
  fin := by rw [I.rest.2.2.1]; simp
  flow := by
    intro c hc
    rw [I.rest.2.1]
    by_cases ho : bout t w h dem nd c
    · exact .out hc rfl ho
    rcases I.desc c (mem_allCells.2 hc.1) hc ho with h1 | ⟨q, h1, h2, h3 | ⟨h3, h4⟩⟩
    · exact .stop hc rfl ⟨h1, rfl⟩
    · exact .step hc rfl h1 (.low h2 h3)
    · refine .step hc rfl h1 ?_
      rcases h4.lt_or_eq with h5 | h5
      · exact .low h2 h5
      · exact .stop h2 h5 ⟨h3, rfl⟩
  le := fun _ => le_rfl

theorem lsNbr_linv {pq : PQ (E × Cell) zLt} {s : LS E} {c : Cell} {n : Nat} (hn : n ∈ dirs t)
    (I : LInv t w h nd G dem demR ex s) (hc : s.vis c = true) :
    LInv t w h nd G dem demR ex (lsNbr pq t w h nd c s n) ∧
    (∀ x, s.vis x = true → (lsNbr pq t w h nd c s n).vis x = true) ∧
    (breg w h dem nd (nbr t c n) → (lsNbr pq t w h nd c s n).vis (nbr t c n) = true) ∧
    (lsNbr pq t w h nd c s n).done = s.done := by
  have hT := (lsNbr_tree (pq := pq) (nd := nd) hn I.T hc).1
  revert hT
  unfold lsNbr
  simp only
  split
  · next h1 => exact fun _ => ⟨I, fun _ h => h, fun hr => absurd hr.1 (inGrid_false.1 h1), rfl⟩
  next h1 =>
  have hg : InGrid w h (nbr t c n) := inGrid_iff.1 (by simpa using h1)
  split
  · next h2 => exact fun _ => ⟨I, fun _ h => h, fun hr => absurd ((I.nodata _ hg).1 h2) hr.2, rfl⟩
  next h2 =>
  split
  · next h3 => exact fun _ => ⟨I, fun _ h => h, fun _ => h3, rfl⟩
  next h3 =>
  intro hT
  have hq : s.vis (nbr t c n) = false := by simpa using h3
  have hr : breg w h dem nd (nbr t c n) := ⟨hg, fun h4 => h2 ((I.nodata _ hg).2 h4)⟩
  have hd : s.done (nbr t c n) = false := by
    cases hdd : s.done (nbr t c n) with
    | false => rfl
    | true => rw [I.donev _ hdd] at hq; cases hq
  set q := nbr t c n with hqdef
  have hm : ∀ x, s.vis x = true → Function.update s.vis q true x = true := by
    intro x hx
    by_cases hxq : x = q
    · simp [hxq]
    · rw [Function.update_of_ne hxq]; exact hx
  refine ⟨⟨hT, ?_, ?_, I.nodata, I.good, ?_, ?_, ?_, ?_, ?_, I.pit, I.tot, I.fin, I.flow, I.le⟩, hm,
    fun _ => (by simp), rfl⟩
  · intro x hx
    by_cases hxq : x = q
    · rw [hxq]; exact hr
    · simp only [Function.update_of_ne hxq] at hx; exact I.visr x hx
  · intro x a b; exact hm x (I.outv x a b)
  · intro e he
    rcases pq.mem_push.1 he with rfl | he
    · exact hd
    · exact I.pqd e he
  · intro x hx hdx
    by_cases hxq : x = q
    · exact ⟨_, pq.mem_push.2 (Or.inl rfl), hxq.symm⟩
    · simp only [Function.update_of_ne hxq] at hx
      obtain ⟨e, he, h1⟩ := I.visq x hx hdx
      exact ⟨e, pq.mem_push.2 (Or.inr he), h1⟩
  · intro x hx; exact hm x (I.donev x hx)
  · have hp := (pq.push_perm (s.dem q, q) s.pq).map Prod.snd
    simp only
    rw [hp.nodup_iff]
    simp only [List.map_cons, List.nodup_cons]
    refine ⟨?_, I.pqnd⟩
    intro hmm
    obtain ⟨e, he, h1⟩ := List.mem_map.1 hmm
    have h2 := I.T.pqv e he
    rw [h1, hq] at h2
    cases h2
  · intro hf x hx hdx b hb hbr; exact hm b (I.closed hf x hx hdx b hb hbr)

/-- One iteration. -/
theorem lsStep_linv {pq : PQ (E × Cell) zLt} {dn : E → E} (hdn : ∀ x, dn x ≤ x) (hG : ∀ x, G x → G (dn x))
    (hGn : ∀ x, G x → x ≠ nd) {s s' : LS E}
    (I : LInv t w h nd G dem demR [] s) (hs : lsStep (carve (w * h) dn) pq t w h nd s = some s') :
    LInv t w h nd G dem demR [] s' := by
  have hT' := (lsStep_tree I.T hs).1
  unfold lsStep at hs
  by_cases hfin : s.fin = true
  · rw [if_pos hfin] at hs; cases hs
  rw [if_neg hfin] at hs
  cases hp : pq.pop s.pq with
  | none => rw [hp] at hs; cases hs
  | some er =>
    obtain ⟨e, r⟩ := er
    rw [hp] at hs
    simp only at hs
    obtain ⟨hperm, _⟩ := pq.pop_some hp
    have hem : e ∈ s.pq := hperm.mem_iff.2 List.mem_cons_self
    have hev : s.vis e.2 = true := I.T.pqv e hem
    have hed := I.pqd e hem
    have hrm : ∀ x ∈ r, x ∈ s.pq := fun x hx => hperm.mem_iff.2 (List.mem_cons_of_mem _ hx)
    have hnod : e.2 ∉ r.map Prod.snd ∧ (r.map Prod.snd).Nodup := by
      have := (hperm.map Prod.snd).nodup_iff.1 I.pqnd
      simpa using this
    -- the state after popping, with new elevations and count
    have key : ∀ (d : Cell → E) (k : Nat) (b : Bool), (∀ c, InGrid w h c → (d c = nd ↔ dem c = nd)) →
        (∀ c, breg w h dem nd c → G (d c)) → (∀ c, d c ≤ demR c) →
        (k = (allCells w h).countP (fun c => s.pits c && !Function.update s.done e.2 true c)) → (b = true → k = 0) →
        (∀ c, breg w h dem nd c → Flows t (breg w h dem nd) (bout t w h dem nd)
          (fun x => s.pits x = true ∧ Function.update s.done e.2 true x = false) d (d c) c) →
        LInv t w h nd G dem demR [e.2]
          { s with pq := r, done := Function.update s.done e.2 true, dem := d, tot := k, fin := b } := by
      intro d k b h1 h2 h3 h4 h5 h6
      refine ⟨⟨I.T.visg, I.T.links, fun x hx => I.T.pqv x (hrm x hx), I.T.fnodup, I.T.fmem, I.T.ford⟩, I.visr, I.outv, h1, h2,
        ?_, ?_, ?_, hnod.2, ?_, I.pit, h4, h5, h6, h3⟩
      · intro x hx
        have : x.2 ≠ e.2 := fun h => hnod.1 (h ▸ List.mem_map_of_mem hx)
        simp only [Function.update_of_ne this]
        exact I.pqd x (hrm x hx)
      · intro x hx hdx
        by_cases hxe : x = e.2
        · subst hxe; simp at hdx
        · simp only [Function.update_of_ne hxe] at hdx
          obtain ⟨f, hf, h7⟩ := I.visq x hx hdx
          rcases List.mem_cons.1 (hperm.mem_iff.1 hf) with rfl | hf
          · exact absurd h7.symm hxe
          · exact ⟨f, hf, h7⟩
      · intro x hx
        by_cases hxe : x = e.2
        · subst hxe; exact hev
        · simp only [Function.update_of_ne hxe] at hx; exact I.donev x hx
      · intro _ x hx hdx
        rw [List.mem_singleton] at hx
        simp only [Function.update_of_ne hx] at hdx
        exact I.closed (by simpa using hfin) x (by simp) hdx
    have fold : ∀ s1 : LS E, LInv t w h nd G dem demR [e.2] s1 → s1.vis e.2 = true →
        LInv t w h nd G dem demR [] ((dirs t).foldl (lsNbr pq t w h nd e.2) s1) := by
      intro s1 I1 hv1
      obtain ⟨q1, q2, _⟩ := foldl_inv (f := lsNbr pq t w h nd e.2)
        (fun s2 => LInv t w h nd G dem demR [e.2] s2 ∧ s2.vis e.2 = true)
        (fun n s2 => breg w h dem nd (nbr t e.2 n) → s2.vis (nbr t e.2 n) = true) (dirs t) s1
        (fun s2 n hn hP => by
          obtain ⟨a, b, c, _⟩ := lsNbr_linv (pq := pq) hn hP.1 hP.2
          exact ⟨⟨a, b _ hP.2⟩, c⟩)
        (fun s2 n m hn hP hR hr => by
          obtain ⟨a, b, c, _⟩ := lsNbr_linv (pq := pq) hn hP.1 hP.2
          exact b _ (hR hr)) ⟨I1, hv1⟩
      obtain ⟨J, _⟩ := q1
      refine { J with closed := ?_ }
      intro hf x _ hdx b hb hbr
      by_cases hxe : x = e.2
      · subst hxe
        obtain ⟨n, hn, rfl⟩ := adj_iff_nbr.1 hb
        exact q2 n hn hbr
      · exact J.closed hf x (by simpa using hxe) hdx b hb hbr
    by_cases hpit : s.pits e.2 = true
    · rw [if_pos hpit] at hs
      have hcnt : s.tot - 1 = (allCells w h).countP (fun c => s.pits c && !Function.update s.done e.2 true c) := by
        have := countP_update (nodup_allCells w h) (p := fun c => s.pits c && !s.done c)
          (q := fun c => s.pits c && !Function.update s.done e.2 true c) (c := e.2)
          (mem_allCells.2 (I.pit _ hpit).1) (by simp [hpit, hed]) (by simp)
          (fun d hd => by simp [Function.update_of_ne hd])
        rw [I.tot]; omega
      obtain ⟨_, k2, k3, k4, k5⟩ := carve_ok (dem := s.dem) (dn := dn) (stop := fun x => s.pits x = true ∧ Function.update s.done e.2 true x = false) hdn hG
        I.T.links I.visr hev I.good (fun x hx => (I.flow x hx).trans (fun y hy hs he => by
          by_cases hye : y = e.2
          · exact .stop hy he (Or.inr hye)
          · exact .stop hy he (Or.inl ⟨hs.1, by rw [Function.update_of_ne hye]; exact hs.2⟩)))
      have K := fun b hb => key (carve (w * h) dn s.dem s.back e.2).dem (s.tot - 1) b
        (fun c hc => by
          by_cases hcv : s.vis c = true
          · have hr := I.visr c hcv
            exact ⟨fun h4 => absurd h4 (hGn _ (k4 c hr)), fun h4 => absurd h4 hr.2⟩
          · rw [k3 c (by simpa using hcv)]; exact I.nodata c hc)
        k4 (fun c => (k2 c).trans (I.le c)) hcnt hb k5
      by_cases htot : s.tot - 1 = 0
      · rw [if_pos htot] at hs
        cases hs
        have := K true (fun _ => htot)
        refine { this with closed := ?_ }
        intro hf; cases hf
      · rw [if_neg htot] at hs
        cases hs
        have := K s.fin (fun hf => absurd hf hfin)
        exact fold _ this hev
    · rw [if_neg hpit] at hs
      cases hs
      have hstop : ∀ x, s.pits x = true → Function.update s.done e.2 true x = s.done x := by
        intro x hx
        have : x ≠ e.2 := by rintro rfl; exact hpit hx
        rw [Function.update_of_ne this]
      refine fold _ (key s.dem s.tot s.fin I.nodata I.good I.le ?_ (fun hf => absurd hf hfin) ?_) hev
      · rw [I.tot]
        refine List.countP_congr ?_
        intro x _
        by_cases hx : s.pits x = true
        · rw [hstop x hx]
        · simp [hx]
      · intro c hc
        refine (I.flow c hc).trans ?_
        intro y hy hs he
        exact .stop hy he ⟨hs.1, by rw [hstop y hs.1]; exact hs.2⟩

/-- Every data cell can leave the data. -/
theorem breg_ind {P : Cell → Prop} (h0 : ∀ c, breg w h dem nd c → bout t w h dem nd c → P c)
    (h1 : ∀ c d, breg w h dem nd c → breg w h dem nd d → Adj t c d → P d → P c) {c : Cell}
    (hc : breg w h dem nd c) : P c := by
  obtain ⟨z, hz⟩ := exists_drains (t := t) dem hc.1
  induction hz with
  | @edge c a b => exact h0 c hc (Or.inl a)
  | @step c d a b ha hd ih =>
    by_cases hn : dem d = nd
    · exact h0 c hc (Or.inr ⟨d, ha, hd.inGrid, hn⟩)
    · exact h1 c d hc ⟨hd.inGrid, hn⟩ ha (ih ⟨hd.inGrid, hn⟩)

/-- When the loop stops no pit is left. -/
theorem LInv.final {breach : (Cell → E) → (Cell → Option Cell) → Cell → CV E} {pq : PQ (E × Cell) zLt} {s : LS E}
    (I : LInv t w h nd G dem demR [] s) (hs : lsStep breach pq t w h nd s = none) :
    ∀ x, ¬ (s.pits x = true ∧ s.done x = false) := by
  rintro x ⟨hx, hd⟩
  unfold lsStep at hs
  by_cases hfin : s.fin = true
  · have h0 := I.fin hfin
    rw [I.tot, List.countP_eq_zero] at h0
    have := h0 x (mem_allCells.2 (I.pit x hx).1)
    simp [hx, hd] at this
  · rw [if_neg hfin] at hs
    have hq : s.pq = [] := by
      cases hp : pq.pop s.pq with
      | none => exact pq.pop_none.1 hp
      | some er =>
        obtain ⟨e, r⟩ := er
        rw [hp] at hs
        simp only at hs
        split at hs
        · split at hs <;> cases hs
        · cases hs
    have hvd : ∀ c, s.vis c = true → s.done c = true := by
      intro c hc
      cases hdd : s.done c with
      | true => rfl
      | false =>
        obtain ⟨e, he, _⟩ := I.visq c hc hdd
        rw [hq] at he; cases he
    have hall : s.vis x = true := by
      refine breg_ind (t := t) (P := fun c => s.vis c = true) I.outv ?_ (I.pit x hx)
      intro c d hc _ ha hv
      exact I.closed (by simpa using hfin) d (by simp) (hvd d hv) c ha.symm hc
    rw [hvd x hall] at hd; cases hd

/-- A never-ascending path to an outlet. -/
inductive FallsOut (t : Topo) (reg out : Cell → Prop) (dem : Cell → E) : Cell → Prop
  | out {c} : reg c → out c → FallsOut t reg out dem c
  | step {c d} : reg c → Adj t c d → dem d ≤ dem c → FallsOut t reg out dem d → FallsOut t reg out dem c

theorem flows_fall (hreg : ∀ c, reg c → InGrid w h c)
    (hf : ∀ c, reg c → Flows t reg out (fun _ => False) dem (dem c) c) {c : Cell} (hc : reg c) :
    FallsOut t reg out dem c := by
  have main : ∀ (k : Nat) (c : Cell), reg c → (allCells w h).countP (fun x => decide (dem x < dem c)) ≤ k →
      FallsOut t reg out dem c := by
    intro k
    induction k with
    | zero =>
      intro c hc hk
      have hno : ∀ x, InGrid w h x → ¬ dem x < dem c := by
        have := List.countP_eq_zero.1 (Nat.le_zero.1 hk)
        intro x hx; simpa using this x (mem_allCells.2 hx)
      have aux : ∀ x, Flows t reg out (fun _ => False) dem (dem c) x → FallsOut t reg out dem x := by
        intro x hx
        induction hx with
        | out a b d => exact .out a d
        | stop a b d => exact d.elim
        | low a b => exact absurd b (hno _ (hreg _ a))
        | @step x y a b d e ih =>
          refine .step a d ?_ ih
          rw [b]
          cases e with
          | out _ g _ => exact g.le
          | stop _ g _ => exact g.le
          | low _ g => exact g.le
          | step _ g _ _ => exact g.le
      exact aux c (hf c hc)
    | succ k ih =>
      intro c hc hk
      have aux : ∀ x, Flows t reg out (fun _ => False) dem (dem c) x → FallsOut t reg out dem x := by
        intro x hx
        induction hx with
        | out a b d => exact .out a d
        | stop a b d => exact d.elim
        | @low x a b =>
          refine ih x a ?_
          have hlt : (allCells w h).countP (fun y => decide (dem y < dem x)) <
              (allCells w h).countP (fun y => decide (dem y < dem c)) := by
            have h1 : (allCells w h).countP (fun y => decide (dem y < dem x)) + 1 ≤
                (allCells w h).countP (fun y => decide (dem y ≤ dem x)) := by
              have hmem := mem_allCells.2 (hreg x a)
              obtain ⟨l1, l2, hl⟩ := List.append_of_mem hmem
              rw [hl]
              simp only [List.countP_append, List.countP_cons, lt_irrefl, decide_false, le_refl, decide_true]
              have := List.countP_mono_left (l := l1) (p := fun y => decide (dem y < dem x)) (q := fun y => decide (dem y ≤ dem x))
                (fun y _ hy => by simp only [decide_eq_true_eq] at hy ⊢; exact hy.le)
              have := List.countP_mono_left (l := l2) (p := fun y => decide (dem y < dem x)) (q := fun y => decide (dem y ≤ dem x))
                (fun y _ hy => by simp only [decide_eq_true_eq] at hy ⊢; exact hy.le)
              simp only [Bool.false_eq_true, if_false, if_true]
              omega
            have h2 := List.countP_mono_left (l := allCells w h) (p := fun y => decide (dem y ≤ dem x)) (q := fun y => decide (dem y < dem c))
              (fun y _ hy => by simp only [decide_eq_true_eq] at hy ⊢; exact hy.trans_lt b)
            omega
          omega
        | @step x y a b d e ih =>
          refine .step a d ?_ ih
          rw [b]
          cases e with
          | out _ g _ => exact g.le
          | stop _ g _ => exact g.le
          | low _ g => exact g.le
          | step _ g _ _ => exact g.le
      exact aux c (hf c hc)
  exact main _ c hc le_rfl

theorem FallsOut.path {f : Cell → E} {c : Cell} (hd : FallsOut t (breg w h dem nd) (bout t w h dem nd) f c) :
    ∃ p, DataPath w h t dem nd c p ∧ p.IsChain (fun a b => f b ≤ f a) := by
  induction hd with
  | @out c a b => exact ⟨[c], ⟨rfl, by simp, by simpa [breg] using a, c, rfl, b⟩, by simp⟩
  | @step c d a b hle _ ih =>
    obtain ⟨p, hp, hch⟩ := ih
    cases p with
    | nil => have := hp.head; simp at this
    | cons x p =>
      obtain rfl : x = d := by simpa using hp.head
      refine ⟨c :: x :: p, ⟨rfl, ?_, ?_, ?_⟩, ?_⟩
      · rw [List.isChain_cons_cons]; exact ⟨b, hp.chain⟩
      · intro q hq'
        rcases List.mem_cons.1 hq' with rfl | hq'
        · exact a
        · exact hp.data q hq'
      · obtain ⟨e, he, h5⟩ := hp.last
        exact ⟨e, by rw [List.getLast?_cons_cons]; exact he, h5⟩
      · rw [List.isChain_cons_cons]; exact ⟨hle, hch⟩

/-- Complete breaching: everything proved about its result. -/
theorem complete_final (pq : PQ (E × Cell) zLt) {top : E} {dn : E → E} (hdn : ∀ x, dn x ≤ x)
    (hdn2 : ∀ x y, x < y → x ≤ dn y) (hG : ∀ x, G x → G (dn x)) (hGn : ∀ x, G x → x ≠ nd)
    (hGd : ∀ c, breg w h dem nd c → G (dem c)) (htop : ∀ c, InGrid w h c → dem c ≤ top) :
    lsStep (carve (w * h) dn) pq t w h nd (completeBreaching pq t w h nd top dn dem) = none ∧
    LInv t w h nd G dem (lsInit pq t w h nd top dn dem).dem [] (completeBreaching pq t w h nd top dn dem) ∧
    ∀ c, breg w h dem nd c →
      FallsOut t (breg w h dem nd) (bout t w h dem nd) (completeBreaching pq t w h nd top dn dem).dem c := by
  have S0 := lsInit_ok (t := t) pq hdn hdn2 hG hGn hGd htop
  obtain ⟨I, hn⟩ := loop_spec (step := lsStep (carve (w * h) dn) pq t w h nd)
    (LInv t w h nd G dem (lsInit pq t w h nd top dn dem).dem []) (fun s => s.pq.length + unflagged w h s.vis)
    (fun s s' I hs => ⟨lsStep_linv hdn hG hGn I hs, (lsStep_tree I.T hs).2⟩) (floodFuel w h) _ S0.linv
    (by have := S0.len; unfold floodFuel; omega)
  refine ⟨hn, I, ?_⟩
  intro c hc
  refine flows_fall (w := w) (h := h) (fun c hc => hc.1) ?_ hc
  intro x hx
  refine (I.flow x hx).trans ?_
  intro y _ hy _
  exact absurd hy (I.final hn y)

/-! ### Flooding -/

theorem floodCell_same {up : E → E} {s : LS E} {f : Cell} : (floodCell up s f).back = s.back ∧
    (floodCell up s f).flood = s.flood ∧ (floodCell up s f).vis = s.vis ∧ ∀ x, x ≠ f → (floodCell up s f).dem x = s.dem x := by
  unfold floodCell
  split
  · exact ⟨rfl, rfl, rfl, fun _ _ => rfl⟩
  · split
    · exact ⟨rfl, rfl, rfl, fun x hx => Function.update_of_ne hx _ _⟩
    · exact ⟨rfl, rfl, rfl, fun _ _ => rfl⟩

/-- After flooding, each cell with a back-link is no lower than the cell it points to; strictly
higher if `up` increases. -/
theorem lsFlood_ok {up : E → E} (hup : ∀ x, x ≤ up x) {s : LS E} (I : LTree t w h out s) :
    (lsFlood up s).back = s.back ∧ (lsFlood up s).vis = s.vis ∧
    ∀ f p, s.back f = some p → (lsFlood up s).dem p ≤ (lsFlood up s).dem f ∧
      ((∀ x, x < up x) → (lsFlood up s).dem p < (lsFlood up s).dem f) := by
  have key : ∀ (l pre : List Cell) (s1 : LS E), s1.back = s.back → s1.vis = s.vis → pre ++ l = s.flood →
      (∀ f ∈ pre, ∀ p, s.back f = some p → s1.dem p ≤ s1.dem f ∧ ((∀ x, x < up x) → s1.dem p < s1.dem f)) →
      (l.foldl (floodCell up) s1).back = s.back ∧ (l.foldl (floodCell up) s1).vis = s.vis ∧
      (∀ f ∈ s.flood, ∀ p, s.back f = some p → (l.foldl (floodCell up) s1).dem p ≤ (l.foldl (floodCell up) s1).dem f ∧
        ((∀ x, x < up x) → (l.foldl (floodCell up) s1).dem p < (l.foldl (floodCell up) s1).dem f)) := by
    intro l
    induction l with
    | nil =>
      intro pre s1 h1 h2 h3 h4
      rw [List.append_nil] at h3
      subst h3
      exact ⟨h1, h2, h4⟩
    | cons a l ih =>
      intro pre s1 h1 h2 h3 h4
      obtain ⟨e1, e2, e3, e4⟩ := floodCell_same (up := up) (s := s1) (f := a)
      refine ih (pre ++ [a]) (floodCell up s1 a) (e1.trans h1) (e3.trans h2) (by simpa using h3) ?_
      have hnd : a ∉ pre := by
        have := I.fnodup
        rw [← h3, List.nodup_append] at this
        exact fun hm => this.2.2 a hm a List.mem_cons_self rfl
      intro f hf p hp
      rw [List.mem_append, List.mem_singleton] at hf
      rcases hf with hf | rfl
      · have hfa : f ≠ a := by rintro rfl; exact hnd hf
        have hpa : p ≠ a := by
          rintro rfl
          have := I.ford
          rw [← h3, List.pairwise_append] at this
          exact this.2.2 f hf p List.mem_cons_self hp
        rw [e4 f hfa, e4 p hpa]
        exact h4 f hf p hp
      · have hpf : p ≠ f := by
          obtain ⟨T, hT, _⟩ := I.links.rank
          rintro rfl
          exact absurd (hT p p hp) (lt_irrefl _)
        rw [e4 p hpf]
        unfold floodCell
        rw [h1, hp]
        simp only
        split
        · simp only [Function.update_self]
          exact ⟨hup _, fun h5 => h5 _⟩
        · next h5 => exact ⟨(not_le.1 h5).le, fun _ => not_le.1 h5⟩
  obtain ⟨k1, k2, k3⟩ := key s.flood [] s rfl rfl rfl (by simp)
  refine ⟨k1, k2, ?_⟩
  intro f p hp
  exact k3 f ((I.fmem f).2 ⟨(I.links.link f p hp).1, p, hp⟩) p hp

/-- Following the back-links from a visited cell. -/
theorem Links.falls {vis : Cell → Bool} {back : Cell → Option Cell} (L : Links t w h out vis back) {dem : Cell → E}
    (hd : ∀ f p, back f = some p → dem p ≤ dem f) {c : Cell} (hc : vis c = true) :
    FallsOut t (fun c => vis c = true) out dem c := by
  obtain ⟨T, hT, _⟩ := L.rank
  have main : ∀ (k : Nat) (c : Cell), T c ≤ k → vis c = true → FallsOut t (fun c => vis c = true) out dem c := by
    intro k
    induction k with
    | zero =>
      intro c hk hc
      cases hb : back c with
      | none => exact .out hc (L.root c hc hb)
      | some p => have := hT c p hb; omega
    | succ k ih =>
      intro c hk hc
      cases hb : back c with
      | none => exact .out hc (L.root c hc hb)
      | some p =>
        have := hT c p hb
        obtain ⟨_, h2, h3⟩ := L.link c p hb
        exact .step hc h3 (hd c p hb) (ih p (by omega) h2)
  exact main _ c le_rfl hc

theorem lsRun_tree (breach : (Cell → E) → (Cell → Option Cell) → Cell → CV E) (pq : PQ (E × Cell) zLt)
    {top : E} {dn : E → E} (hdn : ∀ x, dn x ≤ x)
    (hdn2 : ∀ x y, x < y → x ≤ dn y) (hG : ∀ x, G x → G (dn x)) (hGn : ∀ x, G x → x ≠ nd)
    (hGd : ∀ c, breg w h dem nd c → G (dem c)) (htop : ∀ c, InGrid w h c → dem c ≤ top) :
    LTree t w h (bout t w h dem nd) (lsRun breach pq t w h nd top dn dem) ∧
    lsStep breach pq t w h nd (lsRun breach pq t w h nd top dn dem) = none := by
  have S0 := lsInit_ok (t := t) pq hdn hdn2 hG hGn hGd htop
  exact loop_spec (step := lsStep breach pq t w h nd) (LTree t w h (bout t w h dem nd))
    (fun s => s.pq.length + unflagged w h s.vis) (fun s s' I hs => lsStep_tree I hs) (floodFuel w h) _ S0.tree
    (by have := S0.len; unfold floodFuel; omega)

end RichDEM
