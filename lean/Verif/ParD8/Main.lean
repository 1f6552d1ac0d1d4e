/-
The tiled flow accumulation equals the accumulation of the whole raster.
-/
import Verif.ParD8.Cross
import Verif.ParD8.Sum
import Mathlib.Data.Int.Interval

namespace RichDEM

open Relation Finset

/-- `d8_flow_accum` on directions without cycles: a data cell gets one, and all that the cells flowing into
it have. -/
theorem d8_equation (q : AnyQ Cell) {w h : Nat} {fd : Cell → Nat} {nd : Nat} (K : Acyclic8 w h fd nd) {c : Cell}
    (hc : c ∈ d8Verts w h fd nd) :
    d8FlowAccum q w h fd nd c = 1 + ∑ p ∈ (d8Verts w h fd nd).filter (fun p => D8FlowsTo w h fd nd p c), d8FlowAccum q w h fd nd p := by
  obtain ⟨_, _, done, _, h4, _, h6, _⟩ := d8_final q w h fd nd
  have hA : Acc (D8FlowsTo w h fd nd) c :=
    (acc_iff_no_cycle (d8Verts w h fd nd) _ (fun a b hab => mem_d8Verts.2 hab.1) hc).2 (fun a _ => K a)
  have hd : c ∈ done := (h4 c hc).2 ((d8Acc_iff hc).2 hA)
  have := h6 c hd
  unfold d8FlowAccum
  rw [this, sum_filter]
  congr 1
  refine sum_congr rfl (fun p hp => ?_)
  rw [d8_wt hp hc]
  split_ifs <;> ring

section
variable {T : Tiling} {null : Nat × Nat → Bool} {fd : Cell → Nat} {nd : Nat} {jobs : Nat × Nat → PDJob}

/-- The first round has been done for every tile. -/
def JobsOk (T : Tiling) (null : Nat × Nat → Bool) (fd : Cell → Nat) (nd : Nat) (jobs : Nat × Nat → PDJob) : Prop :=
  ∀ t, t.1 < T.gh ∧ t.2 < T.gw → null t = false →
    JobOk (T.tw t.2) (T.th t.1) (T.part fd t) nd (nullEdges T.gh T.gw null t) (jobs t)

/-- The cells at which paths of tile `t` begin. -/
abbrev Tiling.starts (T : Tiling) (null : Nat × Nat → Bool) (t : Nat × Nat) : List Cell :=
  pdStarts (T.tw t.2) (T.th t.1) (nullEdges T.gh T.gw null t)

/-- The index of a cell of tile `t`. -/
abbrev Tiling.ser (T : Tiling) (t : Nat × Nat) (c : Cell) : Nat := RichDEM.ser (T.tw t.2) (T.th t.1) c

theorem link_external (P : PDOk T null fd nd) (J : JobsOk T null fd nd jobs) {t : Nat × Nat} (ht : t.1 < T.gh ∧ t.2 < T.gw)
    (hn : null t = false) {c : Cell} (hc : c ∈ T.starts null t) (he : ExitCell (T.tw t.2) (T.th t.1) (T.part fd t) nd c) :
    (jobs t).links (T.ser t c) = FLOW_EXTERNAL := by
  rcases (J t ht hn).links.start c hc with ⟨_, h1⟩ | ⟨e, h1, h2, h3⟩
  · exact absurd he (h1 c .refl)
  · rw [h3, if_pos (exit_unique h1 .refl h2 he)]

theorem link_inner (P : PDOk T null fd nd) (J : JobsOk T null fd nd jobs) {t : Nat × Nat} (ht : t.1 < T.gh ∧ t.2 < T.gw)
    (hn : null t = false) {c e : Cell} (hc : c ∈ T.starts null t)
    (hr : ReflTransGen (PathStep (T.tw t.2) (T.th t.1) (T.part fd t) nd) c e)
    (he : ExitCell (T.tw t.2) (T.th t.1) (T.part fd t) nd e) (hne : e ≠ c) :
    (jobs t).links (T.ser t c) = T.ser t e := by
  rcases (J t ht hn).links.start c hc with ⟨_, h1⟩ | ⟨e', h1, h2, h3⟩
  · exact absurd he (h1 e hr)
  · have := exit_unique h1 hr h2 he
    subst this
    rw [h3, if_neg hne]

theorem fd_ser (P : PDOk T null fd nd) (J : JobsOk T null fd nd jobs) {t : Nat × Nat} (ht : t.1 < T.gh ∧ t.2 < T.gw)
    (hn : null t = false) {c : Cell} (hc : OnEdge (T.tw t.2) (T.th t.1) c) : (jobs t).fd (T.ser t c) = fd (T.glob t c) := by
  rw [(J t ht hn).fds _ (ser_lt hc (P.rows _ ht.1)), unser_ser hc (P.rows _ ht.1)]

theorem down_inner (P : PDOk T null fd nd) (J : JobsOk T null fd nd jobs) {t : Nat × Nat} (ht : t.1 < T.gh ∧ t.2 < T.gw)
    (hn : null t = false) {c e : Cell} (hc : c ∈ T.starts null t)
    (hr : ReflTransGen (PathStep (T.tw t.2) (T.th t.1) (T.part fd t) nd) c e)
    (he : ExitCell (T.tw t.2) (T.th t.1) (T.part fd t) nd e) (hne : e ≠ c) :
    downCell T null jobs (t, T.ser t c) = some (t, T.ser t e) := by
  have hl := link_inner P J ht hn hc hr he hne
  have hce := pdStarts_onEdge (P.tw_pos ht) (P.rows _ ht.1) hc
  have hlt := ser_lt he.onEdge (P.rows _ ht.1)
  have hsm := P.small _ _ ht.1 ht.2
  have h0 : fd (T.glob t c) ≠ 0 := by
    rcases ReflTransGen.cases_head hr with h1 | ⟨b, hb, _⟩
    · exact absurd h1.symm hne
    · exact hb.2.2.1
  unfold downCell
  simp only
  rw [hl, fd_ser P J ht hn hce]
  have hlt' : T.ser t e < 65533 := lt_of_lt_of_le hlt hsm
  clear hlt hsm hl
  generalize T.ser t e = k at hlt'
  rw [if_neg (not_or.2 ⟨by unfold FLOW_TERMINATES; omega, h0⟩), if_neg (by unfold FLOW_EXTERNAL; omega),
    if_neg (by unfold FLOW_NO_DOWNSTREAM; omega)]

theorem down_cross (P : PDOk T null fd nd) (J : JobsOk T null fd nd jobs) {t t' : Nat × Nat} {c c' : Cell}
    (hn : null t = false) (hc : c ∈ T.starts null t) (ht : T.InTile t c)
    (he : ExitCell (T.tw t.2) (T.th t.1) (T.part fd t) nd c) (ht' : T.InTile t' c') (hn' : null t' = false)
    (hg : T.glob t' c' = nbr .D8 (T.glob t c) (fd (T.glob t c))) :
    downCell T null jobs (t, T.ser t c) = some (t', T.ser t' c') ∧ OnEdge (T.tw t'.2) (T.th t'.1) c' :=
  (downCell_external P ht he (link_external P J ⟨ht.1, ht.2.1⟩ hn hc he) (fd_ser P J ⟨ht.1, ht.2.1⟩ hn he.onEdge)).2 t' c' ht' hn' hg

/-- The edges of the producer's graph. -/
theorem down_cases (P : PDOk T null fd nd) (J : JobsOk T null fd nd jobs) {n m : PNode} (hn : n ∈ pdNodes T null jobs)
    (hd : downCell T null jobs n = some m) :
    ∃ c, n.2 = T.ser n.1 c ∧ c ∈ T.starts null n.1 ∧ T.InTile n.1 c ∧
      ((m.1 ≠ n.1 ∧ ExitCell (T.tw n.1.2) (T.th n.1.1) (T.part fd n.1) nd c ∧
          ∃ c', T.InTile m.1 c' ∧ null m.1 = false ∧ OnEdge (T.tw m.1.2) (T.th m.1.1) c' ∧ m.2 = T.ser m.1 c' ∧
            T.glob m.1 c' = nbr .D8 (T.glob n.1 c) (fd (T.glob n.1 c))) ∨
       (m.1 = n.1 ∧ ∃ e, m.2 = T.ser n.1 e ∧ ReflTransGen (PathStep (T.tw n.1.2) (T.th n.1.1) (T.part fd n.1) nd) c e ∧
          ExitCell (T.tw n.1.2) (T.th n.1.1) (T.part fd n.1) nd e ∧ e ≠ c)) := by
  obtain ⟨t, s⟩ := n
  obtain ⟨ht, hnull, hs⟩ := mem_pdNodes.1 hn
  have hL : (jobs t).links s ≠ FLOW_TERMINATES := by
    intro hL
    unfold downCell at hd
    simp only at hd
    rw [if_pos (.inl hL)] at hd
    cases hd
  have hex : ∃ c ∈ T.starts null t, T.ser t c = s := by
    by_contra hno
    push Not at hno
    exact hL ((J t ht hnull).links.other s hno)
  obtain ⟨c, hc, rfl⟩ := hex
  have hce := pdStarts_onEdge (P.tw_pos ht) (P.rows _ ht.1) hc
  have hT : T.InTile t c := ⟨ht.1, ht.2, hce.1⟩
  refine ⟨c, rfl, hc, hT, ?_⟩
  rcases (J t ht hnull).links.start c hc with ⟨h1, _⟩ | ⟨e, h1, h2, _⟩
  · exact absurd h1 hL
  · by_cases hec : e = c
    · subst hec
      left
      obtain ⟨c', k1, k2, k3, k4, k5, k6⟩ := (downCell_external P hT h2 (link_external P J ht hnull hc h2)
        (fd_ser P J ht hnull hce)).1 m hd
      exact ⟨k6, h2, c', k1, k2, k3, k4, k5⟩
    · right
      rw [down_inner P J ht hnull hc h1 h2 hec] at hd
      cases hd
      exact ⟨rfl, e, rfl, h1, h2, hec⟩

theorem pathLeft_trans {w h : Nat} {fd : Cell → Nat} {nd : Nat} (K : Acyclic8 w h fd nd) {a b : Cell}
    (hs : TransGen (PathStep w h fd nd) a b) : pathLeft w h fd nd b < pathLeft w h fd nd a := by
  induction hs with
  | single h1 => exact pathLeft_step K h1
  | tail _ h1 ih => exact (pathLeft_step K h1).trans ih

theorem path_glob {t : Nat × Nat} (ht : t.1 < T.gh ∧ t.2 < T.gw) {a b : Cell}
    (hs : ReflTransGen (PathStep (T.tw t.2) (T.th t.1) (T.part fd t) nd) a b) :
    ReflTransGen (PathStep T.W T.H fd nd) (T.glob t a) (T.glob t b) := by
  induction hs with
  | refl => exact .refl
  | tail _ h1 ih => exact ih.tail (pathStep_glob ht h1)

theorem glob_near (t t' : Nat × Nat) {c c' : Cell} {n : Nat} (hg : T.glob t' c' = nbr .D8 (T.glob t c) n) :
    ((T.glob t' c').1 - (T.glob t c).1).natAbs ≤ 1 ∧ ((T.glob t' c').2 - (T.glob t c).2).natAbs ≤ 1 := by
  have a := dx_bound n
  have b := dy_bound n
  have e1 : (T.glob t' c').1 = (T.glob t c).1 + dx .D8 n := by rw [hg]; rfl
  have e2 : (T.glob t' c').2 = (T.glob t c).2 + dy .D8 n := by rw [hg]; rfl
  omega

/-- Perimeter cells have at most as many inputs as the perimeter has cells, and nine. -/
theorem indeg_le (P : PDOk T null fd nd) (J : JobsOk T null fd nd jobs) (n : PNode) :
    ((pdNodes T null jobs).toFinset.filter (fun p => downCell T null jobs p = some n)).card ≤ 65535 := by
  set S := (pdNodes T null jobs).toFinset.filter (fun p => downCell T null jobs p = some n) with hS
  have hmem : ∀ p ∈ S, p ∈ pdNodes T null jobs ∧ downCell T null jobs p = some n := by
    intro p hp
    rw [hS, mem_filter, List.mem_toFinset] at hp
    exact hp
  have hsplit := Finset.card_filter_add_card_filter_not (s := S) (fun p => p.1 = n.1)
  have hA : (S.filter (fun p => p.1 = n.1)).card ≤ 65526 := by
    by_cases hne : (S.filter (fun p => p.1 = n.1)).Nonempty
    · obtain ⟨p0, hp0⟩ := hne
      rw [mem_filter] at hp0
      obtain ⟨⟨hr, hc⟩, hnull, _⟩ := mem_pdNodes.1 (hmem p0 hp0.1).1
      rw [hp0.2] at hr hc hnull
      refine le_trans ?_ (P.room n.1.1 n.1.2 hr hc)
      have hinj : Set.InjOn (fun p : PNode => p.2) (S.filter (fun p => p.1 = n.1) : Finset PNode) := by
        intro a ha b hb hab
        have ha := (mem_filter.1 (Finset.mem_coe.1 ha)).2
        have hb := (mem_filter.1 (Finset.mem_coe.1 hb)).2
        exact Prod.ext (ha.trans hb.symm) hab
      rw [← Finset.card_image_of_injOn hinj, ← Finset.card_range (perimLen (T.tw n.1.2) (T.th n.1.1))]
      refine Finset.card_le_card (fun s hs => ?_)
      obtain ⟨p, hp, rfl⟩ := mem_image.1 hs
      rw [mem_filter] at hp
      obtain ⟨h1, h2, h3⟩ := mem_pdNodes.1 (hmem p hp.1).1
      rw [(J p.1 h1 h2).size, hp.2] at h3
      exact mem_range.2 h3
    · rw [Finset.not_nonempty_iff_eq_empty.1 hne]; simp
  have hB : (S.filter (fun p => ¬ p.1 = n.1)).card ≤ 9 := by
    have hfacts : ∀ p ∈ S.filter (fun p => ¬ p.1 = n.1), ∃ c c', p.2 = T.ser p.1 c ∧ T.InTile p.1 c ∧
        OnEdge (T.tw p.1.2) (T.th p.1.1) c ∧ OnEdge (T.tw n.1.2) (T.th n.1.1) c' ∧ n.2 = T.ser n.1 c' ∧ 2 ≤ T.th n.1.1 ∧
        T.glob n.1 c' = nbr .D8 (T.glob p.1 c) (fd (T.glob p.1 c)) := by
      intro p hp
      rw [mem_filter] at hp
      obtain ⟨h1, h2⟩ := hmem p hp.1
      obtain ⟨c, k1, k2, k3, (⟨l1, l2, c', l3, l4, l5, l6, l7⟩ | ⟨l1, _⟩)⟩ := down_cases P J h1 h2
      · exact ⟨c, c', k1, k3, l2.onEdge, l5, l6, P.rows _ l3.1, l7⟩
      · exact absurd l1.symm hp.2
    let f : PNode → Int × Int := fun p =>
      ((T.glob n.1 (unser (T.tw n.1.2) (T.th n.1.1) n.2)).1 - (T.glob p.1 (unser (T.tw p.1.2) (T.th p.1.1) p.2)).1,
       (T.glob n.1 (unser (T.tw n.1.2) (T.th n.1.1) n.2)).2 - (T.glob p.1 (unser (T.tw p.1.2) (T.th p.1.1) p.2)).2)
    have hinj : Set.InjOn f (S.filter (fun p => ¬ p.1 = n.1) : Finset PNode) := by
      intro a ha b hb hab
      obtain ⟨c1, c1', a1, a2, a3, a4, a5, a6, a7⟩ := hfacts a (Finset.mem_coe.1 ha)
      obtain ⟨c2, c2', b1, b2, b3, b4, b5, b6, b7⟩ := hfacts b (Finset.mem_coe.1 hb)
      have u1 : unser (T.tw a.1.2) (T.th a.1.1) a.2 = c1 := by rw [a1]; exact unser_ser a3 (P.rows _ a2.1)
      have u2 : unser (T.tw b.1.2) (T.th b.1.1) b.2 = c2 := by rw [b1]; exact unser_ser b3 (P.rows _ b2.1)
      simp only [f, u1, u2, Prod.mk.injEq] at hab
      have hg : T.glob a.1 c1 = T.glob b.1 c2 := Prod.ext (by omega) (by omega)
      obtain ⟨e1, e2⟩ := Tiling.glob_inj P.bw P.bh a2 b2 hg
      refine Prod.ext e1 ?_
      rw [a1, b1, e1, e2]
    rw [← Finset.card_image_of_injOn hinj]
    refine le_trans (Finset.card_le_card (t := Finset.Icc (-1 : Int) 1 ×ˢ Finset.Icc (-1 : Int) 1) (fun d hd => ?_)) (by decide)
    obtain ⟨p, hp, rfl⟩ := mem_image.1 hd
    obtain ⟨c1, c1', a1, a2, a3, a4, a5, a6, a7⟩ := hfacts p hp
    have u1 : unser (T.tw p.1.2) (T.th p.1.1) p.2 = c1 := by rw [a1]; exact unser_ser a3 (P.rows _ a2.1)
    have u2 : unser (T.tw n.1.2) (T.th n.1.1) n.2 = c1' := by rw [a5]; exact unser_ser a4 a6
    have near := glob_near _ _ a7
    simp only [f, u1, u2, mem_product, mem_Icc]
    omega
  omega

/-- What the producer computes. -/
theorem pdCalc_ok (P : PDOk T null fd nd) (J : JobsOk T null fd nd jobs) (q : AnyQ PNode) :
    let V := (pdNodes T null jobs).toFinset
    let r := pdCalc q T null jobs
    r.ks.q = [] ∧
    (∀ n ∈ V, r.ks.acc n = (if (jobs n.1).links n.2 = FLOW_EXTERNAL then (jobs n.1).accum n.2 else 0) +
      ∑ p ∈ V.filter (fun p => downCell T null jobs p = some n), r.ks.acc p) ∧
    (∀ n, r.inn n = ∑ p ∈ V.filter (fun p => downCell T null jobs p = some n ∧ n.1 ≠ p.1), r.ks.acc p) := by
  refine pdCalc_spec q ?_ (fun n => pathLeft T.W T.H fd nd (T.glob n.1 (unser (T.tw n.1.2) (T.th n.1.1) n.2))) ?_ (indeg_le P J)
  · intro n hn m hd
    obtain ⟨ht, hnull, _⟩ := mem_pdNodes.1 hn
    obtain ⟨c, h1, h2, h3, (⟨k1, k2, c', k3, k4, k5, k6, k7⟩ | ⟨k1, e, k2, k3, k4, k5⟩)⟩ := down_cases P J hn hd
    · refine mem_pdNodes.2 ⟨⟨k3.1, k3.2.1⟩, k4, ?_⟩
      rw [(J m.1 ⟨k3.1, k3.2.1⟩ k4).size, k6]
      exact ser_lt k5 (P.rows _ k3.1)
    · refine mem_pdNodes.2 ⟨by rw [k1]; exact ht, by rw [k1]; exact hnull, ?_⟩
      rw [k1, (J n.1 ht hnull).size, k2]
      exact ser_lt k4.onEdge (P.rows _ ht.1)
  · intro n hn m hd
    obtain ⟨ht, hnull, _⟩ := mem_pdNodes.1 hn
    obtain ⟨c, h1, h2, h3, (⟨k1, k2, c', k3, k4, k5, k6, k7⟩ | ⟨k1, e, k2, k3, k4, k5⟩)⟩ := down_cases P J hn hd
    · have hce := pdStarts_onEdge (P.tw_pos ht) (P.rows _ ht.1) h2
      rw [h1, k6, unser_ser k5 (P.rows _ k3.1), unser_ser hce (P.rows _ ht.1)]
      refine pathLeft_step P.acyc ⟨h3.inGrid, k2.2.1, k2.2.2.1, k3.inGrid, k7⟩
    · have hce := pdStarts_onEdge (P.tw_pos ht) (P.rows _ ht.1) h2
      rw [h1, k2, k1, unser_ser k4.onEdge (P.rows _ ht.1), unser_ser hce (P.rows _ ht.1)]
      refine pathLeft_trans P.acyc ?_
      rcases ReflTransGen.cases_head k3 with h5 | ⟨b, hb, hbe⟩
      · exact absurd h5.symm k5
      · exact TransGen.head' (pathStep_glob ht hb) (path_glob ht hbe)

/-! ### Cells by tile -/

/-- The data cells of all tiles. -/
def pdCells (T : Tiling) (null : Nat × Nat → Bool) (fd : Cell → Nat) (nd : Nat) : Finset ((Nat × Nat) × Cell) :=
  ((tileList T.gh T.gw).filter (fun t => !null t)).toFinset.biUnion
    (fun t => ((d8Verts (T.tw t.2) (T.th t.1) (T.part fd t) nd).image (fun c => (t, c))))

theorem mem_pdCells {p : (Nat × Nat) × Cell} : p ∈ pdCells T null fd nd ↔
    T.InTile p.1 p.2 ∧ null p.1 = false ∧ fd (T.glob p.1 p.2) ≠ nd := by
  obtain ⟨t, c⟩ := p
  simp only [pdCells, mem_biUnion, List.mem_toFinset, List.mem_filter, mem_tileList, mem_image, mem_d8Verts, Prod.mk.injEq,
    Bool.not_eq_true', Tiling.InTile]
  constructor
  · rintro ⟨t', ⟨h1, h2⟩, c', ⟨h3, h4⟩, rfl, rfl⟩; exact ⟨⟨h1.1, h1.2, h3⟩, h2, h4⟩
  · rintro ⟨⟨h1, h2, h3⟩, h4, h5⟩; exact ⟨t, ⟨⟨h1, h2⟩, h4⟩, c, ⟨h3, h5⟩, rfl, rfl⟩

/-- Flow between data cells, named by tile and position. -/
def PFlow (T : Tiling) (null : Nat × Nat → Bool) (fd : Cell → Nat) (nd : Nat) (p p' : (Nat × Nat) × Cell) : Prop :=
  p ∈ pdCells T null fd nd ∧ p' ∈ pdCells T null fd nd ∧ D8FlowsTo T.W T.H fd nd (T.glob p.1 p.2) (T.glob p'.1 p'.2)

theorem pflow_local {t : Nat × Nat} {a b : Cell} (hp : PFlow T null fd nd (t, a) (t, b)) :
    D8FlowsTo (T.tw t.2) (T.th t.1) (T.part fd t) nd a b := by
  obtain ⟨h1, h2, h3⟩ := hp
  rw [mem_pdCells] at h1 h2
  exact (flows_glob ⟨h1.1.1, h1.1.2.1⟩ h1.1.2.2 h2.1.2.2).2 h3

theorem local_pflow {t : Nat × Nat} (ht : t.1 < T.gh ∧ t.2 < T.gw) (hn : null t = false) {a b : Cell}
    (hp : D8FlowsTo (T.tw t.2) (T.th t.1) (T.part fd t) nd a b) : PFlow T null fd nd (t, a) (t, b) :=
  ⟨mem_pdCells.2 ⟨⟨ht.1, ht.2, hp.1.1⟩, hn, hp.1.2⟩, mem_pdCells.2 ⟨⟨ht.1, ht.2, hp.2.1.1⟩, hn, hp.2.1.2⟩,
    (flows_glob ht hp.1.1 hp.2.1.1).1 hp⟩

theorem rtg_local {t : Nat × Nat} {c : Cell} (hc : (t, c) ∈ pdCells T null fd nd) {p : (Nat × Nat) × Cell} :
    ReflTransGen (fun a b => PFlow T null fd nd a b ∧ a.1 = b.1) p (t, c) ↔
      p.1 = t ∧ ReflTransGen (PathStep (T.tw t.2) (T.th t.1) (T.part fd t) nd) p.2 c := by
  constructor
  · intro h1
    have key : ∀ z, ReflTransGen (fun a b => PFlow T null fd nd a b ∧ a.1 = b.1) p z → z.1 = t →
        p.1 = t ∧ ReflTransGen (PathStep (T.tw t.2) (T.th t.1) (T.part fd t) nd) p.2 z.2 := by
      intro z hz
      induction hz with
      | refl => exact fun hz => ⟨hz, .refl⟩
      | tail _ hs ih =>
        rename_i x y _
        intro hy
        obtain ⟨tx, x⟩ := x
        obtain ⟨ty, y⟩ := y
        obtain ⟨hs, e⟩ := hs
        simp only at hy e ih
        subst hy
        subst e
        exact ⟨(ih rfl).1, (ih rfl).2.tail (pflow_local hs).step⟩
    exact key _ h1 rfl
  · rintro ⟨h1, h2⟩
    obtain ⟨tp, a⟩ := p
    simp only at h1 h2
    subst h1
    obtain ⟨k1, k2, k3⟩ := mem_pdCells.1 hc
    have h3 := pathStep_star h2 k3
    clear h2
    induction h3 using ReflTransGen.head_induction_on with
    | refl => exact .refl
    | head h1 _ ih => exact .head ⟨local_pflow ⟨k1.1, k1.2.1⟩ k2 h1, rfl⟩ ih

theorem pflow_acyclic (P : PDOk T null fd nd) (a : (Nat × Nat) × Cell) : ¬ TransGen (PFlow T null fd nd) a a := by
  intro h1
  have : ∀ x y, TransGen (PFlow T null fd nd) x y → TransGen (D8FlowsTo T.W T.H fd nd) (T.glob x.1 x.2) (T.glob y.1 y.2) := by
    intro x y hxy
    induction hxy with
    | single h2 => exact .single h2.2.2
    | tail _ h2 ih => exact ih.tail h2.2.2
  exact P.acyc _ (this a a h1)

theorem pflow_fun (P : PDOk T null fd nd) (a b c : (Nat × Nat) × Cell) (h1 : PFlow T null fd nd a b) (h2 : PFlow T null fd nd a c) :
    b = c := by
  have := d8FlowsTo_fun h1.2.2 h2.2.2
  have k := Tiling.glob_inj P.bw P.bh (mem_pdCells.1 h1.2.1).1 (mem_pdCells.1 h2.2.1).1 this
  exact Prod.ext k.1 k.2

open Classical in
/-- The accumulation of a tile by itself. -/
theorem local_equation (P : PDOk T null fd nd) {p : (Nat × Nat) × Cell} (hp : p ∈ pdCells T null fd nd) :
    pdLocal (T.tw p.1.2) (T.th p.1.1) (T.part fd p.1) nd p.2 =
      1 + ∑ p' ∈ (pdCells T null fd nd).filter (fun p' => PFlow T null fd nd p' p ∧ p'.1 = p.1),
        pdLocal (T.tw p'.1.2) (T.th p'.1.1) (T.part fd p'.1) nd p'.2 := by
  obtain ⟨t, c⟩ := p
  obtain ⟨k1, k2, k3⟩ := mem_pdCells.1 hp
  have ht : t.1 < T.gh ∧ t.2 < T.gw := ⟨k1.1, k1.2.1⟩
  simp only
  rw [pdLocal_eq, d8_equation (lifo Cell) (P.acyc_tile ht) (mem_d8Verts.2 ⟨k1.2.2, k3⟩)]
  congr 1
  refine Finset.sum_bij (fun x _ => (t, x)) ?_ ?_ ?_ ?_
  · intro x hx
    rw [mem_filter] at hx ⊢
    have := local_pflow ht k2 hx.2
    exact ⟨this.1, this, rfl⟩
  · intro x _ y _ hxy
    exact (Prod.mk.inj hxy).2
  · rintro ⟨t', x⟩ hx
    rw [mem_filter] at hx
    obtain ⟨h1, h2, h3⟩ := hx
    simp only at h3
    subst h3
    have := pflow_local h2
    exact ⟨x, mem_filter.2 ⟨mem_d8Verts.2 this.1, this⟩, rfl⟩
  · intro x _
    rw [pdLocal_eq]

open Classical in
/-- The accumulation of the whole raster. -/
theorem global_equation (P : PDOk T null fd nd) (q : AnyQ Cell) {p : (Nat × Nat) × Cell} (hp : p ∈ pdCells T null fd nd) :
    d8FlowAccum q T.W T.H fd nd (T.glob p.1 p.2) =
      1 + ∑ p' ∈ (pdCells T null fd nd).filter (fun p' => PFlow T null fd nd p' p),
        d8FlowAccum q T.W T.H fd nd (T.glob p'.1 p'.2) := by
  obtain ⟨k1, k2, k3⟩ := mem_pdCells.1 hp
  rw [d8_equation q P.acyc (mem_d8Verts.2 ⟨k1.inGrid, k3⟩)]
  congr 1
  symm
  refine Finset.sum_bij (fun x _ => T.glob x.1 x.2) ?_ ?_ ?_ ?_
  · intro x hx
    rw [mem_filter] at hx ⊢
    have h1 := mem_pdCells.1 hx.1
    exact ⟨mem_d8Verts.2 ⟨h1.1.inGrid, h1.2.2⟩, hx.2.2.2⟩
  · intro x hx y hy hxy
    have h1 := mem_pdCells.1 (mem_filter.1 hx).1
    have h2 := mem_pdCells.1 (mem_filter.1 hy).1
    have := Tiling.glob_inj P.bw P.bh h1.1 h2.1 hxy
    exact Prod.ext this.1 this.2
  · intro x hx
    rw [mem_filter, mem_d8Verts] at hx
    obtain ⟨t, c, h1, h2⟩ := Tiling.cover P.bw P.bh hx.1.1
    subst h2
    have hn : null t = false := by
      by_contra hn
      exact hx.1.2 (P.nulls t c h1 (by simpa using hn))
    have hm : (t, c) ∈ pdCells T null fd nd := mem_pdCells.2 ⟨h1, hn, hx.1.2⟩
    exact ⟨(t, c), mem_filter.2 ⟨hm, hm, hp, hx.2⟩, rfl⟩
  · intro x _; rfl

/-! ### The second round -/

/-- What enters a tile at a cell. -/
noncomputable def pdIn (T : Tiling) (r : PDS) (p : (Nat × Nat) × Cell) : Int :=
  open Classical in if OnEdge (T.tw p.1.2) (T.th p.1.1) p.2 then r.inn (p.1, T.ser p.1 p.2) else 0

/-- Flow enters a tile only at cells whose links were worked out. -/
theorem inn_ne_zero (P : PDOk T null fd nd) (J : JobsOk T null fd nd jobs) (q : AnyQ PNode) {t : Nat × Nat} {s : Nat}
    (h0 : (pdCalc q T null jobs).inn (t, s) ≠ 0) :
    ∃ c, s = T.ser t c ∧ c ∈ T.starts null t ∧ T.InTile t c ∧ null t = false := by
  obtain ⟨_, _, h3⟩ := pdCalc_ok P J q
  rw [h3] at h0
  obtain ⟨m, hm, _⟩ := Finset.exists_ne_zero_of_sum_ne_zero h0
  rw [mem_filter, List.mem_toFinset] at hm
  obtain ⟨hm, hd, hne⟩ := hm
  obtain ⟨ht, hnull, _⟩ := mem_pdNodes.1 hm
  obtain ⟨c, k1, k2, k3, (⟨l1, l2, c', l3, l4, l5, l6, l7⟩ | ⟨l1, _⟩)⟩ := down_cases P J hm hd
  · simp only at l3 l4 l5 l6 l7 l1
    refine ⟨c', l6, ?_, l3, l4⟩
    have near := glob_near _ _ l7
    exact start_of_cross P l3 k3 l4 hnull l1 (by omega) (by omega)
  · exact absurd l1 hne

open Classical in
/-- The accumulation that the producer works out for a cell at which flow leaves a tile. -/
theorem exit_acc (P : PDOk T null fd nd) (J : JobsOk T null fd nd jobs) (q : AnyQ PNode) {t : Nat × Nat} {c : Cell}
    (hp : (t, c) ∈ pdCells T null fd nd) (hc : c ∈ T.starts null t) (he : ExitCell (T.tw t.2) (T.th t.1) (T.part fd t) nd c) :
    (pdCalc q T null jobs).ks.acc (t, T.ser t c) = pdLocal (T.tw t.2) (T.th t.1) (T.part fd t) nd c +
      ∑ p ∈ (pdCells T null fd nd).filter (fun p => ReflTransGen (fun a b => PFlow T null fd nd a b ∧ a.1 = b.1) p (t, c)),
        pdIn T (pdCalc q T null jobs) p := by
  obtain ⟨k1, k2, k3⟩ := mem_pdCells.1 hp
  have ht : t.1 < T.gh ∧ t.2 < T.gw := ⟨k1.1, k1.2.1⟩
  have hrow := P.rows _ ht.1
  have hco := he.onEdge
  obtain ⟨_, hacc, hinn⟩ := pdCalc_ok P J q
  set r := pdCalc q T null jobs with hr
  set V := (pdNodes T null jobs).toFinset with hV
  have hnode : (t, T.ser t c) ∈ V := by
    rw [hV, List.mem_toFinset, mem_pdNodes]
    exact ⟨ht, k2, by rw [(J t ht k2).size]; exact ser_lt hco hrow⟩
  -- inputs within the tile pass on exactly what entered there
  have hpass : ∀ m ∈ V, downCell T null jobs m = some (t, T.ser t c) → m.1 = t →
      r.ks.acc m = r.inn m := by
    intro m hm hd hmt
    obtain ⟨cm, l1, l2, l3, (⟨l4, _⟩ | ⟨l4, e, l5, l6, l7, l8⟩)⟩ := down_cases P J (List.mem_toFinset.1 hm) hd
    · exact absurd hmt.symm l4
    have hmn := (mem_pdNodes.1 (List.mem_toFinset.1 hm))
    have hlink : (jobs m.1).links m.2 ≠ FLOW_EXTERNAL := by
      rw [l1, link_inner P J hmn.1 hmn.2.1 l2 l6 l7 l8]
      have h1 := ser_lt l7.onEdge (P.rows _ hmn.1.1)
      have h2 := P.small _ _ hmn.1.1 hmn.1.2
      unfold FLOW_EXTERNAL
      show RichDEM.ser _ _ _ ≠ _
      omega
    rw [hacc m hm, if_neg hlink, zero_add, hinn m]
    congr 1
    ext p
    simp only [mem_filter]
    constructor
    · rintro ⟨h1, h2⟩
      refine ⟨h1, h2, fun h3 => ?_⟩
      obtain ⟨cp, j1, j2, j3, (⟨j4, _⟩ | ⟨j4, e', j5, j6, j7, j8⟩)⟩ := down_cases P J (List.mem_toFinset.1 h1) h2
      · exact j4 h3
      · have e1 : cm = e' := by
          rw [← h3, l1] at j5
          have hcm := pdStarts_onEdge (P.tw_pos hmn.1) (P.rows _ hmn.1.1) l2
          exact ser_inj hcm (by rw [h3]; exact j7.onEdge) (P.rows _ hmn.1.1) j5
        subst e1
        rw [← h3] at j7
        rcases ReflTransGen.cases_head l6 with h5 | ⟨b, hb, _⟩
        · exact l8 h5.symm
        · exact exit_no_step j7 hb
    · rintro ⟨h1, h2, _⟩; exact ⟨h1, h2⟩
  rw [hacc _ hnode, if_pos (link_external P J ht k2 hc he), (J t ht k2).accum _ (ser_lt hco hrow), unser_ser hco hrow]
  congr 1
  have hsplit : ∑ p ∈ V.filter (fun p => downCell T null jobs p = some (t, T.ser t c)), r.ks.acc p =
      ∑ p ∈ V.filter (fun p => downCell T null jobs p = some (t, T.ser t c) ∧ p.1 = t), r.ks.acc p + r.inn (t, T.ser t c) := by
    rw [hinn, ← sum_union]
    · congr 1
      ext p; simp only [mem_filter, mem_union]
      constructor
      · rintro ⟨h1, h2⟩
        by_cases h3 : p.1 = t
        · exact .inl ⟨h1, h2, h3⟩
        · exact .inr ⟨h1, h2, fun h4 => h3 h4.symm⟩
      · rintro (⟨h1, h2, _⟩ | ⟨h1, h2, _⟩) <;> exact ⟨h1, h2⟩
    · rw [Finset.disjoint_left]
      intro p h1 h2
      exact (mem_filter.1 h2).2.2 (mem_filter.1 h1).2.2.symm
  have hself : pdIn T r (t, c) = r.inn (t, T.ser t c) := by
    unfold pdIn; simp only; rw [if_pos hco]
  have hmem : (t, c) ∈ (pdCells T null fd nd).filter (fun p => ReflTransGen (fun a b => PFlow T null fd nd a b ∧ a.1 = b.1) p (t, c)) :=
    mem_filter.2 ⟨hp, .refl⟩
  rw [hsplit, ← Finset.sum_erase_add _ _ hmem, hself]
  congr 1
  rw [sum_congr rfl (fun m hm => hpass m (mem_filter.1 hm).1 (mem_filter.1 hm).2.1 (mem_filter.1 hm).2.2)]
  symm
  refine Finset.sum_bij_ne_zero (fun p _ _ => (p.1, T.ser p.1 p.2)) ?_ ?_ ?_ ?_
  · rintro ⟨t', c'⟩ h1 h2
    rw [mem_erase, mem_filter] at h1
    obtain ⟨h3, h4, h5⟩ := h1
    obtain ⟨h6, h7⟩ := (rtg_local hp).1 h5
    simp only at h6 h7 h2
    subst h6
    have h8 : OnEdge (T.tw t'.2) (T.th t'.1) c' := by
      by_contra h8
      apply h2
      unfold pdIn; simp only; rw [if_neg h8]
    unfold pdIn at h2
    simp only at h2
    rw [if_pos h8] at h2
    obtain ⟨c1, m1, m2, m3, m4⟩ := inn_ne_zero P J q h2
    have : c1 = c' := (ser_inj h8 (pdStarts_onEdge (P.tw_pos ht) hrow m2) hrow m1).symm
    subst this
    rw [mem_filter]
    refine ⟨?_, down_inner P J ht k2 m2 h7 he (fun h9 => h3 (by rw [h9])), rfl⟩
    rw [hV, List.mem_toFinset, mem_pdNodes]
    exact ⟨ht, k2, by rw [(J t' ht k2).size]; exact ser_lt h8 hrow⟩
  · rintro ⟨t1, c1⟩ h1 h2 ⟨t2, c2⟩ h3 h4 h5
    simp only at h5
    have e1 : t1 = t2 := congrArg Prod.fst h5
    subst e1
    have e2 : T.ser t1 c1 = T.ser t1 c2 := congrArg Prod.snd h5
    rw [mem_erase, mem_filter] at h1
    have a1 := (mem_pdCells.1 h1.2.1).1
    have o1 : OnEdge (T.tw t1.2) (T.th t1.1) c1 := by
      by_contra h8; apply h2; unfold pdIn; simp only; rw [if_neg h8]
    have o2 : OnEdge (T.tw t1.2) (T.th t1.1) c2 := by
      by_contra h8; apply h4; unfold pdIn; simp only; rw [if_neg h8]
    rw [ser_inj o1 o2 (P.rows _ a1.1) e2]
  · intro m hm hm0
    rw [mem_filter] at hm
    obtain ⟨h1, h2, h3⟩ := hm
    obtain ⟨cm, l1, l2, l3, (⟨l4, _⟩ | ⟨l4, e, l5, l6, l7, l8⟩)⟩ := down_cases P J (List.mem_toFinset.1 h1) h2
    · exact absurd h3.symm l4
    obtain ⟨tm, sm⟩ := m
    simp only at h3 l1 l2 l3 l5 l6 l7 l8
    subst h3
    subst l1
    have hec : e = c := ser_inj l7.onEdge hco hrow l5.symm
    subst hec
    have hcm := pdStarts_onEdge (P.tw_pos ht) hrow l2
    have hd : fd (T.glob tm cm) ≠ nd := by
      rcases ReflTransGen.cases_head l6 with h5 | ⟨b, hb, _⟩
      · exact absurd h5.symm l8
      · exact hb.2.1
    refine ⟨(tm, cm), ?_, ?_, rfl⟩
    · rw [mem_erase, mem_filter]
      exact ⟨fun h5 => l8 (Prod.mk.inj h5).2.symm, mem_pdCells.2 ⟨l3, k2, hd⟩, (rtg_local hp).2 ⟨rfl, l6⟩⟩
    · unfold pdIn; simp only; rw [if_pos hcm]; exact hm0
  · rintro ⟨t1, c1⟩ h1 h2
    have o1 : OnEdge (T.tw t1.2) (T.th t1.1) c1 := by
      by_contra h8; apply h2; unfold pdIn; simp only; rw [if_neg h8]
    unfold pdIn; simp only; rw [if_pos o1]

open Classical in
/-- What enters a tile at a cell is the accumulation of the cells of other tiles that flow to it. -/
theorem inn_equation (P : PDOk T null fd nd) (J : JobsOk T null fd nd jobs) (q : AnyQ PNode) {p : (Nat × Nat) × Cell}
    (hp : p ∈ pdCells T null fd nd) :
    pdIn T (pdCalc q T null jobs) p =
      ∑ p' ∈ (pdCells T null fd nd).filter (fun p' => PFlow T null fd nd p' p ∧ p'.1 ≠ p.1),
        (pdLocal (T.tw p'.1.2) (T.th p'.1.1) (T.part fd p'.1) nd p'.2 +
          ∑ x ∈ (pdCells T null fd nd).filter (fun x => ReflTransGen (fun a b => PFlow T null fd nd a b ∧ a.1 = b.1) x p'),
            pdIn T (pdCalc q T null jobs) x) := by
  obtain ⟨t, c⟩ := p
  obtain ⟨k1, k2, k3⟩ := mem_pdCells.1 hp
  have ht : t.1 < T.gh ∧ t.2 < T.gw := ⟨k1.1, k1.2.1⟩
  have hrow := P.rows _ ht.1
  obtain ⟨_, hacc, hinn⟩ := pdCalc_ok P J q
  -- a cell of another tile flowing to `(t, c)`
  have hfacts : ∀ p', PFlow T null fd nd p' (t, c) → p'.1 ≠ t →
      p'.2 ∈ T.starts null p'.1 ∧ ExitCell (T.tw p'.1.2) (T.th p'.1.1) (T.part fd p'.1) nd p'.2 ∧
      downCell T null jobs (p'.1, T.ser p'.1 p'.2) = some (t, T.ser t c) ∧ OnEdge (T.tw t.2) (T.th t.1) c := by
    rintro ⟨t', c'⟩ hf hne
    obtain ⟨m1, m2, m3⟩ := mem_pdCells.1 hf.1
    simp only at m1 m2 m3 hne ⊢
    have hg : T.glob t c = nbr .D8 (T.glob t' c') (fd (T.glob t' c')) := hf.2.2.2.2.2
    have near := glob_near _ _ hg
    have hs := start_of_cross P m1 k1 m2 k2 hne near.1 near.2
    have hex : ExitCell (T.tw t'.2) (T.th t'.1) (T.part fd t') nd c' := by
      refine ⟨m1.2.2, m3, hf.2.2.2.2.1, fun hin => ?_⟩
      have h1 : T.InTile t' (nbr .D8 c' (fd (T.glob t' c'))) := ⟨m1.1, m1.2.1, hin⟩
      have h2 := Tiling.glob_inj P.bw P.bh k1 h1 (by rw [hg, glob_nbr])
      exact hne h2.1.symm
    obtain ⟨h1, h2⟩ := down_cross P J m2 hs m1 hex k1 k2 hg
    exact ⟨hs, hex, h1, h2⟩
  by_cases hco : OnEdge (T.tw t.2) (T.th t.1) c
  · have hself : pdIn T (pdCalc q T null jobs) (t, c) = (pdCalc q T null jobs).inn (t, T.ser t c) := by
      unfold pdIn; simp only; rw [if_pos hco]
    rw [hself, hinn]
    symm
    refine Finset.sum_bij (fun p' _ => (p'.1, T.ser p'.1 p'.2)) ?_ ?_ ?_ ?_
    · intro p' hp'
      rw [mem_filter] at hp'
      obtain ⟨h1, h2, h3, _⟩ := hfacts p' hp'.2.1 hp'.2.2
      obtain ⟨m1, m2, m3⟩ := mem_pdCells.1 hp'.1
      rw [mem_filter, List.mem_toFinset, mem_pdNodes]
      refine ⟨⟨⟨m1.1, m1.2.1⟩, m2, ?_⟩, h3, fun h4 => hp'.2.2 h4.symm⟩
      rw [(J p'.1 ⟨m1.1, m1.2.1⟩ m2).size]
      exact ser_lt h2.onEdge (P.rows _ m1.1)
    · rintro ⟨t1, c1⟩ h1 ⟨t2, c2⟩ h2 h3
      simp only at h3
      have e1 : t1 = t2 := congrArg Prod.fst h3
      subst e1
      have e2 : T.ser t1 c1 = T.ser t1 c2 := congrArg Prod.snd h3
      rw [mem_filter] at h1 h2
      have o1 := (hfacts _ h1.2.1 h1.2.2).2.1.onEdge
      have o2 := (hfacts _ h2.2.1 h2.2.2).2.1.onEdge
      exact Prod.ext rfl (ser_inj o1 o2 (P.rows _ (mem_pdCells.1 h1.1).1.1) e2)
    · intro m hm
      rw [mem_filter] at hm
      obtain ⟨h1, h2, h3⟩ := hm
      obtain ⟨cm, l1, l2, l3, (⟨l4, l5, c', l6, l7, l8, l9, l10⟩ | ⟨l4, _⟩)⟩ := down_cases P J (List.mem_toFinset.1 h1) h2
      · obtain ⟨tm, sm⟩ := m
        simp only at l1 l2 l3 l4 l5 l6 l7 l8 l9 l10 h3
        subst l1
        have : c = c' := ser_inj hco l8 hrow l9
        subst this
        have hmn := mem_pdNodes.1 (List.mem_toFinset.1 h1)
        have hm : (tm, cm) ∈ pdCells T null fd nd := mem_pdCells.2 ⟨l3, hmn.2.1, l5.2.1⟩
        refine ⟨(tm, cm), mem_filter.2 ⟨hm, ⟨hm, hp, ?_⟩, fun h5 => h3 h5.symm⟩, rfl⟩
        exact ⟨⟨l3.inGrid, l5.2.1⟩, ⟨k1.inGrid, k3⟩, l5.2.2.1, l10⟩
      · exact absurd l4 h3
    · rintro ⟨t', c'⟩ hp'
      rw [mem_filter] at hp'
      obtain ⟨h1, h2, h3, _⟩ := hfacts _ hp'.2.1 hp'.2.2
      exact (exit_acc P J q hp'.1 h1 h2).symm
  · have hself : pdIn T (pdCalc q T null jobs) (t, c) = 0 := by
      unfold pdIn; simp only; rw [if_neg hco]
    rw [hself]
    symm
    apply Finset.sum_eq_zero
    intro p' hp'
    rw [mem_filter] at hp'
    exact absurd (hfacts p' hp'.2.1 hp'.2.2).2.2.2 hco

/-- The second round gives every cell its accumulation in the whole raster. -/
theorem second_ok (P : PDOk T null fd nd) (J : JobsOk T null fd nd jobs) (q : AnyQ PNode) (qs : AnyQ Cell) {t : Nat × Nat}
    (ht : t.1 < T.gh ∧ t.2 < T.gw) (hn : null t = false) :
    ∃ out, pdSecond (T.tw t.2) (T.th t.1) (T.part fd t) nd (jobs t).size (fun s => (pdCalc q T null jobs).inn (t, s)) = some out ∧
      ∀ c, InGrid (T.tw t.2) (T.th t.1) c → out c = d8FlowAccum qs T.W T.H fd nd (T.glob t c) := by
  classical
  have hrow := P.rows _ ht.1
  obtain ⟨out, o1, o2⟩ := pdSecond_spec (P.tw_pos ht) hrow (P.acyc_tile ht) (fun s => (pdCalc q T null jobs).inn (t, s))
  refine ⟨out, by rw [(J t ht hn).size]; exact o1, ?_⟩
  intro c hc
  by_cases hd : fd (T.glob t c) = nd
  · have e1 := C21_noData (lifo Cell) (T.tw t.2) (T.th t.1) (T.part fd t) nd c hd
    have e2 := C21_noData qs T.W T.H fd nd (T.glob t c) hd
    rw [o2, pdLocal_eq, e1, e2, Finset.sum_eq_zero]
    · ring
    · intro s _
      rw [if_neg (fun h1 => h1.1 hd)]
  have hp : (t, c) ∈ pdCells T null fd nd := mem_pdCells.2 ⟨⟨ht.1, ht.2, hc⟩, hn, hd⟩
  let B : (Nat × Nat) × Cell → Int := fun p => pdLocal (T.tw p.1.2) (T.th p.1.1) (T.part fd p.1) nd p.2 +
    ∑ x ∈ (pdCells T null fd nd).filter (fun x => ReflTransGen (fun a b => PFlow T null fd nd a b ∧ a.1 = b.1) x p),
      pdIn T (pdCalc q T null jobs) x
  have hB : ∀ p ∈ pdCells T null fd nd, B p = 1 + ∑ p' ∈ (pdCells T null fd nd).filter (fun p' => PFlow T null fd nd p' p), B p' := by
    intro p hp
    exact cut_accumulation (verts := pdCells T null fd nd) (r := PFlow T null fd nd) (fun a b h1 => ⟨h1.1, h1.2.1⟩)
      (pflow_fun P) (pflow_acyclic P) (fun p => p.1)
      (fun p => pdLocal (T.tw p.1.2) (T.th p.1.1) (T.part fd p.1) nd p.2) (pdIn T (pdCalc q T null jobs)) B
      (fun p hp => by have e := local_equation P hp; convert e) (fun p _ => rfl) (fun p hp => by have e := inn_equation P J q hp; convert e) hp
  have hA : Acc (PFlow T null fd nd) (t, c) :=
    (acc_iff_no_cycle (pdCells T null fd nd) _ (fun a b hab => hab.1) hp).2 (fun a _ => pflow_acyclic P a)
  have key := accumulation_unique (verts := pdCells T null fd nd) (r := PFlow T null fd nd) hB
    (g := fun p => d8FlowAccum qs T.W T.H fd nd (T.glob p.1 p.2)) (fun p hp => global_equation P qs hp) hp hA
  simp only at key
  rw [← key, o2]
  show _ = pdLocal (T.tw t.2) (T.th t.1) (T.part fd t) nd c + _
  congr 1
  symm
  refine Finset.sum_bij_ne_zero (fun p _ _ => T.ser p.1 p.2) ?_ ?_ ?_ ?_
  · rintro ⟨t', c'⟩ h1 h2
    rw [mem_filter] at h1
    obtain ⟨h6, h7⟩ := (rtg_local hp).1 h1.2
    simp only at h6 h7 ⊢
    subst h6
    have o1 : OnEdge (T.tw t'.2) (T.th t'.1) c' := by
      by_contra h8; apply h2; unfold pdIn; simp only; rw [if_neg h8]
    exact mem_range.2 (ser_lt o1 hrow)
  · rintro ⟨t1, c1⟩ h1 h2 ⟨t2, c2⟩ h3 h4 h5
    rw [mem_filter] at h1 h3
    have e1 := ((rtg_local hp).1 h1.2).1
    have e2 := ((rtg_local hp).1 h3.2).1
    simp only at e1 e2 h5
    subst e1
    subst e2
    have o1 : OnEdge (T.tw t2.2) (T.th t2.1) c1 := by
      by_contra h8; apply h2; unfold pdIn; simp only; rw [if_neg h8]
    have o2 : OnEdge (T.tw t2.2) (T.th t2.1) c2 := by
      by_contra h8; apply h4; unfold pdIn; simp only; rw [if_neg h8]
    rw [ser_inj o1 o2 hrow h5]
  · intro s hs hs0
    have h1 : T.part fd t c ≠ nd ∧ ReflTransGen (PathStep (T.tw t.2) (T.th t.1) (T.part fd t) nd) (unser (T.tw t.2) (T.th t.1) s) c := by
      by_contra h1; rw [if_neg h1] at hs0; exact hs0 rfl
    rw [if_pos h1] at hs0
    obtain ⟨cs, m1, m2, m3, m4⟩ := inn_ne_zero P J q hs0
    subst m1
    have hcs := pdStarts_onEdge (P.tw_pos ht) hrow m2
    have h2 := h1.2
    rw [unser_ser hcs hrow] at h2
    have hds : fd (T.glob t cs) ≠ nd := by
      rcases ReflTransGen.cases_head h2 with h5 | ⟨b, hb, _⟩
      · rw [h5]; exact hd
      · exact hb.2.1
    refine ⟨(t, cs), mem_filter.2 ⟨mem_pdCells.2 ⟨m3, m4, hds⟩, (rtg_local hp).2 ⟨rfl, h2⟩⟩, ?_, rfl⟩
    unfold pdIn; simp only; rw [if_pos hcs]; exact hs0
  · rintro ⟨t', c'⟩ h1 h2
    rw [mem_filter] at h1
    obtain ⟨h6, h7⟩ := (rtg_local hp).1 h1.2
    simp only at h6 h7 ⊢
    subst h6
    have o1 : OnEdge (T.tw t'.2) (T.th t'.1) c' := by
      by_contra h8; apply h2; unfold pdIn; simp only; rw [if_neg h8]
    rw [if_pos ⟨hd, by show ReflTransGen _ (unser _ _ (ser _ _ c')) c; rw [unser_ser o1 hrow]; exact h7⟩]
    unfold pdIn; simp only; rw [if_pos o1]

end

end RichDEM
