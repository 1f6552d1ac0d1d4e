/-
Property theorems C92: depression hierarchies and Fill-Spill-Merge from Python, over any sequence of rain.
-/
import Verif.Py.Thm
import Verif.Py.FillSpill
import Verif.Props.FillSpill
import Verif.Props.Python

namespace RichDEM.Py

/-! ### One call of C++ -/

/-- No water is above every way to an ocean cell. -/
def BelowSpill (w h : Nat) (topo wtd : Cell → ℚ) (sea : Cell → Prop) : Prop :=
  ∀ c, InGrid w h c → 0 < wtd c → ∀ (p : List Cell) (e : Cell), p.head? = some c → p.IsChain (Adj .D8) →
    (∀ x ∈ p, InGrid w h x) → p.getLast? = some e → sea e → ∃ x ∈ p, topo c + wtd c ≤ topo x

theorem dh_labels (pq : PQ (ℚ × Cell) zLt) (w h : Nat) (topo : Cell → ℚ) (lab : Cell → Option Nat) (s : DHS ℚ)
    (hs : getDHFlood pq w h .D8 topo lab = some s) :
    (∀ c, InGrid w h c → ∃ l, s.label c = some l ∧ l < s.ndep) ∧
    (∀ c, ¬ InGrid w h c → s.label c = none) ∧ (∀ c, InGrid w h c → lab c = some 0 → s.label c = some 0) := by
  obtain ⟨e, _⟩ := getDHFlood_some hs
  obtain ⟨⟨D, I⟩, _⟩ := dhFlood_final pq w h .D8 topo (fun c => lab c == some 0)
  obtain ⟨hL, _⟩ := dhFlood_complete pq w h .D8 topo (fun c => lab c == some 0)
  rw [e]
  refine ⟨?_, ?_, ?_⟩
  · intro c hc
    obtain ⟨l, hl⟩ := Option.ne_none_iff_exists'.1 (hL c hc)
    exact ⟨l, hl, I.lt c l hl⟩
  · intro c hc
    by_contra hne
    obtain ⟨l, hl⟩ := Option.ne_none_iff_exists'.1 hne
    cases I.path c l hl with
    | ocean k _ _ _ _ => exact hc k
    | pit _ _ k _ _ => exact hc k
    | step k _ _ _ _ => exact hc k
  · intro c hc ho
    exact I.lab0 c hc (by simp [ho])

/-- Cells without a label have no flow direction. -/
theorem dh_unlabelled_fd (pq : PQ (ℚ × Cell) zLt) (w h : Nat) (topo : Cell → ℚ) (lab : Cell → Option Nat) (s : DHS ℚ)
    (hs : getDHFlood pq w h .D8 topo lab = some s) (c : Cell) (hc : s.label c = none) : s.fd c = 0 := by
  obtain ⟨rfl, _⟩ := getDHFlood_some hs
  revert hc
  have key : ∀ x : DHS ℚ, (x.label c = none → x.fd c = 0) →
      ∀ y, dhStep pq w h .D8 topo x = some y → (y.label c = none → y.fd c = 0) := by
    intro x hx y hy
    unfold dhStep at hy
    split at hy
    · cases hy
    · rename_i e rest _
      rw [Option.some.injEq] at hy
      rw [← hy]
      apply foldl_inv' (fun s : DHS ℚ => s.label c = none → s.fd c = 0)
      · intro u n _ hu
        unfold dhNbr
        simp only
        split
        · exact hu
        · split
          · rename_i hnone
            simp only
            intro hl
            by_cases hne : c = nbr .D8 e.2 n
            · rw [hne, Function.update_self] at hl; cases hl
            · rw [Function.update_of_ne hne] at hl ⊢
              exact hu hl
          · split
            · exact hu
            · exact hu
      · unfold dhOpen
        split
        · exact hx
        · simp only
          intro hl
          by_cases hne : c = e.2
          · rw [hne, Function.update_self] at hl; cases hl
          · rw [Function.update_of_ne hne] at hl
            exact hx hl
  unfold dhFlood
  exact loop_inv (fun s : DHS ℚ => s.label c = none → s.fd c = 0) (fun x y hx hy => key x hx y hy) _ _ (fun _ => rfl)

/-- Fill-Spill-Merge on the result of `GetDepressionHierarchy`, for any labels and water. -/
theorem fsm_core (q : AnyQ Cell) (pq pq' : PQ (ℚ × Cell) zLt) (hq : pq.Lifo) (os : DHS ℚ → List (Outlet ℚ))
    (parts : List (List Cell)) (eps : ℚ) (heps : 0 < eps) (w h : Nat) (topo : Cell → ℚ) (lab : Cell → Option Nat)
    (s : DHS ℚ) (hs : getDHFlood pq w h .D8 topo lab = some s) (O : IsOutletVec s (os s))
    (hp : parts.flatten.Perm (allCells w h)) (h32 : 2 * (w * h) < 2 ^ 32) :
    ∃ deps, dhDeps os parts topo s = some deps ∧
      ∀ water : Cell → ℚ, (∀ c, InGrid w h c → 0 ≤ water c) →
      ((∀ p, InGrid w h p → Adj .D8 p (0, 0) → lab p ≠ some 0 → topo p < topo (0, 0)) ∨ (lab (0, 0) = some 0 ∧ water (0, 0) = 0)) →
      ∃ r, fillSpillMerge q pq' w h topo s.label s.fd deps.n deps.dep deps.vol eps (2 * deps.n) water = .ok r ∧
        0 ≤ r.water 0 ∧ |rasterSum w h r.wtd + r.water 0 - rasterSum w h water| ≤ 11 * eps * (w * h) ∧
        StandsStill w h topo r.wtd (2 * eps) ∧
        (∀ c, InGrid w h c → 0 ≤ r.wtd c ∧ (lab c = some 0 → r.wtd c = 0)) ∧
        BelowSpill w h topo r.wtd (fun e => lab e = some 0) := by
  classical
  obtain ⟨hlabel, _, hlab0⟩ := dh_labels pq w h topo lab s hs
  have hn := ndep_le pq w h .D8 topo lab s hs
  have h32' : 2 * s.ndep < 2 ^ 32 := by omega
  obtain ⟨H, hH, hn1, hn2⟩ := C61_succeeds pq w h .D8 topo lab s hs (os s) O h32'
  obtain ⟨m, v, hm, hv, _, _, hvol⟩ := C43_volumes pq w h .D8 topo lab s hs (os s) O h32' H hH parts hp
  have hvol' : ∀ d, d < H.n → d ≠ 0 → v.vol d = some (if d = 0 then 0 else (v.vol d).getD 0) := by
    intro d h1 h2
    obtain ⟨z, S, _, _, _, _, k, _⟩ := hvol d h1 h2
    rw [if_neg h2, k]; rfl
  refine ⟨⟨H.n, H.dep, fun d => if d = 0 then 0 else (v.vol d).getD 0, fun _ => 0⟩, ?_, ?_⟩
  · unfold dhDeps
    rw [hH, Option.bind_some, hm, Option.bind_some, hv, Option.map_some]
  intro water hsat h00
  simp only
  have hpath : ∀ c l, s.label c = some l → DHPath w h .D8 topo (fun c => lab c == some 0) s.label s.fd s.pit l c := by
    obtain ⟨e, _⟩ := getDHFlood_some hs
    obtain ⟨⟨D, I⟩, _⟩ := dhFlood_final pq w h .D8 topo (fun c => lab c == some 0)
    rw [e]; exact I.path
  have hgrid0 : InGrid w h (0, 0) := by
    obtain ⟨e, c0, ⟨a1, a2, a3, a4⟩, _⟩ := getDHFlood_some hs
    exact ⟨le_refl _, by show (0 : Int) < w; omega, le_refl _, by show (0 : Int) < h; omega⟩
  have hz : (¬ ∃ p, InGrid w h p ∧ s.fd p ≠ 0 ∧ nbr .D8 p (s.fd p) = (0, 0)) ∨ (s.fd (0, 0) = 0 ∧ water (0, 0) = 0) := by
    rcases h00 with k | ⟨k, k'⟩
    · left
      rintro ⟨p, p1, p2, p3⟩
      obtain ⟨l, hl, _⟩ := hlabel p p1
      cases hpath p l hl with
      | ocean _ _ _ _ k5 => exact p2 k5
      | pit _ _ _ _ k5 => exact p2 k5
      | step _ _ k3 k4 _ =>
        rw [p3] at k4
        have hsea : lab p ≠ some 0 := fun e => p2 (dh_ocean_fd pq w h .D8 topo lab s hs p p1 e)
        have := k p p1 (by rw [← p3]; exact nbr_adj k3) hsea
        exact absurd k4 (not_le.2 this)
    · exact Or.inr ⟨dh_ocean_fd pq w h .D8 topo lab s hs (0, 0) hgrid0 k, k'⟩
  obtain ⟨r, hr⟩ := C71_returns_partial q pq pq' w h topo lab s hs (os s) O h32' H hH parts hp m hm v hv
    (fun d => if d = 0 then 0 else (v.vol d).getD 0) hvol' (by simp) hq eps heps water hsat hz (2 * H.n) le_rfl
  obtain ⟨r1, r2⟩ := C71_conserved_partial q pq pq' w h topo lab s hs (os s) O h32' H hH parts hp m hm v hv _ hvol' (by simp) hq
    eps heps water hsat hz (2 * H.n) le_rfl r hr
  have r3 := C71_in_depressions_partial q pq pq' w h topo lab s hs (os s) O h32' H hH parts hp m hm v hv _ hvol' (by simp)
    hq eps heps water hsat hz (2 * H.n) le_rfl r hr
  have r4 := C71_still_partial q pq pq' w h topo lab s hs (os s) O h32' H hH parts hp m hm v hv _ hvol' (by simp) hq eps heps
    water hsat hz (2 * H.n) le_rfl r hr
  obtain ⟨H', rep, k1, J, _⟩ := dh_run pq w h .D8 topo lab s hs (os s) O h32'
  rw [hH] at k1; cases k1
  refine ⟨r, hr, r1, ?_, r4, ?_, ?_⟩
  · refine le_trans r2 ?_
    have hN : (H.n : ℚ) ≤ 2 * (w * h : ℚ) - 1 := by
      have h1 : H.n + 1 ≤ 2 * (w * h) := by
        have : 1 ≤ s.ndep := by
          obtain ⟨e, _⟩ := getDHFlood_some hs
          obtain ⟨⟨D, I⟩, _⟩ := dhFlood_final pq w h .D8 topo (fun c => lab c == some 0)
          rw [e]; exact I.pos
        omega
      have h2 : ((H.n + 1 : Nat) : ℚ) ≤ ((2 * (w * h) : Nat) : ℚ) := by exact_mod_cast h1
      push_cast at h2
      linarith
    nlinarith [heps]
  · intro c hc
    obtain ⟨i1, i2⟩ := r3 c hc
    refine ⟨i1, fun hsea => ?_⟩
    by_contra hne
    obtain ⟨d, z, d1, d2, ⟨l, l1, l2⟩, _⟩ := i2 (lt_of_le_of_ne i1 (Ne.symm hne))
    rw [hlab0 c hc hsea] at l1; cases l1
    exact d2 (anc_zero J l2)
  · intro c hc hpos p e P1 P2 P3 e1 e2
    obtain ⟨d, z', d1, d2, d3, d4, d5⟩ := (r3 c hc).2 hpos
    have hend : ¬ InDep s.label H.dep d e := by
      rintro ⟨l, l1, l2⟩
      have hg : InGrid w h e := P3 e (List.mem_of_getLast? e1)
      rw [hlab0 e hg e2] at l1; cases l1
      exact d2 (anc_zero J l2)
    obtain ⟨u, u', u1, u2, u3, u4, u5⟩ := path_leaves (S := InDep s.label H.dep d) p c e P1 e1 P2 d3 hend
    obtain ⟨z2, y1, y2, _⟩ := C62_spill_elevation pq w h .D8 topo lab s hs (os s) O h32' H hH d d1 d2
    rw [d4] at y1; cases y1
    rcases le_max_iff.1 (le_trans d5 (y2 u u' u3 (P3 _ u1) (P3 _ u2) u4 u5)) with k | k
    · exact ⟨u, u1, k⟩
    · exact ⟨u', u2, k⟩

/-! ### Arrays in memory -/

/-- A live C-contiguous array of the given shape and type whose `no_data` can be passed to C++. -/
structure Good (m : PyMem) (a : RdArr) (w h : Nat) (d : Dtype) : Prop where
  valid : a.v.Valid m
  contig : a.v.contig = true
  hw : a.v.w = w
  hh : a.v.h = h
  dt : a.dt = d
  nd : ∃ nd, NoDataIs a nd

theorem Good.wrap {m : PyMem} {a : RdArr} {w h : Nat} {d : Dtype} (G : Good m a w h d) :
    ∃ nd, Py.wrap m a = .ok m ⟨a.v.buf, a.v.off, w, h, nd⟩ := by
  obtain ⟨nd, h1, h2⟩ := G.nd
  refine ⟨nd, ?_⟩
  unfold Py.wrap
  rw [if_neg h1, h2]
  simp only [ensure_contig G.contig, G.hw, G.hh]

theorem Good.read {m : PyMem} {a : RdArr} {w h : Nat} {d : Dtype} (G : Good m a w h d) (hw : 0 < w) (hh : 0 < h) (nd : ℚ) :
    (CArr.mk a.v.buf a.v.off w h nd).read m = some (a.cells m) := by
  have := read_contig G.contig (by rw [G.hw]; exact hw) (by rw [G.hh]; exact hh) G.valid nd
  rw [G.hw, G.hh] at this
  exact this

theorem Good.stored {m : PyMem} {a : RdArr} {w h : Nat} {d : Dtype} (G : Good m a w h d) (hw : 0 < w) (hh : 0 < h) (nd : ℚ)
    (g : Cell → ℚ) (c : Cell) (hc : InGrid w h c) :
    a.cells ((CArr.mk a.v.buf a.v.off w h nd).write m g) c = g c := by
  have := cells_write G.contig (by rw [G.hw]; exact hw) (by rw [G.hh]; exact hh) G.valid nd g
  rw [G.hw, G.hh] at this
  show a.v.cells _ c = _
  rw [this]
  simp only [restrict, inGrid_iff.2 hc, if_true]

theorem Good.of_write {m : PyMem} {a : RdArr} {w h : Nat} {d : Dtype} (G : Good m a w h d) (x : CArr) (g : Cell → ℚ) :
    Good (x.write m g) a w h d := by
  refine { G with valid := ?_ }
  obtain ⟨b, h1, h2⟩ := G.valid
  by_cases he : a.v.buf = x.buf
  · rw [he] at h1
    have k := write_blk x h1 g
    rw [← he] at k
    exact ⟨_, k, h2⟩
  · exact ⟨b, by rw [write_other _ he]; exact h1, h2⟩

theorem Good.of_alloc {m : PyMem} (hm : m.WF) {a : RdArr} {w h : Nat} {d : Dtype} (G : Good m a w h d) (h' w' : Nat)
    (g : Cell → ℚ) : Good (m.alloc h' w' g) a w h d ∧ a.v.buf ≠ m.next := by
  obtain ⟨b, h1, h2⟩ := G.valid
  have hne : a.v.buf ≠ m.next := fun e => by rw [e, hm _ le_rfl] at h1; cases h1
  exact ⟨{ G with valid := ⟨b, by rw [alloc_other _ _ _ _ hne]; exact h1, h2⟩ }, hne⟩

theorem cells_of_write {m : PyMem} {a : RdArr} (x : CArr) (g : Cell → ℚ) (he : a.v.buf ≠ x.buf) :
    a.cells (x.write m g) = a.cells m := by
  funext c; simp only [RdArr.cells, NdView.cells, write_other g he]

theorem cells_of_alloc {m : PyMem} {a : RdArr} (h w : Nat) (g : Cell → ℚ) (he : a.v.buf ≠ m.next) :
    a.cells (m.alloc h w g) = a.cells m := by
  funext c; simp only [RdArr.cells, NdView.cells, alloc_other m h w g he]

theorem dec_enc {w h : Nat} {lab : Cell → Option Nat} {g : Cell → ℚ} {n : Nat} (hn : n < 2 ^ 32)
    (hin : ∀ c, InGrid w h c → ∃ l, lab c = some l ∧ l < n) (hout : ∀ c, ¬ InGrid w h c → lab c = none)
    (hg : ∀ c, InGrid w h c → g c = encLab (lab c)) : decLab w h g = lab := by
  funext c
  unfold decLab
  by_cases hc : inGrid w h c = true
  · rw [if_pos hc]
    have hc' := inGrid_iff.1 hc
    obtain ⟨l, h1, h2⟩ := hin c hc'
    rw [hg c hc', h1]
    have hne : ¬ encLab (some l) = 4294967295 := by
      intro e
      have : (l : ℚ) = ((4294967295 : Nat) : ℚ) := by rw [show (l : ℚ) = 4294967295 from e]; norm_num
      have : l = 4294967295 := by exact_mod_cast this
      omega
    rw [if_neg hne]
    simp [encLab]
  · rw [if_neg hc]
    exact (hout c (fun k => hc (inGrid_iff.2 k))).symm

theorem dec_fd {w h : Nat} {fd : Cell → Nat} {g : Cell → ℚ} (hout : ∀ c, ¬ InGrid w h c → fd c = 0)
    (hg : ∀ c, InGrid w h c → g c = fd c) : decFd w h g = fd := by
  funext c
  unfold decFd
  by_cases hc : inGrid w h c = true
  · rw [if_pos hc, hg c (inGrid_iff.1 hc)]; simp
  · rw [if_neg hc, hout c (fun k => hc (inGrid_iff.2 k))]

/-- The arrays of a simulation: the DEM, the labels, flow directions and hierarchy made from it, and the water, which
has memory of its own. -/
structure Session (pq : PQ (ℚ × Cell) zLt) (os : DHS ℚ → List (Outlet ℚ)) (parts : List (List Cell)) (w h : Nat)
    (topo : Cell → ℚ) (lab : Cell → Option Nat) (m : PyMem) (dem labels flowdirs : RdArr) (deps : PyDeps) (wtd : RdArr) : Prop where
  gdem : Good m dem w h .f64
  glab : Good m labels w h .u32
  gfd : Good m flowdirs w h .i8
  gwtd : Good m wtd w h .f64
  apart : dem.v.buf ≠ wtd.v.buf ∧ labels.v.buf ≠ wtd.v.buf ∧ flowdirs.v.buf ≠ wtd.v.buf
  ground : dem.cells m = topo
  made : ∃ s, getDHFlood pq w h .D8 topo lab = some s ∧ IsOutletVec s (os s) ∧ dhDeps os parts topo s = some deps ∧
    (∀ c, InGrid w h c → labels.cells m c = encLab (s.label c)) ∧ (∀ c, InGrid w h c → flowdirs.cells m c = s.fd c)

/-- C92: `fill_spill_merge` only takes `float64` elevations and water, `uint32` labels and `int8` flow directions;
it raises for every other combination. -/
theorem C92_types (q : AnyQ Cell) (pq : PQ (ℚ × Cell) zLt) (eps : ℚ) (m : PyMem) (dem labels flowdirs wtd : RdArr)
    (deps : PyDeps) (w h : Nat) (d1 d2 d3 d4 : Dtype) (g1 : Good m dem w h d1) (g2 : Good m labels w h d2)
    (g3 : Good m flowdirs w h d3) (g4 : Good m wtd w h d4) (hbad : (d1, d2, d3, d4) ≠ (.f64, .u32, .i8, .f64)) :
    fillSpillMergePy q pq eps m dem labels flowdirs deps wtd = .raised := by
  obtain ⟨_, e1⟩ := g1.wrap
  obtain ⟨_, e2⟩ := g2.wrap
  obtain ⟨_, e3⟩ := g3.wrap
  obtain ⟨_, e4⟩ := g4.wrap
  unfold fillSpillMergePy
  simp only [e1, e2, e3, e4]
  rw [if_pos]
  rw [g1.dt, g2.dt, g3.dt, g4.dt]
  by_contra hc
  push Not at hc
  exact hbad (by rw [hc.1, hc.2.1, hc.2.2.1, hc.2.2.2])

section
variable (q : AnyQ Cell) (pq pq' : PQ (ℚ × Cell) zLt) (hq : pq.Lifo) (os : DHS ℚ → List (Outlet ℚ))
  (parts : List (List Cell)) (eps : ℚ) (heps : 0 < eps) (w h : Nat) (h32 : 2 * (w * h) < 2 ^ 32)
  (hp : parts.flatten.Perm (allCells w h)) (topo : Cell → ℚ) (lab : Cell → Option Nat)
  (dem labels flowdirs : RdArr) (deps : PyDeps) (wtd : RdArr)

include hq heps h32 hp in
/-- C92: one call of `fill_spill_merge`, in a session with water nowhere negative. -/
theorem C92_step_partial (m : PyMem) (S : Session pq os parts w h topo lab m dem labels flowdirs deps wtd)
    (hsat : ∀ c, InGrid w h c → 0 ≤ wtd.cells m c)
    (h00 : (∀ p, InGrid w h p → Adj .D8 p (0, 0) → lab p ≠ some 0 → topo p < topo (0, 0)) ∨
      (lab (0, 0) = some 0 ∧ wtd.cells m (0, 0) = 0)) :
    ∃ (m' : PyMem) (cpp : Nat → ℚ), fillSpillMergePy q pq' eps m dem labels flowdirs deps wtd = .ok m' deps cpp ∧
      Session pq os parts w h topo lab m' dem labels flowdirs deps wtd ∧
      (∀ b, b ≠ wtd.v.buf → m'.blk b = m.blk b) ∧
      0 ≤ cpp 0 ∧ |rasterSum w h (wtd.cells m') + cpp 0 - rasterSum w h (wtd.cells m)| ≤ 11 * eps * (w * h) ∧
      StandsStill w h topo (wtd.cells m') (2 * eps) ∧
      (∀ c, InGrid w h c → 0 ≤ wtd.cells m' c ∧ (lab c = some 0 → wtd.cells m' c = 0)) ∧
      BelowSpill w h topo (wtd.cells m') (fun e => lab e = some 0) := by
  obtain ⟨s, hs, O, hd, hl, hfd⟩ := S.made
  obtain ⟨hw, hh⟩ : 0 < w ∧ 0 < h := by
    obtain ⟨e, c0, ⟨a1, a2, a3, a4⟩, _⟩ := getDHFlood_some hs
    omega
  obtain ⟨L1, L2, L3⟩ := dh_labels pq w h topo lab s hs
  have hn := ndep_le pq w h .D8 topo lab s hs
  obtain ⟨deps', hd', K⟩ := fsm_core q pq pq' hq os parts eps heps w h topo lab s hs O hp h32
  rw [hd] at hd'; cases hd'
  obtain ⟨r, r1, r2, r3, r4, r5, r6⟩ := K (wtd.cells m) hsat h00
  have e1 : decLab w h (labels.cells m) = s.label := dec_enc (n := s.ndep) (by omega) L1 L2 hl
  have e2 : decFd w h (flowdirs.cells m) = s.fd :=
    dec_fd (fun c hc => dh_unlabelled_fd pq w h topo lab s hs c (L2 c hc)) hfd
  obtain ⟨n1, w1⟩ := S.gdem.wrap
  obtain ⟨n2, w2⟩ := S.glab.wrap
  obtain ⟨n3, w3⟩ := S.gfd.wrap
  obtain ⟨n4, w4⟩ := S.gwtd.wrap
  set m' := (CArr.mk wtd.v.buf wtd.v.off w h n4).write m r.wtd with hm'
  have hcell : ∀ c, InGrid w h c → wtd.cells m' c = r.wtd c := fun c hc => S.gwtd.stored hw hh n4 r.wtd c hc
  have hT : fillSpillMergePy q pq' eps m dem labels flowdirs deps wtd = .ok m' deps r.water := by
    unfold fillSpillMergePy
    simp only [w1, w2, w3, w4]
    rw [if_neg (by rw [S.gdem.dt, S.glab.dt, S.gfd.dt, S.gwtd.dt]; simp), if_neg (by simp)]
    simp only [S.gdem.read hw hh, S.glab.read hw hh, S.gfd.read hw hh, S.gwtd.read hw hh, S.ground, e1, e2, r1]
    rfl
  have hsum : rasterSum w h (wtd.cells m') = rasterSum w h r.wtd := by
    unfold rasterSum
    exact Finset.sum_congr rfl fun c hc => hcell c (mem_gridCells.1 hc)
  refine ⟨m', r.water, hT, ?_, fun b hb => write_other _ hb, r2, by rw [hsum]; exact r3, ?_, ?_, ?_⟩
  · obtain ⟨a1, a2, a3⟩ := S.apart
    refine ⟨S.gdem.of_write _ _, S.glab.of_write _ _, S.gfd.of_write _ _, S.gwtd.of_write _ _, S.apart, ?_, s, hs, O, hd, ?_, ?_⟩
    · rw [hm', cells_of_write _ _ a1]; exact S.ground
    · rw [hm', cells_of_write _ _ a2]; exact hl
    · rw [hm', cells_of_write _ _ a3]; exact hfd
  · intro a b ha hb hab hpos
    have := r4 a b ha hb hab (by rw [← hcell a ha]; exact hpos)
    unfold surfaceOf at this ⊢
    rw [hcell a ha, hcell b hb]
    exact this
  · intro c hc
    rw [hcell c hc]; exact r5 c hc
  · intro c hc hpos p e P1 P2 P3 P4 P5
    rw [hcell c hc] at hpos ⊢
    exact r6 c hc hpos p e P1 P2 P3 P4 P5

include hq heps h32 hp in
/-- C92: the simulation of the example program.  For every sequence of rain fields, none negative, the loop of rain and
`fill_spill_merge` runs to its end; afterwards the water is nowhere negative, lies only where it can stand, is level and
at rest, the ocean is dry, and there is no more of it than stood there and has rained (up to the tolerance). -/
theorem C92_rain_partial (rains : List (Cell → ℚ)) : ∀ (m : PyMem),
    Session pq os parts w h topo lab m dem labels flowdirs deps wtd →
    (∀ c, InGrid w h c → 0 ≤ wtd.cells m c) → (∀ rain ∈ rains, ∀ c, InGrid w h c → 0 ≤ rain c) →
    ((∀ p, InGrid w h p → Adj .D8 p (0, 0) → lab p ≠ some 0 → topo p < topo (0, 0)) ∨
      (lab (0, 0) = some 0 ∧ wtd.cells m (0, 0) = 0 ∧ ∀ rain ∈ rains, rain (0, 0) = 0)) →
    ∃ m', rainLoop q pq' eps dem labels flowdirs deps wtd rains m = some m' ∧
      Session pq os parts w h topo lab m' dem labels flowdirs deps wtd ∧
      (∀ b, b ≠ wtd.v.buf → m'.blk b = m.blk b) ∧
      rasterSum w h (wtd.cells m') ≤ rasterSum w h (wtd.cells m) + (rains.map (rasterSum w h)).sum +
        rains.length * (11 * eps * (w * h)) ∧
      (∀ c, InGrid w h c → 0 ≤ wtd.cells m' c) ∧
      (rains ≠ [] → StandsStill w h topo (wtd.cells m') (2 * eps) ∧
        (∀ c, InGrid w h c → lab c = some 0 → wtd.cells m' c = 0) ∧
        BelowSpill w h topo (wtd.cells m') (fun e => lab e = some 0)) := by
  induction rains with
  | nil =>
    intro m S hsat _ _
    exact ⟨m, rfl, S, fun _ _ => rfl, by simp, hsat, fun k => absurd rfl k⟩
  | cons rain rest ih =>
    intro m S hsat hr h00
    obtain ⟨s, hs, O, hd, hl, hfd⟩ := S.made
    obtain ⟨hw, hh⟩ : 0 < w ∧ 0 < h := by
      obtain ⟨e, c0, ⟨a1, a2, a3, a4⟩, _⟩ := getDHFlood_some hs
      omega
    have hgrid0 : InGrid w h (0, 0) := ⟨le_refl _, by show (0 : Int) < w; omega, le_refl _, by show (0 : Int) < h; omega⟩
    have hcell : ∀ c, InGrid w h c → wtd.cells (addRain m wtd rain) c = wtd.cells m c + rain c := by
      intro c hc
      unfold addRain
      rw [S.gwtd.hw, S.gwtd.hh]
      exact S.gwtd.stored hw hh 0 _ c hc
    have S1 : Session pq os parts w h topo lab (addRain m wtd rain) dem labels flowdirs deps wtd := by
      obtain ⟨a1, a2, a3⟩ := S.apart
      unfold addRain
      refine ⟨S.gdem.of_write _ _, S.glab.of_write _ _, S.gfd.of_write _ _, S.gwtd.of_write _ _, S.apart, ?_, s, hs, O, hd, ?_, ?_⟩
      · rw [cells_of_write _ _ a1]; exact S.ground
      · rw [cells_of_write _ _ a2]; exact hl
      · rw [cells_of_write _ _ a3]; exact hfd
    obtain ⟨m1, cpp, t1, t2, t3, t4, t5, t6, t7, t8⟩ := C92_step_partial q pq pq' hq os parts eps heps w h h32 hp topo lab dem labels
      flowdirs deps wtd (addRain m wtd rain) S1
      (fun c hc => by rw [hcell c hc]; exact add_nonneg (hsat c hc) (hr rain (List.mem_cons_self ..) c hc))
      (by
        rcases h00 with k | ⟨k1, k2, k3⟩
        · exact Or.inl k
        · refine Or.inr ⟨k1, ?_⟩
          rw [hcell _ hgrid0, k2, k3 rain (List.mem_cons_self ..), add_zero])
    obtain ⟨m', u1, u2, u3, u4, u5, u6⟩ := ih m1 t2 (fun c hc => (t7 c hc).1)
      (fun x hx => hr x (List.mem_cons_of_mem _ hx))
      (by
        rcases h00 with k | ⟨k1, k2, k3⟩
        · exact Or.inl k
        · exact Or.inr ⟨k1, (t7 _ hgrid0).2 k1, fun x hx => k3 x (List.mem_cons_of_mem _ hx)⟩)
    refine ⟨m', ?_, u2, ?_, ?_, u5, fun _ => ?_⟩
    · unfold rainLoop
      rw [t1]; exact u1
    · intro b hb
      rw [u3 b hb, t3 b hb]
      unfold addRain
      exact write_other _ hb
    · have e : rasterSum w h (wtd.cells (addRain m wtd rain)) = rasterSum w h (wtd.cells m) + rasterSum w h rain := by
        unfold rasterSum
        rw [← Finset.sum_add_distrib]
        exact Finset.sum_congr rfl fun c hc => hcell c (mem_gridCells.1 hc)
      rw [e] at t5
      have := (abs_le.1 t5).2
      simp only [List.map_cons, List.sum_cons, List.length_cons]
      push_cast
      linarith
    · by_cases hne : rest = []
      · subst hne
        simp only [rainLoop, Option.some.injEq] at u1
        subst u1
        exact ⟨t6, fun c hc => (t7 c hc).2, t8⟩
      · exact u6 hne

end

/-! ### Making the hierarchy -/

/-- C92: `get_new_depression_hierarchy_labels` gives a new array with `OCEAN` (0) exactly on the border of the raster and
`NO_DEP` elsewhere, and touches no other memory. -/
theorem C92_new_labels (m : PyMem) (hm : m.WF) (h w : Nat) (nd : PyNum) (geo : Option PyGeo) :
    let r := getNewLabels m h w nd geo
    r.2.v.w = w ∧ r.2.v.h = h ∧ r.2.dt = .u32 ∧ r.2.v.Valid r.1 ∧ r.2.v.contig = true ∧ m.blk r.2.v.buf = none ∧
    (∀ b, m.blk b ≠ none → r.1.blk b = m.blk b) ∧
    ∀ c, InGrid w h c → (OnEdge w h c → r.2.cells r.1 c = 0) ∧ (¬ OnEdge w h c → r.2.cells r.1 c = 4294967295) := by
  intro r
  set g : Cell → ℚ := fun c => if 1 ≤ c.1 ∧ c.1 < (w : Int) - 1 ∧ 1 ≤ c.2 ∧ c.2 < (h : Int) - 1 then 4294967295 else 0 with hg
  have hb0 : m.blk m.next = none := hm _ le_rfl
  refine ⟨rfl, rfl, rfl, valid_fresh m h w g, contig_fresh m h w, hb0, ?_, ?_⟩
  · intro b hb
    have hne : b ≠ m.next := fun e => hb (e ▸ hb0)
    exact alloc_other m h w g hne
  · intro c hc
    have e : r.2.cells r.1 c = restrict w h g c := congrFun (cells_fresh m h w g) c
    rw [e, hg]
    simp only [restrict, inGrid_iff.2 hc, if_true]
    obtain ⟨c1, c2, c3, c4⟩ := id hc
    refine ⟨fun he => ?_, fun he => ?_⟩
    · rw [if_neg]
      rintro ⟨k1, k2, k3, k4⟩
      obtain ⟨_, k⟩ := he
      omega
    · rw [if_pos]
      by_contra hk
      exact he ⟨hc, by omega⟩

/-- C92, refuted: no size is looked at.  When the arrays do not all have the DEM's size — a different width or a different
height of any one of them — `fill_spill_merge` does not raise; what C++ then does is undefined (it indexes all four
arrays with the DEM's cell numbers). -/
theorem C92_sizes_refuted (q : AnyQ Cell) (pq : PQ (ℚ × Cell) zLt) (eps : ℚ) (m : PyMem) (dem labels flowdirs wtd : RdArr)
    (deps : PyDeps) (w h w1 h1 w2 h2 w3 h3 : Nat) (g1 : Good m dem w h .f64) (g2 : Good m labels w1 h1 .u32)
    (g3 : Good m flowdirs w2 h2 .i8) (g4 : Good m wtd w3 h3 .f64)
    (hbad : w1 ≠ w ∨ h1 ≠ h ∨ w2 ≠ w ∨ h2 ≠ h ∨ w3 ≠ w ∨ h3 ≠ h) :
    fillSpillMergePy q pq eps m dem labels flowdirs deps wtd = .ub := by
  obtain ⟨_, e1⟩ := g1.wrap
  obtain ⟨_, e2⟩ := g2.wrap
  obtain ⟨_, e3⟩ := g3.wrap
  obtain ⟨_, e4⟩ := g4.wrap
  unfold fillSpillMergePy
  simp only [e1, e2, e3, e4]
  rw [if_neg (by rw [g1.dt, g2.dt, g3.dt, g4.dt]; simp), if_pos (by tauto)]

/-- C92, refuted: the same of `get_depression_hierarchy` and labels of another size than the DEM. -/
theorem C92_hierarchy_sizes_refuted (pq : PQ (ℚ × Cell) zLt) (os : DHS ℚ → List (Outlet ℚ)) (parts : List (List Cell))
    (m : PyMem) (dem labels : RdArr) (w h w1 h1 : Nat) (g1 : Good m dem w h .f64) (g2 : Good m labels w1 h1 .u32)
    (hbad : w1 ≠ w ∨ h1 ≠ h) : getDepressionHierarchy pq os parts m dem labels = .ub := by
  obtain ⟨_, e1⟩ := g1.wrap
  obtain ⟨_, e2⟩ := g2.wrap
  unfold getDepressionHierarchy
  simp only [e1, e2]
  rw [if_neg (by rw [g1.dt, g2.dt]; simp), if_pos hbad]

/-- C92: `get_depression_hierarchy` only takes a `float64` DEM and `uint32` labels; it raises for other types. -/
theorem C92_hierarchy_types (pq : PQ (ℚ × Cell) zLt) (os : DHS ℚ → List (Outlet ℚ)) (parts : List (List Cell))
    (m : PyMem) (dem labels : RdArr) (w h w1 h1 : Nat) (d1 d2 : Dtype) (g1 : Good m dem w h d1) (g2 : Good m labels w1 h1 d2)
    (hbad : (d1, d2) ≠ (.f64, .u32)) : getDepressionHierarchy pq os parts m dem labels = .raised := by
  obtain ⟨_, e1⟩ := g1.wrap
  obtain ⟨_, e2⟩ := g2.wrap
  unfold getDepressionHierarchy
  simp only [e1, e2]
  rw [if_pos]
  rw [g1.dt, g2.dt]
  by_contra hc
  push Not at hc
  exact hbad (by rw [hc.1, hc.2])

/-- C92: the metadata of the new arrays.  Labels keep the NoData value and geotransform they are given; without one, and
always for the flow directions, the geotransform is `[0, 1, 0, 0, 0, -1]` (origin (0, 0), cells of size one, y upwards) — a
DEM's own geotransform is not passed on to the flow directions. -/
theorem C92_metadata (m : PyMem) (h w : Nat) (nd : PyNum) (geo : PyGeo) :
    (getNewLabels m h w nd (some geo)).2.md.geo = some geo ∧
    (getNewLabels m h w nd none).2.md.geo = some (.array [0, 1, 0, 0, 0, -1]) ∧
    (∀ g, (getNewLabels m h w nd g).2.md.noData = some nd) ∧
    (∀ (pq : PQ (ℚ × Cell) zLt) (os : DHS ℚ → List (Outlet ℚ)) (parts : List (List Cell)) (dem labels : RdArr)
      (m' : PyMem) (deps : PyDeps) (fd : RdArr), getDepressionHierarchy pq os parts m dem labels = .ok m' deps fd →
      fd.md.geo = some (.array [0, 1, 0, 0, 0, -1]) ∧ fd.md.noData = some (.int (-9999))) := by
  refine ⟨rfl, rfl, fun _ => rfl, ?_⟩
  intro pq os parts dem labels m' deps fd hr
  unfold getDepressionHierarchy at hr
  split at hr
  · cases hr
  · cases hr
  split at hr
  · cases hr
  · cases hr
  split at hr
  · cases hr
  split at hr
  · cases hr
  simp only at hr
  split at hr
  · split at hr
    · cases hr
    · split at hr
      · cases hr
      · cases hr
        exact ⟨rfl, rfl⟩
  · cases hr

/-- What the flow directions and labels mean: ocean cells have label 0; a flow direction leads to a neighbour of the same
label that is not higher; a land cell without one is a pit, with no lower neighbour. -/
def Directs (w h : Nat) (topo : Cell → ℚ) (sea : Cell → Prop) (label fd : Cell → ℚ) : Prop :=
  ∀ c, InGrid w h c → (sea c → label c = 0 ∧ fd c = 0) ∧
    (fd c = 0 → sea c ∨ ∀ d, Adj .D8 c d → InGrid w h d → topo c ≤ topo d) ∧
    (fd c ≠ 0 → ∃ n ∈ [1, 2, 3, 4, 5, 6, 7, 8], fd c = (n : Nat) ∧ InGrid w h (nbr .D8 c n) ∧
      topo (nbr .D8 c n) ≤ topo c ∧ label (nbr .D8 c n) = label c)

theorem directs_of_run (pq : PQ (ℚ × Cell) zLt) (w h : Nat) (topo : Cell → ℚ) (lab : Cell → Option Nat) (s : DHS ℚ)
    (hs : getDHFlood pq w h .D8 topo lab = some s) :
    Directs w h topo (fun c => lab c = some 0) (fun c => encLab (s.label c)) (fun c => (s.fd c : ℚ)) := by
  obtain ⟨L1, _, L3⟩ := dh_labels pq w h topo lab s hs
  intro c hc
  obtain ⟨l, hl, _⟩ := L1 c hc
  have hP : DHPath w h .D8 topo (fun c => lab c == some 0) s.label s.fd s.pit l c := by
    obtain ⟨e, _⟩ := getDHFlood_some hs
    obtain ⟨⟨D, I⟩, _⟩ := dhFlood_final pq w h .D8 topo (fun c => lab c == some 0)
    rw [e] at hl ⊢
    exact I.path c l hl
  refine ⟨fun ho => ?_, fun hf => ?_, fun hf => ?_⟩
  · have := dh_ocean_fd pq w h .D8 topo lab s hs c hc ho
    simp only [L3 c hc ho, encLab, this]; simp
  · have hf' : s.fd c = 0 := by
      have : ((s.fd c : Nat) : ℚ) = 0 := hf
      exact_mod_cast this
    cases hP with
    | ocean _ k _ _ _ => left; simpa using k
    | pit k1 k2 _ k4 _ =>
      right
      obtain ⟨e, _⟩ := getDHFlood_some hs
      obtain ⟨⟨D, I⟩, _⟩ := dhFlood_final pq w h .D8 topo (fun c => lab c == some 0)
      have := I.pits l k1 (I.lt c l (by rw [← e]; exact hl))
      rw [← e, ← k2] at this
      exact this.1.2.2
    | step _ _ k _ _ => rw [hf'] at k; simp [dirs] at k
  · have hf' : s.fd c ≠ 0 := by
      have : ((s.fd c : Nat) : ℚ) ≠ 0 := hf
      exact_mod_cast this
    cases hP with
    | ocean _ _ _ _ k => exact absurd k hf'
    | pit _ _ _ _ k => exact absurd k hf'
    | step _ _ k3 k4 k5 =>
      have hg : InGrid w h (nbr .D8 c (s.fd c)) ∧ s.label (nbr .D8 c (s.fd c)) = some l := by
        cases k5 with
        | ocean a _ _ b _ => exact ⟨a, b⟩
        | pit _ _ a b _ => exact ⟨a, b⟩
        | step a b _ _ _ => exact ⟨a, b⟩
      have k6 : 1 ≤ s.fd c ∧ s.fd c ≤ 8 := by
        obtain ⟨a, b⟩ := mem_dirs.1 k3
        exact ⟨a, b⟩
      refine ⟨s.fd c, ?_, rfl, hg.1, k4, ?_⟩
      · simp only [List.mem_cons, List.not_mem_nil, or_false]; omega
      · show encLab _ = encLab _
        rw [hg.2, hl]

/-- C92: `get_depression_hierarchy` raises exactly when a label is neither `OCEAN` nor `NO_DEP` or no ocean cell has a land
neighbour; else it returns a new array of flow directions and the hierarchy, stores the labels in place, leaves the DEM and
all other memory alone, and flow directions and labels mean what is documented. -/
theorem C92_hierarchy (pq : PQ (ℚ × Cell) zLt) (os : DHS ℚ → List (Outlet ℚ)) (parts : List (List Cell)) (w h : Nat)
    (hw : 0 < w) (hh : 0 < h) (h32 : 2 * (w * h) < 2 ^ 32) (hp : parts.flatten.Perm (allCells w h))
    (m : PyMem) (hm : m.WF) (dem labels : RdArr) (hd : Good m dem w h .f64) (hl : Good m labels w h .u32)
    (hne : dem.v.buf ≠ labels.v.buf)
    (hos : ∀ s, getDHFlood pq w h .D8 (dem.cells m) (decLab w h (labels.cells m)) = some s → IsOutletVec s (os s)) :
    (getDepressionHierarchy pq os parts m dem labels = .raised ↔
      ((∃ c, InGrid w h c ∧ decLab w h (labels.cells m) c ≠ some 0 ∧ decLab w h (labels.cells m) c ≠ none) ∨
        ¬ ∃ a b, InGrid w h a ∧ InGrid w h b ∧ Adj .D8 a b ∧ decLab w h (labels.cells m) a = some 0 ∧
          decLab w h (labels.cells m) b ≠ some 0)) ∧
    (getDepressionHierarchy pq os parts m dem labels ≠ .raised →
      ∃ (m' : PyMem) (deps : PyDeps) (fd : RdArr), getDepressionHierarchy pq os parts m dem labels = .ok m' deps fd ∧
        (∀ b, m.blk b ≠ none → b ≠ labels.v.buf → m'.blk b = m.blk b) ∧ m.blk fd.v.buf = none ∧ Good m' fd w h .i8 ∧
        Directs w h (dem.cells m) (fun c => decLab w h (labels.cells m) c = some 0) (labels.cells m') (fd.cells m') ∧
        ∀ wtd : RdArr, Good m wtd w h .f64 → dem.v.buf ≠ wtd.v.buf → labels.v.buf ≠ wtd.v.buf →
          Session pq os parts w h (dem.cells m) (decLab w h (labels.cells m)) m' dem labels fd deps wtd) := by
  set topo := dem.cells m with htopo
  set lab := decLab w h (labels.cells m) with hlab
  obtain ⟨n1, w1⟩ := hd.wrap
  obtain ⟨n2, w2⟩ := hl.wrap
  set m3 := m.alloc h w (fun _ => 0) with hm3
  obtain ⟨gd, nd⟩ := hd.of_alloc hm h w (fun _ => 0)
  obtain ⟨gl, nl⟩ := hl.of_alloc hm h w (fun _ => 0)
  rw [← hm3] at gd gl
  have cd : dem.cells m3 = topo := cells_of_alloc _ _ _ nd
  have cl : labels.cells m3 = labels.cells m := cells_of_alloc _ _ _ nl
  set fv : RdArr := ⟨m.fresh h w, .i8, ⟨some (.int (-9999)), some standardGeo, "", []⟩⟩ with hfv
  have gf : Good m3 fv w h .i8 := by
    refine ⟨valid_fresh m h w _, contig_fresh m h w, rfl, rfl, rfl, ?_⟩
    have e : castT .i8 (overload (.int (-9999))) = some (-15) := by decide +kernel
    exact ⟨-15, ⟨fun k => Dtype.noConfusion k, e⟩⟩
  have hb : m.blk m.next = none := hm _ le_rfl
  have hrun : getDepressionHierarchy pq os parts m dem labels =
      (match getDHFlood pq w h .D8 topo lab with
        | none => .raised
        | some s => match dhDeps os parts topo s with
          | none => .ub
          | some deps => .ok ((CArr.mk m.next 0 w h 0).write ((CArr.mk labels.v.buf labels.v.off w h n2).write m3
              (fun c => encLab (s.label c))) (fun c => (s.fd c : ℚ))) deps fv) := by
    unfold getDepressionHierarchy
    simp only [w1, w2]
    rw [if_neg (by rw [hd.dt, hl.dt]; simp), if_neg (by simp)]
    simp only [← hm3, gd.read hw hh, gl.read hw hh, cd, cl, ← hlab]
    rfl
  have key : ∀ s, getDHFlood pq w h .D8 topo lab = some s → ∃ deps, dhDeps os parts topo s = some deps := by
    intro s hs
    have hn := ndep_le pq w h .D8 topo lab s hs
    have h32' : 2 * s.ndep < 2 ^ 32 := by omega
    obtain ⟨H, hH, hn1, hn2⟩ := C61_succeeds pq w h .D8 topo lab s hs (os s) (hos s hs) h32'
    obtain ⟨mg, v, hm, hv, _⟩ := C43_volumes pq w h .D8 topo lab s hs (os s) (hos s hs) h32' H hH parts hp
    exact ⟨_, by unfold dhDeps; rw [hH, Option.bind_some, hm, Option.bind_some, hv, Option.map_some]⟩
  have hiff : getDepressionHierarchy pq os parts m dem labels = .raised ↔ getDHFlood pq w h .D8 topo lab = none := by
    rw [hrun]
    cases hs : getDHFlood pq w h .D8 topo lab with
    | none => simp
    | some s =>
      obtain ⟨deps, hdp⟩ := key s hs
      simp only [hdp]
      simp
  refine ⟨hiff.trans (C59_error_iff pq w h .D8 topo lab), ?_⟩
  intro hnr
  cases hs : getDHFlood pq w h .D8 topo lab with
  | none => exact absurd (hiff.2 hs) hnr
  | some s =>
    obtain ⟨deps, hdp⟩ := key s hs
    rw [hs] at hrun
    simp only [hdp] at hrun
    set l : CArr := ⟨labels.v.buf, labels.v.off, w, h, n2⟩
    set f : CArr := ⟨m.next, 0, w, h, 0⟩
    set m4 := l.write m3 (fun c => encLab (s.label c)) with hm4
    set m5 := f.write m4 (fun c => (s.fd c : ℚ)) with hm5
    have c1 : ∀ c, InGrid w h c → labels.cells m5 c = encLab (s.label c) := by
      intro c hc
      rw [hm5, cells_of_write _ _ nl]
      exact gl.stored hw hh n2 _ c hc
    have c2 : ∀ c, InGrid w h c → fv.cells m5 c = s.fd c := by
      intro c hc
      exact (gf.of_write l _).stored hw hh 0 _ c hc
    have c3 : dem.cells m5 = topo := by
      rw [hm5, cells_of_write _ _ nd, hm4, cells_of_write _ _ hne, cd]
    refine ⟨m5, deps, fv, hrun, ?_, hb, (gf.of_write _ _).of_write _ _, ?_, ?_⟩
    · intro b hb1 hb2
      have : b ≠ m.next := fun e => hb1 (e ▸ hb)
      rw [hm5, write_other _ this, hm4, write_other _ hb2, hm3, alloc_other _ _ _ _ this]
    · intro c hc
      have D := directs_of_run pq w h topo lab s hs c hc
      rw [c1 c hc, c2 c hc]
      refine ⟨D.1, D.2.1, fun k => ?_⟩
      obtain ⟨n, k1, k2, k3, k4, k5⟩ := D.2.2 k
      exact ⟨n, k1, k2, k3, k4, by rw [c1 _ k3]; exact k5⟩
    · intro wtd hwt a1 a2
      obtain ⟨gw, nw⟩ := hwt.of_alloc hm h w (fun _ => 0)
      exact ⟨(gd.of_write _ _).of_write _ _, (gl.of_write _ _).of_write _ _, (gf.of_write _ _).of_write _ _,
        (gw.of_write _ _).of_write _ _, ⟨a1, a2, fun e => nw e.symm⟩, c3, s, hs, hos s hs, hdp, c1, c2⟩

/-! ### A whole program -/

/-- A DEM of floats in block 0, its labels (block 1), and a water table of zeros (block 2). -/
def simStart (w h : Nat) (rows : List (List ℚ)) : PyMem × RdArr × RdArr × RdArr :=
  let m0 : PyMem := ⟨fun _ => none, 0⟩
  let dem : RdArr := ⟨m0.fresh h w, .f64, ⟨some (.int (-9999)), some standardGeo, "", []⟩⟩
  let m1 := m0.alloc h w (ofRows 0 rows)
  let l := getNewLabels m1 h w (.int (-9999)) none
  (l.1.alloc h w (fun _ => 0), dem, l.2, ⟨l.1.fresh h w, .f64, ⟨some (.int (-9999)), some standardGeo, "", []⟩⟩)

/-- examples/fill_spill_merge.py: hierarchy, then rain.  The result: water table, flow directions and labels. -/
def simRun (w h : Nat) (rows : List (List ℚ)) (rains : List (List (List ℚ))) :
    Option (List (List ℚ) × List (List ℚ) × List (List ℚ)) :=
  let S := simStart w h rows
  match getDepressionHierarchy lifoPQ outletVec [allCells w h] S.1 S.2.1 S.2.2.1 with
  | .ok m deps fd =>
    (rainLoop (fifo Cell) zPQ (1/1000000) S.2.1 S.2.2.1 fd deps S.2.2.2 (rains.map (ofRows 0)) m).map fun m' =>
      (toRows w h (S.2.2.2.cells m'), toRows w h (fd.cells m'), toRows w h (S.2.2.1.cells m'))
  | _ => none

/-- Two showers over two basins joined below the rim. -/
def simDem : List (List ℚ) := [[9, 9, 9, 9, 9], [9, 0, 4, 0, 8], [9, 9, 9, 9, 9]]
def simRain : List (List ℚ) := [[0, 1, 0, 0, 0], [0, 3, 0, 0, 0], [0, 0, 0, 0, 0]]


/-- The first shower stays in the western basin, the second spills into the eastern one, the third covers the pass. -/
example : (simRun 5 3 simDem [simRain]).map (·.1) = some [[0, 0, 0, 0, 0], [0, 3, 0, 0, 0], [0, 0, 0, 0, 0]] ∧
    (simRun 5 3 simDem [simRain, simRain]).map (·.1) = some [[0, 0, 0, 0, 0], [0, 4, 0, 2, 0], [0, 0, 0, 0, 0]] ∧
    (simRun 5 3 simDem [simRain, simRain, simRain]).map (·.1) =
      some [[0, 0, 0, 0, 0], [0, 13/3, 1/3, 13/3, 0], [0, 0, 0, 0, 0]] := by
  refine ⟨?_, ?_, ?_⟩ <;> decide +kernel

/-- One call of `fill_spill_merge` after rain: `water_vol` of the depressions in the Python list afterwards, and what C++
booked for them. -/
def simWater (w h : Nat) (rows rain : List (List ℚ)) : Option (List ℚ × List ℚ) :=
  let S := simStart w h rows
  match getDepressionHierarchy lifoPQ outletVec [allCells w h] S.1 S.2.1 S.2.2.1 with
  | .ok m deps fd =>
    match fillSpillMergePy (fifo Cell) zPQ (1/1000000) (addRain m S.2.2.2 (ofRows 0 rain)) S.2.1 S.2.2.1 fd deps S.2.2.2 with
    | .ok _ d cpp => some ((List.range d.n).map d.water, (List.range d.n).map cpp)
    | _ => none
  | _ => none

/-- C92, refuted part: "Modifies the depression hierarchy `deps` to indicate the amount of water contained in each
depression" (`__init__.py`:873).  Three units stand in a basin; its `water_vol` remains 0. -/
theorem C92_deps_refuted : simWater 5 3 simDem simRain = some ([0, 0, 0, 0], [1, 0, 3, 0]) := by decide +kernel

/-- C92, refuted part: with rain on the ocean cell (0,0), and land flowing into it, the ocean does not come out dry: the
rain stays. -/
theorem C92_corner_refuted : (simRun 3 3 [[0, 5, 5], [5, 3, 5], [5, 5, 5]] [[[1, 1, 1], [1, 1, 1], [1, 1, 1]]]).map (·.1) =
    some [[1, 0, 0], [0, 0, 0], [0, 0, 0]] := by decide +kernel

/-- C92, refuted part: flow directions "in the range [0, 7]" (`__init__.py`:829-830): 8 occurs. -/
theorem C92_direction_range_refuted : (simRun 3 3 [[1, 5, 5], [5, 3, 5], [0, 5, 5]] []).map (·.2.1) =
    some [[0, 0, 0], [0, 8, 0], [0, 0, 0]] := by decide +kernel

theorem wf_alloc {m : PyMem} (hm : m.WF) (h w : Nat) (g : Cell → ℚ) : (m.alloc h w g).WF := by
  intro b hb
  have hb' : m.next + 1 ≤ b := hb
  have hne : b ≠ m.next := by omega
  rw [alloc_other _ _ _ _ hne]
  exact hm b (by omega)

theorem good_fresh (m : PyMem) (h w : Nat) (g : Cell → ℚ) (d : Dtype) (md : PyMeta)
    (hnd : ∃ nd, NoDataIs ⟨m.fresh h w, d, md⟩ nd) : Good (m.alloc h w g) ⟨m.fresh h w, d, md⟩ w h d :=
  ⟨valid_fresh m h w g, contig_fresh m h w, rfl, rfl, rfl, hnd⟩

/-- The arrays of `simStart` are as `C92_hierarchy` and `C92_rain_partial` ask for. -/
theorem simStart_good (w h : Nat) (rows : List (List ℚ)) :
    (simStart w h rows).1.WF ∧ Good (simStart w h rows).1 (simStart w h rows).2.1 w h .f64 ∧
    Good (simStart w h rows).1 (simStart w h rows).2.2.1 w h .u32 ∧
    Good (simStart w h rows).1 (simStart w h rows).2.2.2 w h .f64 ∧
    (simStart w h rows).2.1.v.buf = 0 ∧ (simStart w h rows).2.2.1.v.buf = 1 ∧ (simStart w h rows).2.2.2.v.buf = 2 := by
  have e1 : castT .f64 (overload (.int (-9999))) = some (-9999) := by decide +kernel
  have e2 : castT .u32 (overload (.int (-9999))) = some 4294957297 := by decide +kernel
  have h0 : PyMem.WF ⟨fun _ => none, 0⟩ := fun _ _ => rfl
  have h1 := wf_alloc h0 h w (ofRows 0 rows)
  have h2 := wf_alloc h1 h w (fun c => if 1 ≤ c.1 ∧ c.1 < (w : Int) - 1 ∧ 1 ≤ c.2 ∧ c.2 < (h : Int) - 1 then 4294967295 else 0)
  refine ⟨wf_alloc h2 h w _, ?_, ?_, ?_, rfl, rfl, rfl⟩
  · exact (((good_fresh _ h w _ .f64 ⟨some (.int (-9999)), some standardGeo, "", []⟩ ⟨_, ⟨fun k => Dtype.noConfusion k, e1⟩⟩).of_alloc h1 h w _).1.of_alloc h2 h w (fun _ => 0)).1
  · exact ((good_fresh _ h w _ .u32 ⟨some (.int (-9999)), some standardGeo, "", []⟩ ⟨_, ⟨fun k => Dtype.noConfusion k, e2⟩⟩).of_alloc h2 h w (fun _ => 0)).1
  · exact good_fresh ((PyMem.alloc _ h w (ofRows 0 rows)).alloc h w _) h w (fun _ => 0) .f64 ⟨some (.int (-9999)), some standardGeo, "", []⟩ ⟨_, ⟨fun k => Dtype.noConfusion k, e1⟩⟩

/-- The hypotheses of `C92_hierarchy` and `C92_rain_partial` are met by `simDem`: what the theorems say of it. -/
example : ∃ (m' : PyMem) (deps : PyDeps) (fd : RdArr),
    getDepressionHierarchy lifoPQ outletVec [allCells 5 3] (simStart 5 3 simDem).1 (simStart 5 3 simDem).2.1
      (simStart 5 3 simDem).2.2.1 = .ok m' deps fd ∧
    ∀ rains : List (Cell → ℚ), (∀ rain ∈ rains, ∀ c, InGrid 5 3 c → 0 ≤ rain c) →
      ∃ m'', rainLoop (fifo Cell) zPQ (1/1000000) (simStart 5 3 simDem).2.1 (simStart 5 3 simDem).2.2.1 fd deps
        (simStart 5 3 simDem).2.2.2 rains m' = some m'' := by
  obtain ⟨hWF, g1, g2, g3, b1, b2, b3⟩ := simStart_good 5 3 simDem
  have hnr : getDepressionHierarchy lifoPQ outletVec [allCells 5 3] (simStart 5 3 simDem).1 (simStart 5 3 simDem).2.1
      (simStart 5 3 simDem).2.2.1 ≠ .raised := by
    intro e
    have : (match getDepressionHierarchy lifoPQ outletVec [allCells 5 3] (simStart 5 3 simDem).1 (simStart 5 3 simDem).2.1
      (simStart 5 3 simDem).2.2.1 with | .raised => true | _ => false) = false := by decide +kernel
    rw [e] at this
    cases this
  obtain ⟨m', deps, fd, h1, h2, h3, h4, h5, h6⟩ := (C92_hierarchy lifoPQ outletVec [allCells 5 3] 5 3 (by decide) (by decide)
    (by decide) (by simp) _ hWF _ _ g1 g2 (by rw [b1, b2]; decide) (fun s hs => by
      obtain ⟨e, _⟩ := getDHFlood_some hs
      obtain ⟨⟨D, I⟩, _⟩ := dhFlood_final lifoPQ 5 3 .D8 ((simStart 5 3 simDem).2.1.cells (simStart 5 3 simDem).1)
        (fun c => decLab 5 3 ((simStart 5 3 simDem).2.2.1.cells (simStart 5 3 simDem).1) c == some 0)
      rw [e]
      exact outletVec_spec I)).2 hnr
  refine ⟨m', deps, fd, h1, fun rains hr => ?_⟩
  have S := h6 _ g3 (by rw [b1, b3]; decide) (by rw [b2, b3]; decide)
  have hz : ∀ c, InGrid 5 3 c → (simStart 5 3 simDem).2.2.2.cells m' c = 0 := by
    intro c hc
    have hb : m'.blk 2 = (simStart 5 3 simDem).1.blk 2 := h2 2 (by decide) (by rw [b2]; decide)
    have : (simStart 5 3 simDem).2.2.2.cells m' c = (simStart 5 3 simDem).2.2.2.cells (simStart 5 3 simDem).1 c := by
      simp only [RdArr.cells, NdView.cells, b3, hb]
    rw [this]
    exact (congrFun (cells_fresh _ 3 5 (fun _ => 0)) c).trans (by simp [restrict])
  obtain ⟨m'', h7, _⟩ := C92_rain_partial (fifo Cell) lifoPQ zPQ lifoPQ_lifo outletVec [allCells 5 3] (1/1000000) (by norm_num)
    5 3 (by decide) (by simp) _ _ _ _ _ _ _ rains m' S (fun c hc => (hz c hc).ge) hr (Or.inl (by
      intro p hp hadj hsea
      have key : ∀ x ∈ [((1 : Int), (0 : Int)), (0, 1), (1, 1)],
          decLab 5 3 ((simStart 5 3 simDem).2.2.1.cells (simStart 5 3 simDem).1) x = some 0 ∨
          (simStart 5 3 simDem).2.1.cells (simStart 5 3 simDem).1 x < (simStart 5 3 simDem).2.1.cells (simStart 5 3 simDem).1 (0, 0) := by
        decide +kernel
      obtain ⟨x, y⟩ := p
      obtain ⟨p1, _, p3, _⟩ := hp
      obtain ⟨q1, q2, q3⟩ := hadj
      simp only at p1 p3 q2 q3
      have : (x, y) = ((1 : Int), (0 : Int)) ∨ (x, y) = (0, 1) ∨ (x, y) = (1, 1) := by
        simp only [Prod.mk.injEq]
        have : ¬ (x = 0 ∧ y = 0) := fun k => q1 (by rw [k.1, k.2])
        omega
      exact (key (x, y) (by simpa using this)).resolve_left hsea))
  exact ⟨m'', h7⟩

end RichDEM.Py
