/-
Property theorems C10 (epsilon filling) and C11 (flow directions from Priority-Flood).
-/
import Verif.Epsilon
import Verif.Flowdirs
import Verif.Props.Flood

namespace RichDEM

variable {E : Type*} [LinearOrder E]

/-- `p` descends strictly on `f` from `c` to a perimeter cell or a cell satisfying `stop`. -/
structure StrictDescent (w h : Nat) (t : Topo) (f : Cell → E) (stop : Cell → Prop) (c : Cell)
    (p : List Cell) : Prop where
  head : p.head? = some c
  inGrid : ∀ q ∈ p, InGrid w h q
  chain : p.IsChain (fun a b => Adj t a b ∧ f b < f a)
  last : ∃ e, p.getLast? = some e ∧ (OnEdge w h e ∨ stop e)

theorem exists_strictDescent {w h : Nat} {t : Topo} {f : Cell → E} {stop : Cell → Prop}
    (hlow : ∀ c, InGrid w h c → ¬ OnEdge w h c → ¬ stop c →
      ∃ d, Adj t c d ∧ InGrid w h d ∧ f d < f c) :
    ∀ (k : Nat) (c : Cell), InGrid w h c →
      (allCells w h).countP (fun d => decide (f d < f c)) ≤ k →
      ∃ p, StrictDescent w h t f stop c p := by
  intro k
  induction k with
  | zero =>
    intro c hc hk
    by_cases h1 : OnEdge w h c ∨ stop c
    · exact ⟨[c], rfl, by simpa using hc, by simp, c, rfl, h1⟩
    · rw [not_or] at h1
      obtain ⟨d, _, h3, h4⟩ := hlow c hc h1.1 h1.2
      exfalso
      have h5 := List.countP_eq_zero.1 (Nat.le_zero.1 hk) d (mem_allCells.2 h3)
      simp [h4] at h5
  | succ k ih =>
    intro c hc hk
    by_cases h1 : OnEdge w h c ∨ stop c
    · exact ⟨[c], rfl, by simpa using hc, by simp, c, rfl, h1⟩
    · rw [not_or] at h1
      obtain ⟨d, h2, h3, h4⟩ := hlow c hc h1.1 h1.2
      have hlt : (allCells w h).countP (fun x => decide (f x < f d)) <
          (allCells w h).countP (fun x => decide (f x < f c)) := by
        have e := countP_update (nodup_allCells w h) (p := fun x => decide (f x < f d) || decide (x = d))
          (q := fun x => decide (f x < f d)) (c := d) (mem_allCells.2 h3) (by simp) (by simp)
          (by intro x hx; simp [hx])
        have e2 : (allCells w h).countP (fun x => decide (f x < f d) || decide (x = d)) ≤
            (allCells w h).countP (fun x => decide (f x < f c)) := by
          apply List.countP_mono_left
          intro x _ hx
          simp only [Bool.or_eq_true, decide_eq_true_eq] at hx ⊢
          rcases hx with hx | rfl
          · exact hx.trans h4
          · exact h4
        omega
      obtain ⟨p, k1, k2, k3, e, k4, k5⟩ := ih d h3 (by omega)
      cases p with
      | nil => simp at k1
      | cons a p =>
        obtain rfl : a = d := by simpa using k1
        refine ⟨c :: a :: p, rfl, ?_, List.IsChain.cons_cons ⟨h2, h4⟩ k3, e, ?_, k5⟩
        · intro q hq
          rcases List.mem_cons.1 hq with rfl | hq
          · exact hc
          · exact k2 q hq
        · rw [List.getLast?_cons_cons]; exact k4

/-! ## C10 -/

/-- C10: the epsilon fill never lowers a cell, keeps perimeter cells, keeps NoData exactly, and
gives every cell a strictly descending path to the perimeter or to NoData - hence no
depressions, dams or flats.  `next` is `std::nextafter(·, +inf)`. -/
theorem C10_epsilon_drains (pq : PQ (E × Cell) zLt) (w h : Nat) (t : Topo) (nodata : E)
    (next : E → E) (hnext : ∀ z, z < next z) (dem : Cell → E) (hnd : ∀ c, nodata ≤ dem c)
    (hw : 0 < w) (hh : 0 < h) :
    let out := (priorityFloodEpsilon pq w h t nodata next dem).elev
    (∀ c, dem c ≤ out c) ∧ (∀ c, OnEdge w h c → out c = dem c) ∧
    (∀ c, out c = nodata ↔ dem c = nodata) ∧
    ∀ c, InGrid w h c → ∃ p, StrictDescent w h t out (fun e => dem e = nodata) c p := by
  intro out
  obtain ⟨h1, h2, _⟩ := eps_final pq (w := w) (h := h) t nodata next hnext dem hnd hw hh
  refine ⟨h1.raised, fun c hc => (h1.edges c hc).2, h1.nd, fun c hc => ?_⟩
  refine exists_strictDescent ?_ _ c hc (le_refl _)
  intro d hd hde hdn
  obtain ⟨u, k1, k2, _, k4⟩ := h1.lower d (h2 d hd) hde hdn
  exact ⟨u, k1, k2, k4⟩

/-- C10: on a DEM without NoData the result is drained and nowhere below the plain fill. -/
theorem C10_above_fill (pq pq' : PQ (E × Cell) zLt) (w h : Nat) (t : Topo) (nodata : E)
    (next : E → E) (hnext : ∀ z, z < next z) (dem : Cell → E) (hnd : ∀ c, nodata < dem c)
    (hw : 0 < w) (hh : 0 < h) :
    let out := (priorityFloodEpsilon pq w h t nodata next dem).elev
    Drained w h t out ∧
    ∀ c, InGrid w h c → (priorityFloodBarnes pq' w h t dem).elev c ≤ out c := by
  intro out
  obtain ⟨h1, h2, h3, h4⟩ := C10_epsilon_drains pq w h t nodata next hnext dem
    (fun c => (hnd c).le) hw hh
  have hd : Drained w h t out := by
    intro c hc
    obtain ⟨p, k1, k2, k3, e, k4, k5⟩ := h4 c hc
    refine ⟨p, ⟨k1, k3.imp (fun a b hab => hab.1), k2, e, k4, ?_⟩,
      k3.imp (fun a b hab => hab.2.le)⟩
    rcases k5 with k5 | k5
    · exact k5
    · exact absurd k5 (hnd e).ne'
  refine ⟨hd, fun c hc => ?_⟩
  have h5 := isFilled_self hd c hc
  have h6 := C05_barnes_is_fill pq' w h t dem hw hh c hc
  rw [isWaterLevel_iff] at h5 h6
  exact h6.2 _ (h5.1.mono_dem (fun c _ => h1 c))

/-- C10: the flood loop terminates. -/
theorem C10_terminates (pq : PQ (E × Cell) zLt) (w h : Nat) (t : Topo) (nodata : E)
    (next : E → E) (hnext : ∀ z, z < next z) (dem : Cell → E) (hnd : ∀ c, nodata ≤ dem c)
    (hw : 0 < w) (hh : 0 < h) :
    epsStep pq w h t nodata next (priorityFloodEpsilon pq w h t nodata next dem) = none :=
  (eps_final pq t nodata next hnext dem hnd hw hh).2.2

example : toRows 5 4 (priorityFloodEpsilon zPQ 5 4 .D8 (-9 : Int) (· + 1) exDem).elev =
    [[9, 9, 9, 9, 3], [9, 8, 7, 7, 9], [9, 8, 7, 6, 9], [9, 9, 9, 9, 4]] ∧
    ∀ z : Int, z < z + 1 := by
  constructor
  · decide +kernel
  · intro z; omega

/-! ## C11 -/

/-- The cell reached from `c` by following the direction grid `fd` for `k` steps. -/
def follow (fd : Cell → Nat) (c : Cell) : Nat → Cell
  | 0 => c
  | k + 1 => follow fd (c.1 + d8x.getD (fd c) 0, c.2 + d8y.getD (fd c) 0) k

/-- C11: from every cell, following the directions for finitely many steps (staying inside, never
climbing above the cell's own water level) either leaves the raster from a perimeter cell or
ends at a NoData cell, which has no direction. -/
theorem C11_flow_leaves (pq : PQ (E × Nat × Cell) zkLt) (w h : Nat) (nodata : E)
    (dem F : Cell → E) (hF : IsFilled w h .D8 dem F) (hw : 0 < w) (hh : 0 < h) (c : Cell)
    (hc : InGrid w h c) :
    let fd := (priorityFloodFlowdirs pq w h nodata dem).fd
    ∃ k, (∀ i ≤ k, InGrid w h (follow fd c i) ∧ dem (follow fd c i) ≤ F c) ∧
      (∀ i < k, 1 ≤ fd (follow fd c i) ∧ fd (follow fd c i) ≤ 8) ∧
      ((OnEdge w h (follow fd c k) ∧ 1 ≤ fd (follow fd c k) ∧ fd (follow fd c k) ≤ 8 ∧
          ¬ InGrid w h (follow fd c (k + 1))) ∨
        (dem (follow fd c k) = nodata ∧ fd (follow fd c k) = 0)) := by
  intro fd
  obtain ⟨⟨L, h1, h2⟩, _⟩ := flowdirs_final pq nodata dem hw hh
  have hL : L c = F c := isWaterLevel_unique (h1 c hc) (hF c hc)
  rw [← hL]
  have hp := h2 c hc
  clear hL hF hc
  induction hp with
  | @out c k1 k2 k3 k4 k5 =>
    rw [mem_dirs] at k4
    refine ⟨0, ?_, by simp, Or.inl ⟨k2, k4.1, k4.2, k5⟩⟩
    intro i hi; obtain rfl : i = 0 := by omega
    exact ⟨k1, k3⟩
  | @nd c k1 k2 k3 k4 k5 =>
    refine ⟨0, ?_, by simp, Or.inr ⟨k4, k5⟩⟩
    intro i hi; obtain rfl : i = 0 := by omega
    exact ⟨k1, k3⟩
  | @step c k1 k2 k3 k4 k5 k6 ih =>
    obtain ⟨k, j1, j2, j3⟩ := ih
    rw [mem_dirs] at k4
    refine ⟨k + 1, ?_, ?_, j3⟩
    · intro i hi
      cases i with
      | zero => exact ⟨k1, k3⟩
      | succ i => exact ⟨(j1 i (by omega)).1, (j1 i (by omega)).2.trans k5⟩
    · intro i hi
      cases i with
      | zero => exact k4
      | succ i => exact j2 i (by omega)

/-- C11: no cycles - as long as the followed directions stay inside the raster and are real
directions, no cell is revisited. -/
theorem C11_no_cycle (pq : PQ (E × Nat × Cell) zkLt) (w h : Nat) (nodata : E)
    (dem : Cell → E) (hw : 0 < w) (hh : 0 < h) (c : Cell) (m : Nat) (hm : 0 < m) :
    let fd := (priorityFloodFlowdirs pq w h nodata dem).fd
    (∀ i < m, InGrid w h (follow fd c i) ∧ 1 ≤ fd (follow fd c i)) →
    follow fd c m ≠ c := by
  intro fd hin hcyc
  have hadd : ∀ (fd : Cell → Nat) (c : Cell) (a b : Nat),
      follow fd c (a + b) = follow fd (follow fd c a) b := by
    intro fd c a b
    induction a generalizing c with
    | zero => simp [follow]
    | succ a ih => rw [Nat.succ_add]; simp only [follow]; exact ih _
  have hper : ∀ q r, follow fd c (q * m + r) = follow fd c r := by
    intro q r
    induction q with
    | zero => simp
    | succ q ih =>
      rw [show (q + 1) * m + r = m + (q * m + r) by ring, hadd, hcyc, ih]
  have hmod : ∀ i, InGrid w h (follow fd c i) ∧ 1 ≤ fd (follow fd c i) := by
    intro i
    have h1 := hper (i / m) (i % m)
    rw [Nat.mul_comm, Nat.div_add_mod] at h1
    rw [h1]; exact hin _ (Nat.mod_lt _ hm)
  have hc : InGrid w h c := (hin 0 hm).1
  obtain ⟨F, hF⟩ : ∃ F, IsFilled w h .D8 dem F := by
    obtain ⟨⟨L, h1, _⟩, _⟩ := flowdirs_final pq nodata dem hw hh
    exact ⟨L, h1⟩
  obtain ⟨k, _, _, k3⟩ := C11_flow_leaves pq w h nodata dem F hF hw hh c hc
  rcases k3 with ⟨_, _, _, k4⟩ | ⟨_, k4⟩
  · exact k4 (hmod _).1
  · have h9 := (hmod k).2; rw [show fd (follow fd c k) = 0 from k4] at h9; omega

/-- C11: every data cell gets a direction; a cell without one is a NoData cell. -/
theorem C11_no_flow_only_nodata (pq : PQ (E × Nat × Cell) zkLt) (w h : Nat) (nodata : E)
    (dem : Cell → E) (hw : 0 < w) (hh : 0 < h) (c : Cell) (hc : InGrid w h c) :
    let fd := (priorityFloodFlowdirs pq w h nodata dem).fd
    (1 ≤ fd c ∧ fd c ≤ 8) ∨ (fd c = 0 ∧ dem c = nodata) := by
  intro fd
  obtain ⟨⟨L, h1, h2⟩, _⟩ := flowdirs_final pq nodata dem hw hh
  cases h2 c hc with
  | out _ _ _ h5 _ => exact Or.inl (mem_dirs.1 h5)
  | nd _ _ _ h4 h5 => exact Or.inr ⟨h5, h4⟩
  | step _ _ _ h5 _ _ => exact Or.inl (mem_dirs.1 h5)

theorem foldl_update_eq {c : Cell} {v : Nat} (l : List (Cell × Nat)) :
    ∀ f : Cell → Nat, (∀ a ∈ l, a.1 = c → a.2 = v) → (f c = v ∨ ∃ a ∈ l, a.1 = c) →
      l.foldl (fun f a => Function.update f a.1 a.2) f c = v := by
  induction l with
  | nil => intro f _ h; simpa using h
  | cons b l ih =>
    intro f h1 h2
    simp only [List.foldl_cons]
    refine ih _ (fun a ha => h1 a (List.mem_cons_of_mem _ ha)) ?_
    by_cases hb : b.1 = c
    · left; subst hb; simp [h1 b (by simp) rfl]
    · rw [Function.update_of_ne (Ne.symm hb)]
      rcases h2 with h2 | ⟨a, ha, h2⟩
      · exact .inl h2
      · rcases List.mem_cons.1 ha with rfl | ha
        · exact absurd h2 hb
        · exact .inr ⟨a, ha, h2⟩

theorem fd_edge_keep (pq : PQ (E × Nat × Cell) zkLt) (w h : Nat) (nodata : E) (dem : Cell → E)
    (c : Cell) (v : Nat) (fuel : Nat) (s : FDState E) (hs : s.closed c = true ∧ s.fd c = v) :
    (loop (fdStep pq w h nodata dem) fuel s).fd c = v := by
  refine (loop_inv (fun s => s.closed c = true ∧ s.fd c = v) ?_ fuel s hs).2
  intro s s' hi he
  unfold fdStep at he
  cases hp : pq.pop s.openQ with
  | none => simp [hp] at he
  | some e =>
    simp only [hp, Option.some.injEq] at he
    subst he
    have : ∀ (l : List Nat) (s : FDState E), s.closed c = true ∧ s.fd c = v →
        (l.foldl (fdNbr pq w h nodata dem e.1.2.2) s).closed c = true ∧
        (l.foldl (fdNbr pq w h nodata dem e.1.2.2) s).fd c = v := by
      intro l
      induction l with
      | nil => intro s h; exact h
      | cons n l ih =>
        intro s hs
        simp only [List.foldl_cons]
        apply ih
        unfold fdNbr
        simp only
        split
        · exact hs
        · split
          · exact hs
          · rename_i hq
            have : c ≠ nbr .D8 e.1.2.2 n := by rintro rfl; exact hq hs.1
            simp only [fdPush]
            rw [Function.update_of_ne this, Function.update_of_ne this]; exact hs
    exact this d8Order _ hi

/-- C11: the direction of every perimeter cell of a raster of at least 2 by 2 cells is the outward
one: diagonal at the four corners, orthogonal along the sides. -/
theorem C11_edge_directions (pq : PQ (E × Nat × Cell) zkLt) (w h : Nat) (nodata : E)
    (dem : Cell → E) (hw : 2 ≤ w) (hh : 2 ≤ h) :
    let fd := (priorityFloodFlowdirs pq w h nodata dem).fd
    fd (0, 0) = 2 ∧ fd ((w : Int) - 1, 0) = 4 ∧ fd ((w : Int) - 1, (h : Int) - 1) = 6 ∧
    fd (0, (h : Int) - 1) = 8 ∧
    (∀ x : Int, 0 < x → x < (w : Int) - 1 → fd (x, 0) = 3 ∧ fd (x, (h : Int) - 1) = 7) ∧
    (∀ y : Int, 0 < y → y < (h : Int) - 1 → fd (0, y) = 1 ∧ fd ((w : Int) - 1, y) = 5) := by
  intro fd
  have key : ∀ (x y : Int) v, 0 ≤ x → x < w → 0 ≤ y → y < h →
      (x = 0 ∨ y = 0 ∨ x = (w : Int) - 1 ∨ y = (h : Int) - 1) →
      (fdSeeds w h).foldl (fun f a => Function.update f a.1 a.2) (fun _ => 0) (x, y) = v →
      fd (x, y) = v := by
    intro x y v b1 b2 b3 b4 b5 hv
    have hc : OnEdge w h (x, y) := ⟨⟨b1, b2, b3, b4⟩, b5⟩
    refine fd_edge_keep pq w h nodata dem (x, y) v _ _ ?_
    have : ∀ (l : List Cell) (s : FDState E), 
        (l.foldl (fun s c => fdPush pq (dem c) c s) s).closed = s.closed ∧
        (l.foldl (fun s c => fdPush pq (dem c) c s) s).fd = s.fd := by
      intro l
      induction l with
      | nil => intro s; exact ⟨rfl, rfl⟩
      | cons a l ih => intro s; simp only [List.foldl_cons]; exact ⟨(ih _).1, (ih _).2⟩
    unfold fdInit
    rw [(this _ _).1, (this _ _).2]
    exact ⟨markAll_iff.2 (.inl ((mem_perimeter (by omega) (by omega)).2 hc)), hv⟩
  refine ⟨key _ _ _ (by omega) (by omega) (by omega) (by omega) (by omega) ?_,
    key _ _ _ (by omega) (by omega) (by omega) (by omega) (by omega) ?_,
    key _ _ _ (by omega) (by omega) (by omega) (by omega) (by omega) ?_,
    key _ _ _ (by omega) (by omega) (by omega) (by omega) (by omega) ?_,
    fun x h1 h2 => ⟨key _ _ _ (by omega) (by omega) (by omega) (by omega) (by omega) ?_,
      key _ _ _ (by omega) (by omega) (by omega) (by omega) (by omega) ?_⟩,
    fun y h1 h2 => ⟨key _ _ _ (by omega) (by omega) (by omega) (by omega) (by omega) ?_,
      key _ _ _ (by omega) (by omega) (by omega) (by omega) (by omega) ?_⟩⟩
  all_goals
    unfold fdSeeds
    rw [List.foldl_append]
    apply foldl_update_eq
  any_goals
    (intro a ha
     simp only [List.mem_cons, List.not_mem_nil, or_false] at ha
     rcases ha with rfl | rfl | rfl | rfl <;> simp <;> omega)
  any_goals (right; simp; done)
  all_goals left; apply foldl_update_eq
  any_goals
    (intro a ha
     simp only [List.mem_append, List.mem_flatMap, List.mem_range, List.mem_range'_1, List.mem_cons,
       List.not_mem_nil, or_false] at ha
     rcases ha with ⟨x', hx', rfl | rfl⟩ | ⟨x', hx', rfl | rfl⟩ <;> simp <;> omega)
  · exact .inr ⟨((x, 0), 3), by simp; exact ⟨x.toNat, by omega, by omega⟩, rfl⟩
  · exact .inr ⟨((x, (h : Int) - 1), 7), by simp; exact ⟨x.toNat, by omega, by omega⟩, rfl⟩
  · exact .inr ⟨((0, y), 1), by simp; exact ⟨y.toNat, by omega, by omega⟩, rfl⟩
  · exact .inr ⟨(((w : Int) - 1, y), 5), by simp; exact ⟨y.toNat, by omega, by omega⟩, rfl⟩

example : toRows 5 4 (priorityFloodFlowdirs zkPQ 5 4 (-9 : Int) exDem).fd =
    [[2, 3, 3, 3, 4], [1, 6, 6, 4, 5], [1, 5, 5, 6, 5], [8, 7, 7, 7, 6]] := by decide +kernel

end RichDEM
