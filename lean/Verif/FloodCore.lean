/-
Helper theory for the Priority-Flood family: water levels as least fixed points and the
frontier invariant shared by all variants.
-/
import Verif.Loop
import Mathlib.Order.MinMax

namespace RichDEM

variable {E : Type*} [LinearOrder E] {w h : Nat} {t : Topo}

/-- Inductive form of "some path from `c` to the perimeter stays at or below `z`". -/
inductive Drains (w h : Nat) (t : Topo) (dem : Cell → E) (z : E) : Cell → Prop
  | edge {c} : OnEdge w h c → dem c ≤ z → Drains w h t dem z c
  | step {c d} : InGrid w h c → dem c ≤ z → Adj t c d → Drains w h t dem z d →
      Drains w h t dem z c

theorem Drains.inGrid {dem : Cell → E} {z : E} {c : Cell} (hd : Drains w h t dem z c) :
    InGrid w h c := by
  cases hd with
  | edge h _ => exact h.1
  | step h _ _ _ => exact h

theorem Drains.le {dem : Cell → E} {z : E} {c : Cell} (hd : Drains w h t dem z c) :
    dem c ≤ z := by
  cases hd with
  | edge _ h => exact h
  | step _ h _ _ => exact h

theorem Drains.mono {dem : Cell → E} {z z' : E} (hz : z ≤ z') {c : Cell}
    (hd : Drains w h t dem z c) : Drains w h t dem z' c := by
  induction hd with
  | edge h1 h2 => exact .edge h1 (h2.trans hz)
  | step h1 h2 h3 _ ih => exact .step h1 (h2.trans hz) h3 ih

theorem Drains.mono_dem {dem dem' : Cell → E} (hle : ∀ c, InGrid w h c → dem' c ≤ dem c) {z : E}
    {c : Cell} (hd : Drains w h t dem z c) : Drains w h t dem' z c := by
  induction hd with
  | edge h1 h2 => exact .edge h1 ((hle _ h1.1).trans h2)
  | step h1 h2 h3 _ ih => exact .step h1 ((hle _ h1).trans h2) h3 ih

theorem escapePath_cons {c d : Cell} {p : List Cell} (hc : InGrid w h c) (ha : Adj t c d)
    (hp : EscapePath w h t d p) : EscapePath w h t c (c :: p) := by
  obtain ⟨h1, h2, h3, e, h4, h5⟩ := hp
  cases p with
  | nil => simp at h1
  | cons a p =>
    obtain rfl : a = d := by simpa using h1
    refine ⟨rfl, ?_, ?_, e, ?_, h5⟩
    · exact List.IsChain.cons_cons ha h2
    · intro q hq
      rcases List.mem_cons.1 hq with rfl | hq
      · exact hc
      · exact h3 q hq
    · rw [List.getLast?_cons_cons]; exact h4

theorem escapePath_tail {c a : Cell} {p : List Cell} (hp : EscapePath w h t c (c :: a :: p)) :
    Adj t c a ∧ EscapePath w h t a (a :: p) := by
  obtain ⟨h1, h2, h3, e, h4, h5⟩ := hp
  rw [List.isChain_cons_cons] at h2
  refine ⟨h2.1, rfl, h2.2, fun q hq => h3 q (by simp [hq]), e, ?_, h5⟩
  rwa [List.getLast?_cons_cons] at h4

theorem drains_iff_path {dem : Cell → E} {z : E} {c : Cell} :
    Drains w h t dem z c ↔ ∃ p, EscapePath w h t c p ∧ ∀ q ∈ p, dem q ≤ z := by
  constructor
  · intro hd
    induction hd with
    | @edge c h1 h2 =>
      refine ⟨[c], ⟨rfl, by simp, by simpa using h1.1, c, rfl, h1⟩, by simpa using h2⟩
    | @step c d h1 h2 h3 _ ih =>
      obtain ⟨p, hp, hq⟩ := ih
      refine ⟨c :: p, escapePath_cons h1 h3 hp, ?_⟩
      intro q hm
      rcases List.mem_cons.1 hm with rfl | hm
      · exact h2
      · exact hq q hm
  · rintro ⟨p, hp, hq⟩
    induction p generalizing c with
    | nil => have := hp.head; simp at this
    | cons a p ih =>
      obtain rfl : a = c := by simpa using hp.head
      cases p with
      | nil =>
        obtain ⟨e, he, h5⟩ := hp.last
        obtain rfl : a = e := by simpa using he
        exact .edge h5 (hq _ (by simp))
      | cons b p =>
        obtain ⟨h1, h2⟩ := escapePath_tail hp
        exact .step (hp.inGrid _ (by simp)) (hq _ (by simp)) h1
          (ih h2 (fun q hm => hq q (by simp only [List.mem_cons] at hm ⊢; tauto)))

theorem exists_max {dem : Cell → E} : ∀ (p : List Cell), p ≠ [] →
    ∃ m ∈ p, ∀ q ∈ p, dem q ≤ dem m := by
  intro p
  induction p with
  | nil => simp
  | cons a p ih =>
    intro _
    by_cases hp : p = []
    · subst hp; exact ⟨a, by simp, by simp⟩
    · obtain ⟨m, hm, h⟩ := ih hp
      rcases le_total (dem a) (dem m) with h1 | h1
      · refine ⟨m, by simp [hm], ?_⟩
        intro q hq
        rcases List.mem_cons.1 hq with rfl | hq
        · exact h1
        · exact h q hq
      · refine ⟨a, by simp, ?_⟩
        intro q hq
        rcases List.mem_cons.1 hq with rfl | hq
        · exact le_refl _
        · exact (h q hq).trans h1

theorem isWaterLevel_iff {dem : Cell → E} {z : E} {c : Cell} :
    IsWaterLevel w h t dem c z ↔
      Drains w h t dem z c ∧ ∀ z', Drains w h t dem z' c → z ≤ z' := by
  constructor
  · rintro ⟨h1, h2⟩
    refine ⟨drains_iff_path.2 h1, ?_⟩
    intro z' hz'
    obtain ⟨p, hp, hq⟩ := drains_iff_path.1 hz'
    obtain ⟨q, hm, hz⟩ := h2 p hp
    exact hz.trans (hq q hm)
  · rintro ⟨h1, h2⟩
    refine ⟨drains_iff_path.1 h1, ?_⟩
    intro p hp
    have hne : p ≠ [] := by rintro rfl; have := hp.head; simp at this
    obtain ⟨m, hm, hmax⟩ := exists_max (dem := dem) p hne
    exact ⟨m, hm, h2 _ (drains_iff_path.2 ⟨p, hp, hmax⟩)⟩

theorem isWaterLevel_unique {dem : Cell → E} {z z' : E} {c : Cell}
    (h1 : IsWaterLevel w h t dem c z) (h2 : IsWaterLevel w h t dem c z') : z = z' := by
  rw [isWaterLevel_iff] at h1 h2
  exact le_antisymm (h1.2 _ h2.1) (h2.2 _ h1.1)

theorem isWaterLevel_ge {dem : Cell → E} {z : E} {c : Cell}
    (h1 : IsWaterLevel w h t dem c z) : dem c ≤ z :=
  (isWaterLevel_iff.1 h1).1.le

theorem isWaterLevel_edge {dem : Cell → E} {z : E} {c : Cell} (he : OnEdge w h c)
    (h1 : IsWaterLevel w h t dem c z) : z = dem c :=
  le_antisymm ((isWaterLevel_iff.1 h1).2 _ (.edge he (le_refl _))) (isWaterLevel_ge h1)

/-- Every in-grid cell has some path to the perimeter. -/
theorem exists_drains (dem : Cell → E) {c : Cell} (hc : InGrid w h c) :
    ∃ z, Drains w h t dem z c := by
  obtain ⟨x, y⟩ := c
  have hx : 0 ≤ x := hc.1
  lift x to ℕ using hx
  induction x with
  | zero => exact ⟨dem (0, y), .edge ⟨hc, Or.inl rfl⟩ (le_refl _)⟩
  | succ x ih =>
    have hc' : InGrid w h ((x : Int), y) := by
      simp only [InGrid] at hc ⊢; push_cast at hc; omega
    obtain ⟨z, hz⟩ := ih hc'
    refine ⟨max z (dem ((x + 1 : Nat), y)), .step hc (le_max_right _ _) ?_ (hz.mono (le_max_left _ _))⟩
    cases t
    · simp only [Adj]; push_cast
      refine ⟨?_, by omega, by omega⟩
      intro e; simp only [Prod.mk.injEq] at e; omega
    · simp only [Adj]; push_cast; omega

/-- Existence of an escape path for every in-grid cell. -/
theorem exists_escapePath (w h : Nat) (t : Topo) {c : Cell} (hc : InGrid w h c) :
    ∃ p, EscapePath w h t c p := by
  obtain ⟨z, hz⟩ := exists_drains (t := t) (fun _ => (0 : Nat)) hc
  obtain ⟨p, hp, _⟩ := drains_iff_path.1 hz
  exact ⟨p, hp⟩

/-- A path inside `S` to the perimeter along which `f` never increases. -/
inductive MonoDrain (w h : Nat) (t : Topo) (f : Cell → E) (S : Cell → Prop) : Cell → Prop
  | edge {c} : OnEdge w h c → S c → MonoDrain w h t f S c
  | step {c d} : InGrid w h c → S c → Adj t c d → f d ≤ f c → MonoDrain w h t f S d →
      MonoDrain w h t f S c

theorem MonoDrain.mem {f : Cell → E} {S : Cell → Prop} {c : Cell}
    (hd : MonoDrain w h t f S c) : S c := by
  cases hd with
  | edge _ h => exact h
  | step _ h _ _ _ => exact h

theorem MonoDrain.congr {f f' : Cell → E} {S S' : Cell → Prop} (hS : ∀ c, S c → S' c)
    (hf : ∀ c, S c → f' c = f c) {c : Cell} (hd : MonoDrain w h t f S c) :
    MonoDrain w h t f' S' c := by
  induction hd with
  | edge h1 h2 => exact .edge h1 (hS _ h2)
  | step h1 h2 h3 h4 h5 ih =>
    exact .step h1 (hS _ h2) h3 (by rw [hf _ h2, hf _ h5.mem]; exact h4) ih

theorem MonoDrain.path {f : Cell → E} {S : Cell → Prop} {c : Cell}
    (hd : MonoDrain w h t f S c) :
    ∃ p, EscapePath w h t c p ∧ p.IsChain (fun a b => f b ≤ f a) := by
  induction hd with
  | @edge c h1 h2 => exact ⟨[c], ⟨rfl, by simp, by simpa using h1.1, c, rfl, h1⟩, by simp⟩
  | @step c d h1 h2 h3 h4 h5 ih =>
    obtain ⟨p, hp, hq⟩ := ih
    refine ⟨c :: p, escapePath_cons h1 h3 hp, ?_⟩
    cases p with
    | nil => simp
    | cons a p =>
      obtain rfl : a = d := by simpa using hp.head
      exact List.IsChain.cons_cons h4 hq

theorem isFilled_self {dem : Cell → E} (hd : Drained w h t dem) : IsFilled w h t dem dem := by
  intro c hc
  obtain ⟨p, hp, hch⟩ := hd c hc
  rw [isWaterLevel_iff]
  refine ⟨drains_iff_path.2 ⟨p, hp, ?_⟩, fun z hz => hz.le⟩
  cases p with
  | nil => simp
  | cons a p =>
    obtain rfl : a = c := by simpa using hp.head
    have hpw := hch.pairwise (R := fun a b => dem b ≤ dem a)
    rw [List.pairwise_cons] at hpw
    intro q hq
    rcases List.mem_cons.1 hq with rfl | hq
    · exact le_refl _
    · exact hpw.1 q hq

/-! ### The frontier invariant -/

/-- `elev` is the (possibly ghost) water level computed so far, `closed` the flags, `Q` the
queued (level, cell) pairs and `cur` the cell(s) being expanded. -/
structure FInv (w h : Nat) (t : Topo) (dem elev : Cell → E) (closed : Cell → Bool)
    (Q : E × Cell → Prop) (cur : Cell → Prop) : Prop where
  fresh : ∀ c, closed c = false → elev c = dem c
  inside : ∀ c, closed c = true → InGrid w h c
  edges : ∀ c, OnEdge w h c → closed c = true
  queued : ∀ e, Q e → closed e.2 = true ∧ e.1 = elev e.2
  frontier : ∀ c, closed c = true →
    cur c ∨ Q (elev c, c) ∨ ∀ d, Adj t c d → InGrid w h d → closed d = true
  sound : ∀ c, closed c = true → Drains w h t dem (elev c) c
  least : ∀ c, closed c = true → ∀ z, Drains w h t dem z c → elev c ≤ z
  mono : ∀ c, closed c = true → MonoDrain w h t elev (closed · = true) c

theorem FInv.escape {dem elev : Cell → E} {closed : Cell → Bool} {Q : E × Cell → Prop}
    {cur : Cell → Prop} (hI : FInv w h t dem elev closed Q cur) {z : E} {c : Cell}
    (hd : Drains w h t dem z c) (hc : closed c = false) :
    ∃ q, closed q = true ∧ Drains w h t dem z q ∧ ∃ u, Adj t q u ∧ InGrid w h u ∧
      closed u = false := by
  induction hd with
  | @edge c h1 h2 => rw [hI.edges c h1] at hc; cases hc
  | @step c d h1 h2 h3 h4 ih =>
    cases hcd : closed d with
    | false => exact ih hcd
    | true => exact ⟨d, hcd, h4, c, h3.symm, h1, hc⟩

/-- Closing a neighbour of a cell of minimal level. -/
theorem FInv.close {dem elev : Cell → E} {closed : Cell → Bool} {Q Q' : E × Cell → Prop}
    {c q : Cell} {v : E} (hI : FInv w h t dem elev closed Q (· = c)) (hc : closed c = true)
    (hmin : ∀ e, Q e → elev c ≤ e.1) (ha : Adj t c q) (hq : InGrid w h q)
    (hqc : closed q = false) (hv : v = max (dem q) (elev c))
    (hQ' : ∀ e, Q' e ↔ e = (v, q) ∨ Q e) :
    FInv w h t dem (Function.update elev q v) (Function.update closed q true) Q' (· = c) ∧
    (∀ e, Q' e → Function.update elev q v c ≤ e.1) := by
  have hne : ∀ d, closed d = true → d ≠ q := by
    rintro d hd rfl; rw [hd] at hqc; cases hqc
  have eu : ∀ d, closed d = true → Function.update elev q v d = elev d :=
    fun d hd => Function.update_of_ne (hne d hd) _ _
  have cu : ∀ d, closed d = true → Function.update closed q true d = true :=
    fun d hd => by rw [Function.update_of_ne (hne d hd)]; exact hd
  have cinv : ∀ d, Function.update closed q true d = true → d = q ∨ closed d = true := by
    intro d hd
    by_cases e : d = q
    · exact Or.inl e
    · rw [Function.update_of_ne e] at hd; exact Or.inr hd
  have hsound : Drains w h t dem v q := by
    subst hv
    refine .step hq (le_max_left _ _) ha.symm ((hI.sound c hc).mono (le_max_right _ _))
  have hleast : ∀ z, Drains w h t dem z q → v ≤ z := by
    intro z hz
    rw [hv]
    refine max_le hz.le ?_
    obtain ⟨r, hr, hzr, u, hu, hug, huc⟩ := hI.escape hz hqc
    have h1 : elev r ≤ z := hI.least r hr z hzr
    rcases hI.frontier r hr with rfl | hr' | hr'
    · exact h1
    · exact (hmin _ hr').trans h1
    · rw [hr' u hu hug] at huc; cases huc
  refine ⟨⟨?_, ?_, ?_, ?_, ?_, ?_, ?_, ?_⟩, ?_⟩
  · intro d hd
    have hdq : d ≠ q := by rintro rfl; rw [Function.update_self] at hd; cases hd
    rw [Function.update_of_ne hdq] at hd ⊢
    exact hI.fresh d hd
  · intro d hd
    rcases cinv d hd with rfl | hd
    · exact hq
    · exact hI.inside d hd
  · intro d hd; exact cu d (hI.edges d hd)
  · intro e he
    rcases (hQ' e).1 he with rfl | he
    · simp
    · obtain ⟨h1, h2⟩ := hI.queued e he
      exact ⟨cu _ h1, by rw [eu _ h1]; exact h2⟩
  · intro d hd
    rcases cinv d hd with rfl | hd'
    · right; left; rw [hQ', Function.update_self]; exact Or.inl rfl
    · rcases hI.frontier d hd' with h1 | h1 | h1
      · exact Or.inl h1
      · right; left; rw [hQ', eu d hd']; exact Or.inr h1
      · right; right; intro u hu hug; exact cu u (h1 u hu hug)
  · intro d hd
    rcases cinv d hd with rfl | hd'
    · rw [Function.update_self]; exact hsound
    · rw [eu d hd']; exact hI.sound d hd'
  · intro d hd z hz
    rcases cinv d hd with rfl | hd'
    · rw [Function.update_self]; exact hleast z hz
    · rw [eu d hd']; exact hI.least d hd' z hz
  · have lift : ∀ d, closed d = true → MonoDrain w h t (Function.update elev q v)
        (Function.update closed q true · = true) d :=
      fun d hd => (hI.mono d hd).congr (fun c hc => cu c hc) (fun c hc => eu c hc)
    intro d hd
    rcases cinv d hd with rfl | hd'
    · refine .step hq hd ha.symm ?_ (lift c hc)
      rw [Function.update_self, eu c hc, hv]; exact le_max_right _ _
    · exact lift d hd'
  · intro e he
    rw [eu c hc]
    rcases (hQ' e).1 he with rfl | he
    · rw [hv]; exact le_max_right _ _
    · exact hmin e he

/-- Starting the expansion of a popped cell. -/
theorem FInv.start {dem elev : Cell → E} {closed : Cell → Bool} {Q Q' : E × Cell → Prop}
    {e : E × Cell} (hI : FInv w h t dem elev closed Q (fun _ => False))
    (hQ : ∀ f, Q f ↔ f = e ∨ Q' f) :
    FInv w h t dem elev closed Q' (· = e.2) where
  fresh := hI.fresh
  inside := hI.inside
  edges := hI.edges
  queued := fun f hf => hI.queued f ((hQ f).2 (Or.inr hf))
  frontier := fun d hd => by
    rcases hI.frontier d hd with h1 | h1 | h1
    · exact h1.elim
    · rcases (hQ _).1 h1 with h2 | h2
      · left; rw [← h2]
      · right; left; exact h2
    · right; right; exact h1
  sound := hI.sound
  least := hI.least
  mono := hI.mono

/-- Ending the expansion of a cell, when all its neighbours are closed. -/
theorem FInv.finish {dem elev : Cell → E} {closed : Cell → Bool} {Q : E × Cell → Prop}
    {c : Cell} (hI : FInv w h t dem elev closed Q (· = c))
    (hall : ∀ d, Adj t c d → InGrid w h d → closed d = true) :
    FInv w h t dem elev closed Q (fun _ => False) where
  fresh := hI.fresh
  inside := hI.inside
  edges := hI.edges
  queued := hI.queued
  frontier := fun d hd => by
    rcases hI.frontier d hd with rfl | h1 | h1
    · right; right; exact hall
    · right; left; exact h1
    · right; right; exact h1
  sound := hI.sound
  least := hI.least
  mono := hI.mono

/-- When no queue entries are left, every cell is closed and carries its water level. -/
theorem FInv.final {dem elev : Cell → E} {closed : Cell → Bool} {Q : E × Cell → Prop}
    (hI : FInv w h t dem elev closed Q (fun _ => False)) (hQ : ∀ e, ¬ Q e) :
    (∀ c, InGrid w h c → closed c = true) ∧ IsFilled w h t dem elev ∧ Drained w h t elev := by
  have hall : ∀ c, InGrid w h c → closed c = true := by
    intro c hc
    by_contra hcc
    rw [Bool.not_eq_true] at hcc
    obtain ⟨z, hz⟩ := exists_drains (t := t) dem hc
    obtain ⟨q, hq, _, u, hu, hug, huc⟩ := hI.escape hz hcc
    rcases hI.frontier q hq with h1 | h1 | h1
    · exact h1
    · exact hQ _ h1
    · rw [h1 u hu hug] at huc; cases huc
  exact ⟨hall, fun c hc => isWaterLevel_iff.2
    ⟨hI.sound c (hall c hc), hI.least c (hall c hc)⟩,
    fun c hc => (hI.mono c (hall c hc)).path⟩

/-! ### Seeding with the perimeter -/

/-- The perimeter cells in the order in which the code visits them, e.g.
Barnes2014.hpp:65-76, 160-171, 256-267, 358-369, 503-518, 622-633, 745-756, 873-884
(`for x: (x,0),(x,h-1)` then `for y=1..h-2: (0,y),(w-1,y)`). -/
def perimeter (w h : Nat) : List Cell :=
  (List.range w).flatMap (fun x : Nat => [((x : Int), 0), ((x : Int), (h : Int) - 1)]) ++
  (List.range' 1 (h - 2)).flatMap (fun y : Nat => [(0, (y : Int)), ((w : Int) - 1, (y : Int))])

/-- `closed(..)=true` for each cell of a list. -/
def markAll (l : List Cell) (f : Cell → Bool) : Cell → Bool :=
  l.foldl (fun f c => Function.update f c true) f

theorem markAll_iff {l : List Cell} {f : Cell → Bool} {c : Cell} :
    markAll l f c = true ↔ c ∈ l ∨ f c = true := by
  induction l generalizing f with
  | nil => simp [markAll]
  | cons a l ih =>
    simp only [markAll, List.foldl_cons] at ih ⊢
    rw [ih]
    by_cases e : c = a
    · subst e; simp
    · rw [Function.update_of_ne e]; simp [e]

theorem mem_perimeter {w h : Nat} (hw : 0 < w) (hh : 0 < h) {c : Cell} :
    c ∈ perimeter w h ↔ OnEdge w h c := by
  obtain ⟨x, y⟩ := c
  simp only [perimeter, List.mem_append, List.mem_flatMap, List.mem_range, List.mem_range'_1,
    List.mem_cons, List.not_mem_nil, or_false, Prod.mk.injEq, OnEdge, InGrid]
  constructor
  · rintro (⟨a, ha, ⟨rfl, rfl⟩ | ⟨rfl, rfl⟩⟩ | ⟨a, ha, ⟨rfl, rfl⟩ | ⟨rfl, rfl⟩⟩) <;> omega
  · rintro ⟨⟨h1, h2, h3, h4⟩, h5⟩
    lift x to ℕ using h1
    lift y to ℕ using h3
    by_cases hy : y = 0 ∨ (y : Int) = h - 1
    · left
      refine ⟨x, by omega, ?_⟩
      omega
    · right
      refine ⟨y, by omega, ?_⟩
      omega

theorem unflagged_perimeter {w h : Nat} (hw : 0 < w) (hh : 0 < h) :
    unflagged w h (markAll (perimeter w h) fun _ => false) =
      (allCells w h).countP (fun c => decide (¬ OnEdge w h c)) := by
  unfold unflagged
  apply List.countP_congr
  intro c _
  have h1 := markAll_iff (l := perimeter w h) (f := fun _ => false) (c := c)
  simp only [Bool.false_eq_true, or_false] at h1
  rw [mem_perimeter hw hh] at h1
  simp only [decide_eq_true_eq, ← h1, Bool.not_eq_true']
  simp

theorem length_perimeter (w h : Nat) : (perimeter w h).length = 2 * w + 2 * (h - 2) := by
  simp [perimeter, List.length_flatMap, Nat.mul_comm]

/-- The state right after seeding satisfies the invariant. -/
theorem FInv.init (dem : Cell → E) (hw : 0 < w) (hh : 0 < h) {closed : Cell → Bool}
    {Q : E × Cell → Prop} (hcl : ∀ c, closed c = true ↔ c ∈ perimeter w h)
    (hQ : ∀ e, Q e ↔ ∃ c ∈ perimeter w h, e = (dem c, c)) :
    FInv w h t dem dem closed Q (fun _ => False) where
  fresh := fun _ _ => rfl
  inside := fun c hc => ((mem_perimeter hw hh).1 ((hcl c).1 hc)).1
  edges := fun c hc => (hcl c).2 ((mem_perimeter hw hh).2 hc)
  queued := fun e he => by
    obtain ⟨c, hc, rfl⟩ := (hQ e).1 he
    exact ⟨(hcl c).2 hc, rfl⟩
  frontier := fun c hc => by
    right; left; rw [hQ]; exact ⟨c, (hcl c).1 hc, rfl⟩
  sound := fun c hc => .edge ((mem_perimeter hw hh).1 ((hcl c).1 hc)) (le_refl _)
  least := fun c _ z hz => hz.le
  mono := fun c hc => .edge ((mem_perimeter hw hh).1 ((hcl c).1 hc)) hc

end RichDEM
