/-
Property theorems C23 (flat finding), C24 (flat labels), C25 (flat gradients) and C26 (flat
resolution).  Specification vocabulary: Verif/SpecFlats.lean.
-/
import Verif.Flats.Barnes
import Verif.Flats.Mask
import Verif.Examples

namespace RichDEM

variable {E : Type*} [LinearOrder E]

/-- The edge queues are the scan results in an arbitrary order (they are filled by several
threads). -/
structure EdgeQueues (w h : Nat) (dem : Cell → E) (nodata : E) (low high : List Cell) : Prop where
  low : low.Perm (scanLow w h dem (findFlat w h dem nodata))
  high : high.Perm (scanHigh w h dem (findFlat w h dem nodata))

/-! ### C23 -/

/-- C23: `FindFlats` marks NoData cells -1, cells with an outlet 0 and flat cells 1, and these
cases are exhaustive. -/
theorem C23_classify (w h : Nat) (dem : Cell → E) (nodata : E) (c : Cell) (hc : InGrid w h c) :
    let f := findFlat w h dem nodata c
    (f = -1 ↔ dem c = nodata) ∧ (f = 0 ↔ HasOutlet w h dem nodata c) ∧
    (f = 1 ↔ IsFlat w h dem nodata c) ∧ (f = -1 ∨ f = 0 ∨ f = 1) :=
  ⟨findFlat_negone, findFlat_zero hc, findFlat_one hc, findFlat_range c⟩

/-- C23: every neighbour read by `FindFlats` lies inside the raster (neighbours are read only
for cells that are not on the edge). -/
theorem C23_reads_in_grid (w h : Nat) (c b : Cell) (hc : InGrid w h c) (he : ¬ OnEdge w h c)
    (hb : Adj .D8 c b) : InGrid w h b := by
  obtain ⟨x, y⟩ := c; obtain ⟨x', y'⟩ := b
  obtain ⟨h1, h2, h3, h4⟩ := hc
  obtain ⟨-, h6, h7⟩ := hb
  have h8 : ¬ (x = 0 ∨ y = 0 ∨ x = (w:Int) - 1 ∨ y = (h:Int) - 1) := fun e => he ⟨⟨h1, h2, h3, h4⟩, e⟩
  simp only at h1 h2 h3 h4 h6 h7
  refine ⟨?_, ?_, ?_, ?_⟩ <;> dsimp only <;> omega

/-- C23: the edge scan puts a cell in the low queue iff it is a low edge and in the high queue
iff it is a high edge. -/
theorem C23_edges (w h : Nat) (dem : Cell → E) (nodata : E) (low high : List Cell)
    (hq : EdgeQueues w h dem nodata low high) (c : Cell) :
    (c ∈ low ↔ LowEdge w h dem nodata c) ∧ (c ∈ high ↔ HighEdge w h dem nodata c) :=
  ⟨hq.low.mem_iff.trans mem_scanLow, hq.high.mem_iff.trans mem_scanHigh⟩

/-! ### C24 -/

/-- The DEM's flats, with the scanned queues, form a flat system. -/
theorem EdgeQueues.sys {w h : Nat} {dem : Cell → E} {nodata : E} {low high : List Cell}
    (hq : EdgeQueues w h dem nodata low high) :
    FlatSys w h dem (IsFlat w h dem nodata) (HasOutlet w h dem nodata) (HighEdge w h dem nodata)
      (fun c => findFlat w h dem nodata c == 1) low high where
  flatIn _ hc := hc.1
  outIn _ hc := hc.1
  disj _ hc := flat_not_outlet hc
  step a b ha hab := flat_or_outlet hab.2.1 (ha.2.2.2 b hab.2.2.1).2
  flatb c hc := by simpa using findFlat_one hc
  low c := (C23_edges w h dem nodata low high hq c).1
  high c := (C23_edges w h dem nodata low high hq c).2
  hi _ hc := hc.1

section
variable (w h : Nat) (dem : Cell → E) (nodata : E) (low high : List Cell)

/-- C24: a cell is labelled iff its constant-elevation region contains a low edge; unlabelled
cells carry 0. -/
theorem C24_labelled (hq : EdgeQueues w h dem nodata low high) (c : Cell) :
    let labels := (getFlatMask w h dem nodata low high).2
    0 ≤ labels c ∧
    (0 < labels c ↔ ∃ l, LowEdge w h dem nodata l ∧ SameRegion w h dem l c) :=
  core_labelled hq.sys c

/-- C24: two cells have the same (positive) label iff they lie in the same
constant-elevation region. -/
theorem C24_same_label (hq : EdgeQueues w h dem nodata low high) (a b : Cell) :
    let labels := (getFlatMask w h dem nodata low high).2
    0 < labels a → (labels a = labels b ↔ SameRegion w h dem a b) :=
  core_same_label hq.sys a b

/-- C24: labels index the `flat_height` vector (`group_number` entries) in range. -/
theorem C24_index_in_range (hq : EdgeQueues w h dem nodata low high) (c : Cell) :
    0 ≤ (labelLoop w h dem low).1 c ∧ (labelLoop w h dem low).1 c < (labelLoop w h dem low).2 :=
  hq.sys.lab.range c

/-- C24: a flat cell is labelled iff its region can drain, i.e. contains a cell with an
outlet. -/
theorem C24_drainable (hq : EdgeQueues w h dem nodata low high) (c : Cell)
    (hc : IsFlat w h dem nodata c) :
    0 < (getFlatMask w h dem nodata low high).2 c ↔ Drainable w h dem nodata c :=
  core_drainable hq.sys c hc

/-! ### C25 -/

/-- C25: the mask of a cell at distance `n` from the low edges (in steps through flat cells of
its own elevation) is `2(n+1)`, plus, if high ground drains into its flat, `top - k`, where `k`
is its distance from the high edges and `top` is the largest such distance in its flat. -/
theorem C25_distances (hq : EdgeQueues w h dem nodata low high) (c : Cell) (n : Nat)
    (hn : IsHopDist (LowEdge w h dem nodata) (FlatStep w h dem nodata) c n) :
    let mask := (getFlatMask w h dem nodata low high).1
    ((¬ ∃ k, Hops (HighEdge w h dem nodata) (FlatStep w h dem nodata) k c) ∧
        mask c = 2 * (n + 1)) ∨
    (∃ k top : Nat, IsHopDist (HighEdge w h dem nodata) (FlatStep w h dem nodata) c k ∧
        mask c = 2 * (n + 1) + (top - k) ∧ k ≤ top ∧
        (∀ c' k', SameRegion w h dem c c' →
          IsHopDist (HighEdge w h dem nodata) (FlatStep w h dem nodata) c' k' → k' ≤ top) ∧
        ∃ c', SameRegion w h dem c c' ∧
          IsHopDist (HighEdge w h dem nodata) (FlatStep w h dem nodata) c' top) :=
  core_distances hq.sys c n hn

/-- C25: a cell that is neither a low edge nor a drainable flat cell has mask 0, and no mask is
negative. -/
theorem C25_zero_elsewhere (hq : EdgeQueues w h dem nodata low high) (c : Cell) :
    let mask := (getFlatMask w h dem nodata low high).1
    0 ≤ mask c ∧ (mask c ≠ 0 ↔ LowEdge w h dem nodata c ∨ Drainable w h dem nodata c) :=
  core_zero_elsewhere hq.sys c

/-- C25: every drainable flat cell has a neighbour of the same elevation and label whose mask is
strictly smaller, and which is itself a low edge or drainable. -/
theorem C25_descends (hq : EdgeQueues w h dem nodata low high) (c : Cell)
    (hd : Drainable w h dem nodata c) :
    let mask := (getFlatMask w h dem nodata low high).1
    let labels := (getFlatMask w h dem nodata low high).2
    ∃ b, Adj .D8 c b ∧ InGrid w h b ∧ dem b = dem c ∧ labels b = labels c ∧ mask b < mask c ∧
      (LowEdge w h dem nodata b ∨ Drainable w h dem nodata b) :=
  core_descends hq.sys c hd

/-- C25: following decreasing masks leads from every drainable flat cell, through cells of the
same elevation, to a cell with an outlet. -/
theorem C25_leads_out (hq : EdgeQueues w h dem nodata low high) (c : Cell)
    (hd : Drainable w h dem nodata c) :
    let mask := (getFlatMask w h dem nodata low high).1
    ∃ o, HasOutlet w h dem nodata o ∧
      Relation.ReflTransGen (fun a b => EqStep w h dem a b ∧ mask b < mask a) c o :=
  core_leads_out hq.sys c hd

/-! ### C26 -/

/-- C26: `ResolveFlatsEpsilon` changes only interior cells that are drainable flat cells or low
edges of a flat. -/
theorem C26_epsilon_only (next : E → E) (hq : EdgeQueues w h dem nodata low high) (c : Cell)
    (hne : resolveFlatsEpsilon w h next dem nodata low high c ≠ dem c) :
    (InGrid w h c ∧ ¬ OnEdge w h c) ∧
      (LowEdge w h dem nodata c ∨ Drainable w h dem nodata c) := by
  unfold resolveFlatsEpsilon resolveEpsilon at hne
  split at hne
  · rename_i h1
    split at hne
    · exact absurd rfl hne
    · refine ⟨⟨?_, ?_⟩, ?_⟩
      · obtain ⟨x, y⟩ := c; dsimp only at h1; refine ⟨?_, ?_, ?_, ?_⟩ <;> dsimp only <;> omega
      · obtain ⟨x, y⟩ := c; dsimp only at h1
        rintro ⟨_, h2⟩; dsimp only at h2; omega
      · refine (C25_zero_elsewhere w h dem nodata low high hq c).2.1 ?_
        intro h0
        rw [h0] at hne; exact hne rfl
  · exact absurd rfl hne

/-- C26: and, if `next` returns something larger, every interior low edge or drainable cell is
raised: by exactly as many steps as its flat mask says. -/
theorem C26_epsilon_amount (next : E → E) (hq : EdgeQueues w h dem nodata low high) (c : Cell)
    (hc : InGrid w h c) (he : ¬ OnEdge w h c)
    (hd : LowEdge w h dem nodata c ∨ Drainable w h dem nodata c) :
    resolveFlatsEpsilon w h next dem nodata low high c =
      next^[((getFlatMask w h dem nodata low high).1 c).toNat] (dem c) := by
  have hlab : 0 < (getFlatMask w h dem nodata low high).2 c := by
    rcases hd with h1 | h1
    · exact (C24_labelled w h dem nodata low high hq c).2.2 ⟨c, h1, .refl⟩
    · exact (C24_drainable w h dem nodata low high hq c h1.1).2 h1
  unfold resolveFlatsEpsilon resolveEpsilon
  have h2 : ¬ (c.1 = 0 ∨ c.2 = 0 ∨ c.1 = (w:Int) - 1 ∨ c.2 = (h:Int) - 1) := fun e => he ⟨hc, e⟩
  obtain ⟨h3, h4, h5, h6⟩ := hc
  rw [if_pos (by omega), if_neg (by omega)]

theorem iterate_lt {next : E → E} (hn : ∀ x, x < next x) (x : E) {a b : Nat} (hab : a < b) :
    next^[a] x < next^[b] x := by
  induction b with
  | zero => omega
  | succ b ih =>
    rw [Function.iterate_succ_apply']
    rcases Nat.lt_or_ge a b with h1 | h1
    · exact lt_trans (ih h1) (hn _)
    · have : a = b := by omega
      subst this; exact hn _

/-- C26: after `ResolveFlatsEpsilon` every drainable flat cell has a strictly lower neighbour (the
arithmetic being able to represent every increment). -/
theorem C26_epsilon_drains (next : E → E) (hn : ∀ x, x < next x)
    (hq : EdgeQueues w h dem nodata low high) (c : Cell) (hd : Drainable w h dem nodata c) :
    ∃ b, Adj .D8 c b ∧ InGrid w h b ∧
      resolveFlatsEpsilon w h next dem nodata low high b <
        resolveFlatsEpsilon w h next dem nodata low high c := by
  obtain ⟨b, h1, h2, h3, h4, h5, h6⟩ := C25_descends w h dem nodata low high hq c hd
  refine ⟨b, h1, h2, ?_⟩
  rw [C26_epsilon_amount w h dem nodata low high next hq c hd.1.1 hd.1.2.1 (.inr hd)]
  have h0b := (C25_zero_elsewhere w h dem nodata low high hq b).1
  have h0c := (C25_zero_elsewhere w h dem nodata low high hq c).1
  by_cases hbe : OnEdge w h b
  · have : resolveFlatsEpsilon w h next dem nodata low high b = dem b := by
      by_contra hne
      exact (C26_epsilon_only w h dem nodata low high next hq b hne).1.2 hbe
    rw [this, h3]
    exact iterate_lt hn (dem c) (a := 0) (by omega)
  · rw [C26_epsilon_amount w h dem nodata low high next hq b h2 hbe h6, h3]
    exact iterate_lt hn (dem c) (by omega)

/-- C26: if no increment lifts a flat cell as high as any cell that was above it, no cell
loses its lower neighbours: every cell that had a lower neighbour, or was drainable, has one
afterwards. -/
theorem C26_epsilon_no_new_pits (next : E → E) (hn : ∀ x, x < next x)
    (hgap : ∀ a b, InGrid w h a → InGrid w h b → dem a < dem b →
      resolveFlatsEpsilon w h next dem nodata low high a < dem b)
    (hq : EdgeQueues w h dem nodata low high) (c : Cell) (hc : InGrid w h c)
    (hlow : (∃ b, Adj .D8 c b ∧ InGrid w h b ∧ dem b < dem c) ∨ Drainable w h dem nodata c) :
    ∃ b, Adj .D8 c b ∧ InGrid w h b ∧
      resolveFlatsEpsilon w h next dem nodata low high b <
        resolveFlatsEpsilon w h next dem nodata low high c := by
  rcases hlow with ⟨b, h1, h2, h3⟩ | hd
  · refine ⟨b, h1, h2, lt_of_lt_of_le (hgap b c h2 hc h3) ?_⟩
    unfold resolveFlatsEpsilon resolveEpsilon
    split
    · split
      · exact le_refl _
      · rcases Nat.eq_zero_or_pos ((getFlatMask w h dem nodata low high).1 c).toNat with h0 | h0
        · rw [h0]; exact le_refl _
        · exact le_of_lt (iterate_lt hn (dem c) (a := 0) h0)
    · exact le_refl _
  · exact C26_epsilon_drains w h dem nodata low high next hn hq c hd

end

/-! Without the gap hypothesis the statement is false: the code counts such cells but does not
prevent them. -/

def exG : Cell → Int := ofRows (-9999)
  [[9,9,9,9,9,9,9], [9,2,1,1,1,1,9], [9,9,9,1,1,1,0], [9,9,9,9,9,9,9]]

/-- C26: a cell may lose its only lower neighbour: the flat next to it is raised above it. -/
theorem C26_epsilon_makes_pits :
    ∃ low high, EdgeQueues 7 4 exG (-9999) low high ∧
      (∃ b, Adj .D8 (1, 1) b ∧ InGrid 7 4 b ∧ exG b < exG (1, 1)) ∧
      ¬ ∃ b, Adj .D8 (1, 1) b ∧ resolveFlatsEpsilon 7 4 (· + 1) exG (-9999) low high b <
          resolveFlatsEpsilon 7 4 (· + 1) exG (-9999) low high (1, 1) := by
  refine ⟨_, _, ⟨List.Perm.refl _, List.Perm.refl _⟩, ⟨(2, 1), ?_, ?_, ?_⟩, ?_⟩
  · decide +kernel
  · decide +kernel
  · decide +kernel
  · rintro ⟨b, hb, hlt⟩
    obtain ⟨n, hn, rfl⟩ := adj_iff_nbr.1 hb
    have key : (dirs .D8).all (fun n => decide
        (¬ resolveFlatsEpsilon 7 4 (· + 1) exG (-9999)
            (scanLow 7 4 exG (findFlat 7 4 exG (-9999)))
            (scanHigh 7 4 exG (findFlat 7 4 exG (-9999))) (nbr .D8 (1, 1) n) <
          resolveFlatsEpsilon 7 4 (· + 1) exG (-9999)
            (scanLow 7 4 exG (findFlat 7 4 exG (-9999)))
            (scanHigh 7 4 exG (findFlat 7 4 exG (-9999))) (1, 1))) = true := by
      decide +kernel
    rw [List.all_eq_true] at key
    have := key n hn
    simp only [decide_eq_true_eq] at this
    exact this hlt

/-! #### Integer DEMs -/

/-- `std::nextafter(x, std::numeric_limits<int>::infinity())` converted back to `int`: the limit's
`infinity()` is 0 for integer types, so the step goes towards zero, and the conversion truncates.
Exact for `|x| < 2^53`. -/
def nextInt (x : Int) : Int := if 0 < x then x - 1 else if x < 0 then x + 1 else 0

/-- C26: on an integer DEM without negative elevations `ResolveFlatsEpsilon` never raises a cell:
it lowers. -/
theorem C26_integer_lowers (w h : Nat) (dem : Cell → Int) (nodata : Int) (low high : List Cell)
    (hpos : ∀ c, InGrid w h c → 0 ≤ dem c) (c : Cell) (hc : InGrid w h c) :
    resolveFlatsEpsilon w h nextInt dem nodata low high c ≤ dem c := by
  have key : ∀ (n : Nat) (x : Int), 0 ≤ x → 0 ≤ nextInt^[n] x ∧ nextInt^[n] x ≤ x := by
    intro n
    induction n with
    | zero => intro x hx; exact ⟨hx, le_refl _⟩
    | succ n ih =>
      intro x hx
      rw [Function.iterate_succ_apply']
      obtain ⟨h1, h2⟩ := ih x hx
      generalize nextInt^[n] x = y at *
      unfold nextInt
      split
      · omega
      · split <;> omega
  unfold resolveFlatsEpsilon resolveEpsilon
  split
  · split
    · exact le_refl _
    · exact (key _ _ (hpos c hc)).2
  · exact le_refl _

/-! #### ResolveFlatsFlowdirs -/

theorem rfold_none {w h : Nat} {mask labels : Cell → Int} {c : Cell} (hc : ¬ InGrid w h c) :
    ∀ (l : List Cell) (fd : Int → Int), c ∈ l → l.foldlM (rfCell w h mask labels) fd = none := by
  intro l
  induction l with
  | nil => intro fd h1; simp at h1
  | cons a l ih =>
    intro fd h1
    rw [List.foldlM_cons]
    by_cases h2 : a = c
    · subst h2
      have : rfCell w h mask labels fd a = none := by
        unfold rfCell
        have : inGrid w h a = false := by
          by_contra h3; exact hc (inGrid_iff.1 (by simpa using h3))
        simp [this]
      rw [this]; rfl
    · have h3 : c ∈ l := by
        rcases List.mem_cons.1 h1 with h4 | h4
        · exact absurd h4.symm h2
        · exact h4
      cases h4 : rfCell w h mask labels fd a with
      | none => rfl
      | some fd' => exact ih fd' h3

theorem mem_rfCells {w h : Nat} {c : Cell} : c ∈ rfCells w h ↔
    1 ≤ c.2 ∧ c.2 < (w : Int) - 1 ∧ 1 ≤ c.1 ∧ c.1 < (h : Int) - 1 := by
  obtain ⟨x, y⟩ := c
  simp only [rfCells, List.mem_flatMap, List.mem_map, List.mem_range'_1, Prod.mk.injEq]
  constructor
  · rintro ⟨y', h1, x', h2, rfl, rfl⟩
    omega
  · rintro ⟨h1, h2, h3, h4⟩
    exact ⟨y.toNat, by omega, x.toNat, by omega, by omega, by omega⟩

theorem nodup_rfCells (w h : Nat) : (rfCells w h).Nodup := by
  unfold rfCells
  rw [List.nodup_flatMap]
  refine ⟨fun y _ => ?_, ?_⟩
  · refine List.Nodup.map ?_ (List.nodup_range' (step := 1))
    intro a b hab
    simpa using hab
  · refine List.Pairwise.imp ?_ (List.nodup_range' (s := 1) (n := w - 2) (step := 1))
    intro a b hab
    rw [Function.onFun, List.disjoint_left]
    intro c h1 h2
    obtain ⟨_, _, rfl⟩ := List.mem_map.1 h1
    obtain ⟨_, _, h3⟩ := List.mem_map.1 h2
    simp at h3
    exact hab h3.2.symm

/-- C26: `ResolveFlatsFlowdirs` reads outside the raster on every raster with at least three rows
and columns whose width and height differ by two or more, whatever the data (its loop bounds are
interchanged). -/
theorem C26_flowdirs_out_of_bounds (w h : Nat) (hw : 3 ≤ w) (hh : 3 ≤ h)
    (hne : h + 2 ≤ w ∨ w + 2 ≤ h) (mask labels : Cell → Int) (fd : Int → Int) :
    resolveFlowdirs w h mask labels fd = none := by
  unfold resolveFlowdirs
  rcases hne with h1 | h1
  · refine rfold_none (c := (1, (h : Int))) ?_ _ _ (mem_rfCells.2 ?_)
    · rintro ⟨_, _, _, h2⟩; dsimp only at h2; omega
    · dsimp only; omega
  · refine rfold_none (c := ((w : Int), 1)) ?_ _ _ (mem_rfCells.2 ?_)
    · rintro ⟨_, h2, _, _⟩; dsimp only at h2; omega
    · dsimp only; omega

example : (3 ≤ 5 ∧ 3 ≤ 3) ∧ (3 + 2 ≤ 5 ∨ 5 + 2 ≤ 3) := by decide

/-- C26: on a square raster, a no-flow cell with no neighbour to drain to (a pit) makes the code
write to slot -1: the last slot of the cell before it. -/
theorem C26_flowdirs_corrupts :
    ∃ (mask labels : Cell → Int) (fd fd' : Int → Int),
      resolveFlowdirs 3 3 mask labels fd = some fd' ∧
      fd (9 * xyToI 3 (0, 1)) ≠ -1 ∧
      fd' (9 * xyToI 3 (0, 1) + 8) ≠ fd (9 * xyToI 3 (0, 1) + 8) := by
  refine ⟨fun _ => 0, fun _ => 0, fun j => if j = 9 * 4 then -1 else 0, _, rfl, ?_, ?_⟩ <;>
    decide +kernel

/-- What the flow-direction array looks like after the cells `l` were resolved. -/
def Resolved (w h : Nat) (mask labels : Cell → Int) (l : List Cell) (fd fd' : Int → Int) : Prop :=
  (∀ j, fd' j ≠ fd j → ∃ c ∈ l, fd (9 * xyToI w c) = -1 ∧ ∃ k : Int, 0 ≤ k ∧ k ≤ 8 ∧
      j = 9 * xyToI w c + k) ∧
  (∀ c ∈ l, fd (9 * xyToI w c) = -1 → fd' (9 * xyToI w c) = 0 ∧
    ∃ n ∈ dirs .D8, fd' (9 * xyToI w c + n) = 1 ∧
      (∀ k ∈ dirs .D8, k ≠ n → fd' (9 * xyToI w c + k) = fd (9 * xyToI w c + k)) ∧
      labels (nbr .D8 c n) = labels c ∧ mask (nbr .D8 c n) < mask c)

theorem xyToI_inj {w h : Nat} {a b : Cell} (ha : InGrid w h a) (hb : InGrid w h b)
    (e : xyToI w a = xyToI w b) : a = b := by
  obtain ⟨x, y⟩ := a; obtain ⟨x', y'⟩ := b
  obtain ⟨h1, h2, h3, h4⟩ := ha
  obtain ⟨h5, h6, h7, h8⟩ := hb
  simp only [xyToI] at *
  have hy : y = y' := by
    rcases lt_trichotomy y y' with h9 | h9 | h9
    · nlinarith
    · exact h9
    · nlinarith
  subst hy
  have hx : x = x' := by omega
  rw [hx]

theorem rfCell_good {w h : Nat} {mask labels : Cell → Int} {fd : Int → Int} {c : Cell}
    (hc : InGrid w h c) (he : ¬ OnEdge w h c) (hm : mask c ≠ -1)
    (hg : fd (9 * xyToI w c) = -1 → ∃ n ∈ dirs .D8, labels (nbr .D8 c n) = labels c ∧
      mask (nbr .D8 c n) < mask c) :
    ∃ fd', rfCell w h mask labels fd c = some fd' ∧ Resolved w h mask labels [c] fd fd' := by
  unfold rfCell
  rw [if_neg (by simp [inGrid_iff.2 hc])]
  dsimp only
  rw [if_neg hm]
  by_cases hf : fd (9 * xyToI w c) = -1
  · rw [if_neg (not_not_intro hf), if_neg]
    · have hs := scanDir_spec (fun n => mask (nbr .D8 c n)) (mask c)
        ((dirs .D8).filter (fun n => decide (labels (nbr .D8 c n) = labels c))) [] (mask c) 0
        (by intro n hn
            simp only [List.nil_append, List.mem_filter] at hn
            have := (mem_dirs.1 hn.1); omega)
        (.inl ⟨rfl, rfl, by simp⟩)
      simp only [List.nil_append] at hs
      generalize scanDir (fun n => mask (nbr .D8 c n))
        ((dirs .D8).filter (fun n => decide (labels (nbr .D8 c n) = labels c))) (mask c, 0) = r at *
      have hr : r.2 ∈ dirs .D8 ∧ labels (nbr .D8 c r.2) = labels c ∧
          mask (nbr .D8 c r.2) < mask c := by
        rcases hs with ⟨_, _, h3⟩ | ⟨h1, _, h3, _⟩
        · obtain ⟨n, hn, h4, h5⟩ := hg hf
          exact absurd h5 (h3 n (by simp [hn, h4]))
        · simp only [List.mem_filter, decide_eq_true_eq] at h1
          exact ⟨h1.1, h1.2, h3⟩
      obtain ⟨h1, h2, h3⟩ := hr
      have h4 : 1 ≤ r.2 ∧ r.2 ≤ 8 := by have := mem_dirs.1 h1; exact this
      rw [if_neg (by omega : ¬ r.2 = 0)]
      refine ⟨_, rfl, ?_, ?_⟩
      · intro j hj
        refine ⟨c, by simp, hf, j - 9 * xyToI w c, ?_⟩
        by_cases h5 : j = 9 * xyToI w c + (r.2 : Int)
        · refine ⟨?_, ?_, ?_⟩ <;> omega
        · rw [Function.update_of_ne h5] at hj
          by_cases h6 : j = 9 * xyToI w c + 0
          · refine ⟨?_, ?_, ?_⟩ <;> omega
          · rw [Function.update_of_ne h6] at hj; exact absurd rfl hj
      · intro c' hc' _
        obtain rfl := List.mem_singleton.1 hc'
        refine ⟨?_, r.2, h1, ?_, ?_, h2, h3⟩
        · rw [Function.update_of_ne (by omega), Int.add_zero, Function.update_self]
        · rw [Function.update_self]
        · intro k hk hne
          have : 1 ≤ k ∧ k ≤ 8 := mem_dirs.1 hk
          rw [Function.update_of_ne (by omega), Function.update_of_ne (by omega)]
    · simp only [List.any_eq_true, not_exists, not_and]
      intro n hn
      have := C23_reads_in_grid w h c _ hc he (nbr_adj hn)
      simp [inGrid_iff.2 this]
  · rw [if_pos hf]
    refine ⟨fd, rfl, fun j hj => absurd rfl hj, ?_⟩
    intro c' hc' h1
    obtain rfl := List.mem_singleton.1 hc'
    exact absurd h1 hf

theorem rfold_good {w h : Nat} {mask labels : Cell → Int} :
    ∀ (l : List Cell) (fd : Int → Int), l.Nodup →
      (∀ c ∈ l, InGrid w h c ∧ ¬ OnEdge w h c ∧ mask c ≠ -1 ∧
        (fd (9 * xyToI w c) = -1 → ∃ n ∈ dirs .D8, labels (nbr .D8 c n) = labels c ∧
          mask (nbr .D8 c n) < mask c)) →
      ∃ fd', l.foldlM (rfCell w h mask labels) fd = some fd' ∧
        Resolved w h mask labels l fd fd' := by
  intro l
  induction l with
  | nil => intro fd _ _; exact ⟨fd, rfl, fun j hj => absurd rfl hj, fun c hc => by simp at hc⟩
  | cons a l ih =>
    intro fd hnd hg
    rw [List.nodup_cons] at hnd
    obtain ⟨g1, g2, g3, g4⟩ := hg a (by simp)
    obtain ⟨fd1, e1, r1, r2⟩ := rfCell_good g1 g2 g3 g4
    -- slots of other cells are not touched
    have hkeep : ∀ c ∈ l, ∀ k : Int, 0 ≤ k → k ≤ 8 →
        fd1 (9 * xyToI w c + k) = fd (9 * xyToI w c + k) := by
      intro c hc k hk0 hk8
      by_contra hne
      obtain ⟨c', h1, _, k', h3, h4, h5⟩ := r1 _ hne
      obtain rfl := List.mem_singleton.1 h1
      have h6 : xyToI w c' = xyToI w c := by omega
      have h7 := xyToI_inj g1 (hg c (List.mem_cons_of_mem _ hc)).1 h6
      exact hnd.1 (h7 ▸ hc)
    have hkeep0 : ∀ c ∈ l, fd1 (9 * xyToI w c) = fd (9 * xyToI w c) := by
      intro c hc; have := hkeep c hc 0 (by omega) (by omega); simpa using this
    obtain ⟨fd2, e2, s1, s2⟩ := ih fd1 hnd.2 (fun c hc => by
      obtain ⟨k1, k2, k3, k4⟩ := hg c (List.mem_cons_of_mem _ hc)
      exact ⟨k1, k2, k3, fun h => k4 (by rw [← hkeep0 c hc]; exact h)⟩)
    have hkeep2 : ∀ k : Int, 0 ≤ k → k ≤ 8 →
        fd2 (9 * xyToI w a + k) = fd1 (9 * xyToI w a + k) := by
      intro k hk0 hk8
      by_contra hne
      obtain ⟨c', h1, _, k', h3, h4, h5⟩ := s1 _ hne
      have h6 : xyToI w c' = xyToI w a := by omega
      have h7 := xyToI_inj (hg c' (List.mem_cons_of_mem _ h1)).1 g1 h6
      exact hnd.1 (h7 ▸ h1)
    refine ⟨fd2, ?_, ?_, ?_⟩
    · rw [List.foldlM_cons, e1]; exact e2
    · intro j hj
      by_cases h1 : fd2 j = fd1 j
      · rw [h1] at hj
        obtain ⟨c, h2, h3⟩ := r1 j hj
        exact ⟨c, by rw [List.mem_singleton.1 h2]; simp, h3⟩
      · obtain ⟨c, h2, h3, h4⟩ := s1 j h1
        exact ⟨c, List.mem_cons_of_mem _ h2, by rw [← hkeep0 c h2]; exact h3, h4⟩
    · intro c hc h1
      rcases List.mem_cons.1 hc with h2 | h2
      · subst h2
        obtain ⟨h3, n, h4, h5, h6, h7⟩ := r2 c (by simp) h1
        refine ⟨?_, n, h4, ?_, ?_, h7⟩
        · have := hkeep2 0 (by omega) (by omega)
          simp only [Int.add_zero] at this
          rw [this]; exact h3
        · have : 1 ≤ n ∧ n ≤ 8 := mem_dirs.1 h4
          rw [hkeep2 n (by omega) (by omega)]; exact h5
        · intro k hk hne
          have : 1 ≤ k ∧ k ≤ 8 := mem_dirs.1 hk
          rw [hkeep2 k (by omega) (by omega)]; exact h6 k hk hne
      · obtain ⟨h3, n, h4, h5, h6, h7⟩ := s2 c h2 (by rw [hkeep0 c h2]; exact h1)
        refine ⟨h3, n, h4, h5, ?_, h7⟩
        intro k hk hne
        have : 1 ≤ k ∧ k ≤ 8 := mem_dirs.1 hk
        rw [h6 k hk hne, hkeep c h2 k (by omega) (by omega)]

/-- C26 (partial: square rasters only, and only if every no-flow interior cell has a neighbour of
its own label with a smaller mask; both conditions are necessary, see `C26_flowdirs_out_of_bounds`
and `C26_flowdirs_corrupts`): `ResolveFlatsFlowdirs` changes only the nine slots of no-flow
interior cells, and gives each of them one direction, towards a smaller mask in its own flat. -/
theorem C26_flowdirs_partial (w : Nat) (mask labels : Cell → Int) (fd : Int → Int)
    (hg : ∀ c, InGrid w w c → ¬ OnEdge w w c → mask c ≠ -1 ∧
      (fd (9 * xyToI w c) = -1 → ∃ n ∈ dirs .D8, labels (nbr .D8 c n) = labels c ∧
        mask (nbr .D8 c n) < mask c)) :
    ∃ fd', resolveFlowdirs w w mask labels fd = some fd' ∧
      (∀ c, InGrid w w c → (OnEdge w w c ∨ fd (9 * xyToI w c) ≠ -1) →
        ∀ k : Int, 0 ≤ k → k ≤ 8 → fd' (9 * xyToI w c + k) = fd (9 * xyToI w c + k)) ∧
      (∀ c, InGrid w w c → ¬ OnEdge w w c → fd (9 * xyToI w c) = -1 →
        fd' (9 * xyToI w c) = 0 ∧
        ∃ n ∈ dirs .D8, fd' (9 * xyToI w c + n) = 1 ∧
          (∀ k ∈ dirs .D8, k ≠ n → fd' (9 * xyToI w c + k) = fd (9 * xyToI w c + k)) ∧
          labels (nbr .D8 c n) = labels c ∧ mask (nbr .D8 c n) < mask c) := by
  have hin : ∀ c, c ∈ rfCells w w ↔ InGrid w w c ∧ ¬ OnEdge w w c := by
    rintro ⟨x, y⟩
    rw [mem_rfCells]
    constructor
    · rintro ⟨h1, h2, h3, h4⟩
      dsimp only at h1 h2 h3 h4
      refine ⟨⟨?_, ?_, ?_, ?_⟩, ?_⟩ <;> try (dsimp only; omega)
      rintro ⟨_, h5⟩; dsimp only at h5; omega
    · rintro ⟨⟨h1, h2, h3, h4⟩, h5⟩
      have h8 : ¬ (x = 0 ∨ y = 0 ∨ x = (w:Int) - 1 ∨ y = (w:Int) - 1) :=
        fun e => h5 ⟨⟨h1, h2, h3, h4⟩, e⟩
      dsimp only at *
      omega
  obtain ⟨fd', h1, h2, h3⟩ := rfold_good (w := w) (h := w) (mask := mask) (labels := labels)
    (rfCells w w) fd (nodup_rfCells w w)
    (fun c hc => ⟨((hin c).1 hc).1, ((hin c).1 hc).2, hg c ((hin c).1 hc).1 ((hin c).1 hc).2⟩)
  refine ⟨fd', h1, ?_, ?_⟩
  · intro c hc hor k hk0 hk8
    by_contra hne
    obtain ⟨c', h4, h5, k', h6, h7, h8⟩ := h2 _ hne
    have h9 : xyToI w c = xyToI w c' := by omega
    have h10 := xyToI_inj hc ((hin c').1 h4).1 h9
    subst h10
    rcases hor with h11 | h11
    · exact ((hin c).1 h4).2 h11
    · exact h11 h5
  · intro c hc he hf
    exact h3 c ((hin c).2 ⟨hc, he⟩) hf

/-! ### Non-vacuity -/

/-- A DEM with one flat, drained through its lower right corner. -/
def exF : Cell → Int := ofRows (-9999)
  [[9,9,9,9,9,9], [9,1,1,1,1,9], [9,1,1,1,1,9], [9,1,1,1,1,0], [9,9,9,9,9,9]]

/-- C26: and the flat is not resolved: after the call cell (2, 2) of the integer DEM `exF` still has
no lower neighbour (every cell of the flat was lowered to 0). -/
theorem C26_integer_unresolved :
    let r := resolveFlatsEpsilon 6 5 nextInt exF (-9999)
      (scanLow 6 5 exF (findFlat 6 5 exF (-9999))) (scanHigh 6 5 exF (findFlat 6 5 exF (-9999)))
    r (2, 2) = 0 ∧ (dirs .D8).all (fun n => decide (r (2, 2) ≤ r (nbr .D8 (2, 2) n))) = true := by
  decide +kernel

/-- The queues in scan order satisfy `EdgeQueues`; the results on `exF` are not trivial. -/
example : EdgeQueues 6 5 exF (-9999) (scanLow 6 5 exF (findFlat 6 5 exF (-9999)))
    (scanHigh 6 5 exF (findFlat 6 5 exF (-9999))) := ⟨.refl _, .refl _⟩

/-- So do the reversed queues. -/
example : EdgeQueues 6 5 exF (-9999) (scanLow 6 5 exF (findFlat 6 5 exF (-9999))).reverse
    (scanHigh 6 5 exF (findFlat 6 5 exF (-9999))).reverse :=
  ⟨List.reverse_perm _, List.reverse_perm _⟩

example : toRows 6 5 (findFlat 6 5 exF (-9999)) =
    [[0,0,0,0,0,0], [0,1,1,1,1,0], [0,1,1,1,0,0], [0,1,1,1,0,0], [0,0,0,0,0,0]] := by
  decide +kernel

example : toRows 6 5 (getFlatMask 6 5 exF (-9999) (scanLow 6 5 exF (findFlat 6 5 exF (-9999)))
      (scanHigh 6 5 exF (findFlat 6 5 exF (-9999)))).1 =
    [[0,0,0,0,0,0], [0,9,7,5,5,0], [0,9,6,4,2,0], [0,9,7,5,2,0], [0,0,0,0,0,0]] := by
  decide +kernel

/-- A drainable flat cell exists. -/
example : Drainable 6 5 exF (-9999) (1, 1) := by
  have hq : EdgeQueues 6 5 exF (-9999) (scanLow 6 5 exF (findFlat 6 5 exF (-9999)))
    (scanHigh 6 5 exF (findFlat 6 5 exF (-9999))) := ⟨.refl _, .refl _⟩
  have h1 : IsFlat 6 5 exF (-9999) (1, 1) := (findFlat_one (by decide +kernel)).1 (by decide +kernel)
  exact (C24_drainable 6 5 exF (-9999) _ _ hq (1, 1) h1).1 (by decide +kernel)

/-- The gap hypothesis of `C26_epsilon_no_new_pits` is met by `exF` scaled by 100. -/
example : (allCells 6 5).all (fun a => (allCells 6 5).all (fun b =>
    decide (exF a * 100 < exF b * 100 →
      resolveFlatsEpsilon 6 5 (· + 1) (fun c => exF c * 100) (-9999)
        (scanLow 6 5 (fun c => exF c * 100) (findFlat 6 5 (fun c => exF c * 100) (-9999)))
        (scanHigh 6 5 (fun c => exF c * 100) (findFlat 6 5 (fun c => exF c * 100) (-9999))) a <
      exF b * 100))) = true := by decide +kernel

/-- The hypotheses of `C26_flowdirs_partial` are met: a 3 by 3 raster whose no-flow centre has a
neighbour with a smaller mask. -/
example : ∃ fd', resolveFlowdirs 3 3 (fun c => if c = (1, 1) then 2 else 0) (fun _ => 1)
    (fun j => if j = 36 then -1 else 0) = some fd' ∧ fd' 36 = 0 := by
  refine ⟨_, rfl, ?_⟩; decide +kernel

end RichDEM
