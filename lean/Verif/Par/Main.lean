/-
The parallel Priority-Flood as a whole, programs/parallel_priority_flood/main.cpp: the tiling made
by `Preparer`, the two rounds, and the collection of results in any order.

Simplifications: the message passing is the collection of the first-round results in some order,
which may be any; with `@evict` the second round floods the tile again, with `@retain` it keeps the
flooded tile, which is the same in the model.  No tile is null.  In <one> mode no tile is flipped;
in <many> mode all tiles have the same size and any of them may be stored mirrored.  `Preparer`
refuses tilings whose last tile is narrower than 100 cells; the model has no such limit.
-/
import Verif.Par.Merge

namespace RichDEM

variable {E : Type*} [LinearOrder E]

/-- A raster, the block size requested by the user (or the common size of the tiles) and which tiles
`(row, column)` are stored mirrored (`FLIP_HORZ`, `FLIP_VERT`, main.cpp:944-954). -/
structure Tiling where
  W : Nat
  H : Nat
  bw : Nat
  bh : Nat
  fh : Nat × Nat → Bool := fun _ => false
  fv : Nat × Nat → Bool := fun _ => false

/-- main.cpp:978-980: the number of iterations of `for(x=0;x<total;x+=b)`. -/
def blocks (total b : Nat) : Nat := (total + b - 1) / b

/-- main.cpp:1027-1028: `(total-x>=b)?b:total-x` for the block with number `i`. -/
def blockLen (total b i : Nat) : Nat := if b ≤ total - i * b then b else total - i * b

namespace Tiling
variable (T : Tiling)

/-- Number of tile columns. -/
def gw : Nat := blocks T.W T.bw
/-- Number of tile rows. -/
def gh : Nat := blocks T.H T.bh
/-- Width of the tiles in column `i`. -/
def tw (i : Nat) : Nat := blockLen T.W T.bw i
/-- Height of the tiles in row `j`. -/
def th (j : Nat) : Nat := blockLen T.H T.bh j

/-- The cell of the raster that is cell `c` of tile `t` (`tile.x`, `tile.y`, main.cpp:1025-1026). -/
def glob (t : Nat × Nat) (c : Cell) : Cell := (c.1 + ((t.2 * T.bw : Nat) : Int), c.2 + ((t.1 * T.bh : Nat) : Int))

/-- The cell belongs to tile `t`. -/
def InTile (t : Nat × Nat) (c : Cell) : Prop := t.1 < T.gh ∧ t.2 < T.gw ∧ InGrid (T.tw t.2) (T.th t.1) c

/-- main.cpp:1042-1050: which edges of the tile are edges of the raster. -/
def edges (t : Nat × Nat) : TileEdges :=
  { top := decide (t.1 = 0), bottom := decide (t.1 + 1 = T.gh), left := decide (t.2 = 0), right := decide (t.2 + 1 = T.gw) }

end Tiling

/-- Position `c` of a tile of `w` by `h` cells seen in a mirror. -/
def flipCell (fh fv : Bool) (w h : Nat) (c : Cell) : Cell :=
  (if fh then (w : Int) - 1 - c.1 else c.1, if fv then (h : Int) - 1 - c.2 else c.2)

/-- Zhou2016pf.hpp:206-223: which edges of the stored tile are edges of the raster. -/
def TileEdges.flip (fh fv : Bool) (ed : TileEdges) : TileEdges :=
  { top := (ed.top && !fv) || (ed.bottom && fv)
    bottom := (ed.bottom && !fv) || (ed.top && fv)
    left := (ed.left && !fh) || (ed.right && fh)
    right := (ed.right && !fh) || (ed.left && fh) }

/-- The cell of the raster stored at position `c` of the file of tile `t`. -/
def Tiling.stored (T : Tiling) (t : Nat × Nat) (c : Cell) : Cell :=
  T.glob t (flipCell (T.fh t) (T.fv t) (T.tw t.2) (T.th t.1) c)

/-- main.cpp:200-238 `LoadFromEvict`: read the tile and flood it. -/
def tileFile (T : Tiling) (pq : Nat × Nat → PQ (E × Cell) zLt) (dem : Cell → E) (t : Nat × Nat) : ZL E :=
  zhouLabels (pq t) (T.tw t.2) (T.th t.1) ((T.edges t).flip (T.fh t) (T.fv t)) (fun c => dem (T.stored t c))

/-- The flooded tile the right way round (used in the proofs only). -/
def tileFlood (T : Tiling) (pq : Nat × Nat → PQ (E × Cell) zLt) (dem : Cell → E) (t : Nat × Nat) : ZL E :=
  let s := tileFile T pq dem t
  { s with
    elev := fun c => s.elev (flipCell (T.fh t) (T.fv t) (T.tw t.2) (T.th t.1) c)
    lbl := fun c => s.lbl (flipCell (T.fh t) (T.fv t) (T.tw t.2) (T.th t.1) c) }

/-- main.cpp:276-289 `FirstRound`: graph and perimeter of a flooded tile of `w` by `h` cells. -/
def firstRows (w h : Nat) (s : ZL E) : PJob E :=
  { top := { len := w, elev := fun i => s.elev ((i : Int), 0), lbl := fun i => s.lbl ((i : Int), 0) }
    bot := { len := w, elev := fun i => s.elev ((i : Int), (h : Int) - 1), lbl := fun i => s.lbl ((i : Int), (h : Int) - 1) }
    left := { len := h, elev := fun i => s.elev (0, (i : Int)), lbl := fun i => s.lbl (0, (i : Int)) }
    right := { len := h, elev := fun i => s.elev ((w : Int) - 1, (i : Int)), lbl := fun i => s.lbl ((w : Int) - 1, (i : Int)) }
    graph := s.g }

/-- `std::reverse` on the elevations and labels of a row. -/
def EdgeRow.rev (r : EdgeRow E) : EdgeRow E :=
  { len := r.len, elev := fun i => r.elev (r.len - 1 - i), lbl := fun i => r.lbl (r.len - 1 - i) }

/-- main.cpp:297-304. -/
def PJob.flipV (j : PJob E) : PJob E := { j with top := j.bot, bot := j.top, left := j.left.rev, right := j.right.rev }

/-- main.cpp:305-312. -/
def PJob.flipH (j : PJob E) : PJob E := { j with left := j.right, right := j.left, top := j.top.rev, bot := j.bot.rev }

/-- main.cpp:276-313 `FirstRound`. -/
def firstRound (fh fv : Bool) (w h : Nat) (s : ZL E) : PJob E :=
  let j := firstRows w h s
  let j := if fv then j.flipV else j
  if fh then j.flipH else j

/-- The first-round result of a tile. -/
def tileJob (T : Tiling) (pq : Nat × Nat → PQ (E × Cell) zLt) (dem : Cell → E) (t : Nat × Nat) : PJob E :=
  firstRound (T.fh t) (T.fv t) (T.tw t.2) (T.th t.1) (tileFile T pq dem t)

/-- main.cpp:746-765: `Producer` stores the results, `jobs1.at(gridy).at(gridx) = job`, in the order
in which they arrive. -/
def collect {A : Type*} (order : List (Nat × Nat)) (f : Nat × Nat → A) (d : A) : Nat × Nat → A :=
  order.foldl (fun m t => Function.update m t (f t)) (fun _ => d)

/-- main.cpp:315-321 `SecondRound` on the stored tile, with main.cpp:545-550 `DistributeJob2`: `off` is the tile's label
offset. -/
def secondRound (s : ZL E) (off : Nat) (gelev : Nat → E) (c : Cell) : E :=
  if 1 < s.lbl c ∧ s.elev c < gelev (off + s.lbl c) then gelev (off + s.lbl c) else s.elev c

/-- Everything the program computes. -/
structure ParResult (E : Type*) where
  master : MG E
  flood : VF E
  out : Nat × Nat → Cell → E

/-- main.cpp:700-795 `Producer`: the whole computation; `order` is the order in which first-round
results arrive. -/
def parallelFill (T : Tiling) (pq : Nat × Nat → PQ (E × Cell) zLt) (vq : PQ (E × Nat) vLt) (lo zero : E)
    (order : List (Nat × Nat)) (junk : PJob E) (dem : Cell → E) : ParResult E :=
  let jobs := collect order (tileJob T pq dem) junk
  let M := masterGraph jobs T.gh T.gw
  let V := vFlood vq lo zero M.g
  { master := M, flood := V, out := fun t c => secondRound (tileFile T pq dem t) (M.offs t) V.gelev c }

/-! ### Geometry -/

theorem blockLen_le {W b i : Nat} : blockLen W b i ≤ b ∧ blockLen W b i ≤ W - i * b := by
  unfold blockLen; split_ifs <;> omega

theorem blocks_iff {W b i : Nat} (hb : 0 < b) : i < blocks W b ↔ i * b < W := by
  unfold blocks
  rw [Nat.lt_div_iff_mul_lt hb]
  omega

theorem blockLen_pos {W b i : Nat} (hb : 0 < b) (hi : i < blocks W b) : 0 < blockLen W b i := by
  rw [blocks_iff hb] at hi
  unfold blockLen; split_ifs <;> omega

theorem blockLen_full {W b i : Nat} (hb : 0 < b) (hi : i + 1 < blocks W b) : blockLen W b i = b := by
  rw [blocks_iff hb, Nat.succ_mul] at hi
  unfold blockLen; rw [if_pos]; omega

/-- A block position inside the raster. -/
theorem block_in {W b i : Nat} {c : Int} (h0 : 0 ≤ c) (h1 : c < blockLen W b i) :
    0 ≤ c + ((i * b : Nat) : Int) ∧ c + ((i * b : Nat) : Int) < W := by
  have := (blockLen_le (W := W) (b := b) (i := i)).2
  omega

/-- Every position of the raster lies in a block. -/
theorem block_exists {W b : Nat} (hb : 0 < b) {x : Int} (h0 : 0 ≤ x) (h1 : x < W) :
    ∃ i : Nat, ∃ c : Int, i < blocks W b ∧ 0 ≤ c ∧ c < blockLen W b i ∧ c + ((i * b : Nat) : Int) = x := by
  obtain ⟨n, rfl⟩ := Int.eq_ofNat_of_zero_le h0
  have hn : n < W := by omega
  have e := Nat.div_add_mod n b
  have m := Nat.mod_lt n hb
  rw [Nat.mul_comm] at e
  refine ⟨n / b, ((n % b : Nat) : Int), (blocks_iff hb).2 (by omega), by omega, ?_, by omega⟩
  unfold blockLen
  split_ifs <;> omega

/-- Two block positions at most one apart. -/
theorem block_near {W b i j : Nat} (hb : 0 < b) (hi : i < blocks W b) (hj : j < blocks W b) {c d : Int} (c0 : 0 ≤ c)
    (c1 : c < blockLen W b i) (d0 : 0 ≤ d) (d1 : d < blockLen W b j)
    (hn : ((d + ((j * b : Nat) : Int)) - (c + ((i * b : Nat) : Int))).natAbs ≤ 1) :
    (i = j ∧ (d - c).natAbs ≤ 1) ∨ (j = i + 1 ∧ c = (blockLen W b i : Int) - 1 ∧ d = 0) ∨
    (i = j + 1 ∧ d = (blockLen W b j : Int) - 1 ∧ c = 0) := by
  have l1 := (blockLen_le (W := W) (b := b) (i := i)).1
  have l2 := (blockLen_le (W := W) (b := b) (i := j)).1
  rcases Nat.lt_trichotomy i j with h1 | h1 | h1
  · obtain ⟨k, rfl⟩ : ∃ k, j = i + 1 + k := ⟨j - i - 1, by omega⟩
    have e : (i + 1 + k) * b = i * b + b + k * b := by ring
    have f : blockLen W b i = b := blockLen_full hb (by omega)
    rw [e] at hn
    have hk : k = 0 := by
      by_contra hk
      have := Nat.mul_le_mul_right b (Nat.one_le_iff_ne_zero.2 hk)
      omega
    subst hk
    right; left
    refine ⟨rfl, ?_, ?_⟩ <;> omega
  · subst h1; left; exact ⟨rfl, by omega⟩
  · obtain ⟨k, rfl⟩ : ∃ k, i = j + 1 + k := ⟨i - j - 1, by omega⟩
    have e : (j + 1 + k) * b = j * b + b + k * b := by ring
    have f : blockLen W b j = b := blockLen_full hb (by omega)
    rw [e] at hn
    have hk : k = 0 := by
      by_contra hk
      have := Nat.mul_le_mul_right b (Nat.one_le_iff_ne_zero.2 hk)
      omega
    subst hk
    right; right
    refine ⟨rfl, ?_, ?_⟩ <;> omega

theorem block_unique {W b i j : Nat} (hb : 0 < b) (hi : i < blocks W b) (hj : j < blocks W b) {c d : Int} (c0 : 0 ≤ c)
    (c1 : c < blockLen W b i) (d0 : 0 ≤ d) (d1 : d < blockLen W b j)
    (he : c + ((i * b : Nat) : Int) = d + ((j * b : Nat) : Int)) : i = j ∧ c = d := by
  rcases block_near hb hi hj c0 c1 d0 d1 (by omega) with ⟨h1, _⟩ | ⟨rfl, h2, h3⟩ | ⟨rfl, h2, h3⟩
  · subst h1; omega
  · have f : blockLen W b i = b := blockLen_full hb hj
    rw [Nat.succ_mul] at he; omega
  · have f : blockLen W b j = b := blockLen_full hb hi
    rw [Nat.succ_mul] at he; omega

variable {T : Tiling}

theorem Tiling.InTile.inGrid {t : Nat × Nat} {c : Cell} (ht : T.InTile t c) : InGrid T.W T.H (T.glob t c) := by
  obtain ⟨_, _, h1, h2, h3, h4⟩ := ht
  have a := block_in h1 h2
  have b := block_in h3 h4
  exact ⟨a.1, a.2, b.1, b.2⟩

theorem Tiling.cover (hbw : 0 < T.bw) (hbh : 0 < T.bh) {x : Cell} (hx : InGrid T.W T.H x) :
    ∃ t c, T.InTile t c ∧ T.glob t c = x := by
  obtain ⟨h1, h2, h3, h4⟩ := hx
  obtain ⟨i, c, a1, a2, a3, a4⟩ := block_exists hbw h1 h2
  obtain ⟨j, d, b1, b2, b3, b4⟩ := block_exists hbh h3 h4
  exact ⟨(j, i), (c, d), ⟨b1, a1, a2, a3, b2, b3⟩, Prod.ext a4 b4⟩

theorem Tiling.glob_inj (hbw : 0 < T.bw) (hbh : 0 < T.bh) {t t' : Nat × Nat} {c c' : Cell} (ht : T.InTile t c)
    (ht' : T.InTile t' c') (he : T.glob t c = T.glob t' c') : t = t' ∧ c = c' := by
  obtain ⟨a1, a2, a3, a4, a5, a6⟩ := ht
  obtain ⟨b1, b2, b3, b4, b5, b6⟩ := ht'
  obtain ⟨x1, x2⟩ := block_unique hbw a2 b2 a3 a4 b3 b4 (congrArg Prod.fst he)
  obtain ⟨y1, y2⟩ := block_unique hbh a1 b1 a5 a6 b5 b6 (congrArg Prod.snd he)
  exact ⟨Prod.ext y1 x1, Prod.ext x2 y2⟩

theorem Tiling.adj_glob {t : Nat × Nat} {c c' : Cell} : Adj .D8 (T.glob t c) (T.glob t c') ↔ Adj .D8 c c' := by
  obtain ⟨c1, c2⟩ := c
  obtain ⟨d1, d2⟩ := c'
  simp only [Adj, Tiling.glob, ne_eq, Prod.mk.injEq]
  constructor <;> rintro ⟨h1, h2, h3⟩ <;> refine ⟨fun h => h1 ?_, ?_, ?_⟩ <;> omega

/-! ### The raster seen as a whole -/

theorem mem_tileList {gh gw : Nat} {t : Nat × Nat} : t ∈ tileList gh gw ↔ t.1 < gh ∧ t.2 < gw := by
  obtain ⟨a, b⟩ := t
  simp [tileList, List.mem_product]

open Classical in
/-- Tile and position of a cell of the raster. -/
noncomputable def Tiling.find (T : Tiling) (x : Cell) : (Nat × Nat) × Cell :=
  if h : ∃ p : (Nat × Nat) × Cell, T.InTile p.1 p.2 ∧ T.glob p.1 p.2 = x then h.choose else ((0, 0), (0, 0))

theorem Tiling.find_glob (hbw : 0 < T.bw) (hbh : 0 < T.bh) {t : Nat × Nat} {c : Cell} (ht : T.InTile t c) :
    T.find (T.glob t c) = (t, c) := by
  have h : ∃ p : (Nat × Nat) × Cell, T.InTile p.1 p.2 ∧ T.glob p.1 p.2 = T.glob t c := ⟨(t, c), ht, rfl⟩
  unfold Tiling.find
  rw [dif_pos h]
  obtain ⟨h1, h2⟩ := h.choose_spec
  obtain ⟨e1, e2⟩ := Tiling.glob_inj hbw hbh h1 ht h2
  exact Prod.ext e1 e2

theorem flipCell_inv {fh fv : Bool} {w h : Nat} {c : Cell} :
    flipCell fh fv w h (flipCell fh fv w h c) = c := by
  obtain ⟨x, y⟩ := c
  unfold flipCell
  cases fh <;> cases fv <;> simp

theorem flipCell_inGrid {fh fv : Bool} {w h : Nat} {c : Cell} (hc : InGrid w h c) : InGrid w h (flipCell fh fv w h c) := by
  obtain ⟨x, y⟩ := c
  simp only [InGrid, flipCell] at *
  split_ifs <;> omega

theorem flipCell_adj {fh fv : Bool} {w h : Nat} {c d : Cell} (ha : Adj .D8 c d) :
    Adj .D8 (flipCell fh fv w h c) (flipCell fh fv w h d) := by
  obtain ⟨x, y⟩ := c
  obtain ⟨x', y'⟩ := d
  simp only [Adj, flipCell, ne_eq, Prod.mk.injEq] at *
  cases fh <;> cases fv <;> simp <;> omega

theorem flipCell_onEdge {fh fv : Bool} {w h : Nat} {c : Cell} (hc : OnEdge w h c) : OnEdge w h (flipCell fh fv w h c) := by
  refine ⟨flipCell_inGrid hc.1, ?_⟩
  obtain ⟨x, y⟩ := c
  simp only [OnEdge, InGrid, flipCell] at *
  cases fh <;> cases fv <;> simp <;> omega

theorem flipCell_drains {fh fv : Bool} {w h : Nat} {dem : Cell → E} {z : E} {c : Cell}
    (hd : Drains w h .D8 (fun c => dem (flipCell fh fv w h c)) z c) : Drains w h .D8 dem z (flipCell fh fv w h c) := by
  induction hd with
  | edge h1 h2 => exact .edge (flipCell_onEdge h1) h2
  | step h1 h2 h3 _ ih => exact .step (flipCell_inGrid h1) h2 (flipCell_adj h3) ih

theorem mem_outside {w h : Nat} {ed : TileEdges} {c : Cell} (hc : InGrid w h c) : c ∈ outsideCells w h ed ↔
    (ed.top = true ∧ c.2 = 0) ∨ (ed.bottom = true ∧ c.2 = (h : Int) - 1) ∨ (ed.left = true ∧ c.1 = 0) ∨
    (ed.right = true ∧ c.1 = (w : Int) - 1) := by
  obtain ⟨c1, c2⟩ := c
  obtain ⟨h1, h2, h3, h4⟩ := hc
  simp only at h1 h2 h3 h4
  unfold outsideCells
  simp only [List.mem_append]
  constructor
  · rintro (((h | h) | h) | h) <;> split_ifs at h with hh <;>
      simp only [List.mem_map, List.mem_range, Prod.mk.injEq, List.not_mem_nil] at h
    all_goals obtain ⟨n, a1, a2, a3⟩ := h; simp only [hh, true_and]; omega
  · rintro (⟨a, rfl⟩ | ⟨a, rfl⟩ | ⟨a, rfl⟩ | ⟨a, rfl⟩)
    · left; left; left; rw [if_pos a]
      exact List.mem_map.2 ⟨c1.toNat, List.mem_range.2 (by omega), by simp only [Prod.mk.injEq]; exact ⟨by omega, trivial⟩⟩
    · left; left; right; rw [if_pos a]
      exact List.mem_map.2 ⟨c1.toNat, List.mem_range.2 (by omega), by simp only [Prod.mk.injEq]; exact ⟨by omega, trivial⟩⟩
    · left; right; rw [if_pos a]
      exact List.mem_map.2 ⟨c2.toNat, List.mem_range.2 (by omega), by simp only [Prod.mk.injEq]; exact ⟨trivial, by omega⟩⟩
    · right; rw [if_pos a]
      exact List.mem_map.2 ⟨c2.toNat, List.mem_range.2 (by omega), by simp only [Prod.mk.injEq]; exact ⟨trivial, by omega⟩⟩

theorem flip_outside {fh fv : Bool} {w h : Nat} {ed : TileEdges} {c : Cell} (hc : InGrid w h c) :
    flipCell fh fv w h c ∈ outsideCells w h (ed.flip fh fv) ↔ c ∈ outsideCells w h ed := by
  rw [mem_outside hc, mem_outside (flipCell_inGrid hc)]
  obtain ⟨x, y⟩ := c
  obtain ⟨e1, e2, e3, e4⟩ := ed
  simp only [flipCell, TileEdges.flip]
  cases fh <;> cases fv <;> simp <;> constructor <;>
    (rintro (⟨a, b⟩ | ⟨a, b⟩ | ⟨a, b⟩ | ⟨a, b⟩) <;> simp only [a, true_and] <;> omega)

/-- Mirroring a flooded tile. -/
theorem flip_spec {fh fv : Bool} {w h : Nat} (hw : 0 < w) (hh : 0 < h) (ed : TileEdges) (dem : Cell → E) (s : ZL E)
    (S : LabelSpec w h (ed.flip fh fv) (fun c => dem (flipCell fh fv w h c)) s) :
    LabelSpec w h ed dem { s with elev := fun c => s.elev (flipCell fh fv w h c), lbl := fun c => s.lbl (flipCell fh fv w h c) } := by
  refine ⟨?_, fun c hc => S.range _ (flipCell_inGrid hc), ?_, ?_, ?_, ?_, ?_, S.ok, S.size⟩
  · intro c hc
    have h1 := isWaterLevel_iff.1 (S.filled _ (flipCell_inGrid (fh := fh) (fv := fv) hc))
    refine isWaterLevel_iff.2 ⟨?_, ?_⟩
    · have := flipCell_drains h1.1
      rwa [flipCell_inv] at this
    · intro z hz
      refine h1.2 z (flipCell_drains ?_)
      simp only [flipCell_inv]; exact hz
  · obtain ⟨root, hr⟩ := S.shed
    refine ⟨fun l => flipCell fh fv w h (root l), ?_⟩
    intro c hc
    have key : ∀ a b, Shed s.elev s.lbl a b → Shed (fun c => s.elev (flipCell fh fv w h c)) (fun c => s.lbl (flipCell fh fv w h c))
        (flipCell fh fv w h a) (flipCell fh fv w h b) := by
      intro a b hab
      induction hab with
      | refl => exact .refl
      | tail _ h1 ih =>
        obtain ⟨a1, a2, a3, a4⟩ := h1
        refine ih.tail ⟨flipCell_adj a1, ?_, ?_, ?_⟩ <;> simp only [flipCell_inv] <;> assumption
    have := key _ _ (hr _ (flipCell_inGrid (fh := fh) (fv := fv) hc))
    rw [flipCell_inv] at this
    exact this
  · intro c hc
    have := flipCell_inGrid (fh := fh) (fv := fv) (S.inside _ hc)
    rwa [flipCell_inv] at this
  · intro a b v hv
    obtain ⟨h1, h2⟩ := S.gsound a b v hv
    refine ⟨h1, ?_⟩
    rcases h2 with ⟨p, q, a1, a2, a3, a4, a5, a6, a7⟩ | ⟨a1, c, a2, a3, a4, a5⟩
    · left
      refine ⟨flipCell fh fv w h p, flipCell fh fv w h q, flipCell_adj a1, flipCell_inGrid a2, flipCell_inGrid a3, ?_, ?_, ?_, ?_⟩ <;>
        simp only [flipCell_inv] <;> assumption
    · right
      refine ⟨a1, flipCell fh fv w h c, ?_, flipCell_inGrid a3, ?_, ?_⟩
      · rw [← flip_outside (flipCell_inGrid a3), flipCell_inv]; exact a2
      · simp only [flipCell_inv]; exact a4
      · simp only [flipCell_inv]; exact a5
  · intro p q h1 h2 h3 h4
    exact S.gcomp _ _ (flipCell_adj h1) (flipCell_inGrid h2) (flipCell_inGrid h3) h4
  · intro c hc
    exact S.gout _ ((flip_outside (outside_inGrid hw hh hc)).2 hc)

/-- Row `r` shows the cells `f 0`, …, `f (n-1)` of the tile. -/
def RowOf (s : ZL E) (n : Nat) (f : Nat → Cell) (r : EdgeRow E) : Prop :=
  r.len = n ∧ ∀ i, i < n → r.elev i = s.elev (f i) ∧ r.lbl i = s.lbl (f i)

/-- The job describes the tile. -/
structure JobOf (w h : Nat) (s : ZL E) (j : PJob E) : Prop where
  top : RowOf s w (fun i => ((i : Int), 0)) j.top
  bot : RowOf s w (fun i => ((i : Int), (h : Int) - 1)) j.bot
  left : RowOf s h (fun i => (0, (i : Int))) j.left
  right : RowOf s h (fun i => ((w : Int) - 1, (i : Int))) j.right
  graph : j.graph = s.g

/-- Flipping the perimeter is reading the perimeter of the flipped tile. -/
theorem firstRound_ok {fh fv : Bool} {w h : Nat} {s : ZL E} :
    JobOf w h { s with elev := fun c => s.elev (flipCell fh fv w h c), lbl := fun c => s.lbl (flipCell fh fv w h c) }
      (firstRound fh fv w h s) := by
  have e : ∀ {n i : Nat}, i < n → ((n - 1 - i : Nat) : Int) = (n : Int) - 1 - i := by intro n i hi; omega
  cases fh <;> cases fv <;> refine ⟨⟨rfl, ?_⟩, ⟨rfl, ?_⟩, ⟨rfl, ?_⟩, ⟨rfl, ?_⟩, rfl⟩ <;> intro i hi <;>
    simp [firstRound, firstRows, PJob.flipV, PJob.flipH, EdgeRow.rev, flipCell, e hi]

/-- The setting: the producer has the first-round results of all tiles. -/
structure ParCtx (T : Tiling) (pq : Nat × Nat → PQ (E × Cell) zLt) (dem : Cell → E) (jobs : Nat × Nat → PJob E) : Prop where
  hbw : 0 < T.bw
  hbh : 0 < T.bh
  hW : 0 < T.W
  hH : 0 < T.H
  hj : ∀ t ∈ tileList T.gh T.gw, JobOf (T.tw t.2) (T.th t.1) (tileFlood T pq dem t) (jobs t)

/-- The raster of flooded tiles. -/
noncomputable def flF (T : Tiling) (pq : Nat × Nat → PQ (E × Cell) zLt) (dem : Cell → E) (x : Cell) : E :=
  (tileFlood T pq dem (T.find x).1).elev (T.find x).2

/-- The raster of globally numbered watersheds. -/
noncomputable def flL (T : Tiling) (pq : Nat × Nat → PQ (E × Cell) zLt) (dem : Cell → E) (offs : Nat × Nat → Nat)
    (x : Cell) : Nat :=
  ren (offs (T.find x).1) ((tileFlood T pq dem (T.find x).1).lbl (T.find x).2)

section ctx
variable {pq : Nat × Nat → PQ (E × Cell) zLt} {dem : Cell → E} {jobs : Nat × Nat → PJob E} (K : ParCtx T pq dem jobs)
include K

theorem ParCtx.F_glob {t : Nat × Nat} {c : Cell} (ht : T.InTile t c) :
    flF T pq dem (T.glob t c) = (tileFlood T pq dem t).elev c := by
  unfold flF; rw [Tiling.find_glob K.hbw K.hbh ht]

theorem ParCtx.L_glob {offs : Nat × Nat → Nat} {t : Nat × Nat} {c : Cell} (ht : T.InTile t c) :
    flL T pq dem offs (T.glob t c) = ren (offs t) ((tileFlood T pq dem t).lbl c) := by
  unfold flL; rw [Tiling.find_glob K.hbw K.hbh ht]

theorem ParCtx.spec {t : Nat × Nat} (ht : t.1 < T.gh ∧ t.2 < T.gw) :
    LabelSpec (T.tw t.2) (T.th t.1) (T.edges t) (fun c => dem (T.glob t c)) (tileFlood T pq dem t) :=
  flip_spec (blockLen_pos K.hbw ht.2) (blockLen_pos K.hbh ht.1) _ _ _ (zhouLabels_spec _ _ _ (blockLen_pos K.hbw ht.2) (blockLen_pos K.hbh ht.1))

theorem ParCtx.tg {t : Nat × Nat} (ht : t ∈ tileList T.gh T.gw) : TG (jobs t).graph := by
  rw [(K.hj t ht).graph]
  have ht' := mem_tileList.1 ht
  have S := K.spec ht'
  have hwp : 0 < T.tw t.2 := blockLen_pos K.hbw ht'.2
  have hhp : 0 < T.th t.1 := blockLen_pos K.hbh ht'.1
  refine ⟨?_, ?_⟩
  · intro l k v hv
    have hsz : (tileFlood T pq dem t).g.size = (tileFlood T pq dem t).cur := S.size
    rw [hsz]
    obtain ⟨h1, ⟨p, q, _, hp, hq, rfl, rfl, _, _⟩ | ⟨rfl, c, _, hc, rfl, _⟩⟩ := S.gsound l k v hv
    · have a := S.range p hp; have b := S.range q hq; omega
    · have a := S.range c hc; omega
  · have hsz : (tileFlood T pq dem t).g.size = (tileFlood T pq dem t).cur := S.size
    have := S.range (0, 0) ⟨le_rfl, by simpa using hwp, le_rfl, by simpa using hhp⟩
    omega

theorem ParCtx.merged : MergeInv jobs ((tileList T.gh T.gw).map (fun t => (jobs t).graph.size)).sum (tileList T.gh T.gw)
    (mergeAll jobs T.gh T.gw) := mergeAll_spec (fun _ ht => K.tg ht)

theorem ParCtx.size {t : Nat × Nat} (ht : t ∈ tileList T.gh T.gw) : (jobs t).graph.size = (tileFlood T pq dem t).cur := by
  rw [(K.hj t ht).graph]; exact (K.spec (mem_tileList.1 ht)).size

/-- The labels are in range. -/
theorem ParCtx.lbl_lt {t : Nat × Nat} {c : Cell} (ht : T.InTile t c) :
    ren ((mergeAll jobs T.gh T.gw).offs t) ((tileFlood T pq dem t).lbl c) <
      ((tileList T.gh T.gw).map (fun t => (jobs t).graph.size)).sum ∧
    2 ≤ ren ((mergeAll jobs T.gh T.gw).offs t) ((tileFlood T pq dem t).lbl c) := by
  have hm : t ∈ tileList T.gh T.gw := mem_tileList.2 ⟨ht.1, ht.2.1⟩
  have a := (K.spec ⟨ht.1, ht.2.1⟩).range c ht.2.2
  have b := K.merged.below t hm
  have o := K.merged.off
  rw [K.size hm] at b
  rw [ren_pos a.1]
  omega

/-- Cells with the same global label are in the same watershed of the same tile. -/
theorem ParCtx.same {t t' : Nat × Nat} {c c' : Cell} (ht : T.InTile t c) (ht' : T.InTile t' c')
    (he : ren ((mergeAll jobs T.gh T.gw).offs t) ((tileFlood T pq dem t).lbl c) =
      ren ((mergeAll jobs T.gh T.gw).offs t') ((tileFlood T pq dem t').lbl c')) :
    t = t' ∧ (tileFlood T pq dem t).lbl c = (tileFlood T pq dem t').lbl c' := by
  have hm : t ∈ tileList T.gh T.gw := mem_tileList.2 ⟨ht.1, ht.2.1⟩
  have hm' : t' ∈ tileList T.gh T.gw := mem_tileList.2 ⟨ht'.1, ht'.2.1⟩
  have a := (K.spec ⟨ht.1, ht.2.1⟩).range c ht.2.2
  have a' := (K.spec ⟨ht'.1, ht'.2.1⟩).range c' ht'.2.2
  rw [ren_pos a.1, ren_pos a'.1] at he
  by_cases htt : t = t'
  · subst htt; exact ⟨rfl, by omega⟩
  · exfalso
    have := K.merged.apart t hm t' hm' htt
    unfold Apart at this
    rw [K.size hm, K.size hm'] at this
    omega

end ctx

/-- A spill elevation between two adjacent cells. -/
def Spill (T : Tiling) (F : Cell → E) (L : Cell → Nat) (a b : Nat) (v : E) : Prop :=
  ∃ x y, InGrid T.W T.H x ∧ InGrid T.W T.H y ∧ Adj .D8 x y ∧ L x = a ∧ L y = b ∧ F x ≤ v ∧ F y ≤ v

section ctx
variable {pq : Nat × Nat → PQ (E × Cell) zLt} {dem : Cell → E} {jobs : Nat × Nat → PJob E} (K : ParCtx T pq dem jobs)

/-- The number of labels of all tiles. -/
def ParCtx.N (_ : ParCtx T pq dem jobs) : Nat := ((tileList T.gh T.gw).map (fun t => (jobs t).graph.size)).sum

/-- The globally numbered watersheds. -/
noncomputable def ParCtx.L (_ : ParCtx T pq dem jobs) : Cell → Nat := flL T pq dem (mergeAll jobs T.gh T.gw).offs

theorem ParCtx.pairS {t t' : Nat × Nat} {c c' : Cell} (ht : T.InTile t c) (ht' : T.InTile t' c')
    (ha : Adj .D8 (T.glob t c) (T.glob t' c')) :
    Spill T (flF T pq dem) K.L (ren ((mergeAll jobs T.gh T.gw).offs t) ((tileFlood T pq dem t).lbl c))
      (ren ((mergeAll jobs T.gh T.gw).offs t') ((tileFlood T pq dem t').lbl c'))
      (max ((tileFlood T pq dem t).elev c) ((tileFlood T pq dem t').elev c')) ∧
    ren ((mergeAll jobs T.gh T.gw).offs t) ((tileFlood T pq dem t).lbl c) < K.N ∧
    ren ((mergeAll jobs T.gh T.gw).offs t') ((tileFlood T pq dem t').lbl c') < K.N := by
  refine ⟨⟨T.glob t c, T.glob t' c', ht.inGrid, ht'.inGrid, ha, K.L_glob ht, K.L_glob ht', ?_, ?_⟩, (K.lbl_lt ht).1,
    (K.lbl_lt ht').1⟩
  · rw [K.F_glob ht]; exact le_max_left _ _
  · rw [K.F_glob ht']; exact le_max_right _ _

/-- A pair of adjacent cells `c` of tile `t` and `c'` of tile `t'`, as seen in the graph. -/
def ParCtx.Pair (_ : ParCtx T pq dem jobs) (t t' : Nat × Nat) (a b : Nat) (v : E) : Prop :=
  ∃ c c', T.InTile t c ∧ T.InTile t' c' ∧ Adj .D8 (T.glob t c) (T.glob t' c') ∧
    a = ren ((mergeAll jobs T.gh T.gw).offs t) ((tileFlood T pq dem t).lbl c) ∧
    b = ren ((mergeAll jobs T.gh T.gw).offs t') ((tileFlood T pq dem t').lbl c') ∧
    v = max ((tileFlood T pq dem t).elev c) ((tileFlood T pq dem t').elev c')

/-- `HandleEdge` on two rows of adjacent tiles notes all pairs. -/
theorem ParCtx.edgeJ {t t' : Nat × Nat} (htt : t ≠ t') {a b : EdgeRow E} {ca cb : Nat → Cell}
    (hca : ∀ i, i < a.len → T.InTile t (ca i) ∧ a.elev i = (tileFlood T pq dem t).elev (ca i) ∧
      a.lbl i = (tileFlood T pq dem t).lbl (ca i))
    (hcb : ∀ i, i < a.len → T.InTile t' (cb i) ∧ b.elev i = (tileFlood T pq dem t').elev (cb i) ∧
      b.lbl i = (tileFlood T pq dem t').lbl (cb i))
    (hadj : ∀ i j, i < a.len → j < a.len → i ≤ j + 1 → j ≤ i + 1 → Adj .D8 (T.glob t (ca i)) (T.glob t' (cb j)))
    (hall : ∀ c c', T.InTile t c → T.InTile t' c' → Adj .D8 (T.glob t c) (T.glob t' c') →
      ∃ i j, i < a.len ∧ j < a.len ∧ i ≤ j + 1 ∧ j ≤ i + 1 ∧ c = ca i ∧ c' = cb j)
    {g : SG E} (hg : g.Sym) (hN : g.size = K.N) :
    GJoined (Spill T (flF T pq dem) K.L) (K.Pair t t') g
      (handleEdge a b ((mergeAll jobs T.gh T.gw).offs t) ((mergeAll jobs T.gh T.gw).offs t') g) := by
  refine (handleEdge_joined (S := Spill T (flF T pq dem) K.L) (N := K.N) ?_ hg hN).weaken ?_
  · intro i j hi hj h1 h2
    obtain ⟨a1, a2, a3⟩ := hca i hi
    obtain ⟨b1, b2, b3⟩ := hcb j hj
    rw [a2, a3, b2, b3]
    exact K.pairS a1 b1 (hadj i j hi hj h1 h2)
  · rintro u v x ⟨c, c', h1, h2, h3, rfl, rfl, rfl⟩
    obtain ⟨i, j, hi, hj, i1, i2, rfl, rfl⟩ := hall c c' h1 h2 h3
    obtain ⟨a1, a2, a3⟩ := hca i hi
    obtain ⟨b1, b2, b3⟩ := hcb j hj
    refine ⟨i, j, hi, hj, i1, i2, by rw [a3], by rw [b3], ?_, by rw [a2, b2]⟩
    intro he
    exact htt (K.same h1 h2 he).1

/-- `HandleCorner` notes the one pair of two tiles that touch in a corner. -/
theorem ParCtx.cornerJ {t t' : Nat × Nat} {p q : E × Nat} {ca cb : Cell}
    (hca : T.InTile t ca ∧ p = ((tileFlood T pq dem t).elev ca, (tileFlood T pq dem t).lbl ca))
    (hcb : T.InTile t' cb ∧ q = ((tileFlood T pq dem t').elev cb, (tileFlood T pq dem t').lbl cb))
    (hadj : Adj .D8 (T.glob t ca) (T.glob t' cb))
    (hall : ∀ c c', T.InTile t c → T.InTile t' c' → Adj .D8 (T.glob t c) (T.glob t' c') → c = ca ∧ c' = cb)
    {g : SG E} (hg : g.Sym) (hN : g.size = K.N) :
    GJoined (Spill T (flF T pq dem) K.L) (K.Pair t t') g
      (corner p q ((mergeAll jobs T.gh T.gw).offs t) ((mergeAll jobs T.gh T.gw).offs t') g) := by
  obtain ⟨a1, rfl⟩ := hca
  obtain ⟨b1, rfl⟩ := hcb
  refine (handleCorner_joined (S := Spill T (flF T pq dem) K.L) (N := K.N) (K.pairS a1 b1 hadj) hg hN).weaken ?_
  rintro u v x ⟨c, c', h1, h2, h3, rfl, rfl, rfl⟩
  obtain ⟨rfl, rfl⟩ := hall c c' h1 h2 h3
  exact ⟨rfl, rfl, rfl⟩

/-- Adjacent cells of two tiles: the tiles are equal or adjacent and the cells face each other. -/
theorem ParCtx.near (K : ParCtx T pq dem jobs) {t t' : Nat × Nat} {c c' : Cell} (ht : T.InTile t c) (ht' : T.InTile t' c')
    (ha : Adj .D8 (T.glob t c) (T.glob t' c')) :
    ((t.2 = t'.2 ∧ (c'.1 - c.1).natAbs ≤ 1) ∨ (t'.2 = t.2 + 1 ∧ c.1 = (T.tw t.2 : Int) - 1 ∧ c'.1 = 0) ∨
      (t.2 = t'.2 + 1 ∧ c'.1 = (T.tw t'.2 : Int) - 1 ∧ c.1 = 0)) ∧
    ((t.1 = t'.1 ∧ (c'.2 - c.2).natAbs ≤ 1) ∨ (t'.1 = t.1 + 1 ∧ c.2 = (T.th t.1 : Int) - 1 ∧ c'.2 = 0) ∨
      (t.1 = t'.1 + 1 ∧ c'.2 = (T.th t'.1 : Int) - 1 ∧ c.2 = 0)) := by
  obtain ⟨a1, a2, a3, a4, a5, a6⟩ := ht
  obtain ⟨b1, b2, b3, b4, b5, b6⟩ := ht'
  obtain ⟨_, h1, h2⟩ := ha
  exact ⟨block_near K.hbw a2 b2 a3 a4 b3 b4 h1, block_near K.hbh a1 b1 a5 a6 b5 b6 h2⟩

end ctx

/-- The last cell of a full block is next to the first of the following one. -/
theorem Tiling.seamW (hbw : 0 < T.bw) {i : Nat} (hi : i + 1 < T.gw) :
    (T.tw i : Int) = T.bw ∧ (((i + 1) * T.bw : Nat) : Int) = ((i * T.bw : Nat) : Int) + T.bw := by
  refine ⟨by unfold Tiling.tw; rw [blockLen_full hbw hi], ?_⟩
  rw [Nat.succ_mul]; omega

theorem Tiling.seamH (hbh : 0 < T.bh) {i : Nat} (hi : i + 1 < T.gh) :
    (T.th i : Int) = T.bh ∧ (((i + 1) * T.bh : Nat) : Int) = ((i * T.bh : Nat) : Int) + T.bh := by
  refine ⟨by unfold Tiling.th; rw [blockLen_full hbh hi], ?_⟩
  rw [Nat.succ_mul]; omega

theorem adj_mk {a b c d : Int} (h1 : (c - a).natAbs ≤ 1) (h2 : (d - b).natAbs ≤ 1) (h3 : c ≠ a ∨ d ≠ b) :
    Adj .D8 (a, b) (c, d) := by
  refine ⟨?_, h1, h2⟩
  rintro h
  simp only [Prod.mk.injEq] at h
  omega

section ctx
variable {pq : Nat × Nat → PQ (E × Cell) zLt} {dem : Cell → E} {jobs : Nat × Nat → PJob E} (K : ParCtx T pq dem jobs)

/-- The vertical seam between rows `y` and `y+1`, either way round. -/
theorem ParCtx.jTop {y x : Nat} (hy : y + 1 < T.gh) (hx : x < T.gw) {g : SG E} (hg : g.Sym) (hN : g.size = K.N) :
    GJoined (Spill T (flF T pq dem) K.L) (K.Pair (y + 1, x) (y, x)) g
      (handleEdge (jobs (y + 1, x)).top (jobs (y, x)).bot ((mergeAll jobs T.gh T.gw).offs (y + 1, x))
        ((mergeAll jobs T.gh T.gw).offs (y, x)) g) := by
  obtain ⟨la, ra⟩ := (K.hj (y + 1, x) (mem_tileList.2 ⟨hy, hx⟩)).top
  obtain ⟨lb, rb⟩ := (K.hj (y, x) (mem_tileList.2 ⟨by simp only; omega, hx⟩)).bot
  have p1 := blockLen_pos K.hbh hy
  have p2 := blockLen_pos K.hbh (show y < blocks T.H T.bh by have := hy; unfold Tiling.gh at this; omega)
  obtain ⟨s1, s2⟩ := Tiling.seamH K.hbh hy
  refine K.edgeJ (ca := fun i => ((i : Int), 0)) (cb := fun i => ((i : Int), (T.th y : Int) - 1)) (by simp)
    (fun i hi => ⟨⟨hy, hx, ?_⟩, (ra i (la ▸ hi)).1, (ra i (la ▸ hi)).2⟩) (fun i hi => ⟨⟨by simp only; omega, hx, ?_⟩, (rb i (la ▸ hi)).1, (rb i (la ▸ hi)).2⟩) ?_ ?_ hg hN
  · have hi' : i < T.tw x := la ▸ hi
    refine ⟨?_, ?_, ?_, ?_⟩
    · simp only; omega
    · simp only; omega
    · simp only; omega
    · show (0 : Int) < (blockLen T.H T.bh (y + 1) : Int); omega
  · have hi' : i < T.tw x := la ▸ hi
    have : 0 < T.th y := p2
    refine ⟨?_, ?_, ?_, ?_⟩ <;> simp only <;> omega
  · intro i j _ _ h1 h2
    simp only [Tiling.glob]
    refine adj_mk ?_ ?_ (Or.inr ?_) <;> omega
  · rintro ⟨c1, c2⟩ ⟨d1, d2⟩ hc hd ha
    obtain ⟨n1, n2⟩ := K.near hc hd ha
    have h1 := hc.2.2
    have h2 := hd.2.2
    simp only [InGrid] at h1 h2
    simp only at n1 n2
    rw [la]
    show ∃ i j : Nat, i < T.tw x ∧ j < T.tw x ∧ _
    refine ⟨c1.toNat, d1.toNat, by omega, by omega, by omega, by omega, ?_, ?_⟩ <;> simp only [Prod.mk.injEq] <;> omega

theorem ParCtx.jBot {y x : Nat} (hy : y + 1 < T.gh) (hx : x < T.gw) {g : SG E} (hg : g.Sym) (hN : g.size = K.N) :
    GJoined (Spill T (flF T pq dem) K.L) (K.Pair (y, x) (y + 1, x)) g
      (handleEdge (jobs (y, x)).bot (jobs (y + 1, x)).top ((mergeAll jobs T.gh T.gw).offs (y, x))
        ((mergeAll jobs T.gh T.gw).offs (y + 1, x)) g) := by
  obtain ⟨la, ra⟩ := (K.hj (y, x) (mem_tileList.2 ⟨by simp only; omega, hx⟩)).bot
  obtain ⟨lb, rb⟩ := (K.hj (y + 1, x) (mem_tileList.2 ⟨hy, hx⟩)).top
  have p1 := blockLen_pos K.hbh hy
  have p2 := blockLen_pos K.hbh (show y < blocks T.H T.bh by have := hy; unfold Tiling.gh at this; omega)
  obtain ⟨s1, s2⟩ := Tiling.seamH K.hbh hy
  refine K.edgeJ (cb := fun i => ((i : Int), 0)) (ca := fun i => ((i : Int), (T.th y : Int) - 1)) (by simp)
    (fun i hi => ⟨⟨by simp only; omega, hx, ?_⟩, (ra i (la ▸ hi)).1, (ra i (la ▸ hi)).2⟩) (fun i hi => ⟨⟨hy, hx, ?_⟩, (rb i (la ▸ hi)).1, (rb i (la ▸ hi)).2⟩) ?_ ?_ hg hN
  · have hi' : i < T.tw x := la ▸ hi
    have : 0 < T.th y := p2
    refine ⟨?_, ?_, ?_, ?_⟩ <;> simp only <;> omega
  · have hi' : i < T.tw x := la ▸ hi
    refine ⟨?_, ?_, ?_, ?_⟩
    · simp only; omega
    · simp only; omega
    · simp only; omega
    · show (0 : Int) < (blockLen T.H T.bh (y + 1) : Int); omega
  · intro i j _ _ h1 h2
    simp only [Tiling.glob]
    refine adj_mk ?_ ?_ (Or.inr ?_) <;> omega
  · rintro ⟨c1, c2⟩ ⟨d1, d2⟩ hc hd ha
    obtain ⟨n1, n2⟩ := K.near hc hd ha
    have h1 := hc.2.2
    have h2 := hd.2.2
    simp only [InGrid] at h1 h2
    simp only at n1 n2
    rw [la]
    show ∃ i j : Nat, i < T.tw x ∧ j < T.tw x ∧ _
    refine ⟨c1.toNat, d1.toNat, by omega, by omega, by omega, by omega, ?_, ?_⟩ <;> simp only [Prod.mk.injEq] <;> omega

theorem ParCtx.jLeft {y x : Nat} (hy : y < T.gh) (hx : x + 1 < T.gw) {g : SG E} (hg : g.Sym) (hN : g.size = K.N) :
    GJoined (Spill T (flF T pq dem) K.L) (K.Pair (y, x + 1) (y, x)) g
      (handleEdge (jobs (y, x + 1)).left (jobs (y, x)).right ((mergeAll jobs T.gh T.gw).offs (y, x + 1))
        ((mergeAll jobs T.gh T.gw).offs (y, x)) g) := by
  obtain ⟨la, ra⟩ := (K.hj (y, x + 1) (mem_tileList.2 ⟨hy, hx⟩)).left
  obtain ⟨lb, rb⟩ := (K.hj (y, x) (mem_tileList.2 ⟨hy, by simp only; omega⟩)).right
  have p1 := blockLen_pos K.hbw hx
  have p2 := blockLen_pos K.hbw (show x < blocks T.W T.bw by have := hx; unfold Tiling.gw at this; omega)
  obtain ⟨s1, s2⟩ := Tiling.seamW K.hbw hx
  refine K.edgeJ (ca := fun i => (0, (i : Int))) (cb := fun i => ((T.tw x : Int) - 1, (i : Int))) (by simp)
    (fun i hi => ⟨⟨hy, hx, ?_⟩, (ra i (la ▸ hi)).1, (ra i (la ▸ hi)).2⟩) (fun i hi => ⟨⟨hy, by simp only; omega, ?_⟩, (rb i (la ▸ hi)).1, (rb i (la ▸ hi)).2⟩) ?_ ?_ hg hN
  · have hi' : i < T.th y := la ▸ hi
    refine ⟨?_, ?_, ?_, ?_⟩
    · simp only; omega
    · show (0 : Int) < (blockLen T.W T.bw (x + 1) : Int); omega
    · simp only; omega
    · simp only; omega
  · have hi' : i < T.th y := la ▸ hi
    have : 0 < T.tw x := p2
    refine ⟨?_, ?_, ?_, ?_⟩ <;> simp only <;> omega
  · intro i j _ _ h1 h2
    simp only [Tiling.glob]
    refine adj_mk ?_ ?_ (Or.inl ?_) <;> omega
  · rintro ⟨c1, c2⟩ ⟨d1, d2⟩ hc hd ha
    obtain ⟨n1, n2⟩ := K.near hc hd ha
    have h1 := hc.2.2
    have h2 := hd.2.2
    simp only [InGrid] at h1 h2
    simp only at n1 n2
    rw [la]
    show ∃ i j : Nat, i < T.th y ∧ j < T.th y ∧ _
    refine ⟨c2.toNat, d2.toNat, by omega, by omega, by omega, by omega, ?_, ?_⟩ <;> simp only [Prod.mk.injEq] <;> omega

theorem ParCtx.jRight {y x : Nat} (hy : y < T.gh) (hx : x + 1 < T.gw) {g : SG E} (hg : g.Sym) (hN : g.size = K.N) :
    GJoined (Spill T (flF T pq dem) K.L) (K.Pair (y, x) (y, x + 1)) g
      (handleEdge (jobs (y, x)).right (jobs (y, x + 1)).left ((mergeAll jobs T.gh T.gw).offs (y, x))
        ((mergeAll jobs T.gh T.gw).offs (y, x + 1)) g) := by
  obtain ⟨la, ra⟩ := (K.hj (y, x) (mem_tileList.2 ⟨hy, by simp only; omega⟩)).right
  obtain ⟨lb, rb⟩ := (K.hj (y, x + 1) (mem_tileList.2 ⟨hy, hx⟩)).left
  have p1 := blockLen_pos K.hbw hx
  have p2 := blockLen_pos K.hbw (show x < blocks T.W T.bw by have := hx; unfold Tiling.gw at this; omega)
  obtain ⟨s1, s2⟩ := Tiling.seamW K.hbw hx
  refine K.edgeJ (cb := fun i => (0, (i : Int))) (ca := fun i => ((T.tw x : Int) - 1, (i : Int))) (by simp)
    (fun i hi => ⟨⟨hy, by simp only; omega, ?_⟩, (ra i (la ▸ hi)).1, (ra i (la ▸ hi)).2⟩) (fun i hi => ⟨⟨hy, hx, ?_⟩, (rb i (la ▸ hi)).1, (rb i (la ▸ hi)).2⟩) ?_ ?_ hg hN
  · have hi' : i < T.th y := la ▸ hi
    have : 0 < T.tw x := p2
    refine ⟨?_, ?_, ?_, ?_⟩ <;> simp only <;> omega
  · have hi' : i < T.th y := la ▸ hi
    refine ⟨?_, ?_, ?_, ?_⟩
    · simp only; omega
    · show (0 : Int) < (blockLen T.W T.bw (x + 1) : Int); omega
    · simp only; omega
    · simp only; omega
  · intro i j _ _ h1 h2
    simp only [Tiling.glob]
    refine adj_mk ?_ ?_ (Or.inl ?_) <;> omega
  · rintro ⟨c1, c2⟩ ⟨d1, d2⟩ hc hd ha
    obtain ⟨n1, n2⟩ := K.near hc hd ha
    have h1 := hc.2.2
    have h2 := hd.2.2
    simp only [InGrid] at h1 h2
    simp only at n1 n2
    rw [la]
    show ∃ i j : Nat, i < T.th y ∧ j < T.th y ∧ _
    refine ⟨c2.toNat, d2.toNat, by omega, by omega, by omega, by omega, ?_, ?_⟩ <;> simp only [Prod.mk.injEq] <;> omega

/-- Two tiles that touch in a corner; `ca`, `cb` are the corner cells. -/
theorem ParCtx.jCorner {t t' : Nat × Nat} {ca cb : Cell} (h1 : T.InTile t ca) (h2 : T.InTile t' cb)
    (hadj : Adj .D8 (T.glob t ca) (T.glob t' cb)) (hx : t.2 ≠ t'.2) (hy : t.1 ≠ t'.1) {g : SG E} (hg : g.Sym)
    (hN : g.size = K.N) :
    GJoined (Spill T (flF T pq dem) K.L) (K.Pair t t') g
      (corner ((tileFlood T pq dem t).elev ca, (tileFlood T pq dem t).lbl ca)
        ((tileFlood T pq dem t').elev cb, (tileFlood T pq dem t').lbl cb) ((mergeAll jobs T.gh T.gw).offs t)
        ((mergeAll jobs T.gh T.gw).offs t') g) := by
  refine K.cornerJ ⟨h1, rfl⟩ ⟨h2, rfl⟩ hadj ?_ hg hN
  rintro ⟨c1, c2⟩ ⟨d1, d2⟩ hc hd ha
  obtain ⟨ca1, ca2⟩ := ca
  obtain ⟨cb1, cb2⟩ := cb
  obtain ⟨n1, n2⟩ := K.near hc hd ha
  obtain ⟨m1, m2⟩ := K.near h1 h2 hadj
  simp only [Prod.mk.injEq] at *
  omega

end ctx

end RichDEM
