import Verif.IO.TiledRead
import Verif.Props.TiledSave
import Verif.Props.Gdal
import Verif.Props.Raster

/-!
C95: a read-only tiled raster shows the cells of its files, whatever is evicted.
C96: merging a layout into one raster.
-/

namespace RichDEM
namespace ROTiled
variable {T : Type}

/-! ### Specification -/

/-- The entry of a layout in column `tx`, row `ty`: a file, a blank (`some none`), or outside (`none`). -/
def tileAt (g : List (List (Option (Src T)))) (tx ty : Nat) : Option (Option (Src T)) := (g[ty]?).bind (·[tx]?)

/-- The rows of a layout have the same length, and the files the size they say and all the same. -/
structure GoodLayout (g : List (List (Option (Src T)))) (W tw th : Nat) : Prop where
  rows : g ≠ []
  rect : ∀ r ∈ g, r.length = W
  size : ∀ r ∈ g, ∀ f, some f ∈ r → f.w = tw ∧ f.h = th ∧ f.data.length = tw * th

/-- The cell of a file in column `x`, row `y`. -/
def Src.cell (f : Src T) (x y : Nat) : Option T := f.data[y * f.w + x]?

/-- What the raster shows of a file: upside down if the file's rows run upwards, or if asked to flip, but not both. -/
def shown (flipV : Bool) (f : Src T) (x y : Nat) : Option T :=
  if (decide (0 < f.gt.g5)).xor flipV then Src.cell f x (f.h - 1 - y) else Src.cell f x y

/-- The value of cell `(x, y)` of the whole. -/
def bigCell (g : List (List (Option (Src T)))) (tw th : Nat) (flipV : Bool) (nullVal : T) (x y : Nat) : Option T :=
  match tileAt g (x / tw) (y / th) with
  | some (some f) => shown flipV f (x % tw) (y % th)
  | some none => some nullVal
  | none => none

/-- Whether cell `(x, y)` of the whole is NoData. -/
def bigNoData [DecidableEq T] (g : List (List (Option (Src T)))) (tw th : Nat) (flipV : Bool) (x y : Nat) : Option Bool :=
  match tileAt g (x / tw) (y / th) with
  | some (some f) => (shown flipV f (x % tw) (y % th)).map (fun v => decide (v = f.noData))
  | some none => some true
  | none => none

/-- What a program asks. -/
inductive ROp where
  | value (x y : Nat)
  | noData (x y : Nat)

def ROp.inRange (w h : Nat) : ROp → Prop
  | .value x y => x < w ∧ y < h
  | .noData x y => x < w ∧ y < h

/-- The answers the specification gives. -/
def ROp.answer [DecidableEq T] (g : List (List (Option (Src T)))) (tw th : Nat) (flipV : Bool) (nullVal : T) :
    ROp → Option (T ⊕ Bool)
  | .value x y => (bigCell g tw th flipV nullVal x y).map .inl
  | .noData x y => (bigNoData g tw th flipV x y).map .inr

/-- Asking the tiled raster. -/
def ask [DecidableEq T] (s : ROTiled T) : ROp → Option ((T ⊕ Bool) × ROTiled T)
  | .value x y => (s.read x y).map fun p => (.inl p.1, p.2)
  | .noData x y => (s.isNoData x y).map fun p => (.inr p.1, p.2)

def askAll [DecidableEq T] : ROTiled T → List ROp → Option (List (T ⊕ Bool) × ROTiled T)
  | s, [] => some ([], s)
  | s, o :: l => (ask s o).bind fun p => (askAll p.2 l).map fun q => (p.1 :: q.1, q.2)

/-! ### The grid as a list -/

theorem flatten_get {α : Type} (W : Nat) : ∀ (g : List (List α)), (∀ r ∈ g, r.length = W) → ∀ tx ty, tx < W →
    g.flatten[ty * W + tx]? = (g[ty]?).bind (·[tx]?) := by
  intro g
  induction g with
  | nil => intro _ tx ty _; simp
  | cons r g ih =>
    intro hr tx ty htx
    have hrl := hr r (by simp)
    rw [List.flatten_cons]
    cases ty with
    | zero => rw [List.getElem?_append_left (by omega)]; simp
    | succ ty =>
      rw [List.getElem?_append_right (by rw [hrl, Nat.succ_mul]; omega)]
      have : (ty + 1) * W + tx - r.length = ty * W + tx := by rw [hrl, Nat.succ_mul]; omega
      rw [this, ih (fun r hr' => hr r (by simp [hr'])) tx ty htx]
      simp

theorem flatten_len {α : Type} (W : Nat) : ∀ (g : List (List α)), (∀ r ∈ g, r.length = W) → g.flatten.length = g.length * W := by
  intro g
  induction g with
  | nil => intro _; simp
  | cons r g ih =>
    intro hr
    rw [List.flatten_cons, List.length_append, ih (fun r hr' => hr r (by simp [hr'])), hr r (by simp), List.length_cons,
      Nat.succ_mul]
    omega

theorem maxDim_eq (d : Src T → Nat) (n : Nat) : ∀ (l : List (Option (Src T))), (∀ f, some f ∈ l → d f = n) →
    (∃ f, some f ∈ l) → maxDim d l = n := by
  classical
  have key : ∀ (l : List (Option (Src T))) (m : Nat), (∀ f, some f ∈ l → d f = n) →
      l.foldl (maxStep d) m = if (∃ f, some f ∈ l) then max m n else m := by
    intro l
    induction l with
    | nil => intro m _; simp
    | cons o l ih =>
      intro m hl
      rw [List.foldl_cons, ih _ (fun f hf => hl f (by simp [hf]))]
      cases o with
      | none => simp [maxStep]
      | some f =>
        have := hl f (by simp)
        rw [if_pos (c := ∃ f', some f' ∈ some f :: l) ⟨f, by simp⟩]
        simp only [maxStep, this]
        split_ifs <;> omega
  intro l hl hex
  unfold maxDim
  rw [key l 0 hl, if_pos hex]
  omega

/-! ### Opening -/

/-- **C95.** Opening a layout succeeds exactly if all its files have the same size. -/
theorem C95_open (g : List (List (Option (Src T)))) (nullNoData zero : T) (c : Int) (junk : Nat) :
    (openLayout g nullNoData zero c junk ≠ none ↔
      ∃ tw th, ∀ r ∈ g, ∀ f, some f ∈ r → f.w = tw ∧ f.h = th) := by
  have hmem : ∀ f, some f ∈ g.flatten ↔ ∃ r ∈ g, some f ∈ r := fun f => List.mem_flatten
  constructor
  · intro hne
    unfold openLayout at hne
    simp only at hne
    refine ⟨maxDim Src.w g.flatten, maxDim Src.h g.flatten, fun r hr f hf => ?_⟩
    by_contra hc
    apply hne
    rw [if_neg]
    intro hall
    rw [List.all_eq_true] at hall
    have := hall (some f) ((hmem f).2 ⟨r, hr, hf⟩)
    simp only [sized, Bool.and_eq_true, beq_iff_eq] at this
    exact hc this
  · rintro ⟨tw, th, hsz⟩
    unfold openLayout
    simp only
    rw [if_pos]
    · simp
    · rw [List.all_eq_true]
      rintro (_ | f) ho
      · rfl
      · obtain ⟨r, hr, hf⟩ := (hmem f).1 ho
        have h1 := maxDim_eq Src.w tw g.flatten (fun f' hf' => by
          obtain ⟨r', hr', hf''⟩ := (hmem f').1 hf'; exact (hsz r' hr' f' hf'').1) ⟨f, ho⟩
        have h2 := maxDim_eq Src.h th g.flatten (fun f' hf' => by
          obtain ⟨r', hr', hf''⟩ := (hmem f').1 hf'; exact (hsz r' hr' f' hf'').2) ⟨f, ho⟩
        simp only [sized, Bool.and_eq_true, beq_iff_eq, h1, h2]
        exact hsz r hr f hf

/-- The opened raster, in the terms of the layout. -/
theorem open_some (g : List (List (Option (Src T)))) {W tw th : Nat} (L : GoodLayout g W tw th) (hex : ∃ r ∈ g, ∃ f, some f ∈ r)
    (nullNoData zero : T) (c : Int) (junk : Nat) :
    openLayout g nullNoData zero c junk = some ⟨tw, th, W, g.length, false, false, g.flatten, nullNoData,
      fun _ => ⟨false, false, zero, []⟩, (LRU.new junk).setCapacity c, 0⟩ := by
  have hmem : ∀ f, some f ∈ g.flatten ↔ ∃ r ∈ g, some f ∈ r := fun f => List.mem_flatten
  obtain ⟨r0, hr0, f0, hf0⟩ := hex
  have h1 := maxDim_eq Src.w tw g.flatten (fun f' hf' => by
    obtain ⟨r', hr', hf''⟩ := (hmem f').1 hf'; exact (L.size r' hr' f' hf'').1) ⟨f0, (hmem f0).2 ⟨r0, hr0, hf0⟩⟩
  have h2 := maxDim_eq Src.h th g.flatten (fun f' hf' => by
    obtain ⟨r', hr', hf''⟩ := (hmem f').1 hf'; exact (L.size r' hr' f' hf'').2.1) ⟨f0, (hmem f0).2 ⟨r0, hr0, hf0⟩⟩
  have h3 : (g.getLast?.getD []).length = W := by
    rw [List.getLast?_eq_some_getLast L.rows]
    exact L.rect _ (List.getLast_mem L.rows)
  unfold openLayout
  simp only [h1, h2, h3]
  rw [if_pos]
  rw [List.all_eq_true]
  rintro (_ | f) ho
  · rfl
  · obtain ⟨r, hr, hf⟩ := (hmem f).1 ho
    have := L.size r hr f hf
    simp only [sized, Bool.and_eq_true, beq_iff_eq]
    exact ⟨this.1, this.2.1⟩

/-! ### Reading -/

theorem orient_ok (flipH flipV : Bool) (f : Src T) (hd : f.data.length = f.w * f.h) (hh : decide (f.gt.g1 < 0) = flipH) :
    ∃ l, orient flipH flipV f = some l ∧ ∀ x y, x < f.w → y < f.h → l[y * f.w + x]? = shown flipV f x y := by
  unfold orient
  simp only
  rw [if_neg (by rw [hh]; simp), Option.bind_some]
  generalize hr : (⟨f.w, f.h, f.data, f.noData, none, true, f.w⟩ : Raster T) = r
  have hw : r.w = f.w := by rw [← hr]
  have hhh : r.h = f.h := by rw [← hr]
  have hdd : r.data = f.data := by rw [← hr]
  have hwf : r.WF := by show r.data.length = r.w * r.h; rw [hw, hhh, hdd]; exact hd
  unfold shown Src.cell
  by_cases hv : ((decide (0 < f.gt.g5)).xor flipV) = true
  · rw [if_pos hv]
    obtain ⟨r', e, _, h1, h2, h3⟩ := C34_flipVert r hwf
    rw [e]
    refine ⟨r'.data, rfl, fun x y hx hy => ?_⟩
    rw [if_pos hv]
    have := h3 x y (by omega) (by omega)
    rw [Raster.cell_eq r' (by omega) (by omega), Raster.cell_eq r (by omega) (by omega), h1, hw, hhh, hdd] at this
    exact this
  · rw [if_neg hv]
    refine ⟨r.data, rfl, fun x y _ _ => ?_⟩
    rw [if_neg hv, hdd]

/-- The simulation relation with a layout. -/
structure Over (g : List (List (Option (Src T)))) (W tw th : Nat) (flipV : Bool) (nullVal : T) (c : Int) (s : ROTiled T) :
    Prop where
  inv : RInv s
  L : GoodLayout g W tw th
  tw : s.tw = tw
  th : s.th = th
  W : s.W = W
  H : s.H = g.length
  fv : s.flipV = flipV
  src : s.src = g.flatten
  nnd : s.nullNoData = nullVal
  cap : s.lru.maxlen = c
  ori : ∀ r ∈ g, ∀ f, some f ∈ r → decide (f.gt.g1 < 0) = s.flipH

theorem Over.step {g : List (List (Option (Src T)))} {W tw th flipV nullVal c} {s s' : ROTiled T}
    (O : Over g W tw th flipV nullVal c s) (I : RInv s') (hS : RSame s s') : Over g W tw th flipV nullVal c s' :=
  ⟨I, O.L, hS.tw.trans O.tw, hS.th.trans O.th, hS.W.trans O.W, hS.H.trans O.H, hS.fv.trans O.fv, hS.src.trans O.src,
    hS.nnd.trans O.nnd, hS.cap.trans O.cap, fun r hr f hf => (O.ori r hr f hf).trans hS.fh.symm⟩

theorem tileAt_mem {g : List (List (Option (Src T)))} {tx ty : Nat} {o : Option (Src T)} (h : tileAt g tx ty = some o) :
    ∃ r ∈ g, o ∈ r := by
  unfold tileAt at h
  obtain ⟨r, h1, h2⟩ := Option.bind_eq_some_iff.1 h
  exact ⟨r, List.mem_of_getElem? h1, List.mem_of_getElem? h2⟩

/-- What happens at one tile. -/
theorem Over.at {g : List (List (Option (Src T)))} {W tw th flipV nullVal c} {s : ROTiled T}
    (O : Over g W tw th flipV nullVal c s) {tx ty : Nat} (hx : tx < W) (hy : ty < g.length) :
    (s.src[ty * s.W + tx]? = some none ∧ tileAt g tx ty = some none) ∨
    (∃ f s', s.src[ty * s.W + tx]? = some (some f) ∧ tileAt g tx ty = some (some f) ∧ f.w = tw ∧ f.h = th ∧
      s.loadTile (ty * s.W + tx) f = some s' ∧ Over g W tw th flipV nullVal c s' ∧
      ∀ x y, x < tw → y < th → (s'.tiles (ty * s.W + tx)).mem[y * f.w + x]? = shown flipV f x y) := by
  have e1 : s.src[ty * s.W + tx]? = tileAt g tx ty := by
    rw [O.src, O.W]; exact flatten_get W g O.L.rect tx ty hx
  have e2 : ∃ o, tileAt g tx ty = some o := by
    unfold tileAt
    rw [List.getElem?_eq_getElem hy, Option.bind_some]
    rw [List.getElem?_eq_getElem (by rw [O.L.rect _ (List.getElem_mem hy)]; exact hx)]
    exact ⟨_, rfl⟩
  obtain ⟨o, ho⟩ := e2
  cases o with
  | none => left; rw [e1]; exact ⟨ho, ho⟩
  | some f =>
    right
    obtain ⟨r, hr, hf⟩ := tileAt_mem ho
    obtain ⟨h1, h2, h3⟩ := O.L.size r hr f hf
    obtain ⟨s', e3, I', hS, hl⟩ := load_ok s _ f O.inv (e1.trans ho)
    refine ⟨f, s', e1.trans ho, ho, h1, h2, e3, O.step I' hS, fun x y hx' hy' => ?_⟩
    obtain ⟨l, hl1, hl2⟩ := orient_ok s.flipH s.flipV f (by rw [h3, h1, h2]) (O.ori r hr f hf)
    have h4 := I'.cont (ty * s.W + tx) f hl (by rw [hS.src]; exact e1.trans ho)
    rw [hS.fh, hS.fv, hl1] at h4
    cases h4
    rw [hl2 x y (by omega) (by omega), O.fv]

theorem shown_some {g : List (List (Option (Src T)))} {W tw th : Nat} (L : GoodLayout g W tw th) {tx ty : Nat} {f : Src T}
    (h : tileAt g tx ty = some (some f)) (flipV : Bool) {x y : Nat} (hx : x < tw) (hy : y < th) :
    ∃ v, shown flipV f x y = some v := by
  obtain ⟨r, hr, hf⟩ := tileAt_mem h
  obtain ⟨h1, h2, h3⟩ := L.size r hr f hf
  have key : ∀ y', y' < th → ∃ v, Src.cell f x y' = some v := by
    intro y' hy'
    unfold Src.cell
    rw [List.getElem?_eq_getElem (by rw [h3, h1]; exact Raster.idx_lt hx hy')]
    exact ⟨_, rfl⟩
  unfold shown
  split_ifs
  · exact key _ (by omega)
  · exact key _ hy

theorem dim_pos {tw W x : Nat} (h : x < W * tw) : 0 < tw := by
  rcases Nat.eq_zero_or_pos tw with h0 | h0
  · subst h0; simp at h
  · exact h0

theorem Over.ask [DecidableEq T] {g : List (List (Option (Src T)))} {W tw th flipV nullVal c} {s : ROTiled T}
    (O : Over g W tw th flipV nullVal c s) (o : ROp) (ho : o.inRange (W * tw) (g.length * th)) :
    ∃ a s', ROTiled.ask s o = some (a, s') ∧ o.answer g tw th flipV nullVal = some a ∧ Over g W tw th flipV nullVal c s' := by
  have tile : ∀ x y, x < W * tw → y < g.length * th → x / tw < W ∧ y / th < g.length ∧ x % tw < tw ∧ y % th < th := by
    intro x y hx hy
    have h1 := dim_pos hx
    have h2 := dim_pos hy
    exact ⟨(Nat.div_lt_iff_lt_mul h1).2 hx, (Nat.div_lt_iff_lt_mul h2).2 hy, Nat.mod_lt _ h1, Nat.mod_lt _ h2⟩
  cases o with
  | value x y =>
    obtain ⟨h1, h2, h3, h4⟩ := tile x y ho.1 ho.2
    have e : s.read x y = s.read4 (x / tw) (y / th) (x % tw) (y % th) := by unfold ROTiled.read; rw [O.tw, O.th]
    simp only [ROTiled.ask, e, ROp.answer, bigCell]
    unfold read4
    rcases O.at h1 h2 with ⟨e1, e2⟩ | ⟨f, s', e1, e2, _, _, e3, O', hv⟩
    · rw [e1, e2]
      exact ⟨_, s, rfl, by rw [O.nnd]; rfl, O⟩
    · rw [e1, e2]
      simp only [e3]
      rw [hv _ _ h3 h4]
      obtain ⟨v, hv'⟩ := shown_some O.L e2 flipV h3 h4
      rw [hv']
      exact ⟨_, s', rfl, rfl, O'⟩
  | noData x y =>
    obtain ⟨h1, h2, h3, h4⟩ := tile x y ho.1 ho.2
    simp only [ROTiled.ask, ROp.answer, bigNoData]
    unfold ROTiled.isNoData
    simp only [O.tw, O.th]
    rcases O.at h1 h2 with ⟨e1, e2⟩ | ⟨f, s', e1, e2, _, _, e3, O', hv⟩
    · rw [e1, e2]
      exact ⟨_, s, rfl, rfl, O⟩
    · rw [e1, e2]
      simp only [e3]
      rw [hv _ _ h3 h4]
      obtain ⟨v, hv'⟩ := shown_some O.L e2 flipV h3 h4
      rw [hv']
      exact ⟨_, s', rfl, rfl, O'⟩

theorem Over.askAll [DecidableEq T] {g : List (List (Option (Src T)))} {W tw th flipV nullVal c} :
    ∀ (ops : List ROp) {s : ROTiled T}, Over g W tw th flipV nullVal c s → (∀ o ∈ ops, o.inRange (W * tw) (g.length * th)) →
    ∃ out s', ROTiled.askAll s ops = some (out, s') ∧ ops.map (ROp.answer g tw th flipV nullVal) = out.map some ∧
      Over g W tw th flipV nullVal c s' := by
  intro ops
  induction ops with
  | nil => intro s O _; exact ⟨[], s, rfl, rfl, O⟩
  | cons o ops ih =>
    intro s O hr
    obtain ⟨a, s1, e1, h1, O1⟩ := O.ask o (hr o (by simp))
    obtain ⟨out, s2, e2, h2, O2⟩ := ih O1 (fun o ho => hr o (by simp [ho]))
    refine ⟨a :: out, s2, ?_, ?_, O2⟩
    · simp only [ROTiled.askAll, e1, Option.bind_some, e2, Option.map_some]
    · simp only [List.map_cons, h1, h2]

/-- The opened raster, its flips set, before any access. -/
theorem over_open (g : List (List (Option (Src T)))) {W tw th : Nat} (L : GoodLayout g W tw th) (hex : ∃ r ∈ g, ∃ f, some f ∈ r)
    (nullVal zero : T) (c : Int) (hc : c ≠ 0) (junk : Nat) (hj : W * g.length ≤ junk) (flipH flipV : Bool)
    (hori : ∀ r ∈ g, ∀ f, some f ∈ r → decide (f.gt.g1 < 0) = flipH) :
    ∃ s, openLayout g nullVal zero c junk = some s ∧
      Over g W tw th flipV nullVal c { s with flipH := flipH, flipV := flipV } := by
  refine ⟨_, open_some g L hex nullVal zero c junk, ?_⟩
  refine ⟨⟨⟨List.nodup_nil, List.Perm.refl _, rfl, .inl rfl⟩, ?_, ?_, ?_, ?_, ?_, ?_, ?_, ?_⟩, L, rfl, rfl, rfl, rfl, rfl, rfl,
    rfl, rfl, hori⟩
  · intro t; simp [LRU.setCapacity, LRU.new]
  · intro t h; simp [LRU.setCapacity, LRU.new] at h
  · intro _
    simp only [LRU.setCapacity, LRU.new]
    rw [flatten_len W g L.rect, Nat.mul_comm]; exact hj
  · simp only [LRU.setCapacity, LRU.new]; omega
  · intro t; rfl
  · intro t _; rfl
  · intro t f h; cases h
  · intro t f h
    simp only at h ⊢
    obtain ⟨r, hr, hf⟩ := List.mem_flatten.1 (List.mem_of_getElem? h)
    obtain ⟨h1, h2, h3⟩ := L.size r hr f hf
    obtain ⟨l, hl, _⟩ := orient_ok flipH flipV f (by rw [h3, h1, h2]) (hori r hr f hf)
    exact ⟨l, hl⟩

theorem RInv.resident_le {s : ROTiled T} (I : RInv s) (hc : 0 < s.lru.maxlen) : (s.resident : Int) ≤ s.lru.maxlen := by
  have h1 : s.resident ≤ s.lru.cache.length := by
    unfold resident
    apply List.Subperm.length_le
    apply List.subperm_of_subset
    · exact (List.nodup_range).filter _
    · intro t ht
      rw [List.mem_filter] at ht
      exact (I.mem t).2 ht.2
  have := I.lru.len
  rcases I.bound with h | h <;> omega

/-- **C95.** A layout of files of the same size, of which none has to be flipped sideways, opened with any cache size but 0:
every sequence of questions inside the raster gets the answers of the files, null tiles are NoData, and no more
tiles than the cache size are in memory. -/
theorem C95_reads_partial [DecidableEq T] (g : List (List (Option (Src T)))) (W tw th : Nat) (L : GoodLayout g W tw th)
    (hex : ∃ r ∈ g, ∃ f, some f ∈ r) (nullVal zero : T) (c : Int) (hc : c ≠ 0) (junk : Nat) (hj : W * g.length ≤ junk)
    (flipH flipV : Bool) (hori : ∀ r ∈ g, ∀ f, some f ∈ r → decide (f.gt.g1 < 0) = flipH)
    (ops : List ROp) (hr : ∀ o ∈ ops, o.inRange (W * tw) (g.length * th)) :
    ∃ s out s', openLayout g nullVal zero c junk = some s ∧
      askAll { s with flipH := flipH, flipV := flipV } ops = some (out, s') ∧
      ops.map (ROp.answer g tw th flipV nullVal) = out.map some ∧ (0 < c → (s'.resident : Int) ≤ c) := by
  obtain ⟨s, e, O⟩ := over_open g L hex nullVal zero c hc junk hj flipH flipV hori
  obtain ⟨out, s', e2, h2, O2⟩ := O.askAll ops hr
  refine ⟨s, out, s', e, e2, h2, fun hpos => ?_⟩
  have := O2.inv.resident_le (by rw [O2.cap]; exact hpos)
  rwa [O2.cap] at this

/-- **C95, refuted part.** A tile that has to be flipped sideways cannot be read at all: flipping leaves the memory of the
tile (C34), whatever the rest of the raster. -/
theorem C95_sideways_refuted (s : ROTiled T) (t : Nat) (f : Src T) (hl : (s.tiles t).loaded = false)
    (hd : f.data.length = f.w * f.h) (hw : 0 < f.w) (hh : 0 < f.h) (hori : decide (f.gt.g1 < 0) ≠ s.flipH) :
    s.loadTile t f = none := by
  unfold loadTile
  rw [if_neg (by rw [hl]; decide)]
  have key : ∀ s1 : ROTiled T, s.evict = some s1 → s1.flipH = s.flipH := by
    intro s1 h
    unfold evict at h
    split_ifs at h
    · split at h
      · cases h; rfl
      · cases h
    · cases h; rfl
  cases he : s.evict with
  | none => rfl
  | some s1 =>
    simp only
    split_ifs
    · rfl
    · have : orient s1.flipH s1.flipV f = none := by
        unfold orient
        simp only
        rw [if_pos (by
          rw [key s1 he]
          cases hq : decide (f.gt.g1 < 0) <;> cases hq2 : s.flipH <;> simp_all)]
        rw [C34_flipHorz_out_of_bounds (⟨f.w, f.h, f.data, f.noData, none, true, f.w⟩ : Raster T) hd hw hh, Option.bind_none]
      rw [this]

theorem loadTile_again (s : ROTiled T) (t : Nat) (f : Src T) (hl : (s.tiles t).loaded = true)
    (hc : (s.tiles t).doSetAll = false) : s.loadTile t f = some { s with lru := s.lru.insert t } := by
  unfold loadTile
  rw [if_pos hl]
  unfold lazySetAll
  dsimp only
  rw [if_neg (by simp [hc])]

/-- One assignment, and a question about the same tile right after it. -/
theorem Over.write [DecidableEq T] {g : List (List (Option (Src T)))} {W tw th flipV nullVal c} {s : ROTiled T}
    (O : Over g W tw th flipV nullVal c s) {x y x' y' : Nat} (hx : x < W * tw) (hy : y < g.length * th)
    (hx' : x' < W * tw) (hy' : y' < g.length * th) (tx : x' / tw = x / tw) (ty : y' / th = y / th) (v : T) :
    ∃ s', s.write x y v = some s' ∧ (s'.read x' y').map (·.1) =
      if (tileAt g (x / tw) (y / th)).join.isSome = true ∧ x' = x ∧ y' = y then some v else bigCell g tw th flipV nullVal x' y' := by
  have p1 := dim_pos hx
  have p2 := dim_pos hy
  have h1 := (Nat.div_lt_iff_lt_mul p1).2 hx
  have h2 := (Nat.div_lt_iff_lt_mul p2).2 hy
  have h3 := Nat.mod_lt x p1
  have h4 := Nat.mod_lt y p2
  have h3' := Nat.mod_lt x' p1
  have h4' := Nat.mod_lt y' p2
  unfold ROTiled.write
  simp only [O.tw, O.th]
  rcases O.at h1 h2 with ⟨e1, e2⟩ | ⟨f, s', e1, e2, hw, hh, e3, O', hv⟩
  · rw [e1]
    refine ⟨s, rfl, ?_⟩
    unfold ROTiled.read read4 bigCell
    rw [O.tw, O.th, tx, ty, e1, e2]
    simp [O.nnd]
  rw [e1]
  simp only [e3]
  refine ⟨_, rfl, ?_⟩
  obtain ⟨s'', k1, _, hS, hl⟩ := load_ok s _ f O.inv e1
  rw [e3, Option.some.injEq] at k1
  subst k1
  generalize ht : y / th * s.W + x / tw = t at *
  have ht' : y / th * s'.W + x / tw = t := by rw [hS.W]; exact ht
  unfold ROTiled.read read4
  dsimp only
  rw [hS.tw, hS.th, O.tw, O.th, tx, ty, ht', hS.src, e1]
  dsimp only
  rw [loadTile_again _ t f (by simp [upd, hl]) (by simp [upd, O'.inv.clean t])]
  simp only [upd, if_true]
  have hsome := shown_some O.L e2 flipV h3 h4
  have hin : y % th * f.w + x % tw < (s'.tiles t).mem.length := by
    obtain ⟨u, hu⟩ := hsome
    rw [← hv _ _ h3 h4] at hu
    exact (List.getElem?_eq_some_iff.1 hu).1
  by_cases hsame : x' = x ∧ y' = y
  · obtain ⟨rfl, rfl⟩ := hsame
    rw [if_pos ⟨by rw [e2]; simp, rfl, rfl⟩, List.getElem?_set_self hin]
    rfl
  · rw [if_neg (by tauto)]
    have hne : y % th * f.w + x % tw ≠ y' % th * f.w + x' % tw := by
      intro he
      have q1 := congrArg (· / f.w) he
      have q2 := congrArg (· % f.w) he
      simp only [Raster.idx_div (show x % tw < f.w by rw [hw]; exact h3),
        Raster.idx_div (show x' % tw < f.w by rw [hw]; exact h3'),
        Raster.idx_mod (show x % tw < f.w by rw [hw]; exact h3),
        Raster.idx_mod (show x' % tw < f.w by rw [hw]; exact h3')] at q1 q2
      apply hsame
      constructor
      · rw [← Nat.div_add_mod x' tw, ← Nat.div_add_mod x tw, tx, q2]
      · rw [← Nat.div_add_mod y' th, ← Nat.div_add_mod y th, ty, q1]
    rw [List.getElem?_set_ne hne, hv _ _ h3' h4']
    unfold bigCell
    rw [tx, ty, e2]
    dsimp only
    cases shown flipV f (x' % tw) (y' % th) <;> rfl

/-- **C95, proved part.** An assignment is seen by the next question about its tile, and by no other cell of it; an
assignment to a cell of a blank tile is ignored. -/
theorem C95_write_partial [DecidableEq T] (g : List (List (Option (Src T)))) (W tw th : Nat) (L : GoodLayout g W tw th)
    (hex : ∃ r ∈ g, ∃ f, some f ∈ r) (nullVal zero : T) (c : Int) (hc : c ≠ 0) (junk : Nat) (hj : W * g.length ≤ junk)
    (flipH flipV : Bool) (hori : ∀ r ∈ g, ∀ f, some f ∈ r → decide (f.gt.g1 < 0) = flipH)
    (ops : List ROp) (hr : ∀ o ∈ ops, o.inRange (W * tw) (g.length * th)) (x y x' y' : Nat) (hx : x < W * tw)
    (hy : y < g.length * th) (hx' : x' < W * tw) (hy' : y' < g.length * th) (tx : x' / tw = x / tw)
    (ty : y' / th = y / th) (v : T) :
    ∃ s out s' s'', openLayout g nullVal zero c junk = some s ∧
      askAll { s with flipH := flipH, flipV := flipV } ops = some (out, s') ∧ s'.write x y v = some s'' ∧
      (s''.read x' y').map (·.1) =
        if (tileAt g (x / tw) (y / th)).join.isSome = true ∧ x' = x ∧ y' = y then some v
        else bigCell g tw th flipV nullVal x' y' := by
  obtain ⟨s, e, O⟩ := over_open g L hex nullVal zero c hc junk hj flipH flipV hori
  obtain ⟨out, s', e2, _, O2⟩ := O.askAll ops hr
  obtain ⟨s'', e3, e4⟩ := O2.write hx hy hx' hy' tx ty v
  exact ⟨s, out, s', s'', e, e2, e3, e4⟩

/-- A file of one cell. -/
def dot (v : Int) : Src Int := ⟨1, 1, ⟨0, 1, 0, 0, 0, -1⟩, -1, [v]⟩

/-- **C95, refuted part.** The raster accepts assignments, but they are lost when the tile is evicted. -/
theorem C95_write_lost_refuted :
    ∃ s, openLayout [[some (dot 3), some (dot 4)]] (-1) 0 1 100 = some s ∧
      ((s.write 0 0 7).bind fun s => s.read 0 0).map (·.1) = some 7 ∧
      ((s.write 0 0 7).bind fun s => (s.read 1 0).bind fun p => p.2.read 0 0).map (·.1) = some 3 := by
  refine ⟨_, rfl, ?_, ?_⟩ <;> decide +kernel

/-- **C95, refuted part.** So is the value given to `setAll`. -/
theorem C95_setAll_lost_refuted :
    ∃ s, openLayout [[some (dot 3), some (dot 4)]] (-1) 0 1 100 = some s ∧
      ((s.setAll 7).read 0 0).map (·.1) = some 7 ∧
      (((s.setAll 7).read 0 0).bind fun p => (p.2.read 1 0).bind fun p => p.2.read 0 0).map (·.1) = some 3 := by
  refine ⟨_, rfl, ?_, ?_⟩ <;> decide +kernel

/-! ### C96: merging -/

theorem Over.save {g : List (List (Option (Src T)))} {W tw th flipV nullVal c} :
    ∀ (l : List (Nat × Nat)) {s : ROTiled T}, Over g W tw th flipV nullVal c s → (∀ t ∈ l, t.1 < W ∧ t.2 < g.length) →
    ∀ b : Nat → Nat → Option T, 0 < tw → 0 < th →
    ∃ b' s', ROTiled.saveTiles l b s = some (b', s') ∧ Over g W tw th flipV nullVal c s' ∧
      ∀ x y, b' x y = match (if (x / tw, y / th) ∈ l then tileAt g (x / tw) (y / th) else none) with
        | some (some f) => shown flipV f (x % tw) (y % th)
        | _ => b x y := by
  intro l
  induction l with
  | nil => intro s O _ b _ _; exact ⟨b, s, rfl, O, fun x y => by simp⟩
  | cons t l ih =>
    intro s O hl b htw hth
    obtain ⟨tx, ty⟩ := t
    obtain ⟨h1, h2⟩ := hl (tx, ty) (by simp)
    have hl' : ∀ t ∈ l, t.1 < W ∧ t.2 < g.length := fun t ht => hl t (by simp [ht])
    unfold ROTiled.saveTiles
    rcases O.at h1 h2 with ⟨e1, e2⟩ | ⟨f, s', e1, e2, _, _, e3, O', hv⟩
    · rw [e1]
      simp only
      obtain ⟨b', s', e, O', hb⟩ := ih O hl' b htw hth
      refine ⟨b', s', e, O', fun x y => ?_⟩
      rw [hb x y]
      by_cases hxy : (x / tw, y / th) = (tx, ty)
      · obtain ⟨rfl, rfl⟩ := Prod.mk.inj hxy
        rw [if_pos (c := (x / tw, y / th) ∈ (x / tw, y / th) :: l) (by simp), e2]
        split_ifs <;> rfl
      · have : (x / tw, y / th) ∈ (tx, ty) :: l ↔ (x / tw, y / th) ∈ l := by simp only [List.mem_cons, hxy, false_or]
        simp only [this]
    · rw [e1]
      simp only [e3]
      obtain ⟨b', s2, e, O2, hb⟩ := ih O' hl'
        (Tiled.writeTile s.tw s.th tx ty (fun x y => (s'.tiles (ty * s.W + tx)).mem[y * f.w + x]?) b) htw hth
      refine ⟨b', s2, e, O2, fun x y => ?_⟩
      rw [hb x y]
      by_cases hxy : (x / tw, y / th) = (tx, ty)
      · obtain ⟨hx, hy⟩ := Prod.mk.inj hxy
        rw [if_pos (c := (x / tw, y / th) ∈ (tx, ty) :: l) (by simp [hxy])]
        rw [hx, hy, e2]
        simp only
        split_ifs
        · rfl
        · unfold Tiled.writeTile
          rw [O.tw, O.th, if_pos ((Tiled.window_iff htw hth).2 ⟨hx, hy⟩)]
          have a1 := Nat.div_add_mod x tw
          have a2 := Nat.div_add_mod y th
          rw [hx, Nat.mul_comm] at a1
          rw [hy, Nat.mul_comm] at a2
          have b1 : x - tx * tw = x % tw := by omega
          have b2 : y - ty * th = y % th := by omega
          rw [b1, b2]
          exact hv _ _ (Nat.mod_lt _ htw) (Nat.mod_lt _ hth)
      · have : (x / tw, y / th) ∈ (tx, ty) :: l ↔ (x / tw, y / th) ∈ l := by simp only [List.mem_cons, hxy, false_or]
        simp only [this]
        have hw : Tiled.writeTile s.tw s.th tx ty (fun x y => (s'.tiles (ty * s.W + tx)).mem[y * f.w + x]?) b x y = b x y := by
          unfold Tiled.writeTile
          rw [if_neg]
          intro hcc
          rw [O.tw, O.th] at hcc
          exact hxy (by have := (Tiled.window_iff htw hth).1 hcc; rw [this.1, this.2])
        rw [hw]

/-- **C96.** Merging a layout whose first entry is a file and whose NoData values agree (that of a blank being `nullVal`):
for every cache size the result has the size of the whole, the geotransform of the first file, and in every cell what the
files say, NoData on blanks. -/
theorem C96_merge_partial [DecidableEq T] (g : List (List (Option (Src T)))) (W tw th : Nat) (L : GoodLayout g W tw th)
    (hW : 0 < W) (htw : 0 < tw) (hth : 0 < th) (nullVal zero : T) (c : Int) (hc : c ≠ 0) (junk : Nat) (hj : W * g.length ≤ junk)
    (flipH flipV : Bool) (hori : ∀ r ∈ g, ∀ f, some f ∈ r → decide (f.gt.g1 < 0) = flipH)
    (f0 : Src T) (h0 : tileAt g 0 0 = some (some f0))
    (hnd : ∀ r ∈ g, ∀ f, some f ∈ r → f.noData = f0.noData) (hnull : ∀ r ∈ g, none ∈ r → nullVal = f0.noData) :
    ∃ m, mergeTool g nullVal zero c junk flipH flipV = some m ∧ m.width = W * tw ∧ m.height = g.length * th ∧
      m.noData = some f0.noData ∧ m.gt = f0.gt ∧
      ∀ x y, x < W * tw → y < g.length * th → ∃ v, m.band x y = some v ∧
        bigCell g tw th flipV f0.noData x y = some v := by
  obtain ⟨r0, hr0, hf0⟩ := tileAt_mem h0
  obtain ⟨s, e, O⟩ := over_open g L ⟨r0, hr0, f0, hf0⟩ nullVal zero c hc junk hj flipH flipV hori
  unfold mergeTool
  rw [e]
  simp only
  generalize ({ s with flipH := flipH, flipV := flipV } : ROTiled T) = s1 at O
  obtain ⟨b, s2, e2, O2, hb⟩ := O.save (Tiled.tileOrder s1.W s1.H) (fun t ht => by
    have := Tiled.mem_tileOrder.1 ht
    rwa [O.W, O.H] at this) (fun _ _ => some f0.noData) htw hth
  have esrc : s1.src[0]? = some (some f0) := by
    have := flatten_get W g L.rect 0 0 hW
    simp only [Nat.zero_mul, Nat.zero_add] at this
    rw [O.src, this]; exact h0
  have eany : s1.src.any (fun o => !decide (s1.tileNoData o = f0.noData)) = false := by
    rw [List.any_eq_false]
    intro o ho
    rw [O.src] at ho
    obtain ⟨r, hr, hor⟩ := List.mem_flatten.1 ho
    cases o with
    | none =>
      simp [tileNoData, O.nnd, hnull r hr hor]
    | some f =>
      simp [tileNoData, hnd r hr f hor]
  unfold saveUnified
  rw [esrc]
  simp only [eany, Bool.false_eq_true, if_false, e2, Option.map_some]
  refine ⟨_, rfl, by rw [O.W, O.tw], by rw [O.H, O.th], rfl, rfl, fun x y hx hy => ?_⟩
  have h1 : x / tw < W := (Nat.div_lt_iff_lt_mul htw).2 hx
  have h2 : y / th < g.length := (Nat.div_lt_iff_lt_mul hth).2 hy
  simp only [hb x y]
  rw [if_pos (Tiled.mem_tileOrder.2 ⟨by rw [O.W]; exact h1, by rw [O.H]; exact h2⟩)]
  unfold bigCell
  rcases O.at h1 h2 with ⟨_, e4⟩ | ⟨f, _, _, e4, _⟩
  · rw [e4]; exact ⟨_, rfl, rfl⟩
  · rw [e4]
    obtain ⟨v, hv⟩ := shown_some L e4 flipV (Nat.mod_lt x htw) (Nat.mod_lt y hth)
    exact ⟨v, hv, hv⟩

/-- **C96.** If moreover the files lie where the layout says (each file's geotransform is the first one's, moved by the tile),
are north-up and nothing is flipped, then every cell of every file is found in the result at the same place on the
ground with the same value. -/
theorem C96_located_partial [DecidableEq T] (g : List (List (Option (Src T)))) (W tw th : Nat) (L : GoodLayout g W tw th)
    (hW : 0 < W) (htw : 0 < tw) (hth : 0 < th) (nullVal zero : T) (c : Int) (hc : c ≠ 0) (junk : Nat) (hj : W * g.length ≤ junk)
    (f0 : Src T) (h0 : tileAt g 0 0 = some (some f0))
    (hnd : ∀ r ∈ g, ∀ f, some f ∈ r → f.noData = f0.noData) (hnull : ∀ r ∈ g, none ∈ r → nullVal = f0.noData)
    (hpl : ∀ tx ty f, tileAt g tx ty = some (some f) → ∀ x y : ℚ, f.gt.world x y = f0.gt.world (x + tx * tw) (y + ty * th))
    (hno : ∀ r ∈ g, ∀ f, some f ∈ r → 0 ≤ f.gt.g1 ∧ f.gt.g5 ≤ 0) :
    ∃ m, mergeTool g nullVal zero c junk false false = some m ∧
      ∀ tx ty f, tileAt g tx ty = some (some f) → ∀ x y : Nat, x < tw → y < th →
        ∃ X Y : Nat, X < m.width ∧ Y < m.height ∧ m.band X Y = Src.cell f x y ∧ m.gt.world X Y = f.gt.world x y := by
  obtain ⟨m, e, h1, h2, _, h4, h5⟩ := C96_merge_partial g W tw th L hW htw hth nullVal zero c hc junk hj false false
    (fun r hr f hf => by simpa using (hno r hr f hf).1) f0 h0 hnd hnull
  refine ⟨m, e, fun tx ty f hf x y hx hy => ?_⟩
  have hty : ty < g.length := by
    by_contra hcc
    unfold tileAt at hf
    rw [List.getElem?_eq_none (by omega)] at hf
    cases hf
  have htx : tx < W := by
    by_contra hcc
    unfold tileAt at hf
    rw [List.getElem?_eq_getElem hty, Option.bind_some,
      List.getElem?_eq_none (by rw [L.rect _ (List.getElem_mem hty)]; omega)] at hf
    cases hf
  have hX : tx * tw + x < W * tw := by
    have := Nat.mul_le_mul_right tw (Nat.succ_le_of_lt htx)
    rw [Nat.succ_mul] at this
    omega
  have hY : ty * th + y < g.length * th := by
    have := Nat.mul_le_mul_right th (Nat.succ_le_of_lt hty)
    rw [Nat.succ_mul] at this
    omega
  refine ⟨tx * tw + x, ty * th + y, by rw [h1]; exact hX, by rw [h2]; exact hY, ?_, ?_⟩
  · obtain ⟨v, hv1, hv2⟩ := h5 _ _ hX hY
    rw [hv1, ← hv2]
    unfold bigCell
    rw [Raster.idx_div hx, Raster.idx_div hy, Raster.idx_mod hx, Raster.idx_mod hy, hf]
    simp only [shown]
    obtain ⟨r, hr, hfr⟩ := tileAt_mem hf
    have := (hno r hr f hfr).2
    rw [if_neg (by simpa using this)]
  · rw [h4, hpl tx ty f hf]
    push_cast
    congr 1 <;> ring

/-- **C96, refuted part.** A layout with a blank cannot be merged unless its files happen to have the NoData value of a raster
without one: the NoData value of the blank is compared too. -/
theorem C96_blank_refuted [DecidableEq T] (s : ROTiled T) (f0 : Src T) (h0 : s.src[0]? = some (some f0))
    (hn : none ∈ s.src) (hne : f0.noData ≠ s.nullNoData) : s.saveUnified = none := by
  unfold saveUnified
  rw [h0]
  simp only
  rw [if_pos]
  rw [List.any_eq_true]
  exact ⟨none, hn, by rw [Bool.not_eq_true', decide_eq_false_iff_not]; exact hne.symm⟩

/-- **C96, refuted part.** A layout that starts with a blank cannot be merged. -/
theorem C96_first_blank_refuted [DecidableEq T] (s : ROTiled T) (h0 : s.src[0]? = some none) : s.saveUnified = none := by
  unfold saveUnified
  rw [h0]

/-- A file of one column whose rows run upwards. -/
def upward : Src Int := ⟨1, 2, ⟨0, 1, 0, 0, 0, 1⟩, -1, [3, 4]⟩

/-- **C96, refuted part.** A file whose rows run upwards is turned upside down but keeps its geotransform: the cell at the
place of the 3 shows 4. -/
theorem C96_upward_refuted :
    ∃ m, mergeTool [[some upward]] (-1) 0 4 100 false false = some m ∧ m.gt.world 0 0 = upward.gt.world 0 0 ∧
      Src.cell upward 0 0 = some 3 ∧ m.band 0 0 = some 4 := by
  refine ⟨_, rfl, rfl, rfl, ?_⟩
  decide +kernel

/-- The theorems apply: two files side by side, the second one on the left half of the second row, and a blank. -/
example :
    let f (x y : Int) (v : List Int) : Src Int := ⟨2, 1, ⟨x, 1, 0, y, 0, -1⟩, -1, v⟩
    let g : List (List (Option (Src Int))) := [[some (f 0 0 [1, 2]), some (f 2 0 [3, 4])], [some (f 0 (-1) [5, 6]), none]]
    GoodLayout g 2 2 1 ∧
      (mergeTool g (-1) 0 1 100 false false).map (fun m => (List.range 2).map fun y => (List.range 4).map fun x => m.band x y) =
        some [[some 1, some 2, some 3, some 4], [some 5, some 6, some (-1), some (-1)]] := by
  refine ⟨⟨by simp, by simp, ?_⟩, by decide +kernel⟩
  intro r hr f hf
  simp only [List.mem_cons, List.not_mem_nil, or_false] at hr
  rcases hr with rfl | rfl <;> simp at hf <;> rcases hf with rfl | rfl <;> simp

/-- A cache of one tile, and an upside-down file: the second question evicts the tile, the third reads it again. -/
example :
    let g : List (List (Option (Src Int))) := [[some upward, none, some { upward with data := [5, -1] }]]
    ((openLayout g (-1) 0 1 100).bind fun s =>
      askAll s [.value 0 0, .value 2 1, .value 0 1, .noData 2 0, .noData 1 0]).map (·.1) =
        some [.inl 4, .inl 5, .inl 3, .inr true, .inr true] := by decide +kernel

end ROTiled
end RichDEM
