import Verif.IO.Tiled
import Verif.Raster
import Mathlib.Data.List.Perm.Subperm

/-!
C41: a tiled raster behaves like one big raster, whatever is evicted.
-/

namespace RichDEM

variable {T : Type}

/-- What a program does with the raster. -/
inductive TOp (T : Type) where
  | read (x y : Nat)
  | write (x y : Nat) (v : T)
  | setAll (v : T)

/-- The access is inside a `w × h` raster. -/
def TOp.inRange (w h : Nat) : TOp T → Prop
  | .read x y => x < w ∧ y < h
  | .write x y _ => x < w ∧ y < h
  | .setAll _ => True

/-- Running a program on the tiled raster: the values read, and the final state; `none` if
anything goes wrong. -/
def runTiled (dflt : T) : Tiled T → List (TOp T) → Option (List T × Tiled T)
  | s, [] => some ([], s)
  | s, .read x y :: ops =>
    (s.read dflt x y).bind fun p => (runTiled dflt p.2 ops).map fun q => (p.1 :: q.1, q.2)
  | s, .write x y v :: ops => (s.write dflt x y v).bind fun s' => runTiled dflt s' ops
  | s, .setAll v :: ops => runTiled dflt (s.setAll v) ops

/-- **Specification**: the values the same program reads from one big raster `m` in memory, where
the cells `(x,y)` with `null x y = some d` always read as `d`. -/
def runBig (null : Nat → Nat → Option T) : (Nat → Nat → T) → List (TOp T) → List T
  | _, [] => []
  | m, .read x y :: ops => (null x y).getD (m x y) :: runBig null m ops
  | m, .write x y v :: ops =>
    runBig null (fun a b => if a = x ∧ b = y then v else m a b) ops
  | _, .setAll v :: ops => runBig null (fun _ _ => v) ops

/-- The cells of null tiles. -/
def nullCell (tw th W : Nat) (quick : List Bool) (noData : Nat → T) (x y : Nat) : Option T :=
  if quick[(y / th) * W + x / tw]? = some true then some (noData ((y / th) * W + x / tw)) else none

namespace Tiled

/-- The simulation relation. -/
structure Sim (dflt : T) (s : Tiled T) (m : Nat → Nat → T) : Prop where
  inv : Inv s
  tw : 0 < s.tw
  th : 0 < s.th
  qw : s.qw = s.W
  ql : s.quick.length = s.W * s.H
  val : ∀ x y, x < s.tw * s.W → y < s.th * s.H →
    val dflt s ((y / s.th) * s.W + x / s.tw) (x % s.tw) (y % s.th) = m x y

theorem tile_lt {tw th W H x y : Nat} (htw : 0 < tw) (hth : 0 < th) (hx : x < tw * W)
    (hy : y < th * H) : x / tw < W ∧ (y / th) * W + x / tw < W * H := by
  have h1 : x / tw < W := (Nat.div_lt_iff_lt_mul htw).2 (by rw [Nat.mul_comm]; exact hx)
  have h2 : y / th < H := (Nat.div_lt_iff_lt_mul hth).2 (by rw [Nat.mul_comm]; exact hy)
  exact ⟨h1, Raster.idx_lt h1 h2⟩

theorem Sim.load {dflt : T} {s : Tiled T} {m : Nat → Nat → T} (S : Sim dflt s m) {t : Nat}
    (ht : t < s.W * s.H) : ∃ s', s.loadTile dflt t = some s' ∧ Sim dflt s' m ∧ Same s s' ∧
      (s'.tiles t).loaded = true ∧ (s'.tiles t).doSetAll = false := by
  obtain ⟨s', e, I, hS, hl, hd, hv⟩ := loadTile_spec dflt s t S.inv ht
  refine ⟨s', e, ⟨I, by rw [hS.tw]; exact S.tw, by rw [hS.th]; exact S.th,
    by rw [hS.qw, hS.W]; exact S.qw, by rw [hS.quick, hS.W, hS.H]; exact S.ql, ?_⟩, hS, hl, hd⟩
  intro x y hx hy
  rw [hS.tw, hS.W] at hx
  rw [hS.th, hS.H] at hy
  rw [hS.tw, hS.th, hS.W, hv _ _ _ (tile_lt S.tw S.th hx hy).2]
  exact S.val x y hx hy

theorem Sim.quick_at {dflt : T} {s : Tiled T} {m : Nat → Nat → T} (S : Sim dflt s m) {x y : Nat}
    (hx : x < s.tw * s.W) (hy : y < s.th * s.H) :
    ∃ b, s.isNullTile (x / s.tw) (y / s.th) = some b ∧
      s.quick[(y / s.th) * s.W + x / s.tw]? = some b := by
  have := (tile_lt S.tw S.th hx hy).2
  unfold isNullTile
  rw [S.qw, List.getElem?_eq_getElem (by rw [S.ql]; exact this)]
  exact ⟨_, rfl, rfl⟩

theorem Sim.read {dflt : T} {s : Tiled T} {m : Nat → Nat → T} (S : Sim dflt s m) {x y : Nat}
    (hx : x < s.tw * s.W) (hy : y < s.th * s.H) :
    ∃ s', s.read dflt x y =
        some ((nullCell s.tw s.th s.W s.quick s.noData x y).getD (m x y), s') ∧
      Sim dflt s' m ∧ Same s s' := by
  obtain ⟨b, hb, hq⟩ := S.quick_at hx hy
  unfold Tiled.read
  simp only [hb, nullCell, hq]
  cases b with
  | true => exact ⟨s, by simp, S, Same.refl s⟩
  | false =>
    have ht := (tile_lt S.tw S.th hx hy).2
    obtain ⟨s', e, S', hS, hl, hd⟩ := S.load ht
    refine ⟨s', ?_, S', hS⟩
    simp only [e]
    have hv := S'.val x y (by rw [hS.tw, hS.W]; exact hx) (by rw [hS.th, hS.H]; exact hy)
    rw [hS.tw, hS.th, hS.W] at hv
    simp only [Tiled.val, hd, hl, if_true, Bool.false_eq_true, if_false] at hv
    simp [hv]

theorem addr_inj {tw th W x y x' y' : Nat} (h1 : x / tw < W) (h2 : x' / tw < W)
    (ht : (y / th) * W + x / tw = (y' / th) * W + x' / tw) (hx : x % tw = x' % tw)
    (hy : y % th = y' % th) : x = x' ∧ y = y' := by
  have a : x / tw = x' / tw := by
    have := congrArg (· % W) ht
    simpa only [Raster.idx_mod h1, Raster.idx_mod h2] using this
  have b : y / th = y' / th := by
    have := congrArg (· / W) ht
    simpa only [Raster.idx_div h1, Raster.idx_div h2] using this
  constructor
  · rw [← Nat.div_add_mod x tw, ← Nat.div_add_mod x' tw, a, hx]
  · rw [← Nat.div_add_mod y th, ← Nat.div_add_mod y' th, b, hy]

theorem Sim.write {dflt : T} {s : Tiled T} {m : Nat → Nat → T} (S : Sim dflt s m) {x y : Nat}
    (v : T) (hx : x < s.tw * s.W) (hy : y < s.th * s.H) :
    ∃ s' m', s.write dflt x y v = some s' ∧ Sim dflt s' m' ∧ Same s s' ∧
      ∀ a b, nullCell s.tw s.th s.W s.quick s.noData a b = none →
        m' a b = if a = x ∧ b = y then v else m a b := by
  obtain ⟨b, hb, hq⟩ := S.quick_at hx hy
  unfold Tiled.write
  simp only [hb]
  cases b with
  | true =>
    refine ⟨s, m, rfl, S, Same.refl s, ?_⟩
    intro a c hn
    rw [if_neg]
    rintro ⟨rfl, rfl⟩
    simp [nullCell, hq] at hn
  | false =>
    obtain ⟨h1, ht⟩ := tile_lt S.tw S.th hx hy
    obtain ⟨s', e, S', hS, hl, hd⟩ := S.load ht
    simp only [e]
    generalize ht' : (y / s.th) * s.W + x / s.tw = t at *
    generalize hT : ({ s'.tiles t with mem := fun a b =>
      if a = x % s.tw ∧ b = y % s.th then v else (s'.tiles t).mem a b } : Tile T) = T1
    have hL : ∀ u, ((upd s'.tiles t T1) u).loaded = (s'.tiles u).loaded := by
      intro u; by_cases h : u = t
      · subst h; rw [upd_same, ← hT]
      · rw [upd_ne _ _ _ h]
    have hC : ∀ u, ((upd s'.tiles t T1) u).created = (s'.tiles u).created := by
      intro u; by_cases h : u = t
      · subst h; rw [upd_same, ← hT]
      · rw [upd_ne _ _ _ h]
    have hG : ∀ u, ((upd s'.tiles t T1) u).hasGeo = (s'.tiles u).hasGeo := by
      intro u; by_cases h : u = t
      · subst h; rw [upd_same, ← hT]
      · rw [upd_ne _ _ _ h]
    refine ⟨_, fun a b => if a = x ∧ b = y then v else m a b, rfl,
      ⟨⟨S'.inv.lru, ?_, S'.inv.small, S'.inv.first, S'.inv.bound, ?_, ?_, ?_, S'.inv.inj⟩,
        S'.tw, S'.th, S'.qw, S'.ql, ?_⟩,
      ⟨hS.tw, hS.th, hS.W, hS.H, hS.quick, hS.qw, hS.fname, hS.noData, hS.cap⟩, ?_⟩
    · intro u; simp only [hL]; exact S'.inv.mem u
    · intro u g1 g2; simp only [hL, hC] at g1 g2; exact S'.inv.disk u g1 g2
    · intro u g1; simp only [hL, hC] at g1 ⊢; exact S'.inv.cr u g1
    · intro u; simp only [hG]; exact S'.inv.geo u
    · intro a c ha hc
      simp only [hS.tw, hS.th, hS.W, hS.H] at ha hc ⊢
      have hv := S'.val a c (by rw [hS.tw, hS.W]; exact ha) (by rw [hS.th, hS.H]; exact hc)
      rw [hS.tw, hS.th, hS.W] at hv
      by_cases hu : (c / s.th) * s.W + a / s.tw = t
      · rw [hu] at hv ⊢
        simp only [Tiled.val, upd_same, ← hT, hd, hl, if_true, Bool.false_eq_true,
          if_false] at hv ⊢
        by_cases hac : a % s.tw = x % s.tw ∧ c % s.th = y % s.th
        · have := addr_inj (tile_lt S.tw S.th ha hc).1 h1 (hu.trans ht'.symm) hac.1 hac.2
          rw [if_pos hac, if_pos this]
        · rw [if_neg hac, if_neg (by rintro ⟨rfl, rfl⟩; exact hac ⟨rfl, rfl⟩)]
          exact hv
      · have hne : ¬ (a = x ∧ c = y) := by rintro ⟨rfl, rfl⟩; exact hu ht'
        rw [if_neg hne, ← hv]
        simp only [Tiled.val, upd_ne _ _ _ hu]
    · intro a c _; rfl

theorem Sim.setAll {dflt : T} {s : Tiled T} {m : Nat → Nat → T} (S : Sim dflt s m) (v : T) :
    Sim dflt (s.setAll v) (fun _ _ => v) ∧ Same s (s.setAll v) := by
  refine ⟨⟨⟨S.inv.lru, S.inv.mem, S.inv.small, S.inv.first, S.inv.bound, S.inv.disk, S.inv.cr,
    S.inv.geo, S.inv.inj⟩, S.tw, S.th, S.qw, S.ql, ?_⟩, ⟨rfl, rfl, rfl, rfl, rfl, rfl, rfl, rfl, rfl⟩⟩
  intro x y _ _
  simp [Tiled.val, Tiled.setAll]

theorem Inv.resident_eq {s : Tiled T} (I : Inv s) : s.resident = s.lru.cache.length := by
  unfold resident
  apply List.Perm.length_eq
  rw [List.perm_ext_iff_of_nodup (List.nodup_range.filter _) I.lru.nodup]
  intro t
  rw [List.mem_filter, List.mem_range]
  constructor
  · intro h1; exact (I.mem t).2 h1.2
  · intro h1; exact ⟨I.small t h1, (I.mem t).1 h1⟩

theorem Inv.resident_le {s : Tiled T} (I : Inv s) (hc : 0 < s.lru.maxlen) :
    (s.resident : Int) ≤ s.lru.maxlen := by
  have h1 : s.resident ≤ s.lru.cache.length := by
    unfold resident
    apply List.Subperm.length_le
    apply List.subperm_of_subset
    · exact (List.nodup_range).filter _
    · intro t ht
      rw [List.mem_filter] at ht
      exact (I.mem t).2 ht.2
  have := I.lru.len
  rcases I.bound with h | h <;> omega

theorem Sim.run {dflt : T} : ∀ (ops : List (TOp T)) {s : Tiled T} {m m' : Nat → Nat → T},
    Sim dflt s m →
    (∀ a b, nullCell s.tw s.th s.W s.quick s.noData a b = none → m a b = m' a b) →
    (∀ o ∈ ops, o.inRange (s.tw * s.W) (s.th * s.H)) →
    ∃ s' m'', runTiled dflt s ops =
        some (runBig (nullCell s.tw s.th s.W s.quick s.noData) m' ops, s') ∧
      Sim dflt s' m'' ∧ Same s s' := by
  intro ops
  induction ops with
  | nil => intro s m m' S _ _; exact ⟨s, m, rfl, S, Same.refl s⟩
  | cons o ops ih =>
    intro s m m' S hm hr
    have hr' : ∀ o ∈ ops, o.inRange (s.tw * s.W) (s.th * s.H) := fun o ho => hr o (by simp [ho])
    have ho := hr o (by simp)
    cases o with
    | read x y =>
      obtain ⟨s1, e1, S1, hS1⟩ := S.read ho.1 ho.2
      obtain ⟨s2, m2, e2, S2, hS2⟩ := ih S1 (m' := m')
        (by rw [hS1.tw, hS1.th, hS1.W, hS1.quick, hS1.noData]; exact hm)
        (by rw [hS1.tw, hS1.th, hS1.W, hS1.H]; exact hr')
      refine ⟨s2, m2, ?_, S2, hS1.trans hS2⟩
      rw [hS1.tw, hS1.th, hS1.W, hS1.quick, hS1.noData] at e2
      simp only [runTiled, e1, Option.bind_some, e2, Option.map_some, runBig]
      have : (nullCell s.tw s.th s.W s.quick s.noData x y).getD (m x y) =
          (nullCell s.tw s.th s.W s.quick s.noData x y).getD (m' x y) := by
        cases hn : nullCell s.tw s.th s.W s.quick s.noData x y with
        | none => simp [hm x y hn]
        | some d => rfl
      rw [this]
    | write x y v =>
      obtain ⟨s1, m1, e1, S1, hS1, hm1⟩ := S.write v ho.1 ho.2
      obtain ⟨s2, m2, e2, S2, hS2⟩ := ih S1 (m' := fun a b => if a = x ∧ b = y then v else m' a b)
        (by
          rw [hS1.tw, hS1.th, hS1.W, hS1.quick, hS1.noData]
          intro a b hn
          rw [hm1 a b hn, hm a b hn])
        (by rw [hS1.tw, hS1.th, hS1.W, hS1.H]; exact hr')
      refine ⟨s2, m2, ?_, S2, hS1.trans hS2⟩
      rw [hS1.tw, hS1.th, hS1.W, hS1.quick, hS1.noData] at e2
      simp only [runTiled, e1, Option.bind_some, e2, runBig]
    | setAll v =>
      obtain ⟨S1, hS1⟩ := S.setAll v
      obtain ⟨s2, m2, e2, S2, hS2⟩ := ih S1 (m' := fun _ _ => v)
        (fun _ _ _ => rfl)
        (by rw [hS1.tw, hS1.th, hS1.W, hS1.H]; exact hr')
      refine ⟨s2, m2, ?_, S2, hS1.trans hS2⟩
      rw [hS1.tw, hS1.th, hS1.W, hS1.quick, hS1.noData] at e2
      simp only [runTiled, e2, runBig]

/-- A new raster reads `T()` everywhere. -/
theorem sim_template (dflt : T) (tw th W H : Nat) (htw : 0 < tw) (hth : 0 < th)
    (quick : List Bool) (hq : quick.length = W * H) (fname : Nat → Nat)
    (hf : ∀ t u, t < W * H → u < W * H → fname t = fname u → t = u)
    (noData : Nat → T) (c : Int) (hc : c ≠ 0) (junk : Nat) (hj : W * H ≤ junk) :
    Sim dflt (Tiled.fromTemplate tw th W H quick fname noData dflt c junk) (fun _ _ => dflt) := by
  refine ⟨⟨⟨List.nodup_nil, List.Perm.refl _, rfl, .inl rfl⟩, ?_, ?_, ?_, ?_, ?_, ?_, ?_, hf⟩,
    htw, hth, rfl, hq, ?_⟩
  · intro t; simp [Tiled.fromTemplate, LRU.setCapacity, LRU.new]
  · intro t h; simp [Tiled.fromTemplate, LRU.setCapacity, LRU.new] at h
  · intro _; exact hj
  · simp only [Tiled.fromTemplate, LRU.setCapacity, LRU.new]; omega
  · intro t h; simp [Tiled.fromTemplate] at h
  · intro t h; simp [Tiled.fromTemplate] at h
  · intro t; rfl
  · intro x y _ _; simp [Tiled.val, Tiled.fromTemplate]

end Tiled

/-- **C41.** For every tiling, every set of null tiles, every cache size (positive, or negative
for no limit), and every sequence of reads, writes and `setAll`s inside the raster: nothing goes
wrong, every read returns what one big raster would return (the last value written, `T()` if
none, NoData on null tiles), and with cache size `c` never more than `c` tiles are in memory.
The tiles' cache files must have different names, and the uninitialised `LRU::last` must not by
accident hold the address of a tile (see `C41_stale_pointer`). -/
theorem C41_like_one_raster_partial (dflt : T) (tw th W H : Nat) (htw : 0 < tw) (hth : 0 < th)
    (quick : List Bool) (hq : quick.length = W * H) (fname : Nat → Nat)
    (hf : ∀ t u, t < W * H → u < W * H → fname t = fname u → t = u)
    (noData : Nat → T) (c : Int) (hc : c ≠ 0) (junk : Nat) (hj : W * H ≤ junk)
    (ops : List (TOp T)) (hr : ∀ o ∈ ops, o.inRange (tw * W) (th * H)) :
    ∃ s', runTiled dflt (Tiled.fromTemplate tw th W H quick fname noData dflt c junk) ops =
        some (runBig (nullCell tw th W quick noData) (fun _ _ => dflt) ops, s') ∧
      (0 < c → (s'.resident : Int) ≤ c) := by
  have S := Tiled.sim_template dflt tw th W H htw hth quick hq fname hf noData c hc junk hj
  obtain ⟨s', m'', e, S', hS⟩ := S.run ops (m' := fun _ _ => dflt) (fun _ _ _ => rfl) hr
  refine ⟨s', e, ?_⟩
  intro hpos
  have hcap : s'.lru.maxlen = c := hS.cap
  have := S'.inv.resident_le (by rw [hcap]; exact hpos)
  rw [hcap] at this; exact this

/-- **C41 is false of a raster built from dimensions**: its table of null tiles is never filled
in, so every access reads outside it. -/
theorem C41_from_dims (dflt zero : T) (tw th W H qw : Nat) (fname : Nat → Nat) (noData : Nat → T)
    (c : Int) (junk x y : Nat) (v : T) :
    (Tiled.fromDims tw th W H qw fname noData zero c junk).read dflt x y = none ∧
      (Tiled.fromDims tw th W H qw fname noData zero c junk).write dflt x y v = none := by
  constructor <;> simp [Tiled.read, Tiled.write, Tiled.isNullTile, Tiled.fromDims]

/-- **C41 is false when two tiles have the same base name**: they share one cache file, and a
value written to one tile is read back from the other. -/
theorem C41_same_cache_file :
    (runTiled (0 : Int) (Tiled.fromTemplate 1 1 3 1 [false, false, false] (fun t => t / 2)
        (fun _ => -1) 0 1 100)
      [.write 0 0 7, .write 1 0 8, .read 2 0, .read 0 0]).map (·.1) = some [0, 8] := by
  decide +kernel

/-- **C41 is false for cache size 0**: the first access evicts from an empty list. -/
theorem C41_cache_size_zero :
    (Tiled.fromTemplate 1 1 1 1 [false] id (fun _ => -1) (0 : Int) 0 100).read 0 0 0 = none := by
  rfl

/-- **C41 is false if the uninitialised `LRU::last` happens to be the address of a tile**: that
tile is not recorded, and with capacity 1 three tiles end up in memory. -/
theorem C41_stale_pointer :
    ∃ s', runTiled (0 : Int) (Tiled.fromTemplate 1 1 3 1 [false, false, false] id
        (fun _ => -1) 0 1 0)
      [.read 0 0, .read 1 0, .read 0 0, .read 2 0] = some ([0, 0, 0, 0], s') ∧
      s'.resident = 3 := by
  refine ⟨_, rfl, ?_⟩
  decide +kernel

/-- Non-vacuity: 2×2 tiles of 2×2 cells, one tile in memory at a time, one null tile. -/
example : (runTiled (0 : Int) (Tiled.fromTemplate 2 2 2 2 [false, false, false, true] id
      (fun _ => -1) 0 1 100)
    [.write 0 0 5, .write 3 0 6, .setAll 2, .write 1 3 9, .read 0 0, .read 1 3, .read 3 3]).map
      (·.1) = some [2, 9, -1] := by decide +kernel

end RichDEM
