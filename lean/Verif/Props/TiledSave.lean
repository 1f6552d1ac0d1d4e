import Verif.IO.TiledSave
import Verif.Props.Tiled

/-!
C88 — saving a tiled raster as one file.
-/

namespace RichDEM
namespace Tiled
variable {T : Type}

theorem mem_tileOrder {W H : Nat} {t : Nat × Nat} : t ∈ tileOrder W H ↔ t.1 < W ∧ t.2 < H := by
  obtain ⟨a, b⟩ := t
  simp only [tileOrder, List.mem_flatMap, List.mem_map, List.mem_range, Prod.mk.injEq]
  constructor
  · rintro ⟨y, hy, x, hx, rfl, rfl⟩
    exact ⟨hx, hy⟩
  · rintro ⟨hx, hy⟩
    exact ⟨b, hy, a, hx, rfl, rfl⟩

/-- Inside the window of tile `(tx, ty)` exactly if the cell belongs to the tile. -/
theorem window_iff {tw th tx ty x y : Nat} (htw : 0 < tw) (hth : 0 < th) :
    (tx * tw ≤ x ∧ x < tx * tw + tw ∧ ty * th ≤ y ∧ y < ty * th + th) ↔
      x / tw = tx ∧ y / th = ty := by
  have key : ∀ {w t z : Nat}, 0 < w → ((t * w ≤ z ∧ z < t * w + w) ↔ z / w = t) := by
    intro w t z hw
    constructor
    · rintro ⟨h1, h2⟩
      rw [Nat.div_eq_iff hw]
      constructor
      · exact h1
      · omega
    · intro e
      subst e
      have h1 := Nat.div_add_mod z w
      have h2 := Nat.mod_lt z hw
      rw [Nat.mul_comm w] at h1
      constructor <;> omega
  rw [← key htw, ← key hth]
  tauto

theorem Sim.saveTiles {dflt : T} (l : List (Nat × Nat)) {s : Tiled T} {m : Nat → Nat → T}
    (S : Sim dflt s m) (hl : ∀ t ∈ l, t.1 < s.W ∧ t.2 < s.H) (b : Nat → Nat → T) :
    ∃ b' s', Tiled.saveTiles dflt l b s = some (b', s') ∧ Sim dflt s' m ∧ Same s s' ∧
      ∀ x y, x < s.tw * s.W → y < s.th * s.H →
        b' x y = if (x / s.tw, y / s.th) ∈ l ∧
            s.quick[(y / s.th) * s.W + x / s.tw]? = some false then m x y else b x y := by
  induction l generalizing s b with
  | nil => exact ⟨b, s, rfl, S, Same.refl s, by simp⟩
  | cons t l ih =>
    obtain ⟨tx, ty⟩ := t
    obtain ⟨htx, hty⟩ := hl (tx, ty) (by simp)
    have hidx : ty * s.W + tx < s.W * s.H := Raster.idx_lt htx hty
    have hq : s.isNullTile tx ty = some (s.quick[ty * s.W + tx]'(by rw [S.ql]; exact hidx)) := by
      unfold isNullTile
      rw [S.qw, List.getElem?_eq_getElem]
    unfold Tiled.saveTiles
    rw [hq]
    cases hb : s.quick[ty * s.W + tx]'(by rw [S.ql]; exact hidx) with
    | true =>
      dsimp only
      obtain ⟨b', s', e, S', hS, hv⟩ := ih S (fun t ht => hl t (by simp [ht])) b
      refine ⟨b', s', e, S', hS, ?_⟩
      intro x y hx hy
      rw [hv x y hx hy]
      by_cases hxy : (x / s.tw, y / s.th) = (tx, ty)
      · simp only [Prod.mk.injEq] at hxy
        have : s.quick[(y / s.th) * s.W + x / s.tw]? = some true := by
          rw [hxy.1, hxy.2, List.getElem?_eq_getElem (by rw [S.ql]; exact hidx), hb]
        rw [this]
        simp
      · simp [hxy]
    | false =>
      dsimp only
      obtain ⟨s1, e1, S1, hS1, hl1, hd1⟩ := S.load hidx
      rw [e1]
      dsimp only
      obtain ⟨b', s', e, S', hS, hv⟩ := ih S1
        (fun t ht => by rw [hS1.W, hS1.H]; exact hl t (by simp [ht]))
        (writeTile s.tw s.th tx ty ((s1.tiles (ty * s.W + tx)).mem) b)
      refine ⟨b', s', e, S', hS1.trans hS, ?_⟩
      intro x y hx hy
      have h1 := hv x y (by rw [hS1.tw, hS1.W]; exact hx) (by rw [hS1.th, hS1.H]; exact hy)
      rw [hS1.tw, hS1.th, hS1.W, hS1.quick] at h1
      rw [h1]
      by_cases hxy : (x / s.tw, y / s.th) = (tx, ty)
      · have hxy' := hxy
        simp only [Prod.mk.injEq] at hxy'
        have hqf : s.quick[(y / s.th) * s.W + x / s.tw]? = some false := by
          rw [hxy'.1, hxy'.2, List.getElem?_eq_getElem (by rw [S.ql]; exact hidx), hb]
        rw [if_pos (c := (x / s.tw, y / s.th) ∈ (tx, ty) :: l ∧ _) ⟨by simp [hxy], hqf⟩]
        have hw : writeTile s.tw s.th tx ty ((s1.tiles (ty * s.W + tx)).mem) b x y = m x y := by
          unfold writeTile
          rw [if_pos ((window_iff S.tw S.th).2 hxy')]
          have h2 := S1.val x y (by rw [hS1.tw, hS1.W]; exact hx) (by rw [hS1.th, hS1.H]; exact hy)
          rw [hS1.tw, hS1.th, hS1.W] at h2
          rw [hxy'.1, hxy'.2] at h2
          simp only [Tiled.val, hd1, hl1, if_true, Bool.false_eq_true, if_false] at h2
          rw [← h2]
          have a1 := Nat.div_add_mod x s.tw
          have a2 := Nat.div_add_mod y s.th
          rw [hxy'.1, Nat.mul_comm] at a1
          rw [hxy'.2, Nat.mul_comm] at a2
          congr 1 <;> omega
        rw [hw]
        split_ifs <;> rfl
      · have hw : writeTile s.tw s.th tx ty ((s1.tiles (ty * s.W + tx)).mem) b x y = b x y := by
          unfold writeTile
          rw [if_neg]
          intro hc
          exact hxy (by
            have := (window_iff S.tw S.th).1 hc
            rw [this.1, this.2])
        rw [hw]
        simp [hxy]

/-- A raster as the template constructor makes it. -/
theorem sim_fromTemplate (dflt : T) (tw th W H : Nat) (htw : 0 < tw) (hth : 0 < th)
    (quick : List Bool) (hq : quick.length = W * H) (fname : Nat → Nat)
    (hf : ∀ t u, t < W * H → u < W * H → fname t = fname u → t = u)
    (noData : Nat → T) (c : Int) (hc : c ≠ 0) (junk : Nat) (hj : W * H ≤ junk) :
    Sim dflt (fromTemplate tw th W H quick fname noData dflt c junk) (fun _ _ => dflt) := by
  refine ⟨⟨⟨List.nodup_nil, List.Perm.refl _, rfl, .inl rfl⟩, ?_, ?_, ?_, ?_, ?_, ?_, ?_, hf⟩,
    htw, hth, rfl, hq, ?_⟩
  · intro t; simp [fromTemplate, LRU.setCapacity, LRU.new]
  · intro t h; simp [fromTemplate, LRU.setCapacity, LRU.new] at h
  · intro _; exact hj
  · simp only [fromTemplate, LRU.setCapacity, LRU.new]; omega
  · intro t h; simp [fromTemplate] at h
  · intro t h; simp [fromTemplate] at h
  · intro t; rfl
  · intro x y _ _; simp [Tiled.val, fromTemplate]

/-- **C88.** Whatever was done with the raster before — any reads, writes and `setAll`s, any tiles
evicted on the way — the unified file has the size of the whole raster, holds at every cell
what the raster returns there (NoData on null tiles), and saving does not change the raster: the
next program of accesses reads what it would have read. The first tile must not be null and all
tiles must have one NoData value (see the `_refuted` theorems). -/
theorem C88_unified_partial [DecidableEq T] (dflt : T) (tw th W H : Nat) (htw : 0 < tw)
    (hth : 0 < th)
    (quick : List Bool) (hq : quick.length = W * H) (fname : Nat → Nat)
    (hf : ∀ t u, t < W * H → u < W * H → fname t = fname u → t = u)
    (nd : T) (c : Int) (hc : c ≠ 0) (junk : Nat) (hj : W * H ≤ junk)
    (hfirst : quick[0]? = some false)
    (ops : List (TOp T)) (hr : ∀ o ∈ ops, o.inRange (tw * W) (th * H)) :
    ∃ out s f s', runTiled dflt (fromTemplate tw th W H quick fname (fun _ => nd) dflt c junk) ops
        = some (out, s) ∧
      s.saveUnified dflt = some (f, s') ∧
      f.width = W * tw ∧ f.height = H * th ∧ f.noData = nd ∧
      (∀ x y, x < tw * W → y < th * H →
        ∃ s1, s.read dflt x y = some (f.band x y, s1)) ∧
      (∀ x y, x < tw * W → y < th * H → quick[(y / th) * W + x / tw]? = some true →
        f.band x y = nd) ∧
      ∀ ops', (∀ o ∈ ops', o.inRange (tw * W) (th * H)) →
        ∃ o1 s1 s2, runTiled dflt s ops' = some (o1, s1) ∧ runTiled dflt s' ops' = some (o1, s2) := by
  obtain ⟨s, m, e, S, hS⟩ := (sim_fromTemplate dflt tw th W H htw hth quick hq fname hf
    (fun _ => nd) c hc junk hj).run ops (m' := fun _ _ => dflt) (fun _ _ _ => rfl) hr
  have etw : s.tw = tw := hS.tw
  have eth : s.th = th := hS.th
  have eW : s.W = W := hS.W
  have eH : s.H = H := hS.H
  have eq : s.quick = quick := hS.quick
  have end' : s.noData = fun _ => nd := hS.noData
  obtain ⟨b, s', es, S', hS', hv⟩ := S.saveTiles (tileOrder s.W s.H)
    (fun t ht => mem_tileOrder.1 ht) (fun _ _ => s.noData 0)
  refine ⟨_, s, ⟨s.W * s.tw, s.H * s.th, b, s.noData 0⟩, s', e, ?_, ?_, ?_, ?_, ?_, ?_, ?_⟩
  · unfold saveUnified
    rw [if_neg (by simp [end'])]
    have : s.isNullTile 0 0 = some false := by
      unfold isNullTile
      rw [eq]
      simpa using hfirst
    rw [this]
    dsimp only
    rw [es]
  · dsimp only; rw [eW, etw]
  · dsimp only; rw [eH, eth]
  · dsimp only; rw [end']
  · intro x y hx hy
    have hx' : x < s.tw * s.W := by rw [etw, eW]; exact hx
    have hy' : y < s.th * s.H := by rw [eth, eH]; exact hy
    obtain ⟨s1, e1, -⟩ := S.read hx' hy'
    refine ⟨s1, ?_⟩
    rw [e1]
    dsimp only
    rw [hv x y hx' hy']
    obtain ⟨bb, -, hqq⟩ := S.quick_at hx' hy'
    have hm : (x / s.tw, y / s.th) ∈ tileOrder s.W s.H := mem_tileOrder.2
      ⟨(tile_lt S.tw S.th hx' hy').1,
        (Nat.div_lt_iff_lt_mul S.th).2 (by rw [Nat.mul_comm]; exact hy')⟩
    cases bb with
    | true =>
      rw [if_neg (by rw [hqq]; simp)]
      simp [nullCell, hqq, end']
    | false =>
      rw [if_pos ⟨hm, hqq⟩]
      simp [nullCell, hqq]
  · intro x y hx hy hn
    dsimp only
    rw [hv x y (by rw [etw, eW]; exact hx) (by rw [eth, eH]; exact hy), if_neg]
    · rw [end']
    · rw [etw, eth, eW, eq, hn]
      simp
  · intro ops' hr'
    obtain ⟨s1, -, e1, -⟩ := S.run ops' (m' := m) (fun _ _ _ => rfl)
      (by rw [etw, eth, eW, eH]; exact hr')
    obtain ⟨s2, -, e2, -⟩ := S'.run ops' (m' := m) (fun _ _ _ => rfl)
      (by rw [hS'.tw, hS'.th, hS'.W, hS'.H, etw, eth, eW, eH]; exact hr')
    rw [hS'.tw, hS'.th, hS'.W, hS'.quick, hS'.noData] at e2
    exact ⟨_, s1, s2, e1, e2⟩

/-- **C88, what fails.** If the first tile is null nothing is saved, whatever the other tiles
hold. -/
theorem C88_first_null_refuted [DecidableEq T] (dflt : T) (s : Tiled T)
    (h0 : s.isNullTile 0 0 = some true) : s.saveUnified dflt = none := by
  unfold saveUnified
  rw [h0]
  split_ifs <;> rfl

/-- **C88, what fails.** A raster with a null tile cannot be saved after `setNoData` with any value
other than the null tile's (−1 by default): null tiles keep theirs. -/
theorem C88_setNoData_refuted [DecidableEq T] (dflt : T) (s : Tiled T) (v : T)
    (t u : Nat × Nat) (ht : t.1 < s.W ∧ t.2 < s.H) (hu : u.1 < s.W ∧ u.2 < s.H)
    (hnull : s.quick[t.2 * s.W + t.1]? = some true)
    (hdata : s.quick[u.2 * s.W + u.1]? ≠ some true)
    (hv : v ≠ s.noData (t.2 * s.W + t.1)) : (s.setNoData v).saveUnified dflt = none := by
  unfold saveUnified
  rw [if_pos]
  rw [List.any_eq_true]
  by_cases hz : (s.setNoData v).noData 0 = v
  · refine ⟨t, mem_tileOrder.2 ht, ?_⟩
    simp only [decide_eq_true_eq]
    rw [hz]
    simp only [setNoData]
    rw [if_pos hnull]
    exact Ne.symm hv
  · refine ⟨u, mem_tileOrder.2 hu, ?_⟩
    simp only [decide_eq_true_eq]
    simp only [setNoData] at hz ⊢
    rw [if_neg hdata]
    exact Ne.symm hz

/-- **C88, what fails.** Saving a tiled raster tile by tile always throws if it has a tile that is
not null. -/
theorem C88_tile_by_tile_refuted (name : Nat → Gdal.Str) (save : Nat → Gdal.Str → Gdal.Res Unit)
    (s : Tiled T) (hqw : s.qw = s.W) (hql : s.quick.length = s.W * s.H) (u : Nat × Nat)
    (hu : u.1 < s.W ∧ u.2 < s.H) (hdata : s.quick[u.2 * s.W + u.1]? = some false) :
    saveEach name save s (tileOrder s.W s.H) [] = .throws := by
  have key : ∀ (l : List (Nat × Nat)) (out : List Gdal.Str), (∀ t ∈ l, t.1 < s.W ∧ t.2 < s.H) →
      u ∈ l → saveEach name save s l out = .throws := by
    intro l
    induction l with
    | nil => intro _ _ h; simp at h
    | cons t l ih =>
      intro out hl hm
      obtain ⟨tx, ty⟩ := t
      obtain ⟨htx, hty⟩ := hl (tx, ty) (by simp)
      have hidx : ty * s.W + tx < s.W * s.H := Raster.idx_lt htx hty
      have hq : s.isNullTile tx ty = some (s.quick[ty * s.W + tx]'(by rw [hql]; exact hidx)) := by
        unfold isNullTile
        rw [hqw, List.getElem?_eq_getElem]
      unfold saveEach
      rw [hq]
      cases hb : s.quick[ty * s.W + tx]'(by rw [hql]; exact hidx) with
      | false => rfl
      | true =>
        dsimp only
        apply ih _ (fun t ht => hl t (by simp [ht]))
        rcases List.mem_cons.1 hm with h | h
        · subst h
          rw [List.getElem?_eq_getElem (by rw [hql]; exact hidx), hb] at hdata
          simp at hdata
        · exact h
  exact key _ [] (fun t ht => mem_tileOrder.1 ht) (mem_tileOrder.2 hu)

/-- Non-vacuity: 2×2 tiles of 2×2 cells, one tile in memory, the last tile null. -/
example : ((runTiled (0 : Int) (fromTemplate 2 2 2 2 [false, false, false, true] id
      (fun _ => -1) 0 1 100)
    [.setAll 2, .write 0 0 5, .write 3 0 6, .write 1 3 9]).bind fun p =>
      (p.2.saveUnified 0).map fun q => (List.range 4).map fun y => (List.range 4).map fun x =>
        q.1.band x y) =
    some [[5, 2, 2, 6], [2, 2, 2, 2], [2, 2, -1, -1], [2, 9, -1, -1]] := by decide +kernel

end Tiled
end RichDEM
