import Verif.Py.Model

/-! Lemmas on the memory of the Python layer. -/

namespace RichDEM.Py

/-- The array lives and lies inside its block (true of every NumPy array). -/
def NdView.Valid (v : NdView) (m : PyMem) : Prop :=
  ∃ b, m.blk v.buf = some b ∧ ∀ c, InGrid v.w v.h c → 0 ≤ v.addr c ∧ v.addr c < b.len

theorem contig_addr {v : NdView} (hk : v.contig = true) {c : Cell} (hc : InGrid v.w v.h c) :
    v.addr c = v.off + xyToI v.w c := by
  obtain ⟨h1, h2, h3, h4⟩ := hc
  simp only [NdView.contig, Bool.or_eq_true, Bool.and_eq_true, beq_iff_eq] at hk
  simp only [NdView.addr, xyToI]
  rcases hk with (hk | hk) | ⟨ha, hb⟩
  · omega
  · omega
  · have e1 : c.1 * v.cs = c.1 := by
      rcases ha with ha | ha
      · have : c.1 = 0 := by omega
        rw [this]; simp
      · rw [ha]; ring
    have e2 : c.2 * v.rs = c.2 * v.w := by
      rcases hb with hb | hb
      · have : c.2 = 0 := by omega
        rw [this]; simp
      · rw [hb]
    rw [e1, e2]; ring

/-- A contiguous non-empty array and its wrapped form have the same memory. -/
theorem contig_range {v : NdView} {m : PyMem} {b : PyBlk} (hk : v.contig = true) (hw : 0 < v.w) (hh : 0 < v.h)
    (hb : m.blk v.buf = some b) (hv : v.Valid m) : 0 ≤ v.off ∧ v.off + (v.w * v.h : Nat) ≤ b.len := by
  obtain ⟨b', hb', hr⟩ := hv
  rw [hb] at hb'; obtain rfl := Option.some.inj hb'
  have g0 : InGrid v.w v.h ((0 : Int), (0 : Int)) := by simp only [InGrid]; omega
  have g1 : InGrid v.w v.h (((v.w - 1 : Nat) : Int), ((v.h - 1 : Nat) : Int)) := by simp only [InGrid]; omega
  have r0 := hr _ g0
  have r1 := hr _ g1
  rw [contig_addr hk g0] at r0
  rw [contig_addr hk g1] at r1
  simp only [xyToI] at r0 r1
  refine ⟨by simpa using r0.1, ?_⟩
  obtain ⟨k, hk⟩ : ∃ k, v.h = k + 1 := ⟨v.h - 1, by omega⟩
  rw [hk] at r1 ⊢
  have e : ((v.w * (k + 1) : Nat) : Int) = (k : Int) * v.w + v.w := by push_cast; ring
  rw [e]
  simp only [Nat.add_sub_cancel] at r1
  omega

theorem read_contig {v : NdView} {m : PyMem} (hk : v.contig = true) (hw : 0 < v.w) (hh : 0 < v.h)
    (hv : v.Valid m) (nd : ℚ) : (CArr.mk v.buf v.off v.w v.h nd).read m = some (v.cells m) := by
  obtain ⟨b, hb, _⟩ := id hv
  simp only [CArr.read, hb]
  rw [if_pos (contig_range hk hw hh hb hv)]
  congr 1
  funext c
  simp only [NdView.cells, hb]
  by_cases hc : inGrid v.w v.h c = true
  · rw [if_pos hc, if_pos hc, contig_addr hk (inGrid_iff.1 hc)]
  · rw [if_neg hc, if_neg hc]

/-- Elements inside the shape. -/
def restrict (w h : Nat) (g : Cell → ℚ) : Cell → ℚ := fun c => if inGrid w h c then g c else 0

theorem cells_write {v : NdView} {m : PyMem} (hk : v.contig = true) (hw : 0 < v.w) (hh : 0 < v.h)
    (hv : v.Valid m) (nd : ℚ) (g : Cell → ℚ) :
    v.cells ((CArr.mk v.buf v.off v.w v.h nd).write m g) = restrict v.w v.h g := by
  obtain ⟨b, hb, _⟩ := id hv
  have hr := contig_range hk hw hh hb hv
  funext c
  simp only [NdView.cells, restrict, CArr.write, Function.update_self, hb, Option.map_some]
  by_cases hc : inGrid v.w v.h c = true
  · rw [if_pos hc, if_pos hc]
    have hg := inGrid_iff.1 hc
    have hx := xyToI_bounds hg
    have ha := contig_addr hk hg
    rw [if_pos]
    · congr 1
      have : (((v.addr c).toNat : Int) - v.off).toNat = (xyToI v.w c).toNat := by omega
      rw [this, iToxy_xyToI hg]
    · omega
  · rw [if_neg hc, if_neg hc]

theorem write_other {a : CArr} {m : PyMem} (g : Cell → ℚ) {b : Nat} (hb : b ≠ a.buf) :
    (a.write m g).blk b = m.blk b := by
  simp only [CArr.write]; exact Function.update_of_ne hb _ _

/-- The block a raster was stored in. -/
theorem write_blk (a : CArr) {m : PyMem} {b : PyBlk} (hb : m.blk a.buf = some b) (g : Cell → ℚ) :
    (a.write m g).blk a.buf = some { b with
      val := fun i => if a.off ≤ i ∧ (i : Int) < a.off + (a.w * a.h : Nat) then g (iToxy a.w (i - a.off).toNat)
                      else b.val i } := by
  simp only [CArr.write, Function.update_self, hb, Option.map_some]

theorem contig_fresh (m : PyMem) (h w : Nat) : (m.fresh h w).contig = true := by
  simp [PyMem.fresh, NdView.contig]

theorem valid_fresh (m : PyMem) (h w : Nat) (g : Cell → ℚ) : (m.fresh h w).Valid (m.alloc h w g) := by
  refine ⟨⟨w * h, fun i => g (iToxy w i)⟩, by simp [PyMem.fresh, PyMem.alloc], ?_⟩
  intro c hc
  rw [contig_addr (contig_fresh m h w) hc]
  have := xyToI_bounds hc
  simp only [PyMem.fresh] at this ⊢
  omega

theorem cells_fresh (m : PyMem) (h w : Nat) (g : Cell → ℚ) :
    (m.fresh h w).cells (m.alloc h w g) = restrict w h g := by
  funext c
  simp only [NdView.cells, restrict]
  by_cases hc : inGrid w h c = true
  · have hc' : inGrid (m.fresh h w).w (m.fresh h w).h c = true := hc
    rw [if_pos hc, if_pos hc', contig_addr (contig_fresh m h w) (inGrid_iff.1 hc')]
    have hg := inGrid_iff.1 hc
    simp only [PyMem.fresh, PyMem.alloc, Function.update_self, zero_add]
    rw [iToxy_xyToI hg]
  · have hc' : ¬ inGrid (m.fresh h w).w (m.fresh h w).h c = true := hc
    rw [if_neg hc, if_neg hc']

theorem restrict_cells (v : NdView) (m : PyMem) : restrict v.w v.h (v.cells m) = v.cells m := by
  funext c
  simp only [restrict, NdView.cells]
  by_cases hc : inGrid v.w v.h c = true
  · rw [if_pos hc]
  · rw [if_neg hc, if_neg hc]

theorem alloc_other (m : PyMem) (h w : Nat) (g : Cell → ℚ) {b : Nat} (hb : b ≠ m.next) :
    (m.alloc h w g).blk b = m.blk b := by
  simp only [PyMem.alloc]; exact Function.update_of_ne hb _ _

theorem ensure_contig {m : PyMem} {v : NdView} (hk : v.contig = true) : ensurePtr m v = (m, (v.buf, v.off)) := by
  rw [ensurePtr, if_pos hk]

/-- The pointer of a wrapped array that is not contiguous is dangling. -/
theorem read_dangling {m : PyMem} {v : NdView} (hk : v.contig = false) (w h : Nat) (nd : ℚ) :
    (CArr.mk (ensurePtr m v).2.1 (ensurePtr m v).2.2 w h nd).read (ensurePtr m v).1 = none := by
  rw [ensurePtr, if_neg (by rw [hk]; decide)]
  simp [CArr.read, PyMem.free]

end RichDEM.Py
