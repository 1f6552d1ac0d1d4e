/-
Property theorems C120: the tools rd_flow_accumulation and rd_terrain_property.
-/
import Verif.Apps.FlowApps
import Verif.Props.DepTools
import Verif.Props.Rounded
import Verif.Props.Tarboton
import Verif.Props.Terrain

namespace RichDEM
namespace Tools

open Gdal Relation

/-! ### Specification -/

/-- The flow metrics by the numbers of the usage text (apps/rd_flow_accumulation.cpp:55-60). -/
noncomputable def numberedMetric (V : FlowEnv) (x : ℝ) (w h : Nat) (dem : Cell → ℝ) (nd : ℝ) : Nat → Cell → Nat → ℝ
  | 1 => fun c n => (((fmOCallaghan w h .D8 dem nd V.mx c).slot n : Int) : ℝ)
  | 2 => fun c n => (((fmFairfield w h .D8 dem nd V.rho c).slot n : Int) : ℝ)
  | 3 => fmQuinn w h dem nd
  | 4 => fmHolmgren w h dem nd x
  | 5 => fmFreeman w h dem nd x
  | 6 => fmTarboton w h dem nd
  | _ => fun _ _ => 0

/-- The area of a cell of a file. -/
noncomputable def fileCellArea (f : File ℝ) : ℝ := |((shownGT f).g1 : ℝ) * ((shownGT f).g5 : ℝ)|

/-- The terrain attributes by the numbers of the usage text (apps/rd_terrain_property.cpp:52-59). -/
noncomputable def numberedAttr (w h : Nat) (dem : Cell → ℝ) (nd zs lx ly : ℝ) (p : Cell) : Nat → ℝ
  | 1 => taSlope w h dem nd zs lx ly p
  | 2 => taSlopePercent w h dem nd zs lx ly p
  | 3 => taSlopeDegree w h dem nd zs lx ly p
  | 4 => taSlopeRadian w h dem nd zs lx ly p
  | 5 => taAspect w h dem nd zs lx ly p
  | 6 => taCurvature w h dem nd zs lx p
  | 7 => taPlanform w h dem nd zs lx p
  | 8 => taProfile w h dem nd zs lx p
  | _ => 0

/-! ### Lemmas -/

theorem FlowsDown_cast {E : Type} [LinearOrder E] {w h : Nat} {dem : Cell → E} {nd : E} {p : Cell → Nat → Int}
    (hp : FlowsDown w h dem nd p) : FlowsDown w h dem nd (fun c n => ((p c n : Int) : ℝ)) := by
  refine ⟨?_, ?_, ?_, ?_⟩
  · intro c hc
    rw [← hp.noData c hc]
    exact_mod_cast Iff.rfl
  · intro c he n hn
    have := hp.edge c he n hn
    show ((p c n : Int) : ℝ) ≤ 0
    exact_mod_cast this
  · intro c hc hd n hn h0
    exact hp.down c hc hd n hn (by exact_mod_cast h0)
  · intro c hc hd
    rcases hp.unit c hc hd with h1 | h1
    · left
      unfold sentTotal at h1 ⊢
      rw [← Int.cast_one, ← h1]
      simp only [List.range', List.map_cons, List.map_nil, List.sum_cons, List.sum_nil, Int.cast_add, Int.cast_ite,
        Int.cast_zero, Int.cast_pos]
    · right
      intro n hn
      exact_mod_cast h1 n hn

theorem metricOf_numbered (V : FlowEnv) (x : ℝ) (w h : Nat) (dem : Cell → ℝ) (nd : ℝ) (k : Nat) (h1 : 1 ≤ k) (h6 : k ≤ 6) :
    metricOf V (k : Int) x w h dem nd = some (numberedMetric V x w h dem nd k) := by
  interval_cases k <;> simp [metricOf, numberedMetric]

theorem numbered_flowsDown (V : FlowEnv) (x : ℝ) (w h : Nat) (dem : Cell → ℝ) (nd : ℝ) (k : Nat) (h1 : 1 ≤ k) (h6 : k ≤ 6)
    (hmx : ∀ c, InGrid w h c → dem c ≤ V.mx) : FlowsDown w h dem nd (numberedMetric V x w h dem nd k) := by
  interval_cases k
  · exact FlowsDown_cast (C57_d8 w h dem nd V.mx hmx)
  · exact C57_rho8 w h dem nd V.rho
  · exact C57_quinn w h dem nd
  · exact C57_holmgren w h dem nd x
  · exact C57_freeman w h dem nd x
  · exact C57_tarboton w h dem nd

theorem inflow_scaled (w h : Nat) (p : Cell → Nat → ℝ) (f g : Cell → ℝ) (A : ℝ) (c : Cell)
    (he : ∀ b, InGrid w h b → p b 0 ≠ -2 → g b = f b * A) : inflow w h p g c = inflow w h p f c * A := by
  unfold inflow
  rw [← List.sum_map_mul_right]
  congr 1
  refine List.map_congr_left fun b hb => ?_
  rw [← List.sum_map_mul_right]
  congr 1
  refine List.map_congr_left fun n _ => ?_
  beta_reduce
  split_ifs with hc
  · rw [he b (mem_allCells.1 hb) hc.1]; ring
  · ring

theorem inflow_nonneg (w h : Nat) (p : Cell → Nat → ℝ) (f : Cell → ℝ) (c : Cell)
    (he : ∀ b, InGrid w h b → p b 0 ≠ -2 → 0 ≤ f b) : 0 ≤ inflow w h p f c := by
  unfold inflow
  refine List.sum_nonneg fun y hy => ?_
  obtain ⟨b, hb, rfl⟩ := List.mem_map.1 hy
  refine List.sum_nonneg fun y hy => ?_
  obtain ⟨n, _, rfl⟩ := List.mem_map.1 hy
  beta_reduce
  split_ifs with hc
  · exact mul_nonneg hc.2.1.le (he b (mem_allCells.1 hb) hc.1)
  · exact le_refl _

theorem cellArea_file (f : File ℝ) : cellAreaOf f.geotransform = fileCellArea f := by
  unfold cellAreaOf fileCellArea
  rw [geotransform_eq]
  simp [GT.toList]

/-- The cells saved when a metric is applied. -/
theorem scaled_accum {w h : Nat} {dem : Cell → ℝ} {nd : ℝ} {p : Cell → Nat → ℝ} (hp : FlowsDown w h dem nd p)
    (q : AnyQ Cell) (A : ℝ) (hA : 0 ≤ A) (c : Cell) (hc : InGrid w h c) :
    let g : Cell → ℝ := fun c => scaleCell (-1) A (flowAccumulation q w h p (fun _ => 1) c)
    (dem c = nd → g c = -1) ∧ (dem c ≠ nd → A ≤ g c ∧ g c = A + inflow w h p g c ∧
      g c = flowAccumulation q w h p (fun _ => 1) c * A) := by
  intro g
  have hnn : ∀ b, InGrid w h b → p b 0 ≠ -2 → 0 ≤ flowAccumulation q w h p (fun _ => 1) b := fun b hb h2 =>
    fa_nonneg q w h (fun _ => 1) hp.edge (C57_acyclic hp) (fun _ _ => zero_le_one) b ⟨hb, h2⟩
  have hg : ∀ b, InGrid w h b → p b 0 ≠ -2 → g b = flowAccumulation q w h p (fun _ => 1) b * A := by
    intro b hb h2
    have := hnn b hb h2
    show scaleCell _ _ _ = _
    unfold scaleCell
    rw [if_neg (by linarith)]
  constructor
  · intro hd
    have : flowAccumulation q w h p (fun _ => 1) c = -1 := by
      unfold flowAccumulation
      rw [if_pos]
      unfold propNoData
      exact decide_eq_true ((hp.noData c hc).2 hd)
    show scaleCell _ _ _ = _
    unfold scaleCell
    rw [this, if_pos rfl]
  · intro hd
    have h2 : p c 0 ≠ -2 := fun e => hd ((hp.noData c hc).1 e)
    have hsum := C57_upstream_sum hp q (fun _ => 1) c hc hd
    have hin := inflow_nonneg w h p _ c hnn
    have hscale := inflow_scaled w h p _ g A c hg
    have hgc := hg c hc h2
    refine ⟨?_, ?_, hgc⟩
    · rw [hgc, hsum]
      nlinarith
    · rw [hscale, hgc]
      conv_lhs => rw [hsum]
      ring

theorem accum_saved (V : FlowEnv) (q : AnyQ Cell) (alg : Int) (x : ℝ) (f : File ℝ) (time prog op : Str) :
    ∃ g, saveWhole (accumArr V q alg x (ofFile f)) time prog op = .ok ⟨0, some g⟩ ∧ SameGrid g f ∧ g.noData = -1 ∧
      fileDem g = fun c => scaleCell (-1) (fileCellArea f)
        (match metricOf V alg x f.width.toNat f.height.toNat (fileDem f) f.noData with
          | some p => flowAccumulation q f.width.toNat f.height.toNat p (fun _ => 1) c
          | none => 1) := by
  obtain ⟨g, hg, g1, g2, g3, g4, g5, g6⟩ := saveWhole_ok (accumArr V q alg x (ofFile f)) (shownGT f)
    (geotransform_eq f) time prog op
  refine ⟨g, hg, ⟨g1, g2, g5, g4⟩, g6, ?_⟩
  funext c
  show g.band c.1 c.2 = _
  rw [g3, ← cellArea_file]
  show scaleCell _ _ _ = _
  congr 1
  show (match metricOf V alg x f.width.toNat f.height.toNat (fileDem f) f.noData with
          | some p => flowAccumulation q f.width.toNat f.height.toNat p fun _ => 1
          | none => fun _ => 1) c = _
  cases metricOf V alg x f.width.toNat f.height.toNat (fileDem f) f.noData <;> rfl

theorem stoi_small (k : Nat) (hk : k < 2 ^ 31) : stoi (Layout.decimal k) = .ok (k : Int) := by
  have := stoi_decimal k hk [] (by simp)
  rwa [List.append_nil] at this

theorem accumTool_runs (V : FlowEnv) (q : AnyQ Cell) (stof : Str → Res ℝ) {files : Str → Option (File ℝ)}
    {inp out time prog op : Str} {f : File ℝ} (hf : files inp = some f) (gf : GoodFile f) {k : Nat} {x : ℝ}
    {rest : List Str}
    (hr : rest = [inp, out, Layout.decimal k] ∧ k ∈ [1, 2, 3, 6] ∨
      ∃ param, rest = [inp, out, Layout.decimal k, param] ∧ k ∈ [4, 5] ∧ stof param = .ok x) :
    ∃ x', (k ∈ [4, 5] → x' = x) ∧
      accumTool V q stof files rest time prog op = saveWhole (accumArr V q k x' (ofFile f)) time prog op := by
  rcases hr with ⟨rfl, hk⟩ | ⟨param, rfl, hk, hx⟩
  · refine ⟨0, ?_, ?_⟩
    · intro h4; simp at hk h4; omega
    · unfold accumTool
      dsimp only
      rw [stoi_small k (by simp at hk; omega)]
      simp only [andThen]
      have hn : needsParam (k : Int) = false := by
        simp at hk; rcases hk with rfl | rfl | rfl | rfl <;> rfl
      rw [hn, if_neg (by simp), withFile_good hf gf]
  · refine ⟨x, fun _ => rfl, ?_⟩
    unfold accumTool
    dsimp only
    rw [stoi_small k (by simp at hk; omega)]
    simp only [andThen]
    have hn : needsParam (k : Int) = true := by
      simp at hk; rcases hk with rfl | rfl <;> rfl
    rw [hn, if_pos rfl, hx]
    simp only [andThen]
    rw [withFile_good hf gf]

theorem numbered_param (V : FlowEnv) (x x' : ℝ) (w h : Nat) (dem : Cell → ℝ) (nd : ℝ) (k : Nat)
    (hx : k ∈ [4, 5] → x' = x) : numberedMetric V x' w h dem nd k = numberedMetric V x w h dem nd k := by
  by_cases h45 : k ∈ [4, 5]
  · rw [hx h45]
  · simp only [List.mem_cons, List.not_mem_nil, or_false, not_or] at h45
    unfold numberedMetric
    split <;> first | rfl | exact absurd rfl h45.1 | exact absurd rfl h45.2

/-! ### rd_flow_accumulation -/

/-- **C120 (rd_flow_accumulation, methods 1 to 6).** The file written is NoData (-1) exactly on the
NoData cells of the DEM; every other cell holds its own area plus what the metric of that number
sends to it of the areas held by the cells above; the header is that of the input. -/
theorem C120_accumulation (V : FlowEnv) (q : AnyQ Cell) (stof : Str → Res ℝ) (files : Str → Option (File ℝ))
    (inp out time prog op : Str) (f : File ℝ) (hf : files inp = some f) (gf : GoodFile f)
    (hmx : ∀ c, InGrid f.width.toNat f.height.toNat c → fileDem f c ≤ V.mx) (k : Nat) (x : ℝ) (rest : List Str)
    (hr : rest = [inp, out, Layout.decimal k] ∧ k ∈ [1, 2, 3, 6] ∨
      ∃ param, rest = [inp, out, Layout.decimal k, param] ∧ k ∈ [4, 5] ∧ stof param = .ok x) :
    ∃ g, accumTool V q stof files rest time prog op = .ok ⟨0, some g⟩ ∧ SameGrid g f ∧ g.noData = -1 ∧
      ∀ c, InGrid f.width.toNat f.height.toNat c →
        (fileDem g c = g.noData ↔ fileDem f c = f.noData) ∧
        (fileDem f c ≠ f.noData → fileCellArea f ≤ fileDem g c ∧ fileDem g c = fileCellArea f +
          inflow f.width.toNat f.height.toNat
            (numberedMetric V x f.width.toNat f.height.toNat (fileDem f) f.noData k) (fileDem g) c) := by
  obtain ⟨x', hx', he⟩ := accumTool_runs V q stof (time := time) (prog := prog) (op := op) hf gf hr
  have hk : 1 ≤ k ∧ k ≤ 6 := by
    rcases hr with ⟨_, hk⟩ | ⟨_, _, hk, _⟩ <;> simp at hk <;> omega
  obtain ⟨g, h1, h2, h3, h4⟩ := accum_saved V q k x' f time prog op
  refine ⟨g, he.trans h1, h2, h3, ?_⟩
  intro c hc
  rw [metricOf_numbered V x' _ _ _ _ k hk.1 hk.2, numbered_param V x x' _ _ _ _ k hx'] at h4
  dsimp only at h4
  have hA : 0 ≤ fileCellArea f := abs_nonneg _
  obtain ⟨s1, s2⟩ := scaled_accum (numbered_flowsDown V x _ _ _ f.noData k hk.1 hk.2 hmx) q (fileCellArea f) hA c hc
  rw [h3, h4]
  refine ⟨⟨?_, s1⟩, fun hd => ⟨(s2 hd).1, (s2 hd).2.1⟩⟩
  intro hm
  by_contra hd
  have := (s2 hd).1
  beta_reduce at hm this
  rw [hm] at this
  linarith

/-- **C120 (no area is lost).** What the cells hold that send nothing on adds up to the area of all
data cells. -/
theorem C120_conservation (V : FlowEnv) (q : AnyQ Cell) (stof : Str → Res ℝ) (files : Str → Option (File ℝ))
    (inp out time prog op : Str) (f : File ℝ) (hf : files inp = some f) (gf : GoodFile f)
    (hmx : ∀ c, InGrid f.width.toNat f.height.toNat c → fileDem f c ≤ V.mx) (k : Nat) (x : ℝ) (rest : List Str)
    (hr : rest = [inp, out, Layout.decimal k] ∧ k ∈ [1, 2, 3, 6] ∨
      ∃ param, rest = [inp, out, Layout.decimal k, param] ∧ k ∈ [4, 5] ∧ stof param = .ok x) :
    ∃ g, accumTool V q stof files rest time prog op = .ok ⟨0, some g⟩ ∧
      ((allCells f.width.toNat f.height.toNat).map fun c =>
        if fileDem f c ≠ f.noData then fileCellArea f else 0).sum =
      ((allCells f.width.toNat f.height.toNat).map fun c =>
        if fileDem f c ≠ f.noData ∧ ∀ n ∈ List.range' 1 8,
            numberedMetric V x f.width.toNat f.height.toNat (fileDem f) f.noData k c n ≤ 0
        then fileDem g c else 0).sum := by
  obtain ⟨x', hx', he⟩ := accumTool_runs V q stof (time := time) (prog := prog) (op := op) hf gf hr
  have hk : 1 ≤ k ∧ k ≤ 6 := by
    rcases hr with ⟨_, hk⟩ | ⟨_, _, hk, _⟩ <;> simp at hk <;> omega
  obtain ⟨g, h1, h2, h3, h4⟩ := accum_saved V q k x' f time prog op
  refine ⟨g, he.trans h1, ?_⟩
  rw [metricOf_numbered V x' _ _ _ _ k hk.1 hk.2, numbered_param V x x' _ _ _ _ k hx'] at h4
  dsimp only at h4
  have hA : 0 ≤ fileCellArea f := abs_nonneg _
  have hp := numbered_flowsDown V x _ _ _ f.noData k hk.1 hk.2 hmx
  have hcons := congrArg (· * fileCellArea f) (C57_conservation hp q (fun _ => 1))
  beta_reduce at hcons
  rw [← List.sum_map_mul_right, ← List.sum_map_mul_right] at hcons
  refine Eq.trans ?_ (hcons.trans ?_)
  · congr 1
    refine List.map_congr_left fun c _ => ?_
    beta_reduce
    split_ifs <;> ring
  · congr 1
    refine List.map_congr_left fun c hc => ?_
    beta_reduce
    split_ifs with hs
    · have := ((scaled_accum hp q (fileCellArea f) hA c (mem_allCells.1 hc)).2 hs.1).2.2
      rw [h4]
      exact this.symm
    · ring

/-- **C120, refuted (methods 7 to 9 are refused, and so are numbers that stand for no method).** The
program ends with status 0 and writes a file in which every cell, NoData cells included, holds the
area of one cell. -/
theorem C120_disabled_refuted (V : FlowEnv) (q : AnyQ Cell) (stof : Str → Res ℝ) (files : Str → Option (File ℝ))
    (inp out time prog op : Str) (f : File ℝ) (hf : files inp = some f) (gf : GoodFile f) (k : Nat) (x : ℝ)
    (rest : List Str) (h31 : k < 2 ^ 31)
    (hr : rest = [inp, out, Layout.decimal k] ∧ (k = 0 ∨ 10 ≤ k) ∨
      ∃ param, rest = [inp, out, Layout.decimal k, param] ∧ k ∈ [7, 8, 9] ∧ stof param = .ok x) :
    ∃ g, accumTool V q stof files rest time prog op = .ok ⟨0, some g⟩ ∧ g.noData = -1 ∧
      ∀ c, fileDem g c = fileCellArea f := by
  have hnone : ∀ y w h dem nd, (k = 0 ∨ 7 ≤ k) → metricOf V (k : Int) y w h dem nd = none := by
    intro y w h dem nd hk
    unfold metricOf
    rw [if_neg (by omega), if_neg (by omega), if_neg (by omega), if_neg (by omega), if_neg (by omega), if_neg (by omega)]
  have hcell : scaleCell (-1) (fileCellArea f) 1 = fileCellArea f := by
    unfold scaleCell; rw [if_neg (by norm_num), one_mul]
  have fin : ∀ y, (k = 0 ∨ 7 ≤ k) → ∃ g, saveWhole (accumArr V q k y (ofFile f)) time prog op = .ok ⟨0, some g⟩ ∧
      g.noData = -1 ∧ ∀ c, fileDem g c = fileCellArea f := by
    intro y hk
    obtain ⟨g, h1, h2, h3, h4⟩ := accum_saved V q k y f time prog op
    refine ⟨g, h1, h3, fun c => ?_⟩
    rw [h4, hnone _ _ _ _ _ hk]
    exact hcell
  unfold accumTool
  rcases hr with ⟨rfl, hk⟩ | ⟨param, rfl, hk, hx⟩
  · dsimp only
    rw [stoi_small k h31]
    simp only [andThen]
    have hn : needsParam (k : Int) = false := by
      unfold needsParam
      simp only [Bool.or_eq_false_iff, beq_eq_false_iff_ne]
      omega
    rw [hn, if_neg (by simp), withFile_good hf gf]
    exact fin 0 (by omega)
  · dsimp only
    rw [stoi_small k h31]
    simp only [andThen]
    have hn : needsParam (k : Int) = true := by
      simp at hk; rcases hk with rfl | rfl | rfl <;> rfl
    rw [hn, if_pos rfl, hx]
    simp only [andThen]
    rw [withFile_good hf gf]
    exact fin x (by simp at hk; omega)

/-- **C120 (usage).** A wrong number of arguments, or a missing parameter: status -1 and nothing is
written. A method that is no number, or a parameter that is none: an exception. -/
theorem C120_usage (V : FlowEnv) (q : AnyQ Cell) (stof : Str → Res ℝ) (files : Str → Option (File ℝ))
    (inp out alg param time prog op : Str) :
    (∀ rest : List Str, rest.length ≠ 3 → rest.length ≠ 4 → accumTool V q stof files rest time prog op = .ok ⟨-1, none⟩) ∧
    (∀ k ∈ [4, 5, 7, 8, 9], accumTool V q stof files [inp, out, Layout.decimal k] time prog op = .ok ⟨-1, none⟩) ∧
    (stoi alg = .throws → accumTool V q stof files [inp, out, alg] time prog op = .throws ∧
      accumTool V q stof files [inp, out, alg, param] time prog op = .throws) ∧
    (stof param = .throws → ∀ k ∈ [4, 5, 7, 8, 9],
      accumTool V q stof files [inp, out, Layout.decimal k, param] time prog op = .throws) := by
  have hneeds : ∀ k : Nat, k ∈ [4, 5, 7, 8, 9] → needsParam (k : Int) = true := by decide
  refine ⟨?_, ?_, ?_, ?_⟩
  · intro rest h3 h4
    match rest, h3, h4 with
    | [], _, _ => rfl
    | [_], _, _ => rfl
    | [_, _], _, _ => rfl
    | [_, _, _], h, _ => exact absurd rfl h
    | [_, _, _, _], _, h => exact absurd rfl h
    | _ :: _ :: _ :: _ :: _ :: _, _, _ => rfl
  · intro k hk
    unfold accumTool
    dsimp only
    rw [stoi_small k (by simp at hk; omega)]
    simp only [andThen]
    rw [hneeds k hk, if_pos rfl]
  · intro ha
    unfold accumTool
    dsimp only
    rw [ha]
    exact ⟨rfl, rfl⟩
  · intro hp k hk
    unfold accumTool
    dsimp only
    rw [stoi_small k (by simp at hk; omega)]
    simp only [andThen]
    rw [hneeds k hk, if_pos rfl, hp]

/-! ### rd_terrain_property -/

theorem attrOf_numbered (w h : Nat) (dem : Cell → ℝ) (nd zs lx ly : ℝ) (k : Nat) (h1 : 1 ≤ k) (h8 : k ≤ 8) :
    attrOf (k : Int) w h dem nd zs lx ly = some fun p => numberedAttr w h dem nd zs lx ly p k := by
  interval_cases k <;> simp [attrOf, numberedAttr] <;> rfl

theorem attr_saved (alg : Int) (zs : ℝ) (f : File ℝ) (time prog op : Str) :
    ∃ g, saveWhole (attrArr alg zs (ofFile f)) time prog op = .ok ⟨0, some g⟩ ∧ SameGrid g f ∧ g.noData = -1 ∧
      fileDem g = (match attrOf alg f.width.toNat f.height.toNat (fileDem f) f.noData zs |((shownGT f).g1 : ℝ)|
          |((shownGT f).g5 : ℝ)| with
        | some u => taProcess (fileDem f) f.noData (-1) u (allCells f.width.toNat f.height.toNat) fun _ => 0
        | none => fun _ => 0) := by
  obtain ⟨g, hg, g1, g2, g3, g4, g5, g6⟩ := saveWhole_ok (attrArr alg zs (ofFile f)) (shownGT f)
    (geotransform_eq f) time prog op
  refine ⟨g, hg, ⟨g1, g2, g5, g4⟩, g6, ?_⟩
  have hx : ((|f.geotransform.getD 1 0| : ℚ) : ℝ) = |((shownGT f).g1 : ℝ)| := by
    rw [geotransform_eq]; simp [GT.toList]
  have hy : ((|f.geotransform.getD 5 0| : ℚ) : ℝ) = |((shownGT f).g5 : ℝ)| := by
    rw [geotransform_eq]; simp [GT.toList]
  funext c
  show g.band c.1 c.2 = _
  rw [g3, ← hx, ← hy]
  rfl

/-- **C120 (rd_terrain_property, attributes 1 to 8).** On every data cell the file written holds the
attribute of that number, on NoData cells -1, which is its NoData value. -/
theorem C120_attribute (stof : Str → Res ℝ) (files : Str → Option (File ℝ)) (inp out zst time prog op : Str)
    (f : File ℝ) (hf : files inp = some f) (gf : GoodFile f) (k : Nat) (h1 : 1 ≤ k) (h8 : k ≤ 8) (zs : ℝ)
    (hz : stof zst = .ok zs) :
    ∃ g, attrTool stof files [inp, out, Layout.decimal k, zst] time prog op = .ok ⟨0, some g⟩ ∧ SameGrid g f ∧
      g.noData = -1 ∧ ∀ c, InGrid f.width.toNat f.height.toNat c →
        fileDem g c = if fileDem f c = f.noData then g.noData
          else numberedAttr f.width.toNat f.height.toNat (fileDem f) f.noData zs |((shownGT f).g1 : ℝ)|
            |((shownGT f).g5 : ℝ)| c k := by
  obtain ⟨g, e1, e2, e3, e4⟩ := attr_saved k zs f time prog op
  refine ⟨g, ?_, e2, e3, ?_⟩
  · unfold attrTool
    dsimp only
    rw [stoi_small k (by omega), hz]
    simp only [andThen]
    rw [withFile_good hf gf]
    exact e1
  · intro c hc
    rw [e4, e3, attrOf_numbered _ _ _ _ _ _ _ k h1 h8]
    dsimp only
    rw [taProcess_eq, if_pos (mem_allCells.2 hc)]

/-- **C120, refuted (an unknown attribute is an error).** The program ends with status 0 and writes a
file of zeros. -/
theorem C120_attribute_unknown_refuted (stof : Str → Res ℝ) (files : Str → Option (File ℝ)) (inp out zst time prog op : Str)
    (f : File ℝ) (hf : files inp = some f) (gf : GoodFile f) (k : Nat) (h31 : k < 2 ^ 31) (hk : k = 0 ∨ 9 ≤ k) (zs : ℝ)
    (hz : stof zst = .ok zs) :
    ∃ g, attrTool stof files [inp, out, Layout.decimal k, zst] time prog op = .ok ⟨0, some g⟩ ∧ ∀ c, fileDem g c = 0 := by
  obtain ⟨g, e1, e2, e3, e4⟩ := attr_saved k zs f time prog op
  refine ⟨g, ?_, ?_⟩
  · unfold attrTool
    dsimp only
    rw [stoi_small k h31, hz]
    simp only [andThen]
    rw [withFile_good hf gf]
    exact e1
  · intro c
    have : attrOf (k : Int) f.width.toNat f.height.toNat (fileDem f) f.noData zs |((shownGT f).g1 : ℝ)|
        |((shownGT f).g5 : ℝ)| = none := by
      unfold attrOf
      rw [if_neg (by omega), if_neg (by omega), if_neg (by omega), if_neg (by omega), if_neg (by omega), if_neg (by omega),
        if_neg (by omega), if_neg (by omega)]
    rw [e4, this]

/-- **C120, refuted (data cells stay data).** The curvature file of a terrain may hold its NoData value
on a data cell. -/
theorem C120_curvature_clash_refuted (stof : Str → Res ℝ) (f : File ℝ) (inp out zst time prog op : Str)
    (hw : f.width = 3) (hh : f.height = 3) (gf : GoodFile f) (hnd : f.noData = -9999) (hgt : f.gt = none)
    (hcells : fileDem f = fun c => if c = (2, 1) then 1 / 100 else 0) (hz : stof zst = .ok 1) :
    ∃ g, attrTool stof (fun s => if s = inp then some f else none) [inp, out, ['6'], zst] time prog op = .ok ⟨0, some g⟩ ∧
      fileDem f (1, 1) ≠ f.noData ∧ fileDem g (1, 1) = g.noData := by
  obtain ⟨g, e1, _, e3, e4⟩ := C120_attribute stof (fun s => if s = inp then some f else none) inp out zst time prog op f
    (by simp) gf 6 (by norm_num) (by norm_num) 1 hz
  refine ⟨g, e1, ?_, ?_⟩
  · rw [hcells, hnd]; norm_num
  · have hin : InGrid f.width.toNat f.height.toNat (1, 1) := by
      rw [hw, hh]; decide
    rw [e4 _ hin, if_neg (by rw [hcells, hnd]; norm_num), e3]
    have hg1 : (shownGT f).g1 = 1 := by unfold shownGT; rw [hgt]; rfl
    unfold numberedAttr
    rw [hcells, hnd, hg1, hw, hh]
    simp only [taCurvature, curvatureSetup, terrainSetup, taPick, inGrid]
    norm_num

/-! ### Concrete input -/

/-- A 3x3 terrain without a geotransform, with an inner cell of 3 between cells of 5 and one of 1. -/
noncomputable def exSlopeFile : File ℝ :=
  { width := 3, height := 3
    band := fun x y => if (x, y) = ((1, 1) : Cell) then 3 else if (x, y) = ((2, 1) : Cell) then 1 else 5
    gt := some ⟨0, 2, 0, 0, 0, -3⟩
    projection := [], noData := -9999, mdata := none }

/-- The hypotheses of C120_accumulation, C120_conservation and C120_attribute are met: cells of area 6,
method 1 with three arguments, method 4 with four. -/
example : GoodFile exSlopeFile ∧ fileCellArea exSlopeFile = 6 ∧
    (∀ c, InGrid exSlopeFile.width.toNat exSlopeFile.height.toNat c → fileDem exSlopeFile c ≤ (⟨9, fun _ _ => 1⟩ : FlowEnv).mx) ∧
    (∀ out : Str, ["in".toList, out, ['1']] = ["in".toList, out, Layout.decimal 1] ∧ 1 ∈ [1, 2, 3, 6]) ∧
    (∃ param, ["in".toList, [], ['4'], "5".toList] = ["in".toList, [], Layout.decimal 4, param] ∧ 4 ∈ [4, 5] ∧
      (fun s : Str => if s = "5".toList then Res.ok (5 : ℝ) else .throws) param = .ok 5) := by
  refine ⟨⟨by decide, by decide, by decide, by decide, by decide⟩, ?_, ?_, ?_, ⟨_, rfl, by decide, if_pos rfl⟩⟩
  · unfold fileCellArea shownGT exSlopeFile
    norm_num
  · intro c _
    unfold fileDem exSlopeFile
    dsimp only
    split_ifs <;> norm_num
  · intro out; exact ⟨rfl, by decide⟩

/-- The hypotheses of C120_curvature_clash_refuted are met. -/
example : let f : File ℝ :=
      ⟨3, 3, fun x y => if (x, y) = ((2, 1) : Cell) then 1 / 100 else 0, none, [], -9999, none⟩
    GoodFile f ∧ fileDem f = fun c => if c = (2, 1) then 1 / 100 else 0 :=
  ⟨⟨by decide, by decide, by decide, by decide, by decide⟩, rfl⟩

end Tools
end RichDEM
