import Verif.Py.Thm
import Verif.Flow.Accum

/-!
Model of `FlowProportions` and `FlowAccumFromProps` of the Python package
(/repo/wrappers/pyrichdem/richdem/__init__.py): three-dimensional NumPy arrays (`rd3array`), wrapped as
`Array3D<float>`.  The flow metric is a parameter: any function of the DEM that gives nine numbers per cell (as
stored, that is, after rounding to single precision).
-/

namespace RichDEM.Py

/-- A three-dimensional NumPy array (rows, columns, layers). -/
structure Nd3 where
  buf : Nat
  off : Int
  h : Nat
  w : Nat
  d : Nat
  rs : Int
  cs : Int
  ds : Int

/-- Where element `[c.2, c.1, n]` is. -/
def Nd3.addr (v : Nd3) (c : Cell) (n : Nat) : Int := v.off + c.2 * v.rs + c.1 * v.cs + n * v.ds

/-- The elements of an array; outside its shape 0. -/
def Nd3.vals (v : Nd3) (m : PyMem) : Cell → Nat → ℚ := fun c n =>
  if inGrid v.w v.h c ∧ n < v.d then
    match m.blk v.buf with
    | some b => b.val (v.addr c n).toNat
    | none => 0
  else 0

/-- NumPy's flag `C_CONTIGUOUS`. -/
def Nd3.contig (v : Nd3) : Bool :=
  v.h == 0 || v.w == 0 || v.d == 0 ||
    ((v.d == 1 || v.ds == 1) && (v.w == 1 || v.cs == v.d) && (v.h == 1 || v.rs == v.w * v.d))

/-- `__init__.py`:704-706: a new C-ordered array of zeros with nine layers. -/
def PyMem.alloc3 (m : PyMem) (h w : Nat) : PyMem :=
  ⟨Function.update m.blk m.next (some ⟨9 * (w * h), fun _ => 0⟩), m.next + 1⟩

def PyMem.fresh3 (m : PyMem) (h w : Nat) : Nd3 := ⟨m.next, 0, h, w, 9, w * 9, 9, 1⟩

/-- An `rd3array` (`__init__.py`:226-250); always `float32`. -/
structure Rd3 where
  v : Nd3
  md : PyMeta

def Rd3.vals (a : Rd3) (m : PyMem) : Cell → Nat → ℚ := a.v.vals m

/-- The `Array3D<float>` made from an array. -/
structure CArr3 where
  buf : Nat
  off : Int
  w : Nat
  h : Nat
  nd : ℚ

inductive Wrap3Out
  | raised
  | ub
  | ok (m : PyMem) (a : CArr3)

/-- pywrapper.cpp:68-84: as `ensurePtr`. -/
def ensurePtr3 (m : PyMem) (v : Nd3) : PyMem × (Nat × Int) :=
  if v.contig then (m, (v.buf, v.off))
  else (⟨Function.update m.blk m.next none, m.next + 1⟩, (m.next, 0))

/-- `__init__.py`:252-274 `rd3array.wrap`, with pywrapper.cpp:68-84 and Array3D.hpp:119-123: the number of layers is
not looked at, the length `9*width*height` is computed in `int` (`ub` when it overflows); then `setNoData`, then
`if self.geotransform:` (266). -/
def wrap3 (m : PyMem) (a : Rd3) : Wrap3Out :=
  if 2 ^ 31 ≤ 9 * a.v.w * a.v.h then .ub
  else
    match castT .f32 (overload (a.md.noData.getD (.int (-9999)))) with
    | none => .ub
    | some nd =>
      match geoTruth a.md.geo with
      | none => .raised
      | some _ => .ok (ensurePtr3 m a.v).1 ⟨(ensurePtr3 m a.v).2.1, (ensurePtr3 m a.v).2.2, a.v.w, a.v.h, nd⟩

/-- What C++ reads through the pointer: `data[9*xyToI(x,y)+n]` (Array3D.hpp:206-209).  `none`: the memory is gone or
too small. -/
def CArr3.read (a : CArr3) (m : PyMem) : Option (Cell → Nat → ℚ) :=
  match m.blk a.buf with
  | none => none
  | some b => if 0 ≤ a.off ∧ a.off + (9 * (a.w * a.h) : Nat) ≤ b.len then
      some (fun c n => if inGrid a.w a.h c ∧ n < 9 then b.val (a.off + 9 * xyToI a.w c + n).toNat else 0)
    else none

/-- C++ stores nine numbers per cell through the pointer. -/
def CArr3.write (a : CArr3) (m : PyMem) (p : Cell → Nat → ℚ) : PyMem :=
  { m with blk := Function.update m.blk a.buf ((m.blk a.buf).map fun b =>
      { b with val := fun i => if a.off ≤ i ∧ (i : Int) < a.off + (9 * (a.w * a.h) : Nat) then
                                 p (iToxy a.w ((i - a.off).toNat / 9)) ((i - a.off).toNat % 9)
                               else b.val i }) }

/-- A flow metric: element type, size, NoData and cells of the DEM to nine numbers per cell. -/
abbrev CProp := Dtype → Nat → Nat → ℚ → (Cell → ℚ) → Option (Cell → Nat → ℚ)

/-! ### Methods -/

/-- The metrics of flowmet/*.hpp reachable from Python. -/
inductive Metric
  | tarboton | quinn | freeman | holmgren
  | fairfield (t : Topo)
  | ocallaghan (t : Topo)
deriving DecidableEq

/-- `__init__.py`:534-546 and 548-551 `facc_methods`, `facc_methods_exponent` (the flag), with the functions of
flow_accumulation.hpp:16-28 and the aliases Fairfield1991.hpp (`FM_Rho8`, `FM_Rho4`), OCallaghan1984.hpp (`FM_D8`,
`FM_D4`). -/
def faccTable : List (String × Bool × Metric) :=
  [("Tarboton", false, .tarboton), ("Dinf", false, .tarboton), ("Quinn", false, .quinn),
   ("FairfieldLeymarieD8", false, .fairfield .D8), ("FairfieldLeymarieD4", false, .fairfield .D4),
   ("Rho8", false, .fairfield .D8), ("Rho4", false, .fairfield .D4),
   ("OCallaghanD8", false, .ocallaghan .D8), ("OCallaghanD4", false, .ocallaghan .D4),
   ("D8", false, .ocallaghan .D8), ("D4", false, .ocallaghan .D4),
   ("Freeman", true, .freeman), ("Holmgren", true, .holmgren)]

/-- `__init__.py`:685-702 `fprop_methods`, `fprop_methods_exponent`. -/
def fpropTable : List (String × Bool × Metric) :=
  [("Tarboton", false, .tarboton), ("Dinf", false, .tarboton), ("Quinn", false, .quinn),
   ("FairfieldLeymarieD8", false, .fairfield .D8), ("FairfieldLeymarieD4", false, .fairfield .D4),
   ("Rho8", false, .fairfield .D8), ("Rho4", false, .fairfield .D4),
   ("OCallaghanD8", false, .ocallaghan .D8), ("OCallaghanD4", false, .ocallaghan .D4),
   ("D8", false, .ocallaghan .D8), ("D4", false, .ocallaghan .D4),
   ("Freeman", true, .freeman), ("Holmgren", true, .holmgren)]

/-- `__init__.py`:582-592, 714-729: the metric a call uses, with its exponent; `none`: an exception.  An exponent
given to a method that takes none is not looked at. -/
def chooseMetric (table : List (String × Bool × Metric)) (method : String) (exponent : Option ℚ) :
    Option (Metric × Option ℚ) :=
  match table.lookup method with
  | none => none
  | some (false, k) => some (k, none)
  | some (true, k) => exponent.map fun x => (k, some x)

/-! ### `FlowProportions` -/

/-- How a call that returns an array of proportions ends. -/
inductive PropRes
  | ub
  | raised (m : PyMem)
  | ok (m : PyMem) (ret : Rd3)

/-- `__init__.py`:650-731 `FlowProportions`; `impl` gives the C++ function of a metric.  The C++ functions set the
NoData value to -2. -/
def flowProportions (impl : Metric → Option ℚ → CProp) (method : String) (exponent : Option ℚ) (line : String)
    (m : PyMem) (dem : RdArr) : PropRes :=
  let fp : Rd3 := ⟨m.fresh3 dem.v.h dem.v.w, { dem.md with noData := some (.int (-2)) }⟩
  match wrap3 (m.alloc3 dem.v.h dem.v.w) fp with
  | .ub => .ub
  | .raised => .raised (m.alloc3 dem.v.h dem.v.w)
  | .ok m1 a =>
    match chooseMetric fpropTable method exponent with
    | none => .raised m1
    | some (k, x) =>
      match wrap m1 dem with
      | .ub => .ub
      | .raised => .raised m1
      | .ok m2 d =>
        match (d.read m2).bind (impl k x dem.dt d.w d.h d.nd) with
        | none => .ub
        | some p => .ok (a.write m2 p) ⟨fp.v, { fp.md with noData := some (.float (-2)), hist := fp.md.hist ++ [line] }⟩

/-! ### `FlowAccumFromProps` -/

/-- The nine numbers per cell as `FlowAccumulation` sees them, with the cells whose number 0 is the NoData value
`nd` marked by -2 (Array3D.hpp:245-248; number 0 is used for nothing else). -/
def seenProps (w h : Nat) (nd : ℚ) (p : Cell → Nat → ℚ) : Cell → Nat → ℚ := fun c n =>
  if inGrid w h c ∧ n < 9 then
    if n = 0 then (if p c 0 = nd then -2 else if p c 0 = -2 then -1 else p c 0) else p c n
  else 0

/-- flow_accumulation_generic.hpp:35-99 `FlowAccumulation<double>` on proportions a user made.  `none`: a border cell
sends flow; then cells off the raster are read, or dependencies are counted down that were never counted up. -/
def accFromProps (w h : Nat) (nd : ℚ) (p : Cell → Nat → ℚ) (init : Cell → ℚ) : Option (Cell → ℚ) :=
  if (allCells w h).all fun c => !isEdgeCell w h c || (dirs .D8).all fun n => decide (seenProps w h nd p c n ≤ 0) then
    some (RichDEM.flowAccumulation (fifo Cell) w h (seenProps w h nd p) init)
  else none

/-- flow_accumulation.hpp:16-28: `FA_X` is `FM_X` followed by `FlowAccumulation`, on proportions whose NoData value
the metric has set to -2. -/
def faOf (fm : CProp) : CAcc := fun dt w h nd z _ _ init =>
  (fm dt w h nd z).bind fun p => accFromProps w h (-2) p init

/-- `__init__.py`:620-627: the accumulation array. -/
def accumArr3 (m : PyMem) (props : Rd3) (weights : Option RdArr) (inPlace : Bool) : PyMem × RdArr :=
  match weights with
  | some wt => (m, if inPlace then rdNew wt none (.int (-1)) else { wt with md := { props.md with noData := some (.int (-1)) } })
  | none => (m.alloc props.v.h props.v.w (fun _ => 1),
      ⟨m.fresh props.v.h props.v.w, .f64, { props.md with noData := some (.int (-1)) }⟩)

/-- How `FlowAccumFromProps` ends. -/
inductive AccRes
  | ub
  | raised (m : PyMem)
  | ok (m : PyMem) (ret : RdArr)

/-- `__init__.py`:599-647 `FlowAccumFromProps`. -/
def flowAccumFromProps (line : String) (m : PyMem) (props : Rd3) (weights : Option RdArr) (inPlace : Bool) : AccRes :=
  let ma := accumArr3 m props weights inPlace
  if ma.2.dt ≠ .f64 then .raised ma.1
  else
    let acc := addAnalysis ma.2 line
    match wrap ma.1 ma.2 with
    | .ub => .ub
    | .raised => .raised ma.1
    | .ok m1 a =>
      match wrap3 m1 props with
      | .ub => .ub
      | .raised => .raised m1
      | .ok m2 d =>
        if a.w ≠ d.w ∨ a.h ≠ d.h then .raised m2
        else
          match (d.read m2).bind fun p => (a.read m2).bind fun ga => accFromProps d.w d.h d.nd p ga with
          | none => .ub
          | some g => .ok (a.write m2 g) (copyFromWrapped acc { a with nd := -1 })

/-! ### Lemmas -/

/-- The array lives and lies inside its block. -/
def Nd3.Valid (v : Nd3) (m : PyMem) : Prop :=
  ∃ b, m.blk v.buf = some b ∧ ∀ c n, InGrid v.w v.h c → n < v.d → 0 ≤ v.addr c n ∧ v.addr c n < b.len

theorem contig_addr3 {v : Nd3} (hd : v.d = 9) (hk : v.contig = true) {c : Cell} (hc : InGrid v.w v.h c) (n : Nat) :
    v.addr c n = v.off + 9 * xyToI v.w c + n := by
  obtain ⟨h1, h2, h3, h4⟩ := hc
  simp only [Nd3.contig, hd, Bool.or_eq_true, Bool.and_eq_true, beq_iff_eq] at hk
  simp only [Nd3.addr, xyToI]
  rcases hk with ((hk | hk) | hk) | ⟨⟨ha, hb⟩, he⟩
  · omega
  · omega
  · omega
  · have e0 : v.ds = 1 := by rcases ha with ha | ha; · omega
                             · exact ha
    have e1 : c.1 * v.cs = 9 * c.1 := by
      rcases hb with hb | hb
      · have : c.1 = 0 := by omega
        rw [this]; simp
      · rw [hb]; push_cast; ring
    have e2 : c.2 * v.rs = 9 * (c.2 * v.w) := by
      rcases he with he | he
      · have : c.2 = 0 := by omega
        rw [this]; simp
      · rw [he]; push_cast; ring
    rw [e0, e1, e2]; ring

theorem contig_range3 {v : Nd3} {m : PyMem} {b : PyBlk} (hd : v.d = 9) (hk : v.contig = true) (hw : 0 < v.w)
    (hh : 0 < v.h) (hb : m.blk v.buf = some b) (hv : v.Valid m) :
    0 ≤ v.off ∧ v.off + (9 * (v.w * v.h) : Nat) ≤ b.len := by
  obtain ⟨b', hb', hr⟩ := hv
  rw [hb] at hb'; obtain rfl := Option.some.inj hb'
  have g0 : InGrid v.w v.h ((0 : Int), (0 : Int)) := by simp only [InGrid]; omega
  have g1 : InGrid v.w v.h (((v.w - 1 : Nat) : Int), ((v.h - 1 : Nat) : Int)) := by simp only [InGrid]; omega
  have r0 := hr _ 0 g0 (by omega)
  have r1 := hr _ 8 g1 (by omega)
  rw [contig_addr3 hd hk g0] at r0
  rw [contig_addr3 hd hk g1] at r1
  simp only [xyToI] at r0 r1
  refine ⟨by simpa using r0.1, ?_⟩
  obtain ⟨k, hk⟩ : ∃ k, v.h = k + 1 := ⟨v.h - 1, by omega⟩
  rw [hk] at r1 ⊢
  have e : ((9 * (v.w * (k + 1)) : Nat) : Int) = 9 * ((k : Int) * v.w) + 9 * v.w := by push_cast; ring
  rw [e]
  simp only [Nat.add_sub_cancel] at r1
  push_cast at r1
  omega

theorem read_contig3 {v : Nd3} {m : PyMem} (hd : v.d = 9) (hk : v.contig = true) (hw : 0 < v.w) (hh : 0 < v.h)
    (hv : v.Valid m) (nd : ℚ) : (CArr3.mk v.buf v.off v.w v.h nd).read m = some (v.vals m) := by
  obtain ⟨b, hb, _⟩ := id hv
  simp only [CArr3.read, hb]
  rw [if_pos (contig_range3 hd hk hw hh hb hv)]
  congr 1
  funext c n
  simp only [Nd3.vals, hb, hd]
  by_cases hc : inGrid v.w v.h c = true ∧ n < 9
  · rw [if_pos hc, if_pos hc, contig_addr3 hd hk (inGrid_iff.1 hc.1)]
  · rw [if_neg hc, if_neg hc]

theorem vals_write3 {v : Nd3} {m : PyMem} (hd : v.d = 9) (hk : v.contig = true) (hw : 0 < v.w) (hh : 0 < v.h)
    (hv : v.Valid m) (nd : ℚ) (p : Cell → Nat → ℚ) {c : Cell} (hc : InGrid v.w v.h c) {n : Nat} (hn : n < 9) :
    v.vals ((CArr3.mk v.buf v.off v.w v.h nd).write m p) c n = p c n := by
  obtain ⟨b, hb, _⟩ := id hv
  have hr := contig_range3 hd hk hw hh hb hv
  simp only [Nd3.vals, CArr3.write, Function.update_self, hb, Option.map_some]
  rw [if_pos ⟨inGrid_iff.2 hc, by omega⟩]
  have hx := xyToI_bounds hc
  have ha := contig_addr3 hd hk hc n
  have e : (((v.addr c n).toNat : Int) - v.off).toNat = 9 * (xyToI v.w c).toNat + n := by omega
  rw [if_pos (by push_cast at hx ⊢; omega), e, show (9 * (xyToI v.w c).toNat + n) / 9 = (xyToI v.w c).toNat by omega,
    show (9 * (xyToI v.w c).toNat + n) % 9 = n by omega, iToxy_xyToI hc]

theorem write3_other {a : CArr3} {m : PyMem} (p : Cell → Nat → ℚ) {b : Nat} (hb : b ≠ a.buf) :
    (a.write m p).blk b = m.blk b := by
  simp only [CArr3.write]; exact Function.update_of_ne hb _ _

theorem contig_fresh3 (m : PyMem) (h w : Nat) : (m.fresh3 h w).contig = true := by
  simp [PyMem.fresh3, Nd3.contig]

theorem valid_fresh3 (m : PyMem) (h w : Nat) : (m.fresh3 h w).Valid (m.alloc3 h w) := by
  refine ⟨⟨9 * (w * h), fun _ => 0⟩, by simp [PyMem.fresh3, PyMem.alloc3], ?_⟩
  intro c n hc hn
  rw [contig_addr3 rfl (contig_fresh3 m h w) hc]
  have := xyToI_bounds hc
  simp only [PyMem.fresh3] at this hn ⊢
  push_cast at this ⊢
  omega

theorem valid_write3 {v : Nd3} {m : PyMem} (hv : v.Valid m) (a : CArr3) (p : Cell → Nat → ℚ) : v.Valid (a.write m p) := by
  obtain ⟨b, hb, hr⟩ := hv
  by_cases e : v.buf = a.buf
  · rw [e] at hb
    have hw : (a.write m p).blk v.buf = some { b with
        val := fun i => if a.off ≤ i ∧ (i : Int) < a.off + (9 * (a.w * a.h) : Nat) then
                          p (iToxy a.w ((i - a.off).toNat / 9)) ((i - a.off).toNat % 9)
                        else b.val i } := by
      rw [e]; simp only [CArr3.write, Function.update_self, hb, Option.map_some]
    exact ⟨_, hw, hr⟩
  · exact ⟨b, by rw [write3_other _ e, hb], hr⟩

theorem alloc3_other (m : PyMem) (h w : Nat) {b : Nat} (hb : b ≠ m.next) : (m.alloc3 h w).blk b = m.blk b := by
  simp only [PyMem.alloc3]; exact Function.update_of_ne hb _ _

theorem ensure_contig3 {m : PyMem} {v : Nd3} (hk : v.contig = true) : ensurePtr3 m v = (m, (v.buf, v.off)) := by
  rw [ensurePtr3, if_pos hk]

theorem read_dangling3 {m : PyMem} {v : Nd3} (hk : v.contig = false) (w h : Nat) (nd : ℚ) :
    (CArr3.mk (ensurePtr3 m v).2.1 (ensurePtr3 m v).2.2 w h nd).read (ensurePtr3 m v).1 = none := by
  rw [ensurePtr3, if_neg (by rw [hk]; decide)]
  simp [CArr3.read]

theorem seenProps_congr {w h : Nat} {nd : ℚ} {p p' : Cell → Nat → ℚ}
    (hp : ∀ c, InGrid w h c → ∀ n < 9, p c n = p' c n) : seenProps w h nd p = seenProps w h nd p' := by
  funext c n
  simp only [seenProps]
  by_cases hc : inGrid w h c = true ∧ n < 9
  · rw [if_pos hc, if_pos hc, hp c (inGrid_iff.1 hc.1) 0 (by omega), hp c (inGrid_iff.1 hc.1) n hc.2]
  · rw [if_neg hc, if_neg hc]

theorem accFromProps_congr {w h : Nat} {nd : ℚ} {p p' : Cell → Nat → ℚ}
    (hp : ∀ c, InGrid w h c → ∀ n < 9, p c n = p' c n) (init : Cell → ℚ) :
    accFromProps w h nd p init = accFromProps w h nd p' init := by
  simp only [accFromProps, seenProps_congr hp]

end RichDEM.Py
