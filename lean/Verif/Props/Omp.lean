/-
Property theorems C107: the parallel loops of the library give the same raster under every schedule.
-/
import Verif.Omp.Loops
import Verif.Terrain.Attributes

namespace RichDEM.Omp

/-! ### Loops in general -/

/-- A thread that has nothing to do stays so. -/
theorem run_idle {I A V : Type} [DecidableEq A] (body : I → Prog A V) (t : Nat) (l : List Nat) :
    ∀ s : State I A V, (s.thr t).todo = [] ∧ (s.thr t).cur = .done →
      ((run body s l).thr t).todo = [] ∧ ((run body s l).thr t).cur = .done := by
  induction l with
  | nil => intro s hs; exact hs
  | cons u l ih =>
    intro s hs
    apply ih
    by_cases hu : u = t
    · subst hu
      unfold step
      rw [hs.2]
      dsimp only
      rw [hs.1]
      exact hs
    · unfold step
      have hne : t ≠ u := fun e => hu e.symm
      split
      · simpa [Function.update_of_ne hne] using hs
      · simpa [Function.update_of_ne hne] using hs
      · split
        · exact hs
        · simpa [Function.update_of_ne hne] using hs

/-- C107: every parallel loop comes to an end, however the iterations are dealt out and whatever has been executed. -/
theorem C107_finishes {I A V : Type} [DecidableEq A] (body : I → Prog A V) (mem : A → V) (m : Nat) (iters : List I)
    (work : Nat → List I) (hd : Dealt m iters work) (sched : List Nat) :
    ∃ more, Finished (run body (start mem work) (sched ++ more)) := by
  obtain ⟨more, hf⟩ := can_finish body m (run body (start mem work) sched)
    (fun t ht => run_idle body t sched _ ⟨hd.none t ht, rfl⟩)
  exact ⟨more, by simpa [run, List.foldl_append] using hf⟩

variable {E : Type} [LinearOrder E] {m : Nat} {work : Nat → List Cell}

/-! ### Flow directions and flow metrics -/

/-- C107: `d8_flow_directions`. -/
theorem C107_d8_directions (w h : Nat) (dem : Cell → E) (nd : E) (hd : Dealt m (allCells w h) work) (sched : List Nat)
    (hf : Finished (run (d8DirBody w h dem nd) (start (fun _ => 0) work) sched)) (c : Cell) (hc : InGrid w h c) :
    (run (d8DirBody w h dem nd) (start (fun _ => 0) work) sched).mem c = d8FlowDirections w h dem nd c := by
  rw [own_cells id (nodup_allCells w h) (fin := d8FlowDirections w h dem nd) ?_ ?_ hd sched hf c]
  · exact if_pos (mem_allCells.2 hc)
  · intro c _
    unfold d8DirBody
    split <;> exact ⟨rfl, trivial⟩
  · rintro c _ a rfl
    unfold d8DirBody d8FlowDirections
    simp only [id]
    split <;> simp [execProg]

/-- C107: `dinf_flow_directions`. -/
theorem C107_dinf_directions (w h : Nat) (dem : Cell → ℝ) (nd : ℝ) (hd : Dealt m (allCells w h) work) (sched : List Nat)
    (hf : Finished (run (dinfDirBody w h dem nd) (start (fun _ => 0) work) sched)) (c : Cell) (hc : InGrid w h c) :
    (run (dinfDirBody w h dem nd) (start (fun _ => 0) work) sched).mem c = dinfFlowDirections w h dem nd c := by
  rw [own_cells id (nodup_allCells w h) (fin := dinfFlowDirections w h dem nd) ?_ ?_ hd sched hf c]
  · exact if_pos (mem_allCells.2 hc)
  · intro c _
    unfold dinfDirBody
    split <;> exact ⟨rfl, trivial⟩
  · rintro c _ a rfl
    unfold dinfDirBody dinfFlowDirections
    simp only [id]
    split <;> simp [execProg]

/-- C107: `FM_OCallaghan` (`FM_D8`, `FM_D4`). -/
theorem C107_ocallaghan (w h : Nat) (t : Topo) (dem : Cell → E) (nd mx : E) (hd : Dealt m (allCells w h) work)
    (sched : List Nat) (hf : Finished (run (ocBody w h t dem nd mx) (start (fun _ => -1) work) sched))
    (c : Cell) (hc : InGrid w h c) (n : Nat) :
    (run (ocBody w h t dem nd mx) (start (fun _ => -1) work) sched).mem (c, n) =
      (fmOCallaghan w h t dem nd mx c).slot n := by
  rw [own_cells (A := Cell × Nat) Prod.fst (nodup_allCells w h)
    (fin := fun a => (fmOCallaghan w h t dem nd mx a.1).slot a.2) (fun c _ => oc_local ..) ?_ hd sched hf (c, n)]
  · exact if_pos (mem_allCells.2 hc)
  · rintro c _ ⟨d, j⟩ rfl
    exact oc_exec ..

/-- C107: `FM_FairfieldLeymarie` (`FM_Rho8`, `FM_Rho4`), given the random numbers drawn for each cell. -/
theorem C107_rho {K : Type} [Field K] [LinearOrder K] (w h : Nat) (t : Topo) (dem : Cell → K) (nd : K)
    (f : Cell → Nat → K) (hd : Dealt m (allCells w h) work) (sched : List Nat)
    (hf : Finished (run (rhoBody w h t dem nd f) (start (fun _ => -1) work) sched))
    (c : Cell) (hc : InGrid w h c) (n : Nat) :
    (run (rhoBody w h t dem nd f) (start (fun _ => -1) work) sched).mem (c, n) =
      (fmFairfield w h t dem nd f c).slot n := by
  rw [own_cells (A := Cell × Nat) Prod.fst (nodup_allCells w h)
    (fin := fun a => (fmFairfield w h t dem nd f a.1).slot a.2) (fun c _ => rho_local ..) ?_ hd sched hf (c, n)]
  · exact if_pos (mem_allCells.2 hc)
  · rintro c _ ⟨d, j⟩ rfl
    exact rho_exec ..

/-- C107: `FM_Freeman`, `FM_Holmgren` and `FM_Quinn`, which store weights and later divide them by their sum. -/
theorem C107_multiple_flow {K : Type} [Field K] [LinearOrder K] (again : Bool) (w h : Nat) (dem : Cell → E) (nd : E)
    (wgt : Nat → E → E → K) (hd : Dealt m (allCells w h) work) (sched : List Nat)
    (hf : Finished (run (mfBody again w h dem nd wgt) (start (fun _ => -1) work) sched))
    (c : Cell) (hc : InGrid w h c) (n : Nat) :
    (run (mfBody again w h dem nd wgt) (start (fun _ => -1) work) sched).mem (c, n) =
      multiFlow w h dem nd wgt c n := by
  rw [own_cells (A := Cell × Nat) Prod.fst (nodup_allCells w h)
    (fin := fun a => multiFlow w h dem nd wgt a.1 a.2) (fun c _ => mf_local ..) ?_ hd sched hf (c, n)]
  · exact if_pos (mem_allCells.2 hc)
  · rintro c _ ⟨d, j⟩ rfl
    exact mf_exec ..

/-- C107: `FM_Tarboton` (`FM_Dinfinity`). -/
theorem C107_tarboton (w h : Nat) (dem : Cell → ℝ) (nd : ℝ) (hd : Dealt m (allCells w h) work)
    (sched : List Nat) (hf : Finished (run (tarbBody w h dem nd) (start (fun _ => -1) work) sched))
    (c : Cell) (hc : InGrid w h c) (n : Nat) :
    (run (tarbBody w h dem nd) (start (fun _ => -1) work) sched).mem (c, n) = fmTarboton w h dem nd c n := by
  rw [own_cells (A := Cell × Nat) Prod.fst (nodup_allCells w h)
    (fin := fun a => fmTarboton w h dem nd a.1 a.2) (fun c _ => tarb_local ..) ?_ hd sched hf (c, n)]
  · exact if_pos (mem_allCells.2 hc)
  · rintro c _ ⟨d, j⟩ rfl
    exact tarb_exec ..

/-! ### Flats -/

/-- C107: `FindFlats`, whatever the raster held before. -/
theorem C107_find_flats (w h : Nat) (dem : Cell → E) (nd : E) (before : Cell → Int) (hd : Dealt m (allCells w h) work)
    (sched : List Nat) (hf : Finished (run (flatBody w h dem nd) (start before work) sched))
    (c : Cell) (hc : InGrid w h c) :
    (run (flatBody w h dem nd) (start before work) sched).mem c = findFlat w h dem nd c := by
  rw [own_cells id (nodup_allCells w h) (fin := findFlat w h dem nd) ?_ ?_ hd sched hf c]
  · exact if_pos (mem_allCells.2 hc)
  · intro c _
    unfold flatBody
    split
    · exact ⟨rfl, trivial⟩
    · split
      · exact ⟨rfl, trivial⟩
      · refine ⟨rfl, ?_⟩
        split
        · exact ⟨rfl, trivial⟩
        · trivial
  · rintro c _ a rfl
    unfold flatBody findFlat
    simp only [id]
    split
    · simp [execProg]
    · split
      · simp [execProg]
      · split <;> simp [execProg]

/-- C107: the sign of the mask is reversed, once for each cell. -/
theorem C107_negate (w h : Nat) (mask : Cell → Int) (hd : Dealt m (allCells w h) work) (sched : List Nat)
    (hf : Finished (run negBody (start mask work) sched)) (c : Cell) (hc : InGrid w h c) :
    (run negBody (start mask work) sched).mem c = - mask c := by
  rw [own_cells id (nodup_allCells w h) (fin := fun c => - mask c) ?_ ?_ hd sched hf c]
  · exact if_pos (mem_allCells.2 hc)
  · intro c _
    exact ⟨rfl, fun v => ⟨rfl, trivial⟩⟩
  · rintro c _ a rfl
    simp [negBody, execProg]

theorem mem_interior {w h : Nat} {c : Cell} :
    c ∈ interior w h ↔ 1 ≤ c.1 ∧ c.1 < (w : Int) - 1 ∧ 1 ≤ c.2 ∧ c.2 < (h : Int) - 1 := by
  unfold interior
  rw [List.mem_filter, mem_allCells, decide_eq_true_iff]
  simp only [InGrid]
  constructor
  · exact fun h => h.2
  · intro h; exact ⟨⟨by omega, by omega, by omega, by omega⟩, h⟩

theorem nodup_interior (w h : Nat) : (interior w h).Nodup := (nodup_allCells w h).filter _

/-- C107: `d8_flow_flats`. -/
theorem C107_flow_flats (w h : Nat) (mask labels : Cell → Int) (fd : Cell → Nat) (hd : Dealt m (interior w h) work)
    (sched : List Nat) (hf : Finished (run (flowFlatBody mask labels) (start fd work) sched)) (c : Cell) :
    (run (flowFlatBody mask labels) (start fd work) sched).mem c = d8FlowFlats w h mask labels fd c := by
  rw [own_cells id (nodup_interior w h) (fin := d8FlowFlats w h mask labels fd) ?_ ?_ hd sched hf c]
  · split
    · rfl
    · rename_i hc
      unfold d8FlowFlats
      have hc' : c ∉ interior w h := hc
      rw [if_neg (fun e => hc' (mem_interior.2 e))]
  · intro c _
    unfold flowFlatBody
    split
    · trivial
    · refine ⟨rfl, fun v => ?_⟩
      dsimp only
      split
      · exact ⟨rfl, trivial⟩
      · trivial
  · rintro c hc a rfl
    unfold flowFlatBody d8FlowFlats
    simp only [id] at hc ⊢
    rw [if_pos (mem_interior.1 hc)]
    split
    · simp [execProg]
    · simp only [execProg]
      split <;> simp [execProg]

/-- C107: `dinf_flow_flats`. -/
theorem C107_dinf_flow_flats (w h : Nat) (mask labels : Cell → Int) (fd : Cell → ℝ) (hd : Dealt m (interior w h) work)
    (sched : List Nat) (hf : Finished (run (dinfFlatBody mask labels) (start fd work) sched)) (c : Cell) :
    (run (dinfFlatBody mask labels) (start fd work) sched).mem c = dinfFlowFlats w h mask labels fd c := by
  rw [own_cells id (nodup_interior w h) (fin := dinfFlowFlats w h mask labels fd) ?_ ?_ hd sched hf c]
  · split
    · rfl
    · rename_i hc
      unfold dinfFlowFlats
      have hc' : c ∉ interior w h := hc
      rw [if_neg (fun e => hc' (mem_interior.2 e))]
  · intro c _
    unfold dinfFlatBody
    split
    · trivial
    · refine ⟨rfl, fun v => ?_⟩
      dsimp only
      split
      · exact ⟨rfl, trivial⟩
      · trivial
  · rintro c hc a rfl
    unfold dinfFlatBody dinfFlowFlats
    simp only [id] at hc ⊢
    rw [if_pos (mem_interior.1 hc)]
    split
    · simp [execProg]
    · simp only [execProg]
      split <;> simp [execProg]

/-- C107: `ResolveFlatsEpsilon_Barnes2014` and `d8_flats_alter_dem`: although an iteration reads cells that others are
raising, and counts warnings in a shared variable, the elevations do not depend on the schedule. -/
theorem C107_raise_flats (w h : Nat) (next : E → E) (mask labels : Cell → Int) (dem : Cell → E)
    (mem : RaiseAddr → E × Int) (hmem : ∀ c, (mem (.elev c)).1 = dem c) (hd : Dealt m (interior w h) work)
    (sched : List Nat) (hf : Finished (run (raiseBody next mask labels) (start mem work) sched)) (c : Cell) :
    ((run (raiseBody next mask labels) (start mem work) sched).mem (.elev c)).1 =
      resolveEpsilon w h next mask labels dem c := by
  have key := (parallel_for (own := raiseOwn) (init := mem)
    (fin := fun a => match a with
      | .elev c => (if labels c = 0 then dem c else next^[(mask c).toNat] (dem c), (mem (.elev c)).2)
      | .warn => mem .warn) hd (nodup_interior w h) ?_ sched hf).1 (.elev c) c rfl
  · rw [key]
    unfold resolveEpsilon
    by_cases hc : c ∈ interior w h
    · rw [if_pos hc, if_pos]
      have := mem_interior.1 hc
      omega
    · rw [if_neg hc, hmem, if_neg]
      intro e
      exact hc (mem_interior.2 ⟨e.2.2.1, e.2.2.2, e.1, e.2.1⟩)
  · intro c _
    unfold raiseBody
    by_cases hl : labels c = 0
    · rw [if_pos hl]
      intro a ha
      cases a with
      | elev d =>
        obtain rfl : d = c := by simpa [raiseOwn] using ha
        exact Prod.ext (by simp only [hl, if_true]; exact hmem d) rfl
      | warn => cases ha
    · rw [if_neg hl]
      apply leaves_lower
      intro acc
      apply leaves_raise
      · exact fun m hm => leaves_check _ m hm
      · simp only [hl, if_false]
        rw [hmem]

/-! ### Water, depressions and terrain attributes -/

/-- C107: the count of inflowing neighbours in `MoveWaterIntoPits`. -/
theorem C107_pit_dependencies (w h : Nat) (fd : Cell → Nat) (hd : Dealt m (allCells w h) work) (sched : List Nat)
    (hf : Finished (run (fun c => pitDepProg w h fd c (dirs .D8)) (start (fun _ => 0) work) sched))
    (c : Cell) (hc : InGrid w h c) :
    (run (fun c => pitDepProg w h fd c (dirs .D8)) (start (fun _ => 0) work) sched).mem c = pitDeps w h fd c := by
  rw [own_cells id (nodup_allCells w h) (fin := pitDeps w h fd) (fun c _ => pit_local w h fd c _) ?_ hd sched hf c]
  · exact if_pos (mem_allCells.2 hc)
  · rintro c _ a rfl
    simp only [id]
    rw [pit_exec]
    simp [pitDeps]

/-- C107: `LastLayer`, if no cell makes it throw. -/
theorem C107_last_layer (w h : Nat) (inf : Option E) (H : Hier E) (dem : Cell → E) (label : Cell → Option Nat)
    (fuel : Nat) (res : Cell → Nat) (hr : ∀ c, InGrid w h c → lastLayer inf H dem label fuel c = .label (res c))
    (hd : Dealt m (allCells w h) work) (sched : List Nat)
    (hf : Finished (run (lastLayerBody inf H.n H.dep dem fuel) (start label work) sched))
    (c : Cell) (hc : InGrid w h c) :
    (run (lastLayerBody inf H.n H.dep dem fuel) (start label work) sched).mem c = some (res c) := by
  rw [own_cells id (nodup_allCells w h) (fin := fun c => some (res c)) ?_ ?_ hd sched hf c]
  · exact if_pos (mem_allCells.2 hc)
  · intro c _
    refine ⟨rfl, fun v => ?_⟩
    dsimp only
    split
    · trivial
    · split
      · exact ⟨rfl, trivial⟩
      · trivial
  · rintro c hc a rfl
    have := hr a (mem_allCells.1 hc)
    unfold lastLayer at this
    simp only [lastLayerBody, execProg, id]
    split at this
    · cases this
    · rename_i l e
      rw [e]
      dsimp only
      rw [this]
      simp [execProg]

/-- C107: `TerrainProcessor` (slope, aspect, curvature), `TA_SPI` and `TA_CTI`: any function of a cell. -/
theorem C107_attributes {R : Type} (w h : Nat) (isnd : Cell → Bool) (ond : R) (func : Cell → R) (before : Cell → R)
    (hd : Dealt m (allCells w h) work) (sched : List Nat)
    (hf : Finished (run (attrBody isnd ond func) (start before work) sched)) (c : Cell) (hc : InGrid w h c) :
    (run (attrBody isnd ond func) (start before work) sched).mem c = if isnd c then ond else func c := by
  rw [own_cells id (nodup_allCells w h) (fin := fun c => if isnd c then ond else func c) ?_ ?_ hd sched hf c]
  · exact if_pos (mem_allCells.2 hc)
  · intro c _
    unfold attrBody
    split <;> exact ⟨rfl, trivial⟩
  · rintro c _ a rfl
    unfold attrBody
    simp only [id]
    split <;> simp [execProg]

/-! ### What does depend on the schedule -/

/-- Two flats side by side: (1,1) at 10 to be raised by 3, (2,1) at 12 to be raised by 2. -/
def warnMem : RaiseAddr → Int × Int
  | .elev c => (if c = (1, 1) then 10 else if c = (2, 1) then 12 else 0, 0)
  | .warn => (0, 0)

def warnMask (c : Cell) : Int := if c = (1, 1) then 3 else if c = (2, 1) then 2 else 0

def warnLabels (c : Cell) : Int := if c = (1, 1) then 1 else if c = (2, 1) then 2 else 0

/-- Each of two threads has one of the cells. -/
def warnWork (t : Nat) : List Cell := if t = 0 then [(1, 1)] else if t = 1 then [(2, 1)] else []

theorem warn_dealt : Dealt 2 (interior 4 3) warnWork := by
  refine ⟨by decide +kernel, fun t ht => ?_⟩
  unfold warnWork
  rw [if_neg (by omega), if_neg (by omega)]

/-- Left cell first. -/
def warnSched1 : List Nat := List.replicate 60 0 ++ List.replicate 60 1

/-- Right cell first. -/
def warnSched2 : List Nat := List.replicate 60 1 ++ List.replicate 60 0

/-- Whether a thread is through. -/
def through {I A V : Type} (t : Thread I A V) : Bool := t.todo.isEmpty && (match t.cur with | .done => true | _ => false)

theorem through_iff {I A V : Type} (t : Thread I A V) (ht : through t = true) : t.todo = [] ∧ t.cur = .done := by
  unfold through at ht
  rw [Bool.and_eq_true, List.isEmpty_iff] at ht
  refine ⟨ht.1, ?_⟩
  have := ht.2
  revert this
  cases t.cur <;> simp

theorem warn_finished (sched : List Nat)
    (h0 : through ((run (raiseBody (· + 1) warnMask warnLabels) (start warnMem warnWork) sched).thr 0) = true)
    (h1 : through ((run (raiseBody (· + 1) warnMask warnLabels) (start warnMem warnWork) sched).thr 1) = true) :
    Finished (run (raiseBody (· + 1) warnMask warnLabels) (start warnMem warnWork) sched) := by
  intro t
  by_cases ht : t = 0
  · subst ht; exact through_iff _ h0
  by_cases ht' : t = 1
  · subst ht'; exact through_iff _ h1
  exact run_idle _ t sched _ ⟨warn_dealt.none t (by omega), rfl⟩

/-- C107, refuted part: the number of "cells inappropriately raised above surrounding terrain" that
`ResolveFlatsEpsilon` logs depends on the schedule: 2 if the left cell is raised first, 0 if the right one is. -/
theorem C107_warnings_refuted : ∃ (E : Type) (_ : LinearOrder E) (next : E → E) (mask labels : Cell → Int)
    (mem : RaiseAddr → E × Int) (work : Nat → List Cell) (s₁ s₂ : List Nat), (∀ e, e < next e) ∧
    Dealt 2 (interior 4 3) work ∧
    Finished (run (raiseBody next mask labels) (start mem work) s₁) ∧
    Finished (run (raiseBody next mask labels) (start mem work) s₂) ∧
    ((run (raiseBody next mask labels) (start mem work) s₁).mem .warn).2 = 2 ∧
    ((run (raiseBody next mask labels) (start mem work) s₂).mem .warn).2 = 0 :=
  ⟨Int, inferInstance, (· + 1), warnMask, warnLabels, warnMem, warnWork, warnSched1, warnSched2,
    fun _ => by dsimp only; omega, warn_dealt,
    warn_finished _ (by decide +kernel) (by decide +kernel), warn_finished _ (by decide +kernel) (by decide +kernel),
    by decide +kernel, by decide +kernel⟩

/-- The hypotheses of the theorems above are met: two threads share a 4 × 3 raster, and the loop is run to its end after
any beginning. -/
example (sched : List Nat) : ∃ more, Finished (run (raiseBody (· + 1) warnMask warnLabels) (start warnMem warnWork)
    (sched ++ more)) := C107_finishes _ _ 2 _ _ warn_dealt sched

example : ((run (raiseBody (· + 1) warnMask warnLabels) (start warnMem warnWork)
    (List.flatten (List.replicate 60 [0, 1]))).mem (.elev (1, 1))).1 = 13 := by decide +kernel

end RichDEM.Omp
