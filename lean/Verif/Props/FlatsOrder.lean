/-
Property theorems C109: flat resolution does not depend on the order in which threads find the edges of the flats.
-/
import Verif.Flats.Push
import Verif.Omp.Model

namespace RichDEM

variable {E : Type*} [LinearOrder E]

/-- `FindFlatEdges` as executed by threads among which the cells are dealt out as `work` says, under schedule `sched`. -/
abbrev edgeRun (w h : Nat) (dem : Cell → E) (nodata : E) (work : Nat → List Cell) (sched : List Nat) : PushState :=
  pushRun (edgeKind w h dem (findFlat w h dem nodata)) work sched

/-- Such an execution has come to its end. -/
structure EdgeExec (w h : Nat) (dem : Cell → E) (nodata : E) (m : Nat) (work : Nat → List Cell) (sched : List Nat) :
    Prop where
  dealt : Omp.Dealt m (allCells w h) work
  finished : ∀ t, (edgeRun w h dem nodata work sched).todo t = []

section
variable (w h : Nat) (dem : Cell → E) (nodata : E)

/-- C109: the queues hold each low edge and each high edge once, and nothing else, under every schedule. -/
theorem C109_queues (m : Nat) (work : Nat → List Cell) (sched : List Nat) (hx : EdgeExec w h dem nodata m work sched) :
    EdgeQueues w h dem nodata (edgeRun w h dem nodata work sched).low (edgeRun w h dem nodata work sched).high ∧
    (edgeRun w h dem nodata work sched).low.Nodup ∧ (edgeRun w h dem nodata work sched).high.Nodup := by
  obtain ⟨h1, h2⟩ := pushRun_queues hx.dealt.all hx.dealt.none sched hx.finished
  exact ⟨⟨h1, h2⟩, h1.nodup_iff.2 ((nodup_allCells w h).filter _), h2.nodup_iff.2 ((nodup_allCells w h).filter _)⟩

variable {m m' : Nat} {work work' : Nat → List Cell} {sched sched' : List Nat}

/-- C109: two executions, with whatever threads and schedules, give the same flat mask. -/
theorem C109_mask (hx : EdgeExec w h dem nodata m work sched) (hx' : EdgeExec w h dem nodata m' work' sched') (c : Cell) :
    (getFlatMask w h dem nodata (edgeRun w h dem nodata work sched).low (edgeRun w h dem nodata work sched).high).1 c =
    (getFlatMask w h dem nodata (edgeRun w h dem nodata work' sched').low
      (edgeRun w h dem nodata work' sched').high).1 c :=
  core_mask_unique (C109_queues w h dem nodata m work sched hx).1.sys
    (C109_queues w h dem nodata m' work' sched' hx').1.sys c

/-- C109: and the same labels up to renumbering. -/
theorem C109_labels (hx : EdgeExec w h dem nodata m work sched) (hx' : EdgeExec w h dem nodata m' work' sched')
    (a b : Cell) :
    let l := (getFlatMask w h dem nodata (edgeRun w h dem nodata work sched).low
      (edgeRun w h dem nodata work sched).high).2
    let l' := (getFlatMask w h dem nodata (edgeRun w h dem nodata work' sched').low
      (edgeRun w h dem nodata work' sched').high).2
    (l a = 0 ↔ l' a = 0) ∧ (l a = l b ↔ l' a = l' b) :=
  core_labels_unique (C109_queues w h dem nodata m work sched hx).1.sys
    (C109_queues w h dem nodata m' work' sched' hx').1.sys a b

/-- C109: `ResolveFlatsEpsilon` gives the same elevations. -/
theorem C109_elevations (next : E → E) (hx : EdgeExec w h dem nodata m work sched)
    (hx' : EdgeExec w h dem nodata m' work' sched') :
    resolveFlatsEpsilon w h next dem nodata (edgeRun w h dem nodata work sched).low
      (edgeRun w h dem nodata work sched).high =
    resolveFlatsEpsilon w h next dem nodata (edgeRun w h dem nodata work' sched').low
      (edgeRun w h dem nodata work' sched').high := by
  funext c
  have h1 := C109_mask w h dem nodata hx hx' c
  have h2 := (C109_labels w h dem nodata hx hx' c c).1
  unfold resolveFlatsEpsilon resolveEpsilon
  split
  · rw [h1]
    exact if_congr h2 rfl rfl
  · rfl

end

/-! ### The numbers of the labels do depend on the schedule -/

/-- Two flats, (2,1) and (4,1), with outlets to the left and to the right. -/
def exTwo : Cell → Int := ofRows (-9999) [[9, 9, 9, 9, 9, 9, 9], [0, 5, 5, 9, 5, 5, 0], [9, 9, 9, 9, 9, 9, 9]]

/-- Thread 0 has the left part of the raster, thread 1 the right one. -/
def exTwoWork (t : Nat) : List Cell :=
  if t = 0 then (allCells 7 3).filter (fun c => decide (c.1 < 4))
  else if t = 1 then (allCells 7 3).filter (fun c => !decide (c.1 < 4)) else []

def exTwo1 : List Nat := List.replicate 21 0 ++ List.replicate 21 1

def exTwo2 : List Nat := List.replicate 21 1 ++ List.replicate 21 0

theorem exTwo_exec (sched : List Nat) (h0 : (edgeRun 7 3 exTwo (-9999) exTwoWork sched).todo 0 = [])
    (h1 : (edgeRun 7 3 exTwo (-9999) exTwoWork sched).todo 1 = []) : EdgeExec 7 3 exTwo (-9999) 2 exTwoWork sched := by
  have hn : ∀ t, 2 ≤ t → exTwoWork t = [] := by
    intro t ht
    unfold exTwoWork
    rw [if_neg (by omega), if_neg (by omega)]
  refine ⟨⟨by decide +kernel, hn⟩, fun t => ?_⟩
  by_cases e0 : t = 0
  · rw [e0]; exact h0
  by_cases e1 : t = 1
  · rw [e1]; exact h1
  have := foldl_inv' (f := pushStep (edgeKind 7 3 exTwo (findFlat 7 3 exTwo (-9999)))) (fun s : PushState => s.todo t = []) sched ⟨[], [], exTwoWork⟩ (fun s j _ hs => ?_)
    (hn t (by omega))
  · exact this
  · unfold pushStep
    split
    · exact hs
    · rename_i c cs e
      dsimp only
      rw [Function.update_of_ne]
      · exact hs
      · rintro rfl
        rw [hs] at e
        cases e

/-- C109, refuted part: the number of a flat in the labels raster depends on which thread comes first. -/
theorem C109_label_numbers_refuted :
    EdgeExec 7 3 exTwo (-9999) 2 exTwoWork exTwo1 ∧ EdgeExec 7 3 exTwo (-9999) 2 exTwoWork exTwo2 ∧
    (getFlatMask 7 3 exTwo (-9999) (edgeRun 7 3 exTwo (-9999) exTwoWork exTwo1).low
      (edgeRun 7 3 exTwo (-9999) exTwoWork exTwo1).high).2 (2, 1) = 1 ∧
    (getFlatMask 7 3 exTwo (-9999) (edgeRun 7 3 exTwo (-9999) exTwoWork exTwo2).low
      (edgeRun 7 3 exTwo (-9999) exTwoWork exTwo2).high).2 (2, 1) = 2 :=
  ⟨exTwo_exec _ (by decide +kernel) (by decide +kernel), exTwo_exec _ (by decide +kernel) (by decide +kernel),
    by decide +kernel, by decide +kernel⟩

/-- The executions above are not trivial: both flats are resolved. -/
example : (getFlatMask 7 3 exTwo (-9999) (edgeRun 7 3 exTwo (-9999) exTwoWork exTwo2).low
    (edgeRun 7 3 exTwo (-9999) exTwoWork exTwo2).high).1 (2, 1) = 4 := by decide +kernel

end RichDEM
