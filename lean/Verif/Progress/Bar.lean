import Mathlib.Algebra.Order.Field.Rat
import Verif.Apps.RasterTools

/-!
Model of the timer and the progress bar (common/timer.hpp, common/ProgressBar.hpp).

The clock is an argument of every call that reads it. Times are rational numbers of seconds (doubles in
the code).
-/

namespace RichDEM
namespace Progress

open Gdal (Res)
open Tools (andThen)

/-! ### common/timer.hpp -/

/-- timer.hpp:23-25. -/
structure Timer where
  startTime : ℚ := 0
  accumulated : ℚ := 0
  running : Bool := false
deriving DecidableEq

/-- timer.hpp:36-41 (`start`). -/
def Timer.start (t : Timer) (now : ℚ) : Res Timer :=
  if t.running then .throws else .ok { t with running := true, startTime := now }

/-- timer.hpp:47-57 (`stop`), with `timediff` (:28-30). -/
def Timer.stop (t : Timer) (now : ℚ) : Res (ℚ × Timer) :=
  if t.running then
    let a := t.accumulated + (now - t.startTime)
    .ok (a, { t with running := false, accumulated := a })
  else .throws

/-- timer.hpp:63-67 (`accumulated`). -/
def Timer.total (t : Timer) : Res ℚ := if t.running then .throws else .ok t.accumulated

/-- timer.hpp:73-78 (`lap`). -/
def Timer.lap (t : Timer) (now : ℚ) : Res ℚ := if t.running then .ok (now - t.startTime) else .throws

/-- timer.hpp:82-85 (`reset`). -/
def Timer.reset (t : Timer) : Timer := { t with accumulated := 0, running := false }

/-- A call on a timer. -/
inductive TimerCall
  | start (now : ℚ)
  | stop (now : ℚ)
  | total
  | lap (now : ℚ)
  | reset

/-- A call: what it returns (0 if nothing), and the timer after it. A call that throws does so before
it changes anything. -/
def Timer.call (t : Timer) : TimerCall → Res ℚ × Timer
  | .start now => match t.start now with
    | .ok t' => (.ok 0, t')
    | .throws => (.throws, t)
    | .ub => (.ub, t)
  | .stop now => match t.stop now with
    | .ok p => (.ok p.1, p.2)
    | .throws => (.throws, t)
    | .ub => (.ub, t)
  | .total => (t.total, t)
  | .lap now => (t.lap now, t)
  | .reset => (.ok 0, t.reset)

/-- The timer after a history of calls. -/
def Timer.after (h : List TimerCall) (t : Timer) : Timer := h.foldl (fun t c => (t.call c).2) t

/-! ### common/ProgressBar.hpp -/

/-- ProgressBar.hpp:41-45: the numbers `start` sets; all of 32 bits but the last, of 16. -/
structure Counts where
  totalWork : Nat
  nextUpdate : Nat
  callDiff : Nat
  workDone : Nat
  oldPercent : Nat
deriving DecidableEq

/-- ProgressBar.hpp:39-46. The numbers are indeterminate before the first `start`: `none`. -/
structure Bar where
  counts : Option Counts := none
  timer : Timer := {}
deriving DecidableEq

/-- A line shown: the percentage, the seconds left (`none`: a division of a double by zero) and the
number of threads. -/
structure Line where
  percent : Nat
  left : Option ℚ
  threads : Nat
deriving DecidableEq

/-- ProgressBar.hpp:110, between the brackets. -/
def Line.bar (l : Line) : List Char :=
  List.replicate (l.percent / 2) '=' ++ List.replicate (50 - l.percent / 2) ' '

/-- ProgressBar.hpp:61-67 (`thread_num`): 1 without OpenMP. `thread` is the number OpenMP gives. -/
def threadNum (omp : Bool) (thread : Nat) : Nat := if omp then thread else 1

/-- ProgressBar.hpp:53-59 (`num_threads`). -/
def numThreads (omp : Bool) (team : Nat) : Nat := if omp then team else 1

/-- ProgressBar.hpp:72-81 (`start`; what is written to the terminal is left out). -/
def Bar.start (b : Bar) (total : Nat) (now : ℚ) : Res Bar :=
  let _ := b
  andThen (Timer.start {} now) fun t => .ok ⟨some ⟨total, 0, total / 200, 0, 0⟩, t⟩

/-- ProgressBar.hpp:102: in 32 bits, the conversion to `uint8_t` included. -/
def share (work threads total : Nat) : Nat := (work * threads % 2 ^ 32) * 100 % 2 ^ 32 / total % 2 ^ 8

/-- ProgressBar.hpp:87-116 (`update`), without `RICHDEM_NO_PROGRESS`. Division of integers by zero is undefined behaviour. -/
def Bar.update (omp : Bool) (thread team : Nat) (now : ℚ) (b : Bar) (work : Nat) : Res (Bar × List Line) :=
  if threadNum omp thread ≠ 0 then .ok (b, [])                                  -- :92-93
  else
    match b.counts with
    | none => .ub
    | some v =>
      let v := { v with workDone := work }                                       -- :95
      if work < v.nextUpdate then .ok ({ b with counts := some v }, [])          -- :97-98
      else
        let v := { v with nextUpdate := (v.nextUpdate + v.callDiff) % 2 ^ 32 }   -- :100
        if v.totalWork = 0 then .ub
        else
          let p := min (share work (numThreads omp team) v.totalWork) 100        -- :102-104
          if p = v.oldPercent then .ok ({ b with counts := some v }, [])         -- :105-106
          else
            andThen (b.timer.lap now) fun e =>                                   -- :107-115
              .ok ({ b with counts := some { v with oldPercent := p } },
                [⟨p, if p = 0 then none else some (e / p * (100 - p)), numThreads omp team⟩])

/-- ProgressBar.hpp:119-125 (`operator++`). -/
def Bar.incr (omp : Bool) (thread team : Nat) (now : ℚ) (b : Bar) : Res (Bar × List Line) :=
  if threadNum omp thread ≠ 0 then .ok (b, [])
  else
    match b.counts with
    | none => .ub
    | some v =>
      let n := (v.workDone + 1) % 2 ^ 32
      Bar.update omp thread team now { b with counts := some { v with workDone := n } } n

/-- ProgressBar.hpp:129-134 (`stop`). -/
def Bar.stop (b : Bar) (now : ℚ) : Res (ℚ × Bar) :=
  andThen (b.timer.stop now) fun p => andThen p.2.total fun a => .ok (a, { b with timer := p.2 })

/-- ProgressBar.hpp:137-139 (`time_it_took`). -/
def Bar.timeItTook (b : Bar) : Res ℚ := b.timer.total

/-- ProgressBar.hpp:141-143 (`cellsProcessed`). -/
def Bar.cellsProcessed (b : Bar) : Res Nat :=
  match b.counts with
  | none => .ub
  | some v => .ok v.workDone

/-- A call that reports work, by a thread of a team, at a time. -/
structure Report where
  /-- `none`: `operator++` -/
  work : Option Nat
  thread : Nat
  team : Nat
  now : ℚ

def Bar.report (omp : Bool) (b : Bar) (r : Report) : Res (Bar × List Line) :=
  match r.work with
  | some w => b.update omp r.thread r.team r.now w
  | none => b.incr omp r.thread r.team r.now

/-- A history of reports; the lines in the order shown. -/
def Bar.reports (omp : Bool) (b : Bar) : List Report → Res (Bar × List Line)
  | [] => .ok (b, [])
  | r :: rs =>
    andThen (b.report omp r) fun p => andThen (p.1.reports omp rs) fun q => .ok (q.1, p.2 ++ q.2)

end Progress
end RichDEM
