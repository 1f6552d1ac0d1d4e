import Verif.Loop

/-!
`#pragma omp parallel for` as used throughout /repo/include/richdem (the loops and their lines are cited at their
bodies in Verif/Omp/Loops.lean): the iterations are dealt out to threads in any way, and the threads' loads and
stores of shared memory are interleaved in any order.  Memory is sequentially consistent, the most favourable
reading of a program with data races (which C++ leaves undefined); variables local to an iteration are not memory.
-/

namespace RichDEM.Omp

variable {I A V : Type}

/-- The code of one iteration, or what is left of it: loads and stores of shared memory. -/
inductive Prog (A V : Type) where
  | done
  | load (a : A) (k : V → Prog A V)
  | store (a : A) (v : V) (k : Prog A V)

/-- A thread: the iterations it has not begun, and the rest of the one it is executing. -/
structure Thread (I A V : Type) where
  todo : List I
  cur : Prog A V

structure State (I A V : Type) where
  mem : A → V
  thr : Nat → Thread I A V

variable [DecidableEq A]

/-- One micro-step of thread `t`: a load, a store, or the beginning of its next iteration (nothing if it has finished). -/
def step (body : I → Prog A V) (s : State I A V) (t : Nat) : State I A V :=
  match (s.thr t).cur with
  | .load a k => { s with thr := Function.update s.thr t ⟨(s.thr t).todo, k (s.mem a)⟩ }
  | .store a v k => { mem := Function.update s.mem a v, thr := Function.update s.thr t ⟨(s.thr t).todo, k⟩ }
  | .done =>
    match (s.thr t).todo with
    | [] => s
    | i :: is => { s with thr := Function.update s.thr t ⟨is, body i⟩ }

/-- A schedule: the threads in the order in which they take micro-steps. -/
def run (body : I → Prog A V) (s : State I A V) (sched : List Nat) : State I A V := sched.foldl (step body) s

/-- The beginning: thread `t` has been given the iterations `work t`. -/
def start (mem : A → V) (work : Nat → List I) : State I A V := ⟨mem, fun t => ⟨work t, .done⟩⟩

omit [DecidableEq A] in
/-- All threads have reached the barrier at the end of the loop. -/
def Finished (s : State I A V) : Prop := ∀ t, (s.thr t).todo = [] ∧ (s.thr t).cur = .done

/-- The iterations `iters` are dealt out to threads `0 … m-1`, each to exactly one. -/
structure Dealt (m : Nat) (iters : List I) (work : Nat → List I) : Prop where
  all : ((List.range m).flatMap work).Perm iters
  none : ∀ t, m ≤ t → work t = []

/-- The execution without threads: iteration after iteration. -/
def execProg : Prog A V → (A → V) → A → V
  | .done, m => m
  | .load a k, m => execProg (k (m a)) m
  | .store a v k, m => execProg k (Function.update m a v)

/-- The loop without `#pragma omp parallel for`. -/
def sequential (body : I → Prog A V) (iters : List I) (m : A → V) : A → V :=
  iters.foldl (fun m i => execProg (body i) m) m

/-- Whose a shared number is: never written (`const`), of one iteration only, or of anybody (`free`: counters that are
only logged). -/
inductive Own (I : Type) where
  | const
  | mine (i : I)
  | free
deriving DecidableEq

variable [DecidableEq I]

/-- The rest `p` of iteration `i` writes only numbers that are its own (or free), and leaves `fin` in its own, if they
are as in `m` now, whatever it loads from numbers of other iterations. -/
def Leaves (own : A → Own I) (init fin : A → V) (i : I) : Prog A V → (A → V) → Prop
  | .done, m => ∀ a, own a = .mine i → m a = fin a
  | .load a k, m =>
    if own a = .mine i then Leaves own init fin i (k (m a)) m
    else if own a = .const then Leaves own init fin i (k (init a)) m
    else ∀ v, Leaves own init fin i (k v) m
  | .store a v k, m => (own a = .mine i ∨ own a = .free) ∧ Leaves own init fin i k (Function.update m a v)

end RichDEM.Omp
