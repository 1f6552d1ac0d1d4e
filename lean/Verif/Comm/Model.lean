/-
The conversation between the producer and the consumers of programs/parallel_priority_flood/main.cpp:604-797 and
programs/parallel_d8_accum/main.cpp:908-1112 (the same code), over include/richdem/common/communication.hpp.

What a consumer does with a tile is given by functions of the tile: the result `work1` of the first round with its
size in bytes `size1`, what is kept for the second round (`keep`, retention `@retain`), and the file written in the
second round (`work2`, from the tile, what was kept and what the producer sends).  `plan` is what the producer works out for a
tile from the grid of first-round results.

Simplifications: messages between two processes arrive in the order in which they were sent (MPI's non-overtaking rule);
a consumer's step from receiving a job to sending its reply is atomic (it touches nothing shared); blocking and non-blocking
sends both add to a queue of unbounded length; serialisation is the identity; a message whose size exceeds that of the buffer
ends the program (MPI_ERR_TRUNCATE).
-/
import Mathlib.Logic.Function.Basic
import Mathlib.Data.List.Nodup
import Mathlib.Data.List.Dedup

namespace RichDEM

/-- What the processes compute. -/
structure CommJob (τ R K P O : Type*) where
  work1 : τ → R
  size1 : τ → Nat
  keep : τ → K
  work2 : τ → K → P → O
  plan : (τ → Option R) → τ → P
  size2 : Nat

/-- Messages of the producer: the tags `JOB_FIRST`, `JOB_SECOND` and `SYNC_MSG_KILL`. -/
inductive CMsg (τ P : Type*) where
  | first (t : τ)
  | second (t : τ) (p : P)
  | kill

/-- Messages of a consumer: the tags `TAG_DONE_FIRST` and `TAG_DONE_SECOND`. -/
inductive CReply (τ R : Type*) where
  | done1 (t : τ) (r : R)
  | done2 (t : τ)

/-- Where the producer is; `k` and `r` count the jobs sent and still to be received, `i` the consumers told to stop. -/
inductive CPhase where
  | send1 (k : Nat)
  | recv1 (r : Nat)
  | send2 (k : Nat)
  | recv2 (r : Nat)
  | kill (i : Nat)
  | stop
  deriving DecidableEq

/-- All processes and messages.  `probe` is the size returned by `MPI_Probe` in `CommRecv`; `order` the tiles whose
first-round results have been stored, most recent last (an observer, not read by the program). -/
structure CommS (τ R K P O : Type*) where
  ph : CPhase
  probe : Option Nat
  inbox : Nat → List (CMsg τ P)
  outbox : Nat → List (CReply τ R)
  store : Nat → τ → Option K
  grid : τ → Option R
  files : τ → Option O
  alive : Nat → Bool
  order : List τ
  ok : Bool

section
variable {τ R K P O : Type*} [DecidableEq τ] (J : CommJob τ R K P O) (W : Nat) (js : List τ)

/-- The beginning; consumers are numbered from 1. -/
def CommS.start : CommS τ R K P O :=
  { ph := .send1 0
    probe := none
    inbox := fun _ => []
    outbox := fun _ => []
    store := fun _ _ => none
    grid := fun _ => none
    files := fun _ => none
    alive := fun _ => true
    order := []
    ok := true }

/-- parallel_priority_flood/main.cpp:724, 777: the consumer to which the `k`-th job is sent. -/
def commDest (k : Nat) : Nat := k % W + 1

/-- Sizes of replies. -/
def replySize : CReply τ R → Nat
  | .done1 t _ => J.size1 t
  | .done2 _ => J.size2

/-- What may happen next: a step of the producer's own code, a step of consumer `i`, the producer's `MPI_Probe`
seeing a message of consumer `i`, its `MPI_Recv` taking one of consumer `j`. -/
inductive CEv where
  | prod
  | work (i : Nat)
  | probe (i : Nat)
  | recv (j : Nat)

/-- parallel_priority_flood/main.cpp:713-726, 757-779, 792-797: steps of the producer other than receiving.  Without consumers
the number of the consumer is computed modulo zero. -/
def commProd (s : CommS τ R K P O) : Option (CommS τ R K P O) :=
  match s.ph with
  | .send1 k =>
    match js[k]? with
    | some t =>
      if W = 0 then some { s with ok := false }
      else some { s with ph := .send1 (k + 1), inbox := Function.update s.inbox (commDest W k) (s.inbox (commDest W k) ++ [.first t]) }
    | none => some { s with ph := .recv1 js.length }
  | .recv1 0 => some { s with ph := .send2 0 }
  | .recv1 (_ + 1) => none
  | .send2 k =>
    match js[k]? with
    | some t =>
      if W = 0 then some { s with ok := false }
      else some { s with
        ph := .send2 (k + 1)
        inbox := Function.update s.inbox (commDest W k) (s.inbox (commDest W k) ++ [.second t (J.plan s.grid t)]) }
    | none => some { s with ph := .recv2 js.length }
  | .recv2 0 => some { s with ph := .kill 0 }
  | .recv2 (_ + 1) => none
  | .kill i =>
    if i < W then some { s with ph := .kill (i + 1), inbox := Function.update s.inbox (i + 1) (s.inbox (i + 1) ++ [.kill]) }
    else some { s with ph := .stop }
  | .stop => none

/-- parallel_priority_flood/main.cpp:622-682: consumer `i` deals with message `m`.  `LoadFromRetain` throws if the tile was not kept
here; it moves the tile out of the storage.  The kill message is only probed for, not received. -/
def commDo (i : Nat) (s : CommS τ R K P O) (rest : List (CMsg τ P)) : CMsg τ P → CommS τ R K P O
  | .first t =>
    { s with
      inbox := Function.update s.inbox i rest
      store := Function.update s.store i (Function.update (s.store i) t (some (J.keep t)))
      outbox := Function.update s.outbox i (s.outbox i ++ [.done1 t (J.work1 t)]) }
  | .second t p =>
    match s.store i t with
    | none => { s with ok := false }
    | some k =>
      { s with
        inbox := Function.update s.inbox i rest
        store := Function.update s.store i (Function.update (s.store i) t none)
        files := Function.update s.files t (some (J.work2 t k p))
        outbox := Function.update s.outbox i (s.outbox i ++ [.done2 t]) }
  | .kill => { s with alive := Function.update s.alive i false }

/-- parallel_priority_flood/main.cpp:604-688 `Consumer`: one iteration of consumer `i`. -/
def commWork (i : Nat) (s : CommS τ R K P O) : Option (CommS τ R K P O) :=
  if i = 0 ∨ W < i ∨ s.alive i = false then none
  else
    match s.inbox i with
    | [] => none
    | m :: rest => some (commDo J i s rest m)

/-- Is the producer waiting for a message? -/
def waiting : CPhase → Bool
  | .recv1 (_ + 1) => true
  | .recv2 (_ + 1) => true
  | _ => false

/-- communication.hpp:126-134: `MPI_Probe` and `MPI_Get_count` of `CommRecv` with `MPI_ANY_SOURCE`; the probe may see any message at the head
of a queue. -/
def commProbe (i : Nat) (s : CommS τ R K P O) : Option (CommS τ R K P O) :=
  if waiting s.ph = true ∧ s.probe = none then
    match s.outbox i with
    | [] => none
    | m :: _ => some { s with probe := some (replySize J m) }
  else none

/-- main.cpp:743 and 789: what the producer does with a reply. -/
def commStore (s : CommS τ R K P O) : CPhase → CReply τ R → CommS τ R K P O
  | .recv1 (r + 1), .done1 t x =>
    { s with
      ph := .recv1 r
      grid := Function.update s.grid t (some x)
      order := s.order ++ [t] }
  | .recv2 (r + 1), .done2 _ => { s with ph := .recv2 r }
  | _, _ => { s with ok := false }

/-- communication.hpp:139-141: `MPI_Recv` of `CommRecv`, again with `MPI_ANY_SOURCE`, into a buffer of the size probed. -/
def commRecv (j : Nat) (s : CommS τ R K P O) : Option (CommS τ R K P O) :=
  match s.probe with
  | none => none
  | some sz =>
    match s.outbox j with
    | [] => none
    | m :: rest =>
      if sz < replySize J m then some { s with ok := false }
      else some (commStore { s with probe := none, outbox := Function.update s.outbox j rest } s.ph m)

/-- One event; `none`: it cannot happen now. -/
def commStep (s : CommS τ R K P O) (e : CEv) : Option (CommS τ R K P O) :=
  if s.ok = false then none
  else
    match e with
    | .prod => commProd J W js s
    | .work i => commWork J W i s
    | .probe i => commProbe J i s
    | .recv j => commRecv J j s

/-- The state after a sequence of events, each of which could happen when it did. -/
def commRun : List CEv → CommS τ R K P O → Option (CommS τ R K P O)
  | [], s => some s
  | e :: es, s =>
    match commStep J W js s e with
    | none => none
    | some s' => commRun es s'

end

end RichDEM
