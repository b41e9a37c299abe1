import Verif.Base.Res

/-!
# Job queues (src/phy/pool/job_queue_naive.cpp, src/phy/pool/job_queue_mc.cpp)

Any number of producers call `enqueue_nto`, any number of consumers `wait_for_new_job_to`, and
`set_permeable`/`set_impermeable` may be called at any time. `enqueue_nto` reads the atomic `permeable`
before it takes the mutex, so a producer that has seen `true` may enqueue later; everything done with the
mutex held is one step (Base/Locked.lean). Waiting on the condition variable and its timeout do not
change the queue. `PHY_POOL_JOB_QUEUE_JOB_SLOT_UNAVAILABILITY_FATAL_OR_DISCARD` is defined
(inc/phy/pool/job_queue_base.hpp:42): a full queue is fatal. The statistics (`stats`) are not modelled.
Job contents are of any type `α`.
-/

namespace Verif.Phy

/-- `job_t`, inc/phy/pool/job.hpp:31-60 -/
structure Job (α : Type) where
  content : α
  fifo : Nat
deriving DecidableEq

/-- `job_queue_naive_t`, inc/phy/pool/job_queue_naive.hpp:64-86, job_queue_base.hpp:74-76 -/
structure NaiveQ (α : Type) where
  cap : Nat
  enq : Nat
  deq : Nat
  cnt : Int
  fifoCnt : Nat
  slots : Nat → Option (Job α)

namespace NaiveQ
variable {α : Type}

/-- job_queue_naive.cpp:32-43; a slot holds a default constructed job first (`none`) -/
def init (cap : Nat) : NaiveQ α := ⟨cap, 0, 0, 0, 0, fun _ => none⟩

/-- `get_free`, job_queue_naive.cpp:197-205 -/
def free (q : NaiveQ α) : Nat := if q.enq < q.deq then q.deq - q.enq - 1 else q.deq + q.cap - q.enq - 1

/-- `get_used`, job_queue_naive.cpp:207-213 -/
def used (q : NaiveQ α) : Nat := if q.deq ≤ q.enq then q.enq - q.deq else q.enq + q.cap - q.deq

/-- `enqueue_under_lock`, job_queue_naive.cpp:157-178 -/
def enqueue (q : NaiveQ α) (c : α) : Res (NaiveQ α) :=
  if q.free = 0 then .abort
  else .ok { q with
    fifoCnt := q.fifoCnt + 1
    slots := Function.update q.slots q.enq (some ⟨c, q.fifoCnt⟩)
    cnt := q.cnt + 1
    enq := (q.enq + 1) % q.cap }

/-- `dequeue_under_lock`, job_queue_naive.cpp:180-195: the queue and the job, if any; `ret` is false if
there is none. -/
def dequeue (q : NaiveQ α) : NaiveQ α × Bool × Option (Job α) :=
  if q.used = 0 then (q, false, none)
  else ({ q with cnt := q.cnt - 1, deq := (q.deq + 1) % q.cap }, true, q.slots q.deq)

end NaiveQ

/-- The queue, the flag, the producers past the check of the flag (with their jobs), and the history:
contents enqueued and jobs delivered. -/
structure NaiveSys (α : Type) where
  q : NaiveQ α
  permeable : Bool
  pending : List α
  accepted : List α
  delivered : List (Option (Job α))

/-- One step of some thread. -/
inductive NaiveStep {α : Type} : NaiveSys α → NaiveSys α → Prop
  /-- job_queue_base.hpp:65-66 -/
  | setPermeable (s) (b : Bool) : NaiveStep s { s with permeable := b }
  /-- `enqueue_nto` with the queue impermeable, job_queue_naive.cpp:46-48: nothing happens -/
  | refuse (s) (_ : α) : s.permeable = false → NaiveStep s s
  /-- `enqueue_nto` with the queue permeable, job_queue_naive.cpp:46 -/
  | check (s) (c : α) : s.permeable = true → NaiveStep s { s with pending := c :: s.pending }
  /-- `enqueue_nto` with the mutex, job_queue_naive.cpp:52-54 -/
  | enqueue (s) (a b : List α) (c : α) (q') : s.pending = a ++ c :: b → s.q.enqueue c = .ok q' →
      NaiveStep s { s with q := q', pending := a ++ b, accepted := s.accepted ++ [c] }
  /-- `wait_for_new_job_to` with the mutex, job_queue_naive.cpp:107-123: the counter is not zero and
  `dequeue_under_lock` succeeds -/
  | dequeue (s q' j) : s.q.cnt ≠ 0 → s.q.dequeue = (q', true, j) →
      NaiveStep s { s with q := q', delivered := s.delivered ++ [j] }

inductive NaiveReach {α : Type} (cap : Nat) : NaiveSys α → Prop
  | init : NaiveReach cap ⟨.init cap, false, [], [], []⟩
  | step {a b} : NaiveReach cap a → NaiveStep a b → NaiveReach cap b

/-- `job_queue_mc_t`, inc/phy/pool/job_queue_mc.hpp:80-82. `moodycamel::BlockingConcurrentQueue` with one
producer token is trusted to be a FIFO queue that may refuse a `try_enqueue`. -/
structure McSys (α : Type) where
  q : List (Job α)
  fifoCnt : Nat
  permeable : Bool
  pending : List α
  accepted : List α
  delivered : List (Job α)

/-- One step of some thread; a refused `try_enqueue` aborts (job_queue_mc.cpp:57-59) and is no step. -/
inductive McStep {α : Type} : McSys α → McSys α → Prop
  | setPermeable (s) (b : Bool) : McStep s { s with permeable := b }
  | refuse (s) (_ : α) : s.permeable = false → McStep s s
  | check (s) (c : α) : s.permeable = true → McStep s { s with pending := c :: s.pending }
  /-- `enqueue_nto` with the mutex, job_queue_mc.cpp:43-55 -/
  | enqueue (s) (a b : List α) (c : α) : s.pending = a ++ c :: b →
      McStep s { s with
        q := s.q ++ [⟨c, s.fifoCnt⟩], fifoCnt := s.fifoCnt + 1, pending := a ++ b, accepted := s.accepted ++ [c] }
  /-- `wait_dequeue_timed` returns a job, job_queue_mc.cpp:86-88 -/
  | dequeue (s j q') : s.q = j :: q' → McStep s { s with q := q', delivered := s.delivered ++ [j] }

inductive McReach {α : Type} : McSys α → Prop
  | init : McReach ⟨[], 0, false, [], [], []⟩
  | step {a b} : McReach a → McStep a b → McReach b

end Verif.Phy
