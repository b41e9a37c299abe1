import Verif.Model.Callbacks

/-!
# Queue of irregular callback requests (src/phy/pool/irregular_queue.cpp)

`push` and `pop` hold the mutex for their whole duration (lines 40-62, 76-103), and each stores
`next_time_64` exactly once, so `get_next_time`, which reads the atomic without the mutex, sees the value
before or after a concurrent operation. Every operation is one step (Base/Locked.lean).
-/

namespace Verif.Phy
open Verif.Adt

/-- `irregular_report_t`, inc/phy/rx/sync/irregular_report.hpp:30-62 -/
structure Report where
  time : Int
  handle : Nat
  recognition : Int
deriving DecidableEq

/-- Default constructed report, irregular_report.hpp:38, 46-60 -/
def Report.none : Report := ⟨int64Max, 0, -2 ^ 63 / 8⟩

/-- `has_finite_time`, irregular_report.hpp:40-42 -/
def Report.finite (r : Report) : Bool := decide (r.time < int64Max)

/-- `limits::max_irregular_callback_pending` -/
def irrSlots : Nat := 8

/-- inc/phy/pool/irregular_queue.hpp:54-59 -/
structure IrrQueue where
  slots : List Report
  it : Option Nat
  next : Int

inductive IrrOp
  | push (r : Report)
  | pop
  | next

/-- What an operation returns. -/
inductive IrrRet
  | unit
  | report (r : Report)
  | time (t : Int)
deriving DecidableEq

namespace IrrQueue

def init : IrrQueue := ⟨List.replicate irrSlots .none, none, int64Max⟩

/-- Element `i` of the array. -/
def at' (q : IrrQueue) (i : Nat) : Report := q.slots.getD i .none

/-- `push`, irregular_queue.cpp:37-62 -/
def push (q : IrrQueue) (r : Report) : Res IrrQueue := do
  Res.assert r.finite
  match q.slots.findIdx? (fun e => !e.finite) with
  | .none => .abort
  | .some i =>
    let q := { q with slots := q.slots.set i r }
    if r.time < q.next then pure { q with it := some i, next := r.time } else pure q

/-- `pop`, irregular_queue.cpp:74-104 -/
def pop (q : IrrQueue) : Res (IrrQueue × Report) :=
  match q.it with
  | .none => .abort
  | .some i =>
    let ret := q.at' i
    let q := { q with slots := q.slots.set i .none }
    let j := Callbacks.minIdx (fun j => (q.at' j).time) (irrSlots - 1)
    if (q.at' j).finite then .ok ({ q with it := some j, next := (q.at' j).time }, ret)
    else .ok ({ q with it := none, next := int64Max }, ret)

/-- `get_next_time`, irregular_queue.cpp:64-72 -/
def getNext (q : IrrQueue) : Int := if q.next < int64Max then q.next else int64Max

def call (q : IrrQueue) : IrrOp → Res (IrrQueue × IrrRet)
  | .push r => do
    let q ← q.push r
    pure (q, .unit)
  | .pop => do
    let (q, r) ← q.pop
    pure (q, .report r)
  | .next => pure (q, .time q.getNext)

def run (q : IrrQueue) : List IrrOp → Res (IrrQueue × List IrrRet)
  | [] => .ok (q, [])
  | c :: cs => do
    let (q, r) ← q.call c
    let (q, rs) ← q.run cs
    pure (q, r :: rs)

end IrrQueue
end Verif.Phy
