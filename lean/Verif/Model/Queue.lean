import Verif.Base.Locked

/-!
# Datagram queue of the application layer
(src/application/queue/queue.cpp, inc/application/queue/queue.hpp)

A ring of `n` slots (`queue_size.N_datagram`), each with a buffer of `maxByte` bytes. `uint32_t`
arithmetic does not wrap because `n ≤ 256` (queue_size.hpp:33-35); the model does not need the bound.
-/

namespace Verif.App

/-- Members of `queue_t`, queue.hpp:93-106. `mem i` is the buffer `datagram_vec[i]`. -/
structure Queue where
  n : Nat
  maxByte : Nat
  w : Nat
  r : Nat
  mem : Nat → List Nat
  lvl : Nat → Nat

namespace Queue

/-- queue.cpp:30-37; the buffers are uninitialised (`junk`). -/
def init (n maxByte : Nat) (junk : Nat → List Nat) : Queue := ⟨n, maxByte, 0, 0, junk, fun _ => 0⟩

/-- `get_free`, queue.cpp:171-178 -/
def free (q : Queue) : Nat := if q.r > q.w then q.r - q.w - 1 else q.r + q.n - q.w - 1

/-- `get_used`, queue.cpp:180-186 -/
def used (q : Queue) : Nat := if q.w ≥ q.r then q.w - q.r else q.w + q.n - q.r

/-- `std::memcpy(dst, src, n)` to the start of a buffer. -/
def copyInto (dst src : List Nat) : List Nat := src ++ dst.drop src.length

/-- `write_under_lock`, queue.cpp:139-153; `inp` are the `n` bytes to write. -/
def write (q : Queue) (inp : List Nat) : Res (Queue × Nat) :=
  if q.free = 0 then .ok (q, 0)
  else do
    Res.assert (decide (inp.length ≤ q.maxByte))
    let q := { q with mem := Function.update q.mem q.w (copyInto (q.mem q.w) inp) }
    let q := { q with lvl := Function.update q.lvl q.w inp.length }
    let q := { q with w := (q.w + 1) % q.n }
    pure (q, inp.length)

/-- `read_under_lock`, queue.cpp:155-169. The second component is the return value and the bytes
copied if `dst` is not null. -/
def read (q : Queue) : Queue × Nat × List Nat :=
  if q.used = 0 then (q, 0, [])
  else
    let n := q.lvl q.r
    let out := (q.mem q.r).take n
    ({ q with r := (q.r + 1) % q.n }, n, out)

/-- The loop of `get_queue_level_under_lock`, queue.cpp:131-134. -/
def levelsFrom (q : Queue) : Nat → Nat → List Nat
  | 0, _ => []
  | k + 1, i => q.lvl i :: levelsFrom q k ((i + 1) % q.n)

/-- `get_queue_level_under_lock`, queue.cpp:118-137: the filled part of `levels`. -/
def levels (q : Queue) (n : Nat) : Res (List Nat) := do
  Res.assert (decide (n ≤ 8))
  pure (q.levelsFrom (min n q.used) q.r)

/-- `clear`, queue.cpp:111-116 -/
def clear (q : Queue) : Queue := { q with w := 0, r := 0 }

end Queue

/-- Calls of the public functions. `busy` is a `_try` function that does not get the lock,
queue.cpp:55-58, 77-80, 99-102. -/
inductive QCall where
  | write (inp : List Nat)
  | read
  | drop
  | levels (n : Nat)
  | clear
  | busy
  deriving DecidableEq, Repr

/-- What a caller gets back: a number, the bytes copied, and the levels. -/
structure QRet where
  num : Nat
  bytes : List Nat
  levels : List Nat
  deriving DecidableEq, Repr

/-- One call, queue.cpp:45-116. -/
def Queue.call (q : Queue) : QCall → Res (Queue × QRet)
  | .write inp => do
    let (q, n) ← q.write inp
    pure (q, ⟨n, [], []⟩)
  | .read =>
    let (q, n, b) := q.read
    .ok (q, ⟨n, b, []⟩)
  | .drop =>
    let (q, n, _) := q.read
    .ok (q, ⟨n, [], []⟩)
  | .levels n => do
    let l ← q.levels n
    pure (q, ⟨0, [], l⟩)
  | .clear => .ok (q.clear, ⟨0, [], []⟩)
  | .busy => .ok (q, ⟨0, [], []⟩)

/-- A sequence of calls, with what the callers get back. -/
def Queue.run (q : Queue) : List QCall → Res (Queue × List QRet)
  | [] => .ok (q, [])
  | c :: cs => do
    let (q, r) ← q.call c
    let (q, rs) ← q.run cs
    pure (q, r :: rs)

/-! ## Statement by statement

The same functions as statements executed under the lock. The locals are the argument, the
variable `n`, whether the function has returned, and the return value. -/

/-- Locals of a call. -/
structure QLoc where
  arg : List Nat
  n : Nat
  returned : Bool
  ret : QRet

/-- Statement executed only if the function has not returned. -/
def Queue.stmt (f : Queue → QLoc → Res (Queue × QLoc)) : Locked.Micro Queue QLoc :=
  fun q l => if l.returned then .ok (q, l) else f q l

/-- Statements of `write_under_lock`, queue.cpp:140-152. -/
def Queue.writeStmts : List (Locked.Micro Queue QLoc) :=
  [stmt fun q l => .ok (q, if q.free = 0 then { l with returned := true, ret := ⟨0, [], []⟩ } else l),
   stmt fun q l => do Res.assert (decide (l.arg.length ≤ q.maxByte)); pure (q, l),
   stmt fun q l => .ok ({ q with mem := Function.update q.mem q.w (copyInto (q.mem q.w) l.arg) }, l),
   stmt fun q l => .ok ({ q with lvl := Function.update q.lvl q.w l.arg.length }, l),
   stmt fun q l => .ok ({ q with w := (q.w + 1) % q.n }, l),
   stmt fun q l => .ok (q, { l with returned := true, ret := ⟨l.arg.length, [], []⟩ })]

/-- Statements of `read_under_lock`, queue.cpp:156-168, with `dst` not null. -/
def Queue.readStmts (copy : Bool) : List (Locked.Micro Queue QLoc) :=
  [stmt fun q l => .ok (q, if q.used = 0 then { l with returned := true, ret := ⟨0, [], []⟩ } else l),
   stmt fun q l => .ok (q, { l with n := q.lvl q.r }),
   stmt fun q l => .ok (q, if copy then { l with ret := ⟨0, (q.mem q.r).take l.n, []⟩ } else
     { l with ret := ⟨0, [], []⟩ }),
   stmt fun q l => .ok ({ q with r := (q.r + 1) % q.n }, l),
   stmt fun q l => .ok (q, { l with returned := true, ret := { l.ret with num := l.n } })]

/-- Statements of `get_queue_level_under_lock`, queue.cpp:119-136; it does not write to the queue, so
the loop is one statement. -/
def Queue.levelStmts (n : Nat) : List (Locked.Micro Queue QLoc) :=
  [stmt fun q l => do
    let x ← q.levels n
    pure (q, { l with returned := true, ret := ⟨0, [], x⟩ })]

/-- Statements of `clear`, queue.cpp:113-114. -/
def Queue.clearStmts : List (Locked.Micro Queue QLoc) :=
  [stmt fun q l => .ok ({ q with w := 0 }, l),
   stmt fun q l => .ok ({ q with r := 0 }, l),
   stmt fun q l => .ok (q, { l with returned := true, ret := ⟨0, [], []⟩ })]

/-- The call as statements under the lock. -/
def Queue.stmts : QCall → Locked.Call Queue QLoc
  | .write inp => ⟨writeStmts, ⟨inp, 0, false, ⟨0, [], []⟩⟩⟩
  | .read => ⟨readStmts true, ⟨[], 0, false, ⟨0, [], []⟩⟩⟩
  | .drop => ⟨readStmts false, ⟨[], 0, false, ⟨0, [], []⟩⟩⟩
  | .levels n => ⟨levelStmts n, ⟨[], 0, false, ⟨0, [], []⟩⟩⟩
  | .clear => ⟨clearStmts, ⟨[], 0, false, ⟨0, [], []⟩⟩⟩
  | .busy => ⟨[], ⟨[], 0, true, ⟨0, [], []⟩⟩⟩

end Verif.App
