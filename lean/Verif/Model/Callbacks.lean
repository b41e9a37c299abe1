import Verif.Base.Res

/-!
# Periodic callbacks (inc/common/adt/callbacks.hpp:37-182)

`int64_t` times are integers; an addition that leaves the range of `int64_t` is `ub`. A callback is the
function it computes on its two reference arguments `next_64` and `period_64`; what else it does is
not part of the model, so the calls made are recorded in a log. `is_in_callback` (lines 51, 72, 78, ...)
only forbids a callback to call the object itself, which the model excludes. `rm_callback` (lines
71-75) does not compile when instantiated and is not modelled.
-/

namespace Verif.Adt

/-- `int64_t` addition -/
def add64 (a b : Int) : Res Int := if -2 ^ 63 ≤ a + b ∧ a + b < 2 ^ 63 then .ok (a + b) else .ub

/-- Largest `int64_t` -/
def int64Max : Int := 2 ^ 63 - 1

/-- `cb(now_64, idx, next_64, period_64)`: the new values of the last two. -/
abbrev Callback := Int → Nat → Int → Int → Int × Int

/-- callbacks.hpp:158-162 -/
structure CbEntry where
  cb : Option Callback
  next : Int
  period : Int

/-- `limits::max_callbacks` minus one: the last index. -/
def cbLast : Nat := 3

/-- `callbacks` and `it_next`, callbacks.hpp:164-167 -/
structure Callbacks where
  ents : Nat → CbEntry
  it : Option Nat

namespace Callbacks

def init : Callbacks := ⟨fun _ => ⟨none, int64Max, 0⟩, none⟩

/-- `std::min_element` over the indices `0..n`: the first smallest one. -/
def minIdx (f : Nat → Int) : Nat → Nat
  | 0 => 0
  | n + 1 => if f (n + 1) < f (minIdx f n) then n + 1 else minIdx f n

/-- `set_it_next`, callbacks.hpp:170-175 -/
def setItNext (s : Callbacks) : Callbacks := { s with it := some (minIdx (fun i => (s.ents i).next) cbLast) }

/-- `std::find_if` for an empty slot, callbacks.hpp:53-55 -/
def findEmpty (s : Callbacks) : Option Nat := (List.range (cbLast + 1)).find? fun i => (s.ents i).cb.isNone

/-- `add_callback`, callbacks.hpp:48-68 -/
def add (s : Callbacks) (cb : Callback) (next period : Int) : Callbacks × Option Nat :=
  match s.findEmpty with
  | none => (s, none)
  | some i => ({ s with ents := Function.update s.ents i ⟨some cb, next, period⟩ }.setItNext, some i)

/-- Body of the loop in `run`, callbacks.hpp:105-120, for the entry `i` that `it_next` points to. -/
def runBody (now : Int) (i : Nat) (s : Callbacks) : Res Callbacks := do
  let e := s.ents i
  let due ← add64 e.next e.period
  Res.assert (decide (now < due))
  match e.cb with
  | none => .abort
  | some f =>
    let x := f now i e.next e.period
    Res.assert (decide (0 < x.1))
    Res.assert (decide (0 < x.2))
    let next ← add64 x.1 x.2
    Res.assert (decide (now < next))
    pure { s with ents := Function.update s.ents i { e with next := next, period := x.2 } }.setItNext

/-- `run`, callbacks.hpp:99-124: at most `fuel` iterations (more are `ub`; the theorems show that they
do not occur). The log collects the index and `next_64` of each call. -/
def runLoop (now : Int) : Nat → Callbacks → List (Nat × Int) → Res (Callbacks × List (Nat × Int))
  | 0, _, _ => .ub
  | k + 1, s, log =>
    match s.it with
    | none => .ub
    | some i =>
      if (s.ents i).next ≤ now then do
        let s' ← runBody now i s
        runLoop now k s' (log ++ [(i, (s.ents i).next)])
      else .ok (s, log)

/-- callbacks.hpp:99-124. An iteration makes its entry not due, so there are at most four. -/
def run (s : Callbacks) (now : Int) : Res (Callbacks × List (Nat × Int)) := runLoop now (cbLast + 2) s []

/-- Successive calls of `run`, with the calls made in each of them. -/
def runs (s : Callbacks) : List Int → Res (Callbacks × List (List (Nat × Int)))
  | [] => .ok (s, [])
  | t :: ts => do
    let (s, l) ← s.run t
    let (s, ls) ← s.runs ts
    pure (s, l :: ls)

end Callbacks
end Verif.Adt
