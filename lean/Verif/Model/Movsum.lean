import Verif.Base.Res
import Mathlib.Algebra.Ring.Basic
import Mathlib.Algebra.Ring.Int.Defs
import Mathlib.Algebra.BigOperators.Group.List.Basic

/-!
# Moving sums (include/dectnrp/phy/rx/sync/movsum.hpp:30-105, src/phy/rx/sync/movsum_uw.cpp:30-121)

Simplification: samples are elements of an arbitrary commutative ring (`float` and `std::complex<float>` without rounding).
The weights are integers; the code holds them as `float` and compares them with 1 and -1 exactly. The two calls of
`volk_32fc_accumulator_s32fc` (a sum of contiguous elements) are sums over index ranges. -/

namespace Verif.Phy.Movsum

variable {R : Type} [CommRing R]

/-- movsum.hpp:91-95: shift register (`length` elements), position of the next element to be overwritten, sum -/
structure Movsum (R : Type) where
  length : Nat
  reg : List R
  ptr : Nat
  sum : R

/-- movsum.hpp:37-49: constructor, `reset` -/
def make (length : Nat) : Movsum R := ⟨length, List.replicate length 0, 0, 0⟩

def reset (m : Movsum R) : Movsum R := { m with reg := List.replicate m.length 0, ptr := 0, sum := 0 }

/-- movsum.hpp:97-100; with `length = 0` the remainder is undefined, see `popPush` -/
def frontIdx (m : Movsum R) (nBackward : Nat) : Nat :=
  if nBackward % m.length > m.ptr then m.length - (nBackward % m.length - m.ptr) else m.ptr - nBackward % m.length

/-- movsum.hpp:102-104 -/
def backIdx (m : Movsum R) (nForward : Nat) : Nat := (m.ptr + 1 + nForward) % m.length

/-- movsum.hpp:52-65; `shiftreg` has no bounds check, the indices are below `length` -/
def sumFront (m : Movsum R) (n : Nat) : R := ((List.range n).map fun i => m.reg.getD (frontIdx m i) 0).sum

def sumBack (m : Movsum R) (n : Nat) : R := ((List.range n).map fun i => m.reg.getD (backIdx m i) 0).sum

/-- movsum.hpp:67-73 -/
def resum (m : Movsum R) : Movsum R := { m with sum := m.reg.sum }

/-- movsum.hpp:78-84; access and remainder are undefined when the length is zero -/
def popPush (m : Movsum R) (v : R) : Res (Movsum R) :=
  if m.ptr < m.length then
    .ok { m with
      sum := m.sum - m.reg.getD m.ptr 0 + v
      reg := m.reg.set m.ptr v
      ptr := (m.ptr + 1) % m.length }
  else .ub

/-- Writing the register through `get_front` (movsum.hpp:87), as autocorrelator_peak.cpp:238-277 does, then `reset_ptr` -/
def load (m : Movsum R) (v : List R) : Movsum R := { m with reg := v, ptr := 0 }

/-- movsum_uw.hpp:57-69 -/
structure MovsumUw (R : Type) where
  base : Movsum R
  uw : List Int
  nRepelem : Nat
  push : Int
  pop : Int
  posNeg : List Nat
  negPos : List Nat

/-- movsum_uw.cpp:89-121 -/
def changes (uw : List Int) (nRepelem : Nat) (posNeg : Bool) : Res (List Nat) := do
  let second : Int := if posNeg then 1 else -1
  let first : Int := -second
  let nElem := uw.length * nRepelem
  let ret := (List.range' 1 (uw.length - 1)).filterMap fun i =>
    if uw.getD (i - 1) 0 = first ∧ uw.getD i 0 = second then some (nElem - i * nRepelem) else none
  Res.assert ! (uw.all (fun x => x = uw.headD 0) && decide (0 < ret.length))
  pure ret

/-- movsum_uw.cpp:30-41; front and back of an empty vector are undefined. The length is a `uint32_t`, the first assertion
compares it with the product in `size_t`. -/
def makeUw (uw : List Int) (nRepelem : Nat) : Res (MovsumUw R) := do
  if uw = [] then .ub
  else do
    let a ← changes uw nRepelem true
    let b ← changes uw nRepelem false
    Res.assert (decide (uw.length * nRepelem < 4294967296))
    Res.assert (decide (uw.getLastD 0 = 1))
    Res.assert (decide ((uw.headD 0).natAbs = 1))
    pure ⟨make (uw.length * nRepelem), uw, nRepelem, uw.getLastD 0, uw.headD 0, a, b⟩

/-- Sum of `n` contiguous elements of the register -/
def accumulate (reg : List R) (start n : Nat) : R := ((List.range n).map fun j => reg.getD (start + j) 0).sum

/-- movsum_uw.cpp:48-66: partial sum of one unit weight -/
def partialSum (m : MovsumUw R) (i : Nat) : R :=
  let B := frontIdx m.base (m.base.length - i * m.nRepelem)
  if B + m.nRepelem ≤ m.base.length then accumulate m.base.reg B m.nRepelem
  else accumulate m.base.reg B (m.base.length - B) + accumulate m.base.reg 0 (m.nRepelem - (m.base.length - B))

/-- movsum_uw.cpp:43-70 -/
def resumUw (m : MovsumUw R) : MovsumUw R :=
  { m with base := { m.base with
      sum := (List.range m.uw.length).foldl (fun s i => s + (m.uw.getD i 0 : R) * partialSum m i) 0 } }

/-- movsum_uw.cpp:72-87 -/
def popPushUw (m : MovsumUw R) (v : R) : Res (MovsumUw R) :=
  if m.base.ptr < m.base.length then
    let s1 := m.base.sum - (m.pop : R) * m.base.reg.getD m.base.ptr 0
    let reg := m.base.reg.set m.base.ptr ((m.push : R) * v)
    let s2 := s1 + reg.getD m.base.ptr 0
    let s3 := m.posNeg.foldl (fun s n => s - 2 * reg.getD (frontIdx m.base n) 0) s2
    let s4 := m.negPos.foldl (fun s n => s + 2 * reg.getD (frontIdx m.base n) 0) s3
    .ok { m with base := { m.base with reg := reg, ptr := (m.base.ptr + 1) % m.base.length, sum := s4 } }
  else .ub

/-- Calls that change a moving sum: a pushed sample, or the sum computed anew -/
inductive Call (R : Type) where
  | push (v : R)
  | resum

def callUw (m : MovsumUw R) : Call R → Res (MovsumUw R)
  | .push v => popPushUw m v
  | .resum => .ok (resumUw m)

def runUw (m : MovsumUw R) : List (Call R) → Res (MovsumUw R)
  | [] => .ok m
  | c :: cs => do runUw (← callUw m c) cs

def call (m : Movsum R) : Call R → Res (Movsum R)
  | .push v => popPush m v
  | .resum => .ok (resum m)

def run (m : Movsum R) : List (Call R) → Res (Movsum R)
  | [] => .ok m
  | c :: cs => do run (← call m c) cs

end Verif.Phy.Movsum
