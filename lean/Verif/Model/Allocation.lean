import Verif.Base.Res
import Verif.Model.Duration

/-!
# Allocations of portable and fixed terminations

src/mac/allocation/{resource,allocation_pt,allocation_ft}.cpp and their headers.
Offsets, lengths and periods are of type `duration_t`; only their number of samples (`uint32_t`) is used and kept here.
Times are of type `int64_t`; leaving the range is undefined. -/

namespace Verif.Mac.Allocation

open Verif.Sp3.Duration (i64 multipleLeq)

/-- resource.hpp:42-43: number of samples of offset and length. -/
structure Resource where
  off : Nat
  len : Nat
  deriving DecidableEq, Repr

/-- resource.cpp:33 -/
def Resource.first (r : Resource) : Nat := r.off

/-- resource.cpp:35-37: arithmetic of `uint32_t`. -/
def Resource.last (r : Resource) : Nat := (r.off + r.len + 4294967295) % 4294967296

/-- resource.cpp:39-45 -/
def Resource.wellDefined (r : Resource) : Bool := decide (1 ≤ r.len) && decide (r.first ≤ r.last)

/-- Constructor, resource.cpp:27-31 -/
def Resource.make (off len : Nat) : Res Resource := do
  Res.assert (Resource.wellDefined ⟨off, len⟩)
  .ok ⟨off, len⟩

/-- resource.cpp:57-60 (`is_orthogonal_earlier`, evaluated after the assert of `is_orthogonal`, which is the same). -/
def Resource.orthEarlier (r o : Resource) : Bool := decide (o.last < r.first)

/-- resource.cpp:62-65 -/
def Resource.orthLater (r o : Resource) : Bool := decide (r.last < o.first)

/-- resource.cpp:67-70. The assert on `other` holds for each resource made by the constructor. -/
def Resource.orthogonal (r o : Resource) : Bool := r.orthEarlier o || r.orthLater o

/-- direction.hpp -/
inductive Dir where
  | ul | dl | both
  deriving DecidableEq

/-- allocation_pt_t, allocation_pt.hpp:76-90 and allocation.hpp:44 (the pointer to the table of durations is left out). -/
structure Alloc where
  period : Nat
  validBeacon : Nat
  validNow : Nat
  turnaround : Int
  beacon : Int
  ul : List Resource
  dl : List Resource
  deriving DecidableEq, Repr

/-- Constructor, allocation_pt.cpp:32-44; UNDEFINED_EARLY_64 is INT64_MIN/8. -/
def Alloc.make (period validBeacon validNow : Nat) (turnaround : Int) : Alloc :=
  ⟨period, validBeacon, validNow, turnaround, -1152921504606846976, [], []⟩

/-- `set_beacon_time_last_known`, allocation_pt.hpp:47-49 -/
def Alloc.setBeacon (a : Alloc) (t : Int) : Alloc := { a with beacon := t }

/-- allocation_pt.cpp:88-90 -/
def Alloc.within (a : Alloc) (r : Resource) : Bool := decide (r.last < a.period)

/-- allocation_pt.cpp:92-95 and 97-117 -/
def Alloc.orthogonal (a : Alloc) (d : Dir) (r : Resource) : Res Bool :=
  Dir.casesOn d (.ok (a.ul.all fun e => e.orthogonal r)) (.ok (a.dl.all fun e => e.orthogonal r)) .abort

/-- allocation_pt.cpp:55-59 -/
def Alloc.pushUl (a : Alloc) (r : Resource) : Res Alloc := do
  Res.assert (decide ((a.ul ++ [r]).length ≤ 8))
  .ok { a with ul := a.ul ++ [r] }

/-- allocation_pt.cpp:62-66 -/
def Alloc.pushDl (a : Alloc) (r : Resource) : Res Alloc := do
  Res.assert (decide ((a.dl ++ [r]).length ≤ 8))
  .ok { a with dl := a.dl ++ [r] }

/-- allocation_pt.cpp:53-72 -/
def Alloc.push (a : Alloc) (d : Dir) (r : Resource) : Res Alloc :=
  Dir.casesOn d (a.pushUl r) (a.pushDl r) .abort

/-- allocation_pt.cpp:46-73 -/
def Alloc.add (a : Alloc) (d : Dir) (off len : Nat) : Res Alloc := do
  let r ← Resource.make off len
  Res.assert (a.within r)
  let o ← a.orthogonal d r
  Res.assert o
  a.push d r

/-- allocation_pt.cpp:75-86 from iteration `i` on: `duration_lut->get_duration` (duration_lut.hpp) makes a duration of the
sample rate; the multiple is of type `uint32_t`. -/
def Alloc.addRegular (rate : Nat) (d : Dir) (offset length stride : Nat) (k : Sp3.Duration.Kind) :
    Nat → Nat → Alloc → Res Alloc
  | 0, _, a => .ok a
  | n + 1, i, a => do
    let o ← Sp3.Duration.samples rate k ((offset + stride * i) % 4294967296)
    let l ← Sp3.Duration.samples rate k length
    let a' ← a.add d o l
    Alloc.addRegular rate d offset length stride k n (i + 1) a'

/-- tx_opportunity.hpp: the default is -1 for both. -/
structure Opportunity where
  time : Int := -1
  n : Int := -1
  deriving DecidableEq, Repr

/-- The state of the loop allocation_pt.cpp:284-312: base time `A` and position in the vector. -/
structure Search where
  base : Int
  idx : Nat

/-- allocation_pt.cpp:308-313 -/
def Search.next (a : Alloc) (rvec : List Resource) (s : Search) : Res Search :=
  if s.idx + 1 = rvec.length then do
    let b ← i64 (s.base + a.period)
    .ok ⟨b, 0⟩
  else .ok ⟨s.base, s.idx + 1⟩

/-- The loop allocation_pt.cpp:288-314. The C++ loop has no bound; here each pass uses up one unit of fuel, and `none`
means that the fuel ran out. An index outside the vector throws. -/
def search (a : Alloc) (rvec : List Resource) (earliest latest : Int) : Nat → Search → Option (Res Opportunity)
  | 0, _ => none
  | fuel + 1, s =>
    if h : s.idx < rvec.length then
      Res.casesOn (i64 (s.base + rvec[s.idx].off))
        (fun D =>
          if earliest ≤ D ∧ D < latest then some (.ok ⟨D, rvec[s.idx].len⟩)
          else if latest ≤ D then some (.ok {})
          else Res.casesOn (Search.next a rvec s) (fun s' => search a rvec earliest latest fuel s')
            (some .abort) (some .ub))
        (some .abort) (some .ub)
    else some .abort

/-- allocation_pt.cpp:266-276 -/
def baseTime (a : Alloc) (earliest : Int) : Res Int :=
  if earliest > a.beacon then do
    let b ← i64 (earliest - a.beacon)
    let c ← multipleLeq b a.period
    let x ← i64 (a.beacon + c)
    Res.assert (decide (x ≤ earliest))
    .ok x
  else .ok a.beacon

/-- allocation_pt.cpp:233-321 with fuel for the loop. The two asserts after the loop repeat the condition of leaving it. -/
def generic (fuel : Nat) (a : Alloc) (earliest latest : Int) (rvec : List Resource) : Option (Res Opportunity) :=
  if rvec = [] then some (.ok {})
  else if earliest > latest then some (.ok {})
  else Res.casesOn (baseTime a earliest) (fun A => search a rvec earliest latest fuel ⟨A, 0⟩) (some .abort) (some .ub)

/-- allocation_pt.cpp:137-138 -/
def earliestLocal (a : Alloc) (now earliest : Int) : Res Int := do
  let x ← i64 (now + a.turnaround)
  .ok (max x earliest)

/-- allocation_pt.cpp:146-149 -/
def latestUl (a : Alloc) (now : Int) : Res Int := do
  Res.assert (decide (a.beacon ≤ now))
  let x ← i64 (a.beacon + a.validBeacon)
  let y ← i64 (now + a.validNow)
  .ok (min x y)

/-- allocation_pt.cpp:158-159 -/
def latestDl (a : Alloc) : Res Int := i64 (a.beacon + a.period)

/-- The window of a direction, allocation_pt.cpp:137-168 -/
def window (a : Alloc) (d : Dir) (now earliest : Int) : Res (Int × Int) := do
  let e ← earliestLocal a now earliest
  let l ← Dir.casesOn d (latestUl a now) (latestDl a) .abort
  .ok (e, l)

/-- The resources of a direction -/
def Alloc.vec (a : Alloc) (d : Dir) : List Resource := Dir.casesOn d a.ul a.dl []

/-- allocation_pt.cpp:134-173 with fuel for the loop. -/
def getTxOpportunity (fuel : Nat) (a : Alloc) (d : Dir) (now earliest : Int) : Option (Res Opportunity) :=
  Res.casesOn (window a d now earliest) (fun w => generic fuel a w.1 w.2 (a.vec d)) (some .abort) (some .ub)

/-- Loop allocation_pt.cpp:188-194; `std::abs` of the values at hand is defined since -2^63 is not among them. -/
def closestLoop (a : Alloc) (ref : Int) : List Resource → Int → Res Int
  | [], ret => .ok ret
  | e :: l, ret => do
    let s ← i64 (a.beacon + e.off)
    let d ← i64 (ref - s)
    closestLoop a ref l (if d.natAbs < ret.natAbs then d else ret)

/-- allocation_pt.cpp:175-197 -/
def ulTimeClosest (a : Alloc) (ref : Int) : Res Int :=
  if a.beacon = -1152921504606846976 then .ok (-1152921504606846976)
  else do
    let e ← i64 (a.beacon + a.period)
    Res.assert (decide (a.beacon < ref ∧ ref < e))
    closestLoop a ref a.ul (-1152921504606846976)

/-- allocation_ft_t, allocation_ft.hpp:62-74 and allocation.hpp:44 -/
structure Ft where
  period : Nat
  prepare : Nat
  transmitted : Int
  scheduled : Int
  cnt : Nat

/-- Constructor, allocation_ft.cpp:27-35 -/
def Ft.make (period prepare : Nat) : Ft := ⟨period, prepare, 9223372036854775807, 9223372036854775807, 0⟩

/-- allocation_ft.hpp:48-50 -/
def Ft.setScheduled (f : Ft) (t : Int) : Ft := { f with scheduled := t }

/-- allocation_ft.hpp:55-60; the counter is of type `uint64_t`. -/
def Ft.setNext (f : Ft) : Res Ft := do
  let s ← i64 (f.scheduled + f.period)
  .ok { f with transmitted := f.scheduled, scheduled := s, cnt := (f.cnt + 1) % 18446744073709551616 }

/-- allocation_ft.hpp:43-45 -/
def Ft.prepareTime (f : Ft) : Res Int := i64 (f.scheduled - f.prepare)

end Verif.Mac.Allocation
