import Verif.Model.ClusterBeacon
import Verif.Base.ParseWP

/-!
# Resource allocation IE
(src/sections_part4/mac_messages_and_ie/resource_allocation_ie.cpp and header)

`mu` is the member inherited from `mu_depending_t`.
-/

namespace Verif.Mac
open BitByte

/-- `std::optional::value()`: throws `std::bad_optional_access` if there is no value. Nothing
catches it, the program ends. -/
def optValue : Option α → Res α
  | none => .abort
  | some a => .ok a

@[simp] theorem optValue_some (a : α) : optValue (some a) = .ok a := rfl
@[simp] theorem optValue_none : optValue (none : Option α) = .abort := rfl

/-- `allocation_t`, resource_allocation_ie.hpp:57-61. `slots` is `length_type`: false for subslots,
true for slots. -/
structure RaAlloc where
  start : Nat
  slots : Bool
  length : Nat
  deriving DecidableEq, Repr

/-- `repeat_info_t`, resource_allocation_ie.hpp:63-68. `subslots` is `repeat_type`: false for frames,
true for subslots. -/
structure RaRepeat where
  subslots : Bool
  allow : Bool
  repetition : Nat
  validity : Nat
  deriving DecidableEq, Repr

/-- The members of `resource_allocation_ie_t`, resource_allocation_ie.hpp:72-79.
`dect_scheduled_resource_failure_t` has lower 1 and upper 12. -/
structure ResourceAllocation where
  dl : Option RaAlloc
  ul : Option RaAlloc
  additional : Bool
  shortId : Option Nat
  rep : Option RaRepeat
  sfn : Option Nat
  channel : Option Nat
  failure : Option Nat
  deriving DecidableEq, Repr

/-- The lambda `is_allocation_valid`, resource_allocation_ie.cpp:87-90. -/
def RaAlloc.isValid (mu : Nat) (a : RaAlloc) : Bool :=
  decide (a.start ≤ if mu ≤ 4 then 0xff else 0xffff) && decide (a.length ≤ bitmaskLsb 7)

/-- The lambda `pack_resource_allocation`, resource_allocation_ie.cpp:214-221. -/
def RaAlloc.pack (mu : Nat) (a : RaAlloc) : Res (List Nat) := do
  let s ← l2bLower 4 a.start (foSize mu)
  let b := u8 (a.slots.toNat <<< 7)
  let b := u8 (b ||| a.length)
  pure (s ++ [b])

/-- The lambda `unpack_resource_allocation`, resource_allocation_ie.cpp:277-284. -/
def RaAlloc.parse (mu : Nat) : P RaAlloc := do
  let s ← P.be 4 (foSize mu)
  let b ← P.byte
  pure ⟨s, b >>> 7 != 0, b &&& bitmaskLsb 7⟩

/-- The Repeat field, resource_allocation_ie.cpp:183-203: `repeat_info.value()` is evaluated before
the test for a value. -/
def raRepeatCode (r : Option RaRepeat) : Res Nat := do
  let v ← optValue r
  if r.isNone then pure 0
  else if !v.subslots then pure (if v.allow then 3 else 1)
  else pure (if v.allow then 4 else 2)

namespace ResourceAllocation

/-- resource_allocation_ie.cpp:44-78 -/
def zero : ResourceAllocation := ⟨none, none, false, none, none, none, none, none⟩

/-- `is_valid`, resource_allocation_ie.cpp:80-133, in the order of the tests. -/
def isValid (mu : Nat) (m : ResourceAllocation) : Res Bool :=
  if m.dl.isNone && m.ul.isNone then pure true
  else do
    let a ← optValue m.dl
    if m.dl.isSome && !a.isValid mu then pure false
    else do
      let b ← optValue m.ul
      if m.ul.isSome && !b.isValid mu then pure false
      else if !P.all m.shortId (fun x => !decide (0xffff < x)) then pure false
      else do
        let r ← optValue m.rep
        if m.rep.isSome && (decide (0xff < r.repetition) || r.repetition == 0 ||
            decide (0xff < r.validity)) then pure false
        else pure (P.all m.sfn (fun x => !decide (0xff < x)) && P.all m.channel Channel.inRange &&
          P.all m.failure (enumValidL 1 12))

/-- `get_packed_size`, resource_allocation_ie.cpp:135-158 -/
def packedSize (mu : Nat) (m : ResourceAllocation) : Res Nat := do
  let v ← m.isValid mu
  Res.assert v
  if m.dl.isNone && m.ul.isNone then pure 1
  else
    pure ((if mu ≤ 4 then 4 else 5) +
      (if m.dl.isSome && m.ul.isSome then (if mu ≤ 4 then 2 else 3) else 0) +
      m.shortId.isSome.toNat * 2 + m.rep.isSome.toNat * 2 + m.sfn.isSome.toNat +
      m.channel.isSome.toNat * 2 + m.failure.isSome.toNat)

/-- `get_packed_size_by_peeking`, resource_allocation_ie.cpp:395-452. `none` is the error
NONRESERVED_FIELD_SET_TO_RESERVED. -/
def peek (mu : Nat) (p : List Nat) : Res (Option Nat) := do
  let b0 ← rd p 0
  if b0 >>> 6 = 0 then pure (some 1)
  else do
    let n := if b0 >>> 6 = 1 ∨ b0 >>> 6 = 2 then (if mu ≤ 4 then 4 else 5)
      else (if mu ≤ 4 then 6 else 8)
    let n := n + (if (b0 >>> 4) &&& 1 != 0 then 2 else 0)
    let k := (b0 >>> 1) &&& 7
    if 4 < k then pure none
    else do
      let n := n + (if k = 0 then 0 else 2)
      let n := n + (b0 &&& 1)
      let b1 ← rd p 1
      pure (some (n + (b1 >>> 7) * 2 + ((b1 >>> 6) &&& 1)))

/-- `pack`, resource_allocation_ie.cpp:160-270. The bytes are listed in the order of their
offsets. -/
def pack (mu : Nat) (m : ResourceAllocation) : Res (List Nat) := do
  let v ← m.isValid mu
  Res.assert v
  let p0 := u8 (m.ul.isSome.toNat <<< 7)
  let p0 := u8 (p0 ||| m.dl.isSome.toNat <<< 6)
  if p0 = 0 then do
    let n ← peek mu [p0]
    Res.assert n.isSome
    Res.assert (n = some 1)
    pure [p0]
  else do
    let p0 := u8 (p0 ||| m.additional.toNat <<< 5)
    let p0 := u8 (p0 ||| m.shortId.isSome.toNat <<< 4)
    let k ← raRepeatCode m.rep
    let p0 := u8 (p0 ||| k <<< 1)
    let p0 := u8 (p0 ||| m.sfn.isSome.toNat)
    let p1 := u8 (m.channel.isSome.toNat <<< 7)
    let p1 := u8 (p1 ||| m.failure.isSome.toNat <<< 6)
    let q1 ← P.wrM m.dl (RaAlloc.pack mu)
    let q2 ← P.wrM m.ul (RaAlloc.pack mu)
    let q3 ← P.wrM m.shortId fun x => l2bLower 4 x 2
    let q4 := P.wr m.rep fun r => [u8 r.repetition, u8 r.validity]
    let q5 := P.wr m.sfn fun x => [u8 x]
    let q6 := P.wr m.channel wrChannel
    let q7 := P.wr m.failure fun x => [u8 x]
    let l := [p0, p1] ++ (q1 ++ (q2 ++ (q3 ++ (q4 ++ (q5 ++ (q6 ++ q7))))))
    let n ← peek mu l
    Res.assert n.isSome
    Res.assert (n = some l.length)
    pure l

/-- Reading Repetition and Validity after Repeat code `k`, resource_allocation_ie.cpp:321-361. -/
def parseRepeat (k : Nat) : P (Option RaRepeat) :=
  P.opt (k != 0) do
    let a ← P.byte
    let b ← P.byte
    pure ⟨k == 2 || k == 4, k == 3 || k == 4, a, b⟩

/-- The reading part of `unpack`, resource_allocation_ie.cpp:272-388, with the value returned early,
if any. Octet 1 is read before the allocations instead of after them. -/
def parse (mu : Nat) : P (ResourceAllocation × Option Bool) := do
  let b0 ← P.byte
  if b0 >>> 6 = 0 then pure (zero, some true)
  else do
    let b1 ← P.byte
    let dl ← P.opt (b0 >>> 6 == 1 || b0 >>> 6 == 3) (RaAlloc.parse mu)
    let ul ← P.opt (b0 >>> 6 == 2 || b0 >>> 6 == 3) (RaAlloc.parse mu)
    let shortId ← P.opt ((b0 >>> 4) &&& 1 != 0) (P.be 4 2)
    let k := (b0 >>> 1) &&& 7
    let m : ResourceAllocation := { zero with
      dl := dl, ul := ul, additional := (b0 >>> 5) &&& 1 != 0, shortId := shortId }
    if 4 < k then pure (m, some false)
    else do
      let rep ← parseRepeat k
      let sfn ← P.opt (b0 &&& 1 != 0) P.byte
      let ch ← P.opt (b1 >>> 7 != 0) (do
        let x ← P.be 4 2
        pure (x &&& bitmaskLsb 13))
      let f ← P.opt ((b1 >>> 6) &&& 1 != 0) (do
        let x ← P.byte
        pure (enumFromL 1 12 (x &&& 0xf)))
      pure ({ m with rep := rep, sfn := sfn, channel := ch, failure := f }, none)

/-- `unpack`, resource_allocation_ie.cpp:272-393. The channel is read as `p[0] << 8 | p[1]` in lines
375-376, here as one two-byte value. -/
def unpack (mu : Nat) (p : List Nat) : Res (ResourceAllocation × Bool) := do
  let x ← (parse mu >>= fun m => P.offset >>= fun o => pure (m, o)).eval p
  match x.1.2 with
  | some b => pure (x.1.1, b)
  | none => do
    let n ← x.1.1.packedSize mu
    Res.assert (n = x.2)
    let v ← x.1.1.isValid mu
    pure (x.1.1, v)

/-- `allocation_pt_t::translate`, src/mac/allocation/allocation_pt.cpp:198-231, with `dl` and `ul` for
`direction_t`. Neither member of `allocation_pt_t` is used: the resources named are constants. -/
def translate (m : ResourceAllocation) (dl ul : Bool) (srdid : Nat) : ResourceAllocation where
  dl := if dl then some ⟨1, false, 2⟩ else m.dl
  ul := if ul then some ⟨1, false, 2⟩ else m.ul
  additional := false
  shortId := some srdid
  rep := some ⟨false, false, 1, 2⟩
  sfn := none
  channel := none
  failure := none

end ResourceAllocation
end Verif.Mac
