import Verif.Model.ResourceAllocation

/-!
# Random access resource IE
(src/sections_part4/mac_messages_and_ie/random_access_resource_ie.cpp and header)

`mu` is the member inherited from `mu_depending_t`.
-/

namespace Verif.Mac
open BitByte

/-- `repeat_info_t`, random_access_resource_ie.hpp:66-70. `subslots` is `repeat_type`. -/
structure RachRepeat where
  subslots : Bool
  repetition : Nat
  validity : Nat
  deriving DecidableEq, Repr

/-- The members of `random_access_resource_ie_t`, random_access_resource_ie.hpp:74-84. Types with two
values are `Bool`; `cw_min_t` and `cw_max_t` have upper 8. -/
structure RandomAccess where
  rep : Option RachRepeat
  sfn : Option Nat
  channel : Option Nat
  channel2 : Option Nat
  alloc : RaAlloc
  maxSlots : Bool
  maxLen : Nat
  cwMin : Nat
  delay : Bool
  window : Nat
  cwMax : Nat
  deriving DecidableEq, Repr

namespace RandomAccess

/-- `is_valid`, random_access_resource_ie.cpp:66-102: `repeat_info.value()` is evaluated before the
test for a value. -/
def isValid (mu : Nat) (m : RandomAccess) : Res Bool := do
  let r ← optValue m.rep
  if m.rep.isSome && (decide (0xff < r.repetition) || r.repetition == 0 ||
      decide (0xff < r.validity)) then pure false
  else pure (P.all m.sfn (fun x => !decide (0xff < x)) && P.all m.channel Channel.inRange &&
    P.all m.channel2 Channel.inRange &&
    !(decide ((if mu ≤ 4 then 0xff else 0xffff) < m.alloc.start) ||
      decide (bitmaskLsb 7 < m.alloc.length)) &&
    !(decide (0xf < m.maxLen) || !enumValid 8 m.cwMin || decide (0xf < m.window) ||
      !enumValid 8 m.cwMax))

/-- `get_packed_size`, random_access_resource_ie.cpp:104-114 -/
def packedSize (mu : Nat) (m : RandomAccess) : Res Nat := do
  let v ← m.isValid mu
  Res.assert v
  pure ((if mu ≤ 4 then 5 else 6) + m.rep.isSome.toNat * 2 + m.sfn.isSome.toNat +
    m.channel.isSome.toNat * 2 + m.channel2.isSome.toNat * 2)

/-- `get_packed_size_by_peeking`, random_access_resource_ie.cpp:279-312. `none` is the error
NONRESERVED_FIELD_SET_TO_RESERVED. Lines 303 and 306 add the masked bit without shifting it. -/
def peek (mu : Nat) (p : List Nat) : Res (Option Nat) := do
  let b0 ← rd p 0
  let n := if mu ≤ 4 then 5 else 6
  let k := (b0 >>> 3) &&& 3
  if k = 3 then pure none
  else
    let n := n + (if k = 0 then 0 else 2)
    let n := n + (b0 &&& 4)
    let n := n + (b0 &&& 2) * 2
    pure (some (n + (b0 &&& 1) * 2))

/-- `pack`, random_access_resource_ie.cpp:116-189. The bytes are listed in the order of their
offsets. -/
def pack (mu : Nat) (m : RandomAccess) : Res (List Nat) := do
  let v ← m.isValid mu
  Res.assert v
  let p0 := u8 (m.sfn.isSome.toNat <<< 2)
  let p0 := u8 (p0 ||| m.channel.isSome.toNat <<< 1)
  let p0 := u8 (p0 ||| m.channel2.isSome.toNat)
  let s ← l2bLower 4 m.alloc.start (foSize mu)
  let a := u8 (m.alloc.slots.toNat <<< 7)
  let a := u8 (a ||| m.alloc.length)
  let b := u8 (m.maxSlots.toNat <<< 7)
  let b := u8 (b ||| m.maxLen <<< 3)
  let b := u8 (b ||| m.cwMin)
  let c := u8 (m.delay.toNat <<< 7)
  let c := u8 (c ||| m.window <<< 3)
  let c := u8 (c ||| m.cwMax)
  let r ← optValue m.rep
  let p0 := u8 (p0 ||| (if m.rep.isNone then 0 else if !r.subslots then 1 else 2) <<< 3)
  let q1 := P.wr m.rep fun r => [u8 r.repetition, u8 r.validity]
  let q2 := P.wr m.sfn fun x => [u8 x]
  let q3 := P.wr m.channel wrChannel
  let q4 := P.wr m.channel2 wrChannel
  let l := [p0] ++ (s ++ ([a, b, c] ++ (q1 ++ (q2 ++ (q3 ++ q4)))))
  let n ← peek mu l
  Res.assert n.isSome
  Res.assert (n = some l.length)
  pure l

/-- The reading part of `unpack`, random_access_resource_ie.cpp:191-272; `none` for a reserved Repeat
code, for which it returns false with the optional members cleared. -/
def parse (mu : Nat) : P (Option RandomAccess) := do
  let b0 ← P.byte
  let s ← P.be 4 (foSize mu)
  let a ← P.byte
  let b ← P.byte
  let c ← P.byte
  let k := (b0 >>> 3) &&& 3
  if k = 3 then pure none
  else do
    let rep ← P.opt (k != 0) (do
      let x ← P.byte
      let y ← P.byte
      pure (RachRepeat.mk (k == 2) x y))
    let sfn ← P.opt (b0 &&& 4 != 0) P.byte
    let ch ← P.opt (b0 &&& 2 != 0) rdChannel
    let ch2 ← P.opt (b0 &&& 1 != 0) rdChannel
    pure (some {
      rep := rep, sfn := sfn, channel := ch, channel2 := ch2
      alloc := ⟨s, a >>> 7 != 0, a &&& bitmaskLsb 7⟩
      maxSlots := b >>> 7 != 0, maxLen := (b >>> 3) &&& 0xf, cwMin := enumFrom 8 (b &&& 7)
      delay := c >>> 7 != 0, window := (c >>> 3) &&& 0xf, cwMax := enumFrom 8 (c &&& 7) })

/-- `unpack`, random_access_resource_ie.cpp:191-277; `none`: it returned false early. -/
def unpack (mu : Nat) (p : List Nat) : Res (Option (RandomAccess × Bool)) := do
  let x ← (parse mu >>= fun m => P.offset >>= fun o => pure (m, o)).eval p
  match x.1 with
  | none => pure none
  | some m => do
    let n ← m.packedSize mu
    Res.assert (n = x.2)
    let v ← m.isValid mu
    pure (some (m, v))

end RandomAccess
end Verif.Mac
