import Verif.Model.AssociationResponse
import Verif.Model.ResourceAllocation

/-!
# Reconfiguration request and response message
(src/sections_part4/mac_messages_and_ie/reconfiguration_request_message.cpp,
reconfiguration_response_message.cpp and headers)
-/

namespace Verif.Mac
open BitByte

/-- `std::set<flow_t>::insert`; `flow_t` is a flow ID and the bit `is_released`, compared by ID only,
reconfiguration_request_message.hpp:41-48. A set is the list of its elements in ascending order. -/
def flowInsert (x : Nat × Bool) : List (Nat × Bool) → List (Nat × Bool)
  | [] => [x]
  | y :: l =>
    if x.1 < y.1 then x :: y :: l else if x.1 = y.1 then y :: l else y :: flowInsert x l

/-- The members of `reconfiguration_request_message_t`, reconfiguration_request_message.hpp:52-56.
`radio_resource_change_t` has upper 4. -/
structure ReconfRequest where
  tx : Option HarqConfig
  rx : Option HarqConfig
  capability : Bool
  flows : List (Nat × Bool)
  change : Nat
  deriving DecidableEq, Repr

/-- The members of `reconfiguration_response_message_t`, reconfiguration_response_message.hpp:34-39. -/
structure ReconfResponse where
  tx : Option HarqConfig
  rx : Option HarqConfig
  capability : Bool
  accepted : Nat
  flows : List (Nat × Bool)
  change : Nat
  deriving DecidableEq, Repr

/-- The test of one HARQ configuration, reconfiguration_request_message.cpp:60-65 and 67-72,
reconfiguration_response_message.cpp:63-68 and 70-75: `value()` is evaluated before `has_value()`. -/
def harqTest (h : Option HarqConfig) : Res Bool := do
  let c ← optValue h
  pure (!(h.isSome && (decide (c.n > 7) || !enumValid 31 c.delay)))

/-- reconfiguration_request_message.cpp:129-133, reconfiguration_response_message.cpp:140-144 -/
def flowByte (f : Nat × Bool) : Nat :=
  let p := u8 (f.2.toNat <<< 7)
  u8 (p ||| f.1)

/-- The bytes written by `pack`, reconfiguration_request_message.cpp:99-134 with
`code = flows.size()`, reconfiguration_response_message.cpp:105-145 with `code` as computed there. -/
def reconfWritten (tx rx : Option HarqConfig) (capability : Bool) (code change : Nat)
    (flows : List (Nat × Bool)) : List Nat :=
  let p0 := u8 (tx.isSome.toNat <<< 7)
  let p0 := u8 (p0 ||| rx.isSome.toNat <<< 6)
  let p0 := u8 (p0 ||| capability.toNat <<< 5)
  let p0 := u8 (p0 ||| code <<< 2)
  let p0 := u8 (p0 ||| change)
  [p0] ++ (P.wr tx (fun h => [h.byte]) ++ (P.wr rx (fun h => [h.byte]) ++
    flows.flatMap (fun f => [flowByte f])))

/-- Reading one HARQ configuration, reconfiguration_request_message.cpp:153-159. -/
def rdHarq : P HarqConfig := do
  let x ← P.byte
  pure (HarqConfig.ofByte x)

/-- Reading one flow, reconfiguration_request_message.cpp:179-182. -/
def rdFlow : P (Nat × Bool) := do
  let x ← P.byte
  pure (enumFromL 0 7 (x &&& bitmaskLsb 6), x >>> 7 != 0)

/-- The reading of `k` flows and of the HARQ configurations announced by the first octet `b`,
reconfiguration_request_message.cpp:161-184, reconfiguration_response_message.cpp:172-210. -/
def rdReconf (b k : Nat) :
    P (Option HarqConfig × Option HarqConfig × List (Nat × Bool) × Nat) := do
  let tx ← P.opt (b >>> 7 != 0) rdHarq
  let rx ← P.opt ((b >>> 6) &&& 1 != 0) rdHarq
  let fl ← P.many rdFlow k
  let o ← P.offset
  pure (tx, rx, fl.foldl (fun s x => flowInsert x s) [], o)

namespace ReconfRequest

/-- reconfiguration_request_message.cpp:58-85 -/
def isValid (m : ReconfRequest) : Res Bool := do
  let a ← harqTest m.tx
  if !a then pure false else do
    let b ← harqTest m.rx
    if !b then pure false else
      pure (m.flows.all (fun f => enumValidL 0 7 f.1) && enumValid 4 m.change)

/-- reconfiguration_request_message.cpp:87-94 -/
def packedSize (m : ReconfRequest) : Res Nat := do
  Res.assert (← m.isValid)
  pure (1 + m.tx.isSome.toNat + m.rx.isSome.toNat + m.flows.length)

/-- `get_packed_size_by_peeking`, reconfiguration_request_message.cpp:191-207. `none` is the error
NONRESERVED_FIELD_SET_TO_RESERVED. -/
def peek (p : List Nat) : Res (Option Nat) := do
  let b ← rd p 0
  let k := (b >>> 2) &&& 7
  if k < 7 then pure (some (1 + b >>> 7 + ((b >>> 6) &&& 1) + k)) else pure none

/-- reconfiguration_request_message.cpp:96-139 -/
def pack (m : ReconfRequest) : Res (List Nat) := do
  Res.assert (← m.isValid)
  let l := reconfWritten m.tx m.rx m.capability m.flows.length m.change m.flows
  let n ← peek l
  Res.assert n.isSome
  Res.assert (n = some l.length)
  pure l

/-- reconfiguration_request_message.cpp:141-189 -/
def unpack (p : List Nat) : Res (ReconfRequest × Bool) := do
  let b ← rd p 0
  let x ← (P.byte >>= fun b => rdReconf b ((b >>> 2) &&& bitmaskLsb 3)).eval p
  let m : ReconfRequest := ⟨x.1, x.2.1, (b >>> 5) &&& 1 != 0, x.2.2.1,
    enumFrom 4 (b &&& bitmaskLsb 2)⟩
  let n ← m.packedSize
  Res.assert (n = x.2.2.2)
  let v ← m.isValid
  pure (m, v)

end ReconfRequest

namespace ReconfResponse

/-- reconfiguration_response_message.cpp:61-96 -/
def isValid (m : ReconfResponse) : Res Bool := do
  let a ← harqTest m.tx
  if !a then pure false else do
    let b ← harqTest m.rx
    if !b then pure false else
      pure (!(!enumValid 8 m.accepted || (m.accepted == 1 && m.flows.isEmpty)) &&
        m.flows.all (fun f => enumValidL 0 7 f.1) && enumValid 4 m.change)

/-- reconfiguration_response_message.cpp:98-108 -/
def packedSize (m : ReconfResponse) : Res Nat := do
  Res.assert (← m.isValid)
  pure (1 + m.tx.isSome.toNat + m.rx.isSome.toNat + (if m.accepted = 1 then m.flows.length else 0))

/-- `get_packed_size_by_peeking`, reconfiguration_response_message.cpp:216-229. -/
def peek (p : List Nat) : Res (Option Nat) := do
  let b ← rd p 0
  let k := (b >>> 2) &&& 7
  pure (some (1 + b >>> 7 + ((b >>> 6) &&& 1) + (if k < 7 then k else 0)))

/-- reconfiguration_response_message.cpp:110-158 -/
def pack (m : ReconfResponse) : Res (List Nat) := do
  Res.assert (← m.isValid)
  let l := reconfWritten m.tx m.rx m.capability
    (if m.accepted = 1 then m.flows.length else m.accepted) m.change m.flows
  let n ← peek l
  Res.assert n.isSome
  Res.assert (n = some l.length)
  pure l

/-- reconfiguration_response_message.cpp:160-214 -/
def unpack (p : List Nat) : Res (ReconfResponse × Bool) := do
  let b ← rd p 0
  let k := (b >>> 2) &&& 7
  let x ← (P.byte >>= fun b => rdReconf b (if (b >>> 2) &&& 7 = 0 ∨ (b >>> 2) &&& 7 = 7 then 0
    else (b >>> 2) &&& 7)).eval p
  let m : ReconfResponse := ⟨x.1, x.2.1, (b >>> 5) &&& 1 != 0,
    if k = 0 ∨ k = 7 then enumFrom 8 k else 1, x.2.2.1, enumFrom 4 (b &&& 3)⟩
  let n ← m.packedSize
  Res.assert (n = x.2.2.2)
  let v ← m.isValid
  pure (m, v)

end ReconfResponse
end Verif.Mac
