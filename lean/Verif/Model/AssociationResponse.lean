import Verif.Model.AssociationRequest

/-!
# Association response message
(src/sections_part4/mac_messages_and_ie/association_response_message.cpp and header)
-/

namespace Verif.Mac
open BitByte

/-- `reject_info_t`, association_response_message.hpp:65-68: causes with upper 5, times with
upper 9. -/
structure RejectInfo where
  cause : Nat
  time : Nat
  deriving DecidableEq, Repr

/-- `group_info_t`, association_response_message.hpp:70-73 -/
structure GroupInfo where
  groupId : Nat
  resourceTag : Nat
  deriving DecidableEq, Repr

/-- The members of `association_response_message_t`, association_response_message.hpp:77-82.
`harq` is the pair of the configurations for `rx` and `tx`; `accepted` is `nof_flows_accepted_t` with
the values 0 none, 1 as included, 7 as requested, upper 8. -/
structure AssociationResponse where
  reject : Option RejectInfo
  harq : Option (HarqConfig × HarqConfig)
  accepted : Nat
  flows : List Nat
  group : Option GroupInfo
  txPower : Bool
  deriving DecidableEq, Repr

/-- The condition `~mac_pdu_offset[0] >> 7`, association_response_message.cpp:201,273. The byte is
converted to `int` before the complement, and the shift of a negative `int` is arithmetic. -/
def notShr7 (b : Nat) : Bool := (~~~(b : Int)) >>> 7 != 0

namespace AssociationResponse

/-- association_response_message.cpp:42-68 -/
def zero : AssociationResponse := ⟨none, none, undef32, [], none, false⟩

/-- association_response_message.cpp:70-118 -/
def isValid (m : AssociationResponse) : Bool :=
  match m.reject with
  | some r => !(!enumValid 5 r.cause || !enumValid 9 r.time)
  | none =>
    P.all m.harq (fun h => h.1.isValid && h.2.isValid) &&
    !(!enumValid 8 m.accepted || (m.accepted == 1 && m.flows.isEmpty)) &&
    m.flows.all (enumValidL 0 7) &&
    P.all m.group (fun g => !(decide (bitmaskLsb 7 < g.groupId) ||
      decide (bitmaskLsb 7 < g.resourceTag)))

/-- association_response_message.cpp:120-134 -/
def packedSize (m : AssociationResponse) : Res Nat := do
  Res.assert m.isValid
  if m.reject.isSome then pure 2
  else pure (1 + m.harq.isSome.toNat * 2 + m.flows.length + m.group.isSome.toNat * 2)

/-- `get_packed_size_by_peeking`, association_response_message.cpp:270-292 -/
def peek (p : List Nat) : Res Nat := do
  let b ← rd p 0
  if notShr7 b then pure 2
  else
    let n := 1 + ((b >>> 5) &&& 1) * 2
    let k := (b >>> 2) &&& 7
    let n := n + (if k ≠ 7 then k else 0)
    pure (n + (b &&& 2) * 2)

/-- association_response_message.cpp:136-194 -/
def pack (m : AssociationResponse) : Res (List Nat) := do
  Res.assert m.isValid
  match m.reject with
  | some r => do
    let p1 := u8 (r.cause <<< 4)
    let l := [0, u8 (p1 ||| r.time)]
    let n ← peek l
    Res.assert (n = 2)
    pure l
  | none => do
    let p0 := u8 (1 <<< 7)
    let p0 := u8 (p0 ||| m.harq.isSome.toNat <<< 5)
    let p0 := u8 (p0 ||| (if m.accepted = 1 then m.flows.length else m.accepted) <<< 2)
    let p0 := u8 (p0 ||| m.group.isSome.toNat <<< 1)
    let p0 := u8 (p0 ||| m.txPower.toNat)
    let l := [p0] ++ (P.wr m.harq (fun h => [h.1.byte, h.2.byte]) ++
      (m.flows.flatMap (fun x => [u8 x]) ++
        P.wr m.group (fun g => [u8 g.groupId, u8 g.resourceTag])))
    let n ← peek l
    Res.assert (n = l.length)
    pure l

/-- The reading part of `unpack` for an accepted association,
association_response_message.cpp:209-263. -/
def parseAccepted (b : Nat) : P AssociationResponse := do
  let harq ← P.opt ((b >>> 5) &&& 1 != 0) (do
    let x ← P.byte
    let y ← P.byte
    pure (HarqConfig.ofByte x, HarqConfig.ofByte y))
  let k := (b >>> 2) &&& 7
  let fl ← P.many (do
    let x ← P.byte
    pure (enumFromL 0 7 (x &&& bitmaskLsb 6))) (if k = 0 ∨ k = 7 then 0 else k)
  let group ← P.opt (b &&& 2 != 0) (do
    let x ← P.byte
    let y ← P.byte
    pure (GroupInfo.mk (x &&& bitmaskLsb 7) (y &&& bitmaskLsb 7)))
  pure ⟨none, harq, if k = 0 ∨ k = 7 then enumFrom 8 k else 1,
    fl.foldl (fun s x => setInsert x s) [], group, b &&& 1 != 0⟩

/-- `unpack`, association_response_message.cpp:196-268 -/
def unpack (p : List Nat) : Res (AssociationResponse × Bool) := do
  let b ← rd p 0
  if notShr7 b then do
    let b1 ← rd p 1
    let m := { zero with reject := some ⟨enumFrom 5 (b1 >>> 4), enumFrom 9 (b1 &&& 15)⟩ }
    let n ← m.packedSize
    Res.assert (n = 2)
    pure (m, m.isValid)
  else do
    let x ← (P.byte >>= fun b => parseAccepted b >>= fun m => P.offset >>= fun o =>
      pure (m, o)).eval p
    let n ← x.1.packedSize
    Res.assert (n = x.2)
    pure (x.1, x.1.isValid)

end AssociationResponse
end Verif.Mac
