import Verif.Model.ClusterBeacon
import Verif.Base.ParseWP

/-!
# Association request message
(src/sections_part4/mac_messages_and_ie/association_request_message.cpp and header)
-/

namespace Verif.Mac
open BitByte

/-- `std::set<flow_id_t>::insert`; a set is the list of its elements in ascending order. -/
def setInsert (x : Nat) : List Nat → List Nat
  | [] => [x]
  | y :: l => if x < y then x :: y :: l else if x = y then y :: l else y :: setInsert x l

/-- `ft_configuration_t`, association_request_message.hpp:95-100 -/
structure FtConfig where
  nbp : Nat
  cbp : Nat
  nextChannel : Nat
  ttn : Nat
  deriving DecidableEq, Repr

/-- `harq_configuration_t`, association_request_message.hpp:102-105 -/
structure HarqConfig where
  n : Nat
  delay : Nat
  deriving DecidableEq, Repr

/-- The members of `association_request_message_t`, association_request_message.hpp:114-119.
`setup_cause_t` has upper 7, `flow_id_t` lower 0 and upper 7, `max_harq_retransmission_delay_t`
upper 31. -/
structure AssociationRequest where
  cause : Nat
  flows : List Nat
  powerConst : Bool
  ft : Option FtConfig
  current : Option Nat
  tx : HarqConfig
  rx : HarqConfig
  deriving DecidableEq, Repr

/-- association_request_message.cpp:80-94 -/
def FtConfig.isValid (f : FtConfig) : Bool :=
  enumValid 7 f.nbp && enumValid 11 f.cbp && Channel.inRange f.nextChannel

/-- association_request_message.cpp:101-107 -/
def HarqConfig.isValid (h : HarqConfig) : Bool := !decide (h.n > 7) && enumValid 31 h.delay

/-- association_request_message.cpp:142-147 -/
def HarqConfig.byte (h : HarqConfig) : Nat :=
  let p := u8 (h.n <<< 5)
  u8 (p ||| h.delay)

/-- association_request_message.cpp:204-209 -/
def HarqConfig.ofByte (b : Nat) : HarqConfig := ⟨b >>> 5, enumFrom 31 (b &&& bitmaskLsb 5)⟩

namespace AssociationRequest

/-- association_request_message.cpp:69-118 -/
def isValid (m : AssociationRequest) : Bool :=
  enumValid 7 m.cause && (!m.flows.isEmpty && m.flows.all (enumValidL 0 7)) &&
  P.all m.ft FtConfig.isValid && P.all m.current Channel.inRange &&
  m.tx.isValid && m.rx.isValid

/-- `get_packed_size`, association_request_message.cpp:120-126 -/
def packedSize (m : AssociationRequest) : Res Nat := do
  Res.assert m.isValid
  pure (4 + m.flows.length + m.ft.isSome.toNat * 7 + m.current.isSome.toNat * 2)

/-- `get_packed_size_by_peeking`, association_request_message.cpp:266-281. `none` is the error
NONRESERVED_FIELD_SET_TO_RESERVED. -/
def peek (p : List Nat) : Res (Option Nat) := do
  let b0 ← rd p 0
  let k := (b0 >>> 2) &&& 7
  if k < 7 then do
    let b1 ← rd p 1
    pure (some (4 + k + (b0 &&& 1) * 7 + (b1 >>> 7) * 2))
  else pure none

/-- association_request_message.cpp:159-175 -/
def ftPack (f : FtConfig) : Res (List Nat) := do
  let q0 := u8 (f.nbp <<< 4)
  let q0 := u8 (q0 ||| f.cbp)
  let t ← l2bLower 4 f.ttn 4
  pure ([q0] ++ (wrChannel f.nextChannel ++ t))

/-- association_request_message.cpp:128-188 -/
def pack (m : AssociationRequest) : Res (List Nat) := do
  Res.assert m.isValid
  let p0 := u8 (m.cause <<< 5)
  let p0 := u8 (p0 ||| m.flows.length <<< 2)
  let p0 := u8 (p0 ||| m.powerConst.toNat <<< 1)
  let p0 := u8 (p0 ||| m.ft.isSome.toNat)
  let p1 := u8 (m.current.isSome.toNat <<< 7)
  let f ← P.wrM m.ft ftPack
  let l := [p0, p1, m.tx.byte, m.rx.byte] ++ (m.flows.flatMap (fun x => [u8 x]) ++
    (f ++ P.wr m.current wrChannel))
  let n ← peek l
  Res.assert n.isSome
  Res.assert (n = some l.length)
  pure l

/-- association_request_message.cpp:228-251. The mask of the network beacon period in line 234 is
`bitmask_msb<4>()` of the default type `uint32_t`: bits 28 to 31. -/
def ftParse : P FtConfig := do
  let b ← P.byte
  let c ← rdChannel
  let t ← P.be 4 4
  pure ⟨enumFrom 7 (b &&& bitmaskMsb 32 4), enumFrom 11 (b &&& bitmaskLsb 4), c, t⟩

/-- The reading part of `unpack`, association_request_message.cpp:190-259. -/
def parse : P AssociationRequest := do
  let b0 ← P.byte
  let b1 ← P.byte
  let b2 ← P.byte
  let b3 ← P.byte
  let fl ← P.many (do
    let x ← P.byte
    pure (enumFromL 0 7 (x &&& bitmaskLsb 6))) ((b0 >>> 2) &&& bitmaskLsb 3)
  let ft ← P.opt (b0 &&& 1 != 0) ftParse
  let cur ← P.opt (b1 >>> 7 != 0) rdChannel
  pure ⟨enumFrom 7 (b0 >>> 5), fl.foldl (fun s x => setInsert x s) [], b0 &&& 2 != 0, ft, cur,
    HarqConfig.ofByte b2, HarqConfig.ofByte b3⟩

/-- `unpack`, association_request_message.cpp:190-264 -/
def unpack (p : List Nat) : Res (AssociationRequest × Bool) := do
  let x ← (parse >>= fun m => P.offset >>= fun o => pure (m, o)).eval p
  let n ← x.1.packedSize
  Res.assert (n = x.2)
  pure (x.1, x.1.isValid)

end AssociationRequest
end Verif.Mac
