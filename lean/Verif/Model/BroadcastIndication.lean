import Verif.Model.ResourceAllocation

/-!
# Broadcast indication IE and neighbouring IE
(src/sections_part4/mac_messages_and_ie/{broadcast_indication_ie,neighbouring_ie}.cpp and headers)
-/

namespace Verif.Mac
open BitByte

/-- `std::variant<std::monostate, channel_quality_t, mimo_feedback_t>`,
broadcast_indication_ie.hpp:106. The channel quality is the coded value (MCS + 1). -/
inductive BiFeedback where
  | none
  | mcs (q : Nat)
  | mimo (layers index : Nat)
  deriving DecidableEq, Repr

/-- The members of `broadcast_indication_ie_t`, broadcast_indication_ie.hpp:100-106. `kind` is
`indication_type` (0 paging, 1 random access response), `idType` 0 short, 1 long, `fb` the field
FEEDBACK (0 none, 1 MCS, 2 MIMO two antennas, 3 MIMO four antennas). -/
structure BroadcastInd where
  kind : Nat
  idType : Nat
  ack : Nat
  fb : Nat
  follows : Bool
  rdId : Nat
  value : BiFeedback
  deriving DecidableEq, Repr

namespace BroadcastInd

/-- The `switch` over `feedback` in `is_valid`, broadcast_indication_ie.cpp:66-111. The codebook
limits are broadcast_indication_ie.hpp:120-132. -/
def fbValid (m : BroadcastInd) : Bool :=
  if m.fb = 0 then true
  else if m.fb = 1 then
    match m.value with
    | .mcs q => enumValidL 0 13 q
    | _ => false
  else if m.fb = 2 then
    match m.value with
    | .mimo n i => (n == 0 && decide (i ≤ 5)) || (n == 1 && decide (i ≤ 2))
    | _ => false
  else if m.fb = 3 then
    match m.value with
    | .mimo n i => (n == 0 && decide (i ≤ 27)) || (n == 1 && decide (i ≤ 21)) ||
        (n == 2 && decide (i ≤ 4))
    | _ => false
  else false

/-- `is_valid`, broadcast_indication_ie.cpp:50-115 -/
def isValid (m : BroadcastInd) : Bool :=
  if !enumValid 2 m.kind || !enumValid 2 m.idType then false
  else if m.idType = 0 ∧ bitmaskLsb 16 < m.rdId then false
  else if m.kind = 1 then
    if m.idType ≠ 0 ∨ enumValid 2 m.ack = false then false else m.fbValid
  else true

/-- `get_packed_size`, broadcast_indication_ie.cpp:117-127 -/
def packedSize (m : BroadcastInd) : Res Nat := do
  Res.assert m.isValid
  pure ((if m.idType = 0 then 3 else 5) + (if m.kind = 1 ∧ m.fb ≠ 0 then 1 else 0))

/-- `get_packed_size_by_peeking`, broadcast_indication_ie.cpp:239-256. For reserved indication types
the size is UNDEFINED_NUMERIC_32, not an error. -/
def peek (p : List Nat) : Res Nat := do
  let b ← rd p 0
  if 2 ≤ b >>> 5 then pure undef32
  else pure ((if (b >>> 4) &&& 1 = 0 then 3 else 5) +
    (if b >>> 5 = 1 ∧ b &&& 6 ≠ 0 then 1 else 0))

/-- The octet of the feedback written by `pack`, broadcast_indication_ie.cpp:151-174. `std::get`
throws if the variant holds something else. -/
def packFeedback (m : BroadcastInd) : Res (List Nat) :=
  if m.fb = 1 then
    match m.value with
    | .mcs q => pure [u8 q]
    | _ => .abort
  else if m.fb = 2 ∨ m.fb = 3 then
    match m.value with
    | .mimo n i => pure [u8 (u8 (n <<< (if m.fb = 2 then 3 else 6)) ||| i)]
    | _ => .abort
  else pure []

/-- `pack`, broadcast_indication_ie.cpp:129-180 -/
def pack (m : BroadcastInd) : Res (List Nat) := do
  Res.assert m.isValid
  let p0 := u8 (m.kind <<< 5)
  let p0 := u8 (p0 ||| m.idType <<< 4)
  let p0 := u8 (p0 ||| m.follows.toNat)
  let i ← l2bLower 4 m.rdId (if m.idType = 0 then 2 else 4)
  let p0 := if m.kind = 1 then u8 (u8 (p0 ||| m.ack <<< 3) ||| m.fb <<< 1) else p0
  let f ← if m.kind = 1 then m.packFeedback else pure []
  let l := [p0] ++ (i ++ f)
  let n ← peek l
  Res.assert (n = l.length)
  pure l

/-- The part of `unpack` for random access responses, broadcast_indication_ie.cpp:196-232: FEEDBACK
is taken from bits 1 and 2 without shifting them (line 199). -/
def parseFeedback (b : Nat) : P (Nat × BiFeedback) := do
  let fb := enumFrom 4 (b &&& 6)
  if fb = 1 then do
    let c ← P.byte
    pure (fb, .mcs (enumFromL 0 13 (c &&& 0xf)))
  else if fb = 2 then do
    let c ← P.byte
    pure (fb, .mimo (enumFrom 3 ((c >>> 3) &&& 1)) (c &&& 7))
  else if fb = 3 then do
    let c ← P.byte
    pure (fb, .mimo (enumFrom 3 (c >>> 6)) (c &&& bitmaskLsb 6))
  else pure (fb, .none)

/-- The reading part of `unpack`, broadcast_indication_ie.cpp:182-232, with the final offset. -/
def parse : P (BroadcastInd × Nat) := do
  let b ← P.byte
  let k := enumFrom 2 (b >>> 5)
  let t := enumFrom 2 ((b >>> 4) &&& 1)
  let i ← P.be 4 (if t = 0 then 2 else 4)
  if k = 1 then do
    let f ← parseFeedback b
    let o ← P.offset
    pure (⟨k, t, enumFrom 2 ((b >>> 3) &&& 1), f.1, b &&& 1 != 0, i, f.2⟩, o)
  else do
    let o ← P.offset
    pure (⟨k, t, undef32, undef32, b &&& 1 != 0, i, .none⟩, o)

/-- `unpack`, broadcast_indication_ie.cpp:182-237 -/
def unpack (p : List Nat) : Res (BroadcastInd × Bool) := do
  let x ← parse.eval p
  let n ← x.1.packedSize
  Res.assert (n = x.2)
  pure (x.1, x.1.isValid)

end BroadcastInd

/-- The members of `neighbouring_ie_t`, neighbouring_ie.hpp:34-42. `cls` is `radio_device_class`
(mu, beta), the periods are the enumerations of network_beacon_message.hpp:53-80. -/
structure Neighbour where
  shortId : Nat
  cls : Option (Nat × Nat)
  snr : Option Nat
  rssi2 : Option Nat
  power : Bool
  channel : Option Nat
  ttn : Option Nat
  nbp : Nat
  cbp : Nat
  deriving DecidableEq, Repr

namespace Neighbour

/-- `is_valid`, neighbouring_ie.cpp:68-98: `radio_device_class.value()` is evaluated before the test
for a value. -/
def isValid (m : Neighbour) : Res Bool := do
  if bitmaskLsb 16 < m.shortId then pure false
  else
    let c ← optValue m.cls
    pure (!(m.cls.isSome && (!enumValid 4 c.1 || !enumValid 6 c.2)) &&
      P.all m.snr (fun x => !decide (0xff < x)) && P.all m.rssi2 (fun x => !decide (0xff < x)) &&
      P.all m.channel Channel.inRange && enumValid 7 m.nbp && enumValid 11 m.cbp)

/-- `get_packed_size`, neighbouring_ie.cpp:100-108 -/
def packedSize (m : Neighbour) : Nat :=
  4 + m.cls.isSome.toNat + m.snr.isSome.toNat + m.rssi2.isSome.toNat + m.channel.isSome.toNat * 2 +
    m.ttn.isSome.toNat * 4

/-- `get_packed_size_by_peeking`, neighbouring_ie.cpp:229-238. The channel flag is multiplied without
shifting it (line 235). -/
def peek (p : List Nat) : Res Nat := do
  let b ← rd p 2
  pure (4 + ((b >>> 5) &&& 1) + ((b >>> 4) &&& 1) + ((b >>> 3) &&& 1) + (b &&& 2) * 2 +
    (b &&& 1) * 4)

/-- `pack`, neighbouring_ie.cpp:110-166: `value()` of channel and class is evaluated before the test
for a value (lines 132, 156), the channel is shifted by 5 instead of 8 (line 133). -/
def pack (m : Neighbour) : Res (List Nat) := do
  let v ← m.isValid
  Res.assert v
  let i ← l2bLower 4 m.shortId 2
  let p2 := u8 (m.cls.isSome.toNat <<< 5)
  let p2 := u8 (p2 ||| m.snr.isSome.toNat <<< 4)
  let p2 := u8 (p2 ||| m.rssi2.isSome.toNat <<< 3)
  let p2 := u8 (p2 ||| m.power.toNat <<< 2)
  let p2 := u8 (p2 ||| m.channel.isSome.toNat <<< 1)
  let p2 := u8 (p2 ||| m.ttn.isSome.toNat)
  let p3 := u8 (m.nbp <<< 4)
  let p3 := u8 (p3 ||| m.cbp)
  let _ ← optValue m.channel
  let q1 := P.wr m.channel fun x => [u8 (x >>> 5), u8 (x &&& 0xff)]
  let q2 ← P.wrM m.ttn fun x => l2bLower 4 x 4
  let q3 := P.wr m.rssi2 fun x => [u8 x]
  let q4 := P.wr m.snr fun x => [u8 x]
  let _ ← optValue m.cls
  let q5 := P.wr m.cls fun x => [u8 (u8 (x.1 <<< 5) ||| x.2 <<< 1)]
  let l := i ++ ([p2, p3] ++ (q1 ++ (q2 ++ (q3 ++ (q4 ++ q5)))))
  let n ← peek l
  Res.assert (n = l.length)
  pure l

/-- The reading part of `unpack`, neighbouring_ie.cpp:168-222, with the final offset. The network
beacon period is not shifted (line 180). -/
def parse : P (Neighbour × Nat) := do
  let i ← P.be 4 2
  let b2 ← P.byte
  let b3 ← P.byte
  let ch ← P.opt (b2 &&& 2 != 0) (do
    let x ← P.byte
    let y ← P.byte
    pure ((x &&& 0x1f) <<< 8 ||| y))
  let t ← P.opt (b2 &&& 1 != 0) (P.be 4 4)
  let r ← P.opt ((b2 >>> 3) &&& 1 != 0) P.byte
  let s ← P.opt ((b2 >>> 4) &&& 1 != 0) P.byte
  let c ← P.opt ((b2 >>> 5) &&& 1 != 0) (do
    let x ← P.byte
    pure (enumFrom 4 ((x >>> 5) &&& 7), enumFrom 6 ((x >>> 1) &&& 0xf)))
  let o ← P.offset
  pure (⟨i, c, s, r, (b2 >>> 2) &&& 1 != 0, ch, t, enumFrom 7 (b3 &&& 0xf0),
    enumFrom 11 (b3 &&& 0xf)⟩, o)

/-- `unpack`, neighbouring_ie.cpp:168-227 -/
def unpack (p : List Nat) : Res (Neighbour × Bool) := do
  let x ← parse.eval p
  Res.assert (x.1.packedSize = x.2)
  let v ← x.1.isValid
  pure (x.1, v)

end Neighbour
end Verif.Mac
