import Verif.Base.Parse
import Verif.Model.Channel

/-!
# Cluster beacon message
(src/sections_part4/mac_messages_and_ie/cluster_beacon_message.cpp and header)

`mu` is the member inherited from `mu_depending_t`: 0 until `set_mu` is called.
-/

namespace Verif.Mac
open BitByte

/-- The members of `cluster_beacon_message_t`, cluster_beacon_message.hpp:70-80. Enumerations are
their underlying value. -/
structure ClusterBeacon where
  sfn : Nat
  txp : Option Nat
  powerConst : Bool
  fo : Option Nat
  nextChannel : Option Nat
  ttn : Option Nat
  nbp : Nat
  cbp : Nat
  ctt : Nat
  relQuality : Nat
  minQuality : Nat
  deriving DecidableEq, Repr

/-- Channel field of two bytes, cluster_beacon_message.cpp:212-215. -/
def wrChannel (x : Nat) : List Nat := [u8 (x >>> 8), u8 (x &&& bitmaskLsb 8)]

/-- Reading a channel field, cluster_beacon_message.cpp:312-315: the second byte, then the low five
bits of the first one. -/
def rdChannel : P Nat := do
  let a ← P.byte
  let b ← P.byte
  pure (b ||| (a &&& bitmaskLsb 5) <<< 8)

/-- `mu <= 4 ? 1 : 2`, cluster_beacon_message.cpp:132,205,304,336. -/
def foSize (mu : Nat) : Nat := if mu ≤ 4 then 1 else 2

namespace ClusterBeacon

/-- cluster_beacon_message.cpp:85-127 -/
def isValid (mu : Nat) (m : ClusterBeacon) : Bool :=
  !(bitmaskLsb 8 < m.sfn) &&
  P.all m.txp (enumValidL 2 16) &&
  P.all m.fo (fun x => !((decide (mu ≤ 4) && decide (bitmaskLsb 8 < x)) ||
    (decide (4 < mu) && decide (bitmaskLsb 16 < x)))) &&
  P.all m.nextChannel Channel.inRange &&
  enumValid 7 m.nbp && enumValid 11 m.cbp && enumValid 16 m.ctt &&
  enumValid 4 m.relQuality && enumValid 4 m.minQuality

/-- cluster_beacon_message.cpp:129-136 -/
def packedSize (mu : Nat) (m : ClusterBeacon) : Nat :=
  4 + m.txp.isSome.toNat + m.fo.isSome.toNat * foSize mu + m.nextChannel.isSome.toNat * 2 +
    m.ttn.isSome.toNat * 4

/-- `get_packed_size_by_peeking`, cluster_beacon_message.cpp:330-342; always has a value. -/
def peek (mu : Nat) (p : List Nat) : Res Nat := do
  let b ← rd p 1
  pure (4 + ((b >>> 4) &&& 1) + ((b >>> 2) &&& 1) * foSize mu + ((b >>> 1) &&& 1) * 2 +
    (b &&& 1) * 4)

/-- cluster_beacon_message.cpp:138-227. The bytes are listed in the order of their offsets. -/
def pack (mu : Nat) (m : ClusterBeacon) : Res (List Nat) := do
  Res.assert (m.isValid mu)
  let p1 := u8 (m.txp.isSome.toNat <<< 4)
  let p1 := u8 (p1 ||| m.powerConst.toNat <<< 3)
  let p1 := u8 (p1 ||| m.fo.isSome.toNat <<< 2)
  let p1 := u8 (p1 ||| m.nextChannel.isSome.toNat <<< 1)
  let p1 := u8 (p1 ||| m.ttn.isSome.toNat)
  let p2 := u8 (m.nbp <<< 4)
  let p2 := u8 (p2 ||| m.cbp)
  let p3 := u8 (m.ctt <<< 4)
  let p3 := u8 (p3 ||| m.relQuality <<< 2)
  let p3 := u8 (p3 ||| m.minQuality)
  let q1 := P.wr m.txp fun x => [u8 x]
  let q2 ← P.wrM m.fo fun x => l2bLower 4 x (foSize mu)
  let q3 := P.wr m.nextChannel wrChannel
  let q4 ← P.wrM m.ttn fun x => l2bLower 4 x 4
  let l := [u8 m.sfn, p1, p2, p3] ++ (q1 ++ (q2 ++ (q3 ++ q4)))
  let n ← peek mu l
  Res.assert (n = l.length)
  pure l

/-- The reading part of `unpack`, cluster_beacon_message.cpp:229-325. -/
def parse (mu : Nat) : P ClusterBeacon := do
  let sfn ← P.byte
  let b1 ← P.byte
  let b2 ← P.byte
  let b3 ← P.byte
  let txp ← P.opt ((b1 >>> 4) &&& 1 != 0) do
    let t ← P.byte
    pure (enumFromL 2 16 (t &&& bitmaskLsb 4))
  let fo ← P.opt ((b1 >>> 2) &&& 1 != 0) (P.be 4 (foSize mu))
  let nc ← P.opt ((b1 >>> 1) &&& 1 != 0) rdChannel
  let ttn ← P.opt (b1 &&& 1 != 0) (P.be 4 4)
  let m : ClusterBeacon := {
    sfn := sfn, txp := txp, powerConst := (b1 >>> 3) &&& 1 != 0, fo := fo, nextChannel := nc
    ttn := ttn, nbp := enumFrom 7 (b2 >>> 4), cbp := enumFrom 11 (b2 &&& bitmaskLsb 4)
    ctt := enumFrom 16 (b3 >>> 4), relQuality := enumFrom 4 ((b3 >>> 2) &&& bitmaskLsb 2)
    minQuality := enumFrom 4 (b3 &&& bitmaskLsb 2) }
  let o ← P.offset
  P.assert (m.packedSize mu = o)
  pure m

/-- `unpack`, cluster_beacon_message.cpp:229-328 -/
def unpack (mu : Nat) (p : List Nat) : Res (ClusterBeacon × Bool) := do
  let m ← (parse mu).eval p
  pure (m, m.isValid mu)

end ClusterBeacon
end Verif.Mac
