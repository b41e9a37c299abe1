import Verif.Model.ClusterBeacon

/-!
# Network beacon message
(src/sections_part4/mac_messages_and_ie/network_beacon_message.cpp and header)
-/

namespace Verif.Mac
open BitByte

/-- The members of `network_beacon_message_t`, network_beacon_message.hpp:89-98. -/
structure NetworkBeacon where
  txp : Option Nat
  powerConst : Bool
  current : Option Nat
  ch0 : Option Nat
  ch1 : Option Nat
  ch2 : Option Nat
  nbp : Nat
  cbp : Nat
  nextChannel : Nat
  ttn : Nat
  deriving DecidableEq, Repr

namespace NetworkBeacon

/-- network_beacon_message.cpp:91-130 -/
def isValid (m : NetworkBeacon) : Bool :=
  P.all m.txp (enumValidL 2 16) && P.all m.current Channel.inRange &&
  P.all m.ch0 Channel.inRange && P.all m.ch1 Channel.inRange && P.all m.ch2 Channel.inRange &&
  enumValid 7 m.nbp && enumValid 11 m.cbp && Channel.inRange m.nextChannel

/-- network_beacon_message.cpp:132-140 -/
def packedSize (m : NetworkBeacon) : Nat :=
  8 + m.txp.isSome.toNat + m.current.isSome.toNat * 2 + m.ch0.isSome.toNat * 2 +
    m.ch1.isSome.toNat * 2 + m.ch2.isSome.toNat * 2

/-- `get_packed_size_by_peeking`, network_beacon_message.cpp:347-357 -/
def peek (p : List Nat) : Res Nat := do
  let b ← rd p 0
  pure (8 + ((b >>> 4) &&& 1) + ((b >>> 2) &&& 1) * 2 + (b &&& bitmaskLsb 2) * 2)

/-- network_beacon_message.cpp:142-236 -/
def pack (m : NetworkBeacon) : Res (List Nat) := do
  Res.assert m.isValid
  let p0 := u8 (m.txp.isSome.toNat <<< 4)
  let p0 := u8 (p0 ||| m.powerConst.toNat <<< 3)
  let p0 := u8 (p0 ||| m.current.isSome.toNat <<< 2)
  let p0 := u8 (p0 ||| (m.ch0.isSome.toNat + m.ch1.isSome.toNat + m.ch2.isSome.toNat))
  let p1 := u8 (m.nbp <<< 4)
  let p1 := u8 (p1 ||| m.cbp)
  let q ← l2bLower 4 m.ttn 4
  let l := [p0, p1] ++ (wrChannel m.nextChannel ++ (q ++ (P.wr m.txp (fun x => [u8 x]) ++
    (P.wr m.current wrChannel ++ (P.wr m.ch0 wrChannel ++ (P.wr m.ch1 wrChannel ++
      P.wr m.ch2 wrChannel))))))
  let n ← peek l
  Res.assert (n = l.length)
  pure l

/-- The reading part of `unpack`, network_beacon_message.cpp:238-342. -/
def parse : P NetworkBeacon := do
  let b0 ← P.byte
  let b1 ← P.byte
  let k := b0 &&& bitmaskLsb 2
  let inc2 := k == 3
  let inc1 := k == 3 || k == 2
  let inc0 := k == 3 || k == 2 || k == 1
  let nc ← rdChannel
  let ttn ← P.be 4 4
  let txp ← P.opt ((b0 >>> 4) &&& 1 != 0) do
    let t ← P.byte
    pure (enumFromL 2 16 (t &&& bitmaskLsb 4))
  let cur ← P.opt ((b0 >>> 2) &&& 1 != 0) rdChannel
  let ch0 ← P.opt inc0 rdChannel
  let ch1 ← P.opt inc1 rdChannel
  let ch2 ← P.opt inc2 rdChannel
  let m : NetworkBeacon := {
    txp := txp, powerConst := (b0 >>> 3) &&& 1 != 0, current := cur, ch0 := ch0, ch1 := ch1
    ch2 := ch2, nbp := enumFrom 7 (b1 >>> 4), cbp := enumFrom 11 (b1 &&& bitmaskLsb 4)
    nextChannel := nc, ttn := ttn }
  let o ← P.offset
  P.assert (m.packedSize = o)
  pure m

/-- `unpack`, network_beacon_message.cpp:238-345 -/
def unpack (p : List Nat) : Res (NetworkBeacon × Bool) := do
  let m ← parse.eval p
  pure (m, m.isValid)

end NetworkBeacon

/-- network_beacon_message.cpp:34-35 -/
def clusterTxPowerTable : List Int := [-13, -6, -3, 0, 3, 6, 10, 14, 19, 23, 26, 29, 32]

/-- `static_cast<clusters_max_tx_power_t>(int32_t)`: conversion to `uint32_t`. -/
def toU32 (x : Int) : Nat := (x % 2 ^ 32).toNat

/-- `clusters_max_tx_power_from_dBm`, network_beacon_message.cpp:37-46: `std::lower_bound` is the
first entry not less than the argument. Returns the underlying value of the enumeration. -/
def clusterTxPowerFromDbm (dBm : Int) : Nat :=
  match clusterTxPowerTable.find? (fun x => decide (dBm ≤ x)) with
  | some x => toU32 x
  | none => toU32 32

/-- `tx_power_table.at(i)`: throws out of range. -/
def clusterTxPowerAt (i : Nat) : Res Int :=
  match clusterTxPowerTable[i]? with
  | some x => .ok x
  | none => .abort

/-- `clusters_max_tx_power_to_dBm`, network_beacon_message.cpp:48-52. Unsigned subtraction wraps. -/
def clusterTxPowerToDbm (code : Nat) : Res Int := clusterTxPowerAt (u32 (code + 4294967293))

end Verif.Mac
