import Verif.Model.ResourceAllocation

/-!
# Load info IE and measurement report IE
(src/sections_part4/mac_messages_and_ie/{load_info_ie,measurement_report_ie}.cpp and headers)
-/

namespace Verif.Mac
open BitByte

/-- The members of `load_info_ie_t`, load_info_ie.hpp:32-53. `maxAssoc` is the enumeration with 8 bit
= 0, 16 bit = 1; `channel` holds the percentages of free and busy subslots. -/
structure LoadInfo where
  maxAssoc : Nat
  pt : Option Nat
  rach : Option Nat
  channel : Option (Nat × Nat)
  traffic : Nat
  maxRd : Nat
  ft : Nat
  deriving DecidableEq, Repr

namespace LoadInfo

/-- `is_valid`, load_info_ie.cpp:50-77 -/
def isValid (m : LoadInfo) : Bool :=
  if !enumValid 2 m.maxAssoc then false
  else if !P.all m.pt (fun x => !decide (0xff < x)) then false
  else if !P.all m.rach (fun x => !decide (0xff < x)) then false
  else if !P.all m.channel (fun x => !(decide (0xff < x.1) || decide (0xff < x.2))) then false
  else if 0xff < m.traffic then false
  else if (if m.maxAssoc = 0 then 0xff else 0xffff) < m.maxRd then false
  else decide (m.ft ≤ 0xff)

/-- `get_packed_size`, load_info_ie.cpp:79-87 -/
def packedSize (m : LoadInfo) : Res Nat := do
  Res.assert m.isValid
  pure ((if m.maxAssoc = 0 then 4 else 5) + m.pt.isSome.toNat + m.rach.isSome.toNat +
    m.channel.isSome.toNat * 2)

/-- `get_packed_size_by_peeking`, load_info_ie.cpp:177-185. Lines 181 and 182 add the masked bits
without shifting them. -/
def peek (p : List Nat) : Res Nat := do
  let b ← rd p 0
  let n := if b &&& 8 = 0 then 4 else 5
  let n := n + (b &&& 4)
  let n := n + (b &&& 2)
  pure (n + (b &&& 1) * 2)

/-- `pack`, load_info_ie.cpp:89-133. The bytes are listed in the order of their offsets. -/
def pack (m : LoadInfo) : Res (List Nat) := do
  Res.assert m.isValid
  let p0 := u8 (m.maxAssoc <<< 3)
  let p0 := u8 (p0 ||| m.pt.isSome.toNat <<< 2)
  let p0 := u8 (p0 ||| m.rach.isSome.toNat <<< 1)
  let p0 := u8 (p0 ||| m.channel.isSome.toNat)
  let x ← l2bLower 4 m.maxRd (if m.maxAssoc = 0 then 1 else 2)
  let q1 := P.wr m.pt fun x => [u8 x]
  let q2 := P.wr m.rach fun x => [u8 x]
  let q3 := P.wr m.channel fun x => [u8 x.1, u8 x.2]
  let l := [p0, u8 m.traffic] ++ (x ++ ([u8 m.ft] ++ (q1 ++ (q2 ++ q3))))
  let n ← peek l
  Res.assert (n = l.length)
  pure l

/-- The reading part of `unpack`, load_info_ie.cpp:135-171, with the final offset. -/
def parse : P (LoadInfo × Nat) := do
  let b ← P.byte
  let k := enumFrom 2 ((b >>> 3) &&& 1)
  let t ← P.byte
  let x ← P.be 4 (if k = 0 then 1 else 2)
  let f ← P.byte
  let pt ← P.opt (b &&& 4 != 0) P.byte
  let ra ← P.opt (b &&& 2 != 0) P.byte
  let ch ← P.opt (b &&& 1 != 0) (do
    let c ← P.byte
    let d ← P.byte
    pure (c, d))
  let o ← P.offset
  pure (⟨k, pt, ra, ch, t, x, f⟩, o)

/-- `unpack`, load_info_ie.cpp:135-175 -/
def unpack (p : List Nat) : Res (LoadInfo × Bool) := do
  let x ← parse.eval p
  let n ← x.1.packedSize
  Res.assert (n = x.2)
  pure (x.1, x.1.isValid)

end LoadInfo

/-- The members of `measurement_report_ie_t`, measurement_report_ie.hpp:31-45. `rach` is the enumeration
with two values of the field RACH. -/
structure Measurement where
  snr : Option Nat
  rssi2 : Option Nat
  rssi1 : Option Nat
  txCount : Option Nat
  rach : Nat
  deriving DecidableEq, Repr

namespace Measurement

/-- `is_valid`, measurement_report_ie.cpp:55-73 -/
def isValid (m : Measurement) : Bool :=
  P.all m.snr (fun x => !decide (0xff < x)) && P.all m.rssi2 (fun x => !decide (0xff < x)) &&
    P.all m.rssi1 (fun x => !decide (0xff < x)) && P.all m.txCount (fun x => !decide (0xff < x)) &&
    enumValid 2 m.rach

/-- `get_packed_size`, measurement_report_ie.cpp:75-82 -/
def packedSize (m : Measurement) : Nat :=
  1 + m.snr.isSome.toNat + m.rssi2.isSome.toNat + m.rssi1.isSome.toNat + m.txCount.isSome.toNat

/-- `get_packed_size_by_peeking`, measurement_report_ie.cpp:163-171. The last line adds the masked
bit without shifting it. -/
def peek (p : List Nat) : Res Nat := do
  let b ← rd p 0
  let n := 1 + ((b >>> 4) &&& 1)
  let n := n + ((b >>> 3) &&& 1)
  let n := n + ((b >>> 2) &&& 1)
  pure (n + (b &&& 2))

/-- `pack`, measurement_report_ie.cpp:84-124 -/
def pack (m : Measurement) : Res (List Nat) := do
  Res.assert m.isValid
  let p0 := u8 (m.snr.isSome.toNat <<< 4)
  let p0 := u8 (p0 ||| m.rssi2.isSome.toNat <<< 3)
  let p0 := u8 (p0 ||| m.rssi1.isSome.toNat <<< 2)
  let p0 := u8 (p0 ||| m.txCount.isSome.toNat <<< 1)
  let p0 := u8 (p0 ||| m.rach)
  let q1 := P.wr m.snr fun x => [u8 x]
  let q2 := P.wr m.rssi2 fun x => [u8 x]
  let q3 := P.wr m.rssi1 fun x => [u8 x]
  let q4 := P.wr m.txCount fun x => [u8 x]
  let l := [p0] ++ (q1 ++ (q2 ++ (q3 ++ q4)))
  let n ← peek l
  Res.assert (n = l.length)
  pure l

/-- The reading part of `unpack`, measurement_report_ie.cpp:126-157, with the final offset. -/
def parse : P (Measurement × Nat) := do
  let b ← P.byte
  let s ← P.opt ((b >>> 4) &&& 1 != 0) P.byte
  let r2 ← P.opt ((b >>> 3) &&& 1 != 0) P.byte
  let r1 ← P.opt ((b >>> 2) &&& 1 != 0) P.byte
  let t ← P.opt (b &&& 2 != 0) P.byte
  let o ← P.offset
  pure (⟨s, r2, r1, t, enumFrom 2 (b &&& 1)⟩, o)

/-- `unpack`, measurement_report_ie.cpp:126-161 -/
def unpack (p : List Nat) : Res (Measurement × Bool) := do
  let x ← parse.eval p
  Res.assert (x.1.packedSize = x.2)
  pure (x.1, x.1.isValid)

end Measurement
end Verif.Mac
