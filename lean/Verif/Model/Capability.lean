import Verif.Base.ParseWP
import Verif.Model.Mmh

/-!
# RD capability IE and group assignment IE
(src/sections_part4/mac_messages_and_ie/rd_capability_ie.cpp, group_assignment_ie.cpp and headers)
-/

namespace Verif.Mac
open BitByte

/-- `phy_capability_t`, rd_capability_ie.hpp:181-213. Uppers: power class 3, spatial streams 4, antennas
4, MCS 10, soft buffer 9, HARQ processes 4, feedback delay 7; the gain is an index into a table. -/
structure PhyCap where
  power : Nat
  nss : Nat
  diversity : Nat
  gain : Nat
  mcs : Nat
  buffer : Nat
  harq : Nat
  delay : Nat
  deriving DecidableEq, Repr

/-- `rx_gain_table`, rd_capability_ie.hpp:211-212 -/
def rxGainTable : List Int := [-10, -8, -6, -4, -2, 0, 2, 4, 6]

namespace PhyCap

/-- `set_rx_gain`, rd_capability_ie.hpp:186-191. `std::lower_bound` is the position of the first entry
that is not less. -/
def setGain (c : PhyCap) (dB : Int) : PhyCap :=
  let k := (rxGainTable.takeWhile (· < dB)).length
  { c with gain := if k ≠ rxGainTable.length then k else rxGainTable.length - 1 }

/-- `get_rx_gain_dB`, rd_capability_ie.hpp:193-199 -/
def getGain (c : PhyCap) : Option Int := rxGainTable[c.gain]?

/-- `is_phy_capability_valid`, rd_capability_ie.cpp:66-75 -/
def isValid (c : PhyCap) : Bool :=
  enumValid 3 c.power && enumValid 4 c.nss && enumValid 4 c.diversity && c.getGain.isSome &&
  enumValid 10 c.mcs && enumValid 9 c.buffer && enumValid 4 c.harq && enumValid 7 c.delay

/-- `pack_phy_capability`, rd_capability_ie.cpp:121-135 -/
def octets (c : PhyCap) : List Nat :=
  let d0 := u8 (c.power <<< 4)
  let d0 := u8 (d0 ||| c.nss <<< 2)
  let d0 := u8 (d0 ||| c.diversity)
  let d1 := u8 (c.gain <<< 4)
  let d1 := u8 (d1 ||| c.mcs)
  let d2 := u8 (c.buffer <<< 4)
  let d2 := u8 (d2 ||| c.harq <<< 2)
  let d3 := u8 (c.delay <<< 4)
  [d0, d1, d2, d3]

/-- `unpack_phy_capability`, rd_capability_ie.cpp:175-192 -/
def read : P PhyCap := do
  let s0 ← P.byte
  let s1 ← P.byte
  let s2 ← P.byte
  let s3 ← P.byte
  pure ⟨enumFrom 3 ((s0 >>> 4) &&& 7), enumFrom 4 ((s0 >>> 2) &&& 3), enumFrom 4 (s0 &&& 3),
    s1 >>> 4, enumFrom 10 (s1 &&& 15), enumFrom 9 (s2 >>> 4), enumFrom 4 ((s2 >>> 2) &&& 3),
    enumFrom 7 (s3 >>> 4)⟩

end PhyCap

/-- `phy_capability_additional_t`, rd_capability_ie.hpp:215: uppers 4 and 6. -/
structure PhyCapExtra where
  mu : Nat
  beta : Nat
  cap : PhyCap
  deriving DecidableEq, Repr

/-- The members of `rd_capability_ie_t`, rd_capability_ie.hpp:219-226. Release has lower 0 and upper 5,
operating modes upper 3, security upper 2, DLC service type upper 5. -/
structure RdCapability where
  extra : List PhyCapExtra
  release : Nat
  modes : Nat
  mesh : Bool
  scheduled : Bool
  security : Nat
  dlc : Nat
  cap : PhyCap
  deriving DecidableEq, Repr

/-- rd_capability_ie.cpp:138-144 -/
def PhyCapExtra.octets (e : PhyCapExtra) : List Nat :=
  let b := u8 (e.mu <<< 5)
  let b := u8 (b ||| e.beta <<< 1)
  b :: e.cap.octets

/-- rd_capability_ie.cpp:203-210 -/
def PhyCapExtra.read : P PhyCapExtra := do
  let b ← P.byte
  let c ← PhyCap.read
  pure ⟨enumFrom 4 (b >>> 5), enumFrom 6 ((b >>> 1) &&& 15), c⟩

namespace RdCapability

/-- rd_capability_ie.cpp:65-95 -/
def isValid (m : RdCapability) : Bool :=
  if decide (m.extra.length > 7) ||
      !m.extra.all (fun e => enumValid 4 e.mu && enumValid 6 e.beta && e.cap.isValid) then false
  else if !enumValidL 0 5 m.release || !enumValid 3 m.modes || !enumValid 2 m.security ||
      !enumValid 5 m.dlc || !m.cap.isValid then false
  else true

/-- rd_capability_ie.cpp:97-100 -/
def packedSize (m : RdCapability) : Res Nat := do
  Res.assert m.isValid
  pure (7 + m.extra.length * 5)

/-- `get_packed_size_by_peeking`, rd_capability_ie.cpp:214-217 -/
def peek (p : List Nat) : Res (Option Nat) := do
  let b ← rd p 0
  pure (some (7 + b >>> 5 * 5))

/-- rd_capability_ie.cpp:102-151 -/
def pack (m : RdCapability) : Res (List Nat) := do
  Res.assert m.isValid
  let p0 := u8 (m.extra.length <<< 5)
  let p0 := u8 (p0 ||| m.release)
  let p1 := u8 (m.modes <<< 2)
  let p1 := u8 (p1 ||| m.mesh.toNat <<< 1)
  let p1 := u8 (p1 ||| m.scheduled.toNat)
  let p2 := u8 (m.security <<< 5)
  let p2 := u8 (p2 ||| m.dlc <<< 2)
  let l := [p0, p1, p2] ++ (m.cap.octets ++ m.extra.flatMap PhyCapExtra.octets)
  let n ← peek l
  Res.assert n.isSome
  Res.assert (n = some l.length)
  pure l

/-- The reading part of `unpack`, rd_capability_ie.cpp:153-210. The loop over additional capabilities
ends when the offset, which starts at 7 and grows by 5, reaches the peeked size `7 + 5 k`: it runs `k`
times. -/
def parse : P (RdCapability × Nat) := do
  let b0 ← P.byte
  let b1 ← P.byte
  let b2 ← P.byte
  let c ← PhyCap.read
  let e ← P.many PhyCapExtra.read (b0 >>> 5)
  let o ← P.offset
  pure (⟨e, enumFromL 0 5 (b0 &&& bitmaskLsb 5), enumFrom 3 ((b1 >>> 2) &&& 3), b1 &&& 2 != 0,
    b1 &&& 1 != 0, enumFrom 2 (b2 >>> 5), enumFrom 5 ((b2 >>> 2) &&& 7), c⟩, o)

/-- `unpack`, rd_capability_ie.cpp:153-216 -/
def unpack (p : List Nat) : Res (RdCapability × Bool) := do
  let x ← parse.eval p
  let n ← x.1.packedSize
  Res.assert (n = x.2)
  pure (x.1, x.1.isValid)

end RdCapability

/-- The members of `group_assignment_ie_t`, group_assignment_ie.hpp:54-56; an assignment is direction
(upper 2) and resource tag. `single` has upper 2: 0 multiple assignments, 1 single assignment. -/
structure GroupAssignment where
  single : Nat
  groupId : Nat
  assignments : List (Nat × Nat)
  deriving DecidableEq, Repr

namespace GroupAssignment

/-- group_assignment_ie.cpp:44-68 -/
def isValid (m : GroupAssignment) : Bool :=
  if !enumValid 2 m.single then false
  else if m.single = 1 ∧ m.assignments.length ≠ 1 then false
  else if m.single = 0 ∧ m.assignments.length < 2 then false
  else if bitmaskLsb 7 < m.groupId then false
  else m.assignments.all (fun a => enumValid 2 a.1 && decide (a.2 ≤ bitmaskLsb 7))

/-- group_assignment_ie.cpp:70-74 -/
def packedSize (m : GroupAssignment) : Res Nat := do
  Res.assert m.isValid
  pure (1 + m.assignments.length)

/-- group_assignment_ie.cpp:76-90 -/
def pack (m : GroupAssignment) : Res (List Nat) := do
  Res.assert m.isValid
  let p0 := u8 (m.single <<< 7)
  let p0 := u8 (p0 ||| m.groupId)
  pure ([p0] ++ m.assignments.flatMap (fun a =>
    let p := u8 (a.1 <<< 7)
    [u8 (p ||| a.2)]))

/-- `unpack`, group_assignment_ie.cpp:92-112; `length` is the one of the multiplexing header. -/
def unpack (length : Nat) (p : List Nat) : Res (GroupAssignment × Bool) := do
  let x ← (do
    let b ← P.byte
    let a ← P.many (do
      let c ← P.byte
      pure (enumFrom 2 (c >>> 7), c &&& bitmaskLsb 7)) (length - 1)
    pure (GroupAssignment.mk (enumFrom 2 (b >>> 7)) (b &&& bitmaskLsb 7) a)).eval p
  let n ← x.packedSize
  Res.assert (n = length)
  pure (x, x.isValid)

/-- The multiplexing header set by the constructor, group_assignment_ie.cpp:28-32. The header is
protected (mmie.hpp:60) and the class has no other function that writes to it. -/
def header : Mmh := { Mmh.zero with ie := 23 }

/-- `pack_mmh_sdu`, mmie.cpp:61-64 -/
def packMmhSdu (m : GroupAssignment) : Res (List Nat) := do
  let h ← header.pack
  let b ← m.pack
  pure (h ++ b)

end GroupAssignment
end Verif.Mac
