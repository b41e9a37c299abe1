import Verif.Model.BitByte
import Verif.Model.Identity

/-!
# MAC header type and MAC common headers
(src/sections_part4/mac_pdu/mac_header_type.cpp, mac_common_header.cpp and headers)

The C++ classes derive from `packing_t`; `unpack` writes the fields and returns `is_valid()`. An
enumeration member with value `not_defined` is `none`.
-/

namespace Verif.Mac
open BitByte Identity

/-- `mac_header_type_ec`, mac_header_type.hpp:44-52 -/
inductive HType where
  | data | beacon | unicast | rdBroadcasting | empty | escape
  deriving DecidableEq, Repr

def HType.val : HType → Nat
  | .data => 0
  | .beacon => 1
  | .unicast => 2
  | .rdBroadcasting => 3
  | .empty => 4
  | .escape => 15

/-- `get_mac_header_type_ec`, mac_header_type.hpp:72-76 -/
def HType.of (v : Nat) : Option HType :=
  match v with
  | 0 => some .data
  | 1 => some .beacon
  | 2 => some .unicast
  | 3 => some .rdBroadcasting
  | 4 => some .empty
  | _ => none

/-- `mac_header_type_t`, mac_header_type.hpp:30-78. `version`: `some 0` is `v00`; `security`:
`some k` with `k ≤ 3`. -/
structure HeaderType where
  version : Option Nat
  security : Option Nat
  type : Option HType
  deriving DecidableEq, Repr

/-- mac_header_type.cpp:35-49 -/
def HeaderType.isValid (h : HeaderType) : Bool :=
  !(h.version = none) && !(h.security = none) && !(h.type = none)

/-- mac_header_type.cpp:51-57; `not_defined` members do not reach the shifts. -/
def HeaderType.pack (h : HeaderType) : Res (List Nat) :=
  match h.version, h.security, h.type with
  | some v, some s, some t =>
    let p0 := u8 (v <<< 6)
    let p0 := u8 (p0 ||| s <<< 4)
    let p0 := u8 (p0 ||| t.val)
    .ok [p0]
  | _, _, _ => .abort

/-- mac_header_type.cpp:59-65 with `get_version_ec`, `get_mac_security_ec` (hpp:63-70). -/
def HeaderType.unpack (p : List Nat) : Res (HeaderType × Bool) := do
  let p0 ← rd p 0
  let v := (p0 >>> 6) &&& 3
  let s := (p0 >>> 4) &&& 3
  let h : HeaderType := {
    version := if v = 0 then some v else none
    security := if s ≤ 3 then some s else none
    type := HType.of (p0 &&& 15) }
  pure (h, h.isValid)

/-- Common headers: mac_common_header.hpp:38-107. -/
inductive Mch where
  /-- `data_mac_pdu_header_t` -/
  | data (reserved reset sn : Nat)
  /-- `beacon_header_t` -/
  | beacon (networkId3 tx : Nat)
  /-- `unicast_header_t` -/
  | unicast (reserved reset sn rx tx : Nat)
  /-- `rd_broadcasting_header_t` -/
  | rdBroadcasting (reserved reset sn tx : Nat)
  /-- `mch_empty_t` -/
  | empty
  deriving DecidableEq, Repr

/-- The header type announced for a common header. -/
def Mch.htype : Mch → HType
  | .data .. => .data
  | .beacon .. => .beacon
  | .unicast .. => .unicast
  | .rdBroadcasting .. => .rdBroadcasting
  | .empty => .empty

/-- `get_packed_size`, mac_common_header.hpp:42,57,74,91,106; by type since it does not depend on
the contents. `Escape` has no common header. -/
def HType.mchSize : HType → Nat
  | .data => 2
  | .beacon => 7
  | .unicast => 10
  | .rdBroadcasting => 6
  | .empty => 0
  | .escape => 0

/-- The test of `Reserved`, `Reset`, `Sequence_number` common to three headers,
mac_common_header.cpp:35-49, 111-123, 171-183. -/
def validSn (reserved reset sn : Nat) : Bool :=
  !(reserved ≠ 0) && !(1 < reset) && !(bitmaskLsb 12 < sn)

/-- `is_valid`, mac_common_header.cpp:35-49, 73-83, 111-133, 171-189; hpp:104. -/
def Mch.isValid : Mch → Bool
  | .data r z s => validSn r z s
  | .beacon n t => !(bitmaskLsb 24 < n) && validLongRdId t
  | .unicast r z s rx tx => validSn r z s && validLongRdId tx && validLongRdId rx
  | .rdBroadcasting r z s tx => validSn r z s && validLongRdId tx
  | .empty => true

/-- The two bytes with `Reserved`, `Reset`, `Sequence_number`, mac_common_header.cpp:54-57. -/
def packSn (reserved reset sn : Nat) : List Nat :=
  let p0 := u8 (reserved <<< 5)
  let p0 := u8 (p0 ||| reset <<< 4)
  let p0 := u8 (p0 ||| sn >>> 8)
  [p0, u8 (sn &&& bitmaskLsb 8)]

/-- `pack`, mac_common_header.cpp:51-58, 85-90, 135-144, 191-199. Note `l2b_upper` for the network
ID (line 88). -/
def Mch.pack (m : Mch) : Res (List Nat) := do
  Res.assert m.isValid
  match m with
  | .data r z s => pure (packSn r z s)
  | .beacon n t => pure ((← l2bUpper 4 n 3) ++ (← l2bLower 4 t 4))
  | .unicast r z s rx tx => pure (packSn r z s ++ (← l2bLower 4 rx 4) ++ (← l2bLower 4 tx 4))
  | .rdBroadcasting r z s tx => pure (packSn r z s ++ (← l2bLower 4 tx 4))
  | .empty => pure []

/-- `Sequence_number` from two bytes, mac_common_header.cpp:63. -/
def unpackSn (p0 p1 : Nat) : Nat := (p0 &&& 15) <<< 8 + p1

/-- `unpack`, mac_common_header.cpp:60-66, 92-97, 146-154, 201-208. `Escape` is never unpacked. -/
def Mch.unpack (t : HType) (p : List Nat) : Res (Mch × Bool) :=
  match t with
  | .data => do
    let p0 ← rd p 0
    let p1 ← rd p 1
    let m := Mch.data ((p0 >>> 5) &&& 7) ((p0 >>> 4) &&& 1) (unpackSn p0 p1)
    pure (m, m.isValid)
  | .beacon => do
    let n ← b2lUpper 4 p 3
    let t ← b2lLower 4 (p.drop 3) 4
    let m := Mch.beacon n t
    pure (m, m.isValid)
  | .unicast => do
    let p0 ← rd p 0
    let p1 ← rd p 1
    let rx ← b2lLower 4 (p.drop 2) 4
    let tx ← b2lLower 4 (p.drop 6) 4
    let m := Mch.unicast ((p0 >>> 5) &&& 7) ((p0 >>> 4) &&& 1) (unpackSn p0 p1) rx tx
    pure (m, m.isValid)
  | .rdBroadcasting => do
    let p0 ← rd p 0
    let p1 ← rd p 1
    let tx ← b2lLower 4 (p.drop 2) 4
    let m := Mch.rdBroadcasting ((p0 >>> 5) &&& 7) ((p0 >>> 4) &&& 1) (unpackSn p0 p1) tx
    pure (m, m.isValid)
  | .empty => pure (.empty, true)
  | .escape => .abort

end Verif.Mac
