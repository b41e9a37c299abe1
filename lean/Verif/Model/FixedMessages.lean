import Verif.Model.Enum
import Verif.Model.BitByte
import Mathlib.Data.Rat.Floor

/-!
# MAC messages and IEs of fixed size
(src/sections_part4/mac_messages_and_ie/*.cpp)

`pack` returns the bytes written. `unpack` returns the members and the returned flag.
-/

namespace Verif.Mac
open BitByte

/-- `association_release_message_t`, association_release_message.cpp:41-59,
association_release_message.hpp:30-47 (`upper` = 10). -/
structure AssociationRelease where
  cause : Nat
  deriving DecidableEq, Repr

namespace AssociationRelease
/-- association_release_message.cpp:43-45 -/
def isValid (m : AssociationRelease) : Bool := enumValid 10 m.cause
/-- association_release_message.cpp:47 -/
def packedSize (_ : AssociationRelease) : Nat := 1
/-- association_release_message.cpp:49-53 -/
def pack (m : AssociationRelease) : Res (List Nat) := do
  Res.assert m.isValid
  pure [u8 (m.cause <<< 4)]
/-- association_release_message.cpp:55-59 -/
def unpack (p : List Nat) : Res (AssociationRelease × Bool) := do
  let b ← rd p 0
  let m : AssociationRelease := ⟨enumFrom 10 (b >>> 4)⟩
  pure (m, m.isValid)
end AssociationRelease

/-- `radio_device_status_ie_t`, radio_device_status_ie.hpp:30-59 (`status_flag_t`: lower 0, upper 3;
`duration_t`: upper 12). -/
structure RadioDeviceStatus where
  flag : Nat
  duration : Nat
  deriving DecidableEq, Repr

namespace RadioDeviceStatus
/-- radio_device_status_ie.cpp:45-47 -/
def isValid (m : RadioDeviceStatus) : Bool := enumValidL 0 3 m.flag && enumValid 12 m.duration
/-- radio_device_status_ie.cpp:49 -/
def packedSize (_ : RadioDeviceStatus) : Nat := 1
/-- radio_device_status_ie.cpp:51-57 -/
def pack (m : RadioDeviceStatus) : Res (List Nat) := do
  Res.assert m.isValid
  let p0 := u8 (m.flag <<< 4)
  pure [u8 (p0 ||| m.duration)]
/-- radio_device_status_ie.cpp:59-66 -/
def unpack (p : List Nat) : Res (RadioDeviceStatus × Bool) := do
  let b ← rd p 0
  let m : RadioDeviceStatus := ⟨enumFromL 0 3 ((b >>> 4) &&& 3), enumFrom 12 (b &&& 15)⟩
  pure (m, m.isValid)
end RadioDeviceStatus

/-- `route_info_ie_t`, route_info_ie.hpp:31-33. -/
structure RouteInfo where
  sink : Nat
  cost : Nat
  seq : Nat
  deriving DecidableEq, Repr

namespace RouteInfo
/-- route_info_ie.cpp:45-47 -/
def isValid (m : RouteInfo) : Bool := m.cost ≤ 0xff && m.seq ≤ 0xff
/-- route_info_ie.cpp:49 -/
def packedSize (_ : RouteInfo) : Nat := 6
/-- route_info_ie.cpp:51-63 -/
def pack (m : RouteInfo) : Res (List Nat) := do
  Res.assert m.isValid
  let q ← l2bLower 4 m.sink 4
  pure (q ++ [u8 m.cost, u8 m.seq])
/-- route_info_ie.cpp:65-73 -/
def unpack (p : List Nat) : Res (RouteInfo × Bool) := do
  let s ← b2lLower 4 p 4
  let c ← rd p 4
  let n ← rd p 5
  pure (⟨s, c, n⟩, true)
end RouteInfo

/-- `mac_security_info_ie_t`, mac_security_info_ie.hpp:30-54. `version` is the constant `mode_1` = 0;
`security_iv_type_mode_1_t` has upper 3. -/
structure SecurityInfo where
  key : Nat
  iv : Nat
  hpc : Nat
  deriving DecidableEq, Repr

namespace SecurityInfo
/-- mac_security_info_ie.cpp:42-46 -/
def zero : SecurityInfo := ⟨undef32, undef32, undef32⟩
/-- mac_security_info_ie.cpp:48-50 -/
def isValid (m : SecurityInfo) : Bool := m.key ≤ 3 && enumValid 3 m.iv
/-- mac_security_info_ie.cpp:52 -/
def packedSize (_ : SecurityInfo) : Nat := 5
/-- mac_security_info_ie.cpp:54-65 -/
def pack (m : SecurityInfo) : Res (List Nat) := do
  Res.assert m.isValid
  let p0 := u8 (0 <<< 6)
  let p0 := u8 (p0 ||| m.key <<< 4)
  let p0 := u8 (p0 ||| m.iv)
  let q ← l2bLower 4 m.hpc 4
  pure (p0 :: q)
/-- mac_security_info_ie.cpp:67-84 -/
def unpack (p : List Nat) : Res (SecurityInfo × Bool) := do
  let b ← rd p 0
  if b >>> 6 ≠ 0 then
    pure (zero, false)
  else do
    let h ← b2lLower 4 (p.drop 1) 4
    let m : SecurityInfo := ⟨(b >>> 4) &&& 3, enumFrom 3 (b &&& 15), h⟩
    pure (m, m.isValid)
end SecurityInfo

/-- `power_target_ie_t`, extensions/power_target_ie.hpp:43. -/
structure PowerTarget where
  coded : Nat
  deriving DecidableEq, Repr

namespace PowerTarget
/-- extension/power_target_ie.cpp:40-42 -/
def isValid (m : PowerTarget) : Bool := 45 ≤ m.coded && m.coded ≤ 60
/-- extension/power_target_ie.cpp:44 -/
def packedSize (_ : PowerTarget) : Nat := 1
/-- extension/power_target_ie.cpp:46-49 -/
def pack (m : PowerTarget) : Res (List Nat) := do
  Res.assert m.isValid
  pure [u8 m.coded]
/-- extension/power_target_ie.cpp:51-55 -/
def unpack (p : List Nat) : Res (PowerTarget × Bool) := do
  let b ← rd p 0
  let m : PowerTarget := ⟨b⟩
  pure (m, m.isValid)
/-- `set_power_target_dBm_coded`, power_target_ie.hpp:33-36. Every finite `float` is a rational;
`roundf` rounds half away from zero and is exact, so `abs(roundf(x)) = floor(|x| + 1/2)`. The
conversion to `uint32_t` is undefined from 2^32 on; this is not modelled (it has no effect on the
theorems, which are about `|x| < 100`). -/
def setDbm (x : ℚ) : PowerTarget := ⟨⌊|x| + 1 / 2⌋.toNat⟩
/-- `get_power_target_dBm_uncoded`, power_target_ie.hpp:38-40 -/
def getDbm (m : PowerTarget) : ℚ := -(m.coded : ℚ)
end PowerTarget

/-- `time_announce_ie_t`, extensions/time_announce_ie.hpp:51-60 (`time_type_t`: upper 3). -/
structure TimeAnnounce where
  type : Nat
  frames : Nat
  fullSec : Int
  taiMinusUtc : Nat
  deriving DecidableEq, Repr

/-- Conversion of a `uint64_t` to `int64_t`. -/
def toI64 (x : Nat) : Int := if x % 2 ^ 64 < 2 ^ 63 then (x % 2 ^ 64 : Nat) else (x % 2 ^ 64 : Nat) - 2 ^ 64

namespace TimeAnnounce
/-- `set_time`, extension/time_announce_ie.cpp:40-48; `N_frames` is an `int32_t` stored in a
`uint32_t`. -/
def setTime (type : Nat) (frames : Int) (sec : Int) : TimeAnnounce :=
  ⟨type, (frames % 2 ^ 32).toNat, sec, 0⟩
/-- extension/time_announce_ie.cpp:57-75 -/
def isValid (m : TimeAnnounce) : Bool :=
  if !enumValid 3 m.type then false
  else if 255 < m.frames then false
  else if m.fullSec < 0 then false
  else if 255 < m.taiMinusUtc then false
  else true
/-- extension/time_announce_ie.cpp:77 -/
def packedSize (_ : TimeAnnounce) : Nat := 11
/-- extension/time_announce_ie.cpp:79-86 -/
def pack (m : TimeAnnounce) : Res (List Nat) := do
  Res.assert m.isValid
  let q ← l2bLower 8 (m.fullSec % 2 ^ 64).toNat 8
  pure ([u8 m.type, u8 m.frames] ++ q ++ [u8 m.taiMinusUtc])
/-- extension/time_announce_ie.cpp:88-97 -/
def unpack (p : List Nat) : Res (TimeAnnounce × Bool) := do
  let t ← rd p 0
  let n ← rd p 1
  let s ← b2lLower 8 (p.drop 2) 8
  let u ← rd p 10
  let m : TimeAnnounce := ⟨enumFrom 3 t, n, toI64 s, u⟩
  pure (m, m.isValid)
end TimeAnnounce

end Verif.Mac
