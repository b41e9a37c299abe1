import Verif.Base.Bits

/-!
# MAC identities (src/sections_part4/mac_architecture/identity.cpp,
inc/sections_part4/mac_architecture/identity.hpp)
-/

namespace Verif.Identity

/-- `full_to_short_network_id`, identity.hpp:44-46. -/
def fullToShort (networkId : Nat) : Nat := networkId &&& 0xff

/-- `is_valid_NetworkID`, identity.cpp:47-53. -/
def validNetworkId (x : Nat) : Bool := !(x = 0)

/-- `is_valid_ShortNetworkID`, identity.cpp:55-65. -/
def validShortNetworkId (x : Nat) : Bool := !(x = 0) && !(bitmaskLsb 8 < x)

/-- `is_valid_LongRadioDeviceID`, identity.cpp:67-73. -/
def validLongRdId (x : Nat) : Bool := !(x = 0)

/-- `is_valid_ShortRadioDeviceID`, identity.cpp:75-85. -/
def validShortRdId (x : Nat) : Bool := !(x = 0) && !(bitmaskLsb 16 < x)

/-- `identity_t`, identity.hpp:48-52. -/
structure Ident where
  networkId : Nat
  shortNetworkId : Nat
  longRdId : Nat
  shortRdId : Nat
  deriving DecidableEq, Repr

/-- Constructor, identity.cpp:28-45. -/
def mk (networkId longRdId shortRdId : Nat) : Res Ident := do
  Res.assert (networkId ≠ 0)
  Res.assert (longRdId ≠ 0 && longRdId ≠ 0xFFFFFFFE && longRdId ≠ 0xFFFFFFFF)
  Res.assert (shortRdId ≠ 0 && shortRdId ≠ 0xFFFF)
  pure { networkId, shortNetworkId := fullToShort networkId, longRdId, shortRdId }

end Verif.Identity
