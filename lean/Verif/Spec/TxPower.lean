/-!
# Transmit power codes, ETSI TS 103 636-4, table 6.2.1-3a
-/

namespace Verif.Spec

/-- Transmit power in dBm of a four bit code. -/
def txPowerDbm : Nat → Option Int
  | 0 => some (-40)
  | 1 => some (-30)
  | 2 => some (-20)
  | 3 => some (-16)
  | 4 => some (-12)
  | 5 => some (-8)
  | 6 => some (-4)
  | 7 => some 0
  | 8 => some 4
  | 9 => some 7
  | 10 => some 10
  | 11 => some 13
  | 12 => some 16
  | 13 => some 19
  | 14 => some 21
  | 15 => some 23
  | _ => none

end Verif.Spec
