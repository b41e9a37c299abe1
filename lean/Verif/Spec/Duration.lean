import Verif.Model.Duration
import Mathlib.Algebra.Order.Field.Rat
import Mathlib.Data.Rat.Floor

/-!
# Vocabulary for C31

Length in seconds: a slot is 10 ms / 24, a subslot at subcarrier scaling factor u is a slot / (2 u), ETSI TS 103 636-3, 4.4. -/

namespace Verif.Sp3.Duration

def Kind.seconds : Kind → ℚ
  | .ms001 => 1 / 1000
  | .s001 => 1
  | .slot001 => 1 / 100 / 24
  | .subslotU1 => 1 / 100 / 24 / 2
  | .subslotU2 => 1 / 100 / 24 / 4
  | .subslotU4 => 1 / 100 / 24 / 8
  | .subslotU8 => 1 / 100 / 24 / 16

/-- Length of a packet in seconds: `pl` slots or subslots -/
def packetSeconds (q : PsDef) : ℚ := if q.plt = 0 then q.pl * (1 / 100 / 24 / (2 * q.u)) else q.pl * (1 / 100 / 24)

end Verif.Sp3.Duration
