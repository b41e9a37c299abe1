import Verif.Base.Bits

/-!
# Scoped enumerations with `not_defined`, `lower`, `upper` (inc/common/adt/enumeration.hpp:28-67)

A variable of such an enumeration is modelled by its underlying `uint32_t` value.
-/

namespace Verif

/-- `UNDEFINED_NUMERIC_32`, inc/common/adt/miscellaneous.hpp:66 -/
def undef32 : Nat := 4294967295

/-- `from_coded_value` for an enumeration with `upper` and without `lower`, enumeration.hpp:40 -/
def enumFrom (upper v : Nat) : Nat := if v < upper then v else undef32

/-- `from_coded_value` for an enumeration with `lower` and `upper`, enumeration.hpp:36-38 -/
def enumFromL (lower upper v : Nat) : Nat := if lower < v ∧ v < upper then v else undef32

/-- `is_valid` for an enumeration with `upper` and without `lower`, enumeration.hpp:49-67 -/
def enumValid (upper v : Nat) : Bool := !(v = undef32) && !(v = upper)

/-- `is_valid` for an enumeration with `lower` and `upper`, enumeration.hpp:49-67 -/
def enumValidL (lower upper v : Nat) : Bool := !(v = undef32) && !(v = lower) && !(v = upper)

end Verif
