import Verif.Model.Mmh

/-!
# Specification of the MAC multiplexing header (ETSI TS 103 636-4, 6.3.4)

Written from Tables 6.3.4-1 to 6.3.4-4 as reproduced in mac_multiplexing_header.hpp:32-109, as
plain tables, independently of the packing code.
-/

namespace Verif.Mac

/-- Assigned IE types. Values 7, 26, 27, 28, 31..61 have no enumerator; for the one-bit length
field the tables depend on the length. -/
def Assigned (e : MacExt) (len ie : Nat) : Prop :=
  match e with
  | .len1 => (len = 0 ∧ (ie = 0 ∨ ie = 1 ∨ ie = 16 ∨ ie = 30)) ∨
      (len = 1 ∧ (ie = 0 ∨ ie = 1 ∨ ie = 30))
  | _ => ie ≤ 6 ∨ (8 ≤ ie ∧ ie ≤ 25) ∨ ie = 29 ∨ ie = 30 ∨ ie = 62 ∨ ie = 63

/-- The length fits the length field of the extension. -/
def LengthFits (e : MacExt) (len : Nat) : Prop :=
  match e with
  | .noLength => True
  | .len8 => len ≤ 255
  | .len16 => len ≤ 65535
  | .len1 => len ≤ 1

/-- Octets of the header. -/
def headerSize : MacExt → Nat
  | .noLength => 1
  | .len8 => 2
  | .len16 => 3
  | .len1 => 1

/-- Combinations of extension and type the receiver accepts, and what they announce. -/
def announced (e : MacExt) (ie : Nat) : Option Kind :=
  if ie = 0 ∧ e ≠ .len16 then some .padding
  else if e = .noLength ∧ ie = 9 then some .clusterBeacon
  else if e = .noLength ∧ ie = 29 then some .powerTarget
  else if e = .noLength ∧ ie = 30 then some .timeAnnounce
  else if (e = .len8 ∨ e = .len16) ∧ 3 ≤ ie ∧ ie ≤ 6 then some .userPlaneData
  else none

instance (e : MacExt) (len ie : Nat) : Decidable (Assigned e len ie) := by
  cases e <;> (unfold Assigned; infer_instance)

end Verif.Mac
