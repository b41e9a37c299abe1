import Verif.Spec.MacPdu
import Verif.Lemma.MacHeader

namespace Verif.Mac.Mmh
open BitByte

theorem mask16 : bitmaskLsb 16 = 65535 := by decide
theorem mask6 : bitmaskLsb 6 = 63 := by decide
theorem mask5 : bitmaskLsb 5 = 31 := by decide
theorem mask8' : bitmaskLsb 8 = 255 := by decide

/-- The value determined by the first octet. -/
def peekOf (p0 : Nat) : Mmh :=
  match unpackExtIe zero [p0] with
  | .ok (h, _) => h
  | _ => zero

/-- All 256 first octets. -/
theorem unpackExtIe_all : ∀ p0 < 256, unpackExtIe zero [p0] = .ok (peekOf p0, (peekOf p0).tinfo.isSome) := by
  decide +kernel

theorem unpackExtIe_cons (h : Mmh) (p0 : Nat) (rest : List Nat) :
    unpackExtIe h (p0 :: rest) = unpackExtIe h [p0] := rfl

theorem ie_of_assigned {e : MacExt} {len ie : Nat} (ha : Assigned e len ie) : ie ≤ 63 := by
  cases e <;> simp only [Assigned] at ha <;> omega

theorem isValid_of {e : MacExt} {len ie : Nat} {t : Option Kind} (ha : Assigned e len ie)
    (hl : LengthFits e len) : (Mmh.mk (some e) ie len t).isValid = true := by
  have := ie_of_assigned ha
  have hiv : ieValid ie = true := by
    have : ie ≠ undef32 := by unfold undef32; omega
    simp [ieValid, this]
  cases e <;> simp only [LengthFits] at hl <;>
    simp only [isValid, hiv, mask8', mask16]
  · rw [if_neg (by omega), if_neg (by omega)]
  · rw [if_neg (by omega)]
  · have : len = 0 ∨ len = 1 := by omega
    rcases this with rfl | rfl <;> simp

end Verif.Mac.Mmh
