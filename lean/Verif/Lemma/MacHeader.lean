import Verif.Model.MacHeader
import Verif.Lemma.Plcf

namespace Verif

theorem mask12 : bitmaskLsb 12 = 4095 := by decide
theorem mask13 : bitmaskLsb 13 = 8191 := by decide
theorem mask24 : bitmaskLsb 24 = 16777215 := by decide

namespace BitByte

theorem l2bUpper3 (x : Nat) : l2bUpper 4 x 3 =
    .ok [x / 256 / 256 / 256 % 256, x / 256 / 256 % 256, x / 256 % 256] := by
  rw [l2bUpper_eq x (by omega)]; rfl

theorem b2lUpper3 (a b c : Nat) (l : List Nat) :
    b2lUpper 4 (a :: b :: c :: l) 3 = .ok (((a * 256 + b) * 256 + c) * 256) := by
  rw [b2lUpper_eq _ (by omega) (by simp)]; simp [ofBE]

theorem word4 {x : Nat} (h : x < 2 ^ 32) :
    ((x / 256 / 256 / 256 % 256 * 256 + x / 256 / 256 % 256) * 256 + x / 256 % 256) * 256 + x % 256
      = x := by
  have := ofBE_beBytes 4 x
  rw [Nat.mod_eq_of_lt (by omega)] at this
  simpa [beBytes, ofBE] using this

end BitByte

namespace Mac
open BitByte Identity Feedback

theorem validSn_iff (r z s : Nat) : validSn r z s = true ↔ r = 0 ∧ z ≤ 1 ∧ s ≤ 4095 := by
  simp [validSn, mask12, and_assoc]

theorem validLongRdId_iff (x : Nat) : validLongRdId x = true ↔ x ≠ 0 := by simp [validLongRdId]

theorem packSn_eq (r z s : Nat) (h : r = 0 ∧ z ≤ 1 ∧ s ≤ 4095) :
    packSn r z s = [z * 16 + s / 256, s % 256] := by
  obtain ⟨rfl, hz, hs⟩ := h
  simp only [packSn, mask8]
  bits
  simp; omega

theorem unpackSn_eq (z s : Nat) (_ : z ≤ 1) (hs : s ≤ 4095) :
    unpackSn (z * 16 + s / 256) (s % 256) = s := by
  unfold unpackSn; bits; omega

end Mac
end Verif
