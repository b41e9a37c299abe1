import Verif.Model.Feedback
import Verif.Spec.Feedback

namespace Verif.Feedback
open Verif.Spec

@[simp] theorem mask3 : bitmaskLsb 3 = 7 := by decide
@[simp] theorem mask2 : bitmaskLsb 2 = 3 := by decide
@[simp] theorem mask4 : bitmaskLsb 4 = 15 := by decide
@[simp] theorem mask6 : bitmaskLsb 6 = 63 := by decide
@[simp] theorem mask8 : bitmaskLsb 8 = 255 := by decide
@[simp] theorem mask16 : bitmaskLsb 16 = 65535 := by decide

theorem bufferStatus_code (n : Nat) : StatusCode (bufferStatus n) n := by
  unfold bufferStatus
  apply ite_ind (P := fun x => StatusCode x n)
  · intro h; simp [StatusCode]; omega
  intro _
  iterate 14
    apply ite_ind (P := fun x => StatusCode x n)
    · intro h; simp [StatusCode]; omega
    intro _
  simp [StatusCode]; omega

theorem bufferStatus_le (n : Nat) : bufferStatus n ≤ 15 := by
  have := bufferStatus_code n
  unfold StatusCode at this
  omega

theorem ClassFloor_le {d n : Nat} (h : ClassFloor d n) : d ≤ 131072 := by
  unfold ClassFloor at h
  rcases h with ⟨_, h⟩ | ⟨k, hk4, hk17, h, _⟩
  · omega
  · rw [h]; exact Nat.pow_le_pow_right (n := 2) (by omega) hk17

theorem StatusCode_unique {c c' n : Nat} (h : StatusCode c n) (h' : StatusCode c' n) : c = c' := by
  have lo : ∀ x, 2 ≤ x → 2 ^ 4 ≤ 2 ^ (x + 2) :=
    fun x hx => Nat.pow_le_pow_right (by omega) (by omega)
  have hi : ∀ x, x ≤ 14 → 2 ^ (x + 3) ≤ 2 ^ 17 :=
    fun x hx => Nat.pow_le_pow_right (by omega) (by omega)
  have mid : ∀ x y, x < y → 2 ^ (x + 3) ≤ 2 ^ (y + 2) :=
    fun x y hx => Nat.pow_le_pow_right (by omega) (by omega)
  have l1 := lo c
  have l2 := lo c'
  have l3 := hi c
  have l4 := hi c'
  have l5 := mid c c'
  have l6 := mid c' c
  unfold StatusCode at *
  omega

theorem bufferLower_classFloor (n : Nat) : ClassFloor (bufferLower (bufferStatus n)) n := by
  unfold bufferStatus
  apply ite_ind (P := fun x => ClassFloor (bufferLower x) n)
  · intro h; left; simp [bufferLower, lowerTable]; omega
  intro _
  apply ite_ind (P := fun x => ClassFloor (bufferLower x) n)
  · intro h; left; simp [bufferLower, lowerTable]; omega
  intro _
  apply ite_ind (P := fun x => ClassFloor (bufferLower x) n)
  · intro h; exact .inr ⟨4, by simp [bufferLower, lowerTable]; omega⟩
  intro _
  apply ite_ind (P := fun x => ClassFloor (bufferLower x) n)
  · intro h; exact .inr ⟨5, by simp [bufferLower, lowerTable]; omega⟩
  intro _
  apply ite_ind (P := fun x => ClassFloor (bufferLower x) n)
  · intro h; exact .inr ⟨6, by simp [bufferLower, lowerTable]; omega⟩
  intro _
  apply ite_ind (P := fun x => ClassFloor (bufferLower x) n)
  · intro h; exact .inr ⟨7, by simp [bufferLower, lowerTable]; omega⟩
  intro _
  apply ite_ind (P := fun x => ClassFloor (bufferLower x) n)
  · intro h; exact .inr ⟨8, by simp [bufferLower, lowerTable]; omega⟩
  intro _
  apply ite_ind (P := fun x => ClassFloor (bufferLower x) n)
  · intro h; exact .inr ⟨9, by simp [bufferLower, lowerTable]; omega⟩
  intro _
  apply ite_ind (P := fun x => ClassFloor (bufferLower x) n)
  · intro h; exact .inr ⟨10, by simp [bufferLower, lowerTable]; omega⟩
  intro _
  apply ite_ind (P := fun x => ClassFloor (bufferLower x) n)
  · intro h; exact .inr ⟨11, by simp [bufferLower, lowerTable]; omega⟩
  intro _
  apply ite_ind (P := fun x => ClassFloor (bufferLower x) n)
  · intro h; exact .inr ⟨12, by simp [bufferLower, lowerTable]; omega⟩
  intro _
  apply ite_ind (P := fun x => ClassFloor (bufferLower x) n)
  · intro h; exact .inr ⟨13, by simp [bufferLower, lowerTable]; omega⟩
  intro _
  apply ite_ind (P := fun x => ClassFloor (bufferLower x) n)
  · intro h; exact .inr ⟨14, by simp [bufferLower, lowerTable]; omega⟩
  intro _
  apply ite_ind (P := fun x => ClassFloor (bufferLower x) n)
  · intro h; exact .inr ⟨15, by simp [bufferLower, lowerTable]; omega⟩
  intro _
  apply ite_ind (P := fun x => ClassFloor (bufferLower x) n)
  · intro h; exact .inr ⟨16, by simp [bufferLower, lowerTable]; omega⟩
  intro _
  exact .inr ⟨17, by simp [bufferLower, lowerTable]; omega⟩

theorem Tf.val_of_ne {t : Tf} (h : t ≠ .undef) : t.val < 2 ∧ Tf.ofBit t.val = t := by
  cases t <;> simp_all [Tf.val, Tf.ofBit]

theorem Mimo.val_of_ne {t : Mimo} (h : t ≠ .undef) : t.val < 4 ∧ Mimo.ofBits t.val = t := by
  cases t <;> simp_all [Mimo.val, Mimo.ofBits]

theorem Tf.ofBit_ne (b : Nat) : Tf.ofBit b ≠ .undef := by
  unfold Tf.ofBit; split <;> simp

theorem Mimo.ofBits_ne (b : Nat) : Mimo.ofBits b ≠ .undef := by
  unfold Mimo.ofBits; repeat' split
  all_goals simp

theorem cqi2mcs_succ {m : Nat} (h : m ≤ 11) : cqi2mcs (m + 1) = m := by
  unfold cqi2mcs; split <;> omega

theorem F1.isValid_iff (f : F1) :
    f.isValid = true ↔ f.harq ≤ 7 ∧ f.tf ≠ .undef ∧ f.mcs ≤ 11 := by
  have := bufferStatus_le f.bufSize
  simp [F1.isValid, and_assoc, this]

theorem F2.isValid_iff (f : F2) :
    f.isValid = true ↔ f.codebook ≤ 7 ∧ (f.mimo = .single ∨ f.mimo = .dual) ∧ f.mcs ≤ 11 := by
  have := bufferStatus_le f.bufSize
  simp [F2.isValid, and_assoc, this]

theorem F3.isValid_iff (f : F3) :
    f.isValid = true ↔ f.harq0 ≤ 7 ∧ f.tf0 ≠ .undef ∧ f.harq1 ≤ 7 ∧ f.tf1 ≠ .undef ∧
      f.mcs ≤ 11 := by
  simp [F3.isValid, and_assoc]

theorem F4.isValid_iff (f : F4) : f.isValid = true ↔ f.bitmap ≤ 255 ∧ f.mcs ≤ 11 := by
  simp [F4.isValid]

theorem F5.isValid_iff (f : F5) :
    f.isValid = true ↔ f.harq ≤ 7 ∧ f.tf ≠ .undef ∧ f.mimo ≠ .undef ∧ f.codebook ≤ 63 := by
  simp [F5.isValid, and_assoc]

theorem F6.isValid_iff (f : F6) :
    f.isValid = true ↔ f.harq ≤ 7 ∧ f.reserved = 0 ∧ f.mcs ≤ 11 := by
  have := bufferStatus_le f.bufSize
  simp [F6.isValid, and_assoc, this]

end Verif.Feedback
