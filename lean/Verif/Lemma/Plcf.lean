import Verif.Model.Plcf
import Verif.Lemma.BitByte
import Verif.Lemma.Feedback

namespace Verif

@[simp] theorem rd_zero (a : Nat) (l : List Nat) : rd (a :: l) 0 = .ok a := rfl
@[simp] theorem rd_succ (a : Nat) (l : List Nat) (i : Nat) : rd (a :: l) (i + 1) = rd l i := rfl

namespace BitByte

theorem l2bLower2 (x : Nat) : l2bLower 4 x 2 = .ok [x / 256 % 256, x % 256] := by
  rw [l2bLower_eq x (by omega)]; rfl

theorem l2bLower4 (x : Nat) :
    l2bLower 4 x 4 = .ok [x / 256 / 256 / 256 % 256, x / 256 / 256 % 256, x / 256 % 256, x % 256] := by
  rw [l2bLower_eq x (by omega)]; rfl

theorem b2lLower2 (a b : Nat) (l : List Nat) : b2lLower 4 (a :: b :: l) 2 = .ok (a * 256 + b) := by
  rw [b2lLower_eq _ (by omega) (by simp)]; simp [ofBE]

theorem b2lLower4 (a b c d : Nat) (l : List Nat) :
    b2lLower 4 (a :: b :: c :: d :: l) 4 = .ok (((a * 256 + b) * 256 + c) * 256 + d) := by
  rw [b2lLower_eq _ (by omega) (by simp)]; simp [ofBE]

theorem rd_ok {p : List Nat} {i : Nat} (h : i < p.length) : rd p i = .ok p[i] := by
  simp [rd, List.getElem?_eq_getElem h]

end BitByte

namespace Plcf
open Identity Feedback BitByte

theorem Base.isValid_iff (b : Base) : b.isValid = true ↔ b.hf ≤ 1 ∧ b.plt ≤ 1 ∧ b.plm1 ≤ 15 := by
  simp [Base.isValid, and_assoc]

theorem validShortNetworkId_iff (x : Nat) : validShortNetworkId x = true ↔ 1 ≤ x ∧ x ≤ 255 := by
  simp [validShortNetworkId]; omega

theorem validShortRdId_iff (x : Nat) : validShortRdId x = true ↔ 1 ≤ x ∧ x ≤ 65535 := by
  simp [validShortRdId]; omega

theorem Base.pack_eq (b : Base) (h : b.hf ≤ 1 ∧ b.plt ≤ 1 ∧ b.plm1 ≤ 15) :
    b.pack = .ok (b.hf * 32 + b.plt * 16 + b.plm1) := by
  rw [Base.pack, (Base.isValid_iff b).2 h]
  obtain ⟨hf, plt, pl⟩ := b
  simp only [Res.assert_true, Res.ok_bind, Res.pure_eq] at *
  bits
  congr 1; omega

theorem Base.unpack_eq (b : Base) (h : b.hf ≤ 1 ∧ b.plt ≤ 1 ∧ b.plm1 ≤ 15) :
    Base.unpack (b.hf * 32 + b.plt * 16 + b.plm1) = (b, true) := by
  obtain ⟨hf, plt, pl⟩ := b
  simp only at h
  simp only [Base.unpack, Prod.mk.injEq, Base.isValid_iff, Base.mk.injEq]
  bits
  omega

theorem Base.pack_abort (b : Base) (h : ¬ (b.hf ≤ 1 ∧ b.plt ≤ 1 ∧ b.plm1 ≤ 15)) :
    b.pack = .abort := by
  have : b.isValid = false := by rw [← Bool.not_eq_true, Base.isValid_iff]; exact h
  simp [Base.pack, this]

end Plcf
end Verif
