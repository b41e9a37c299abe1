import Verif.Base.ParseWP
import Verif.Lemma.BitByte

/-!
# Reading arbitrary octets as fields

Every sufficiently long list of octets starts with the encoding of a field.
-/

namespace Verif
open BitByte

theorem split_octet (q : List Nat) (hq : Bytes q) (h : 1 ≤ q.length) :
    ∃ x r, q = x :: r ∧ x ≤ 255 ∧ Bytes r := by
  match q, h with
  | x :: r, _ =>
    have := hq x (by simp)
    exact ⟨x, r, rfl, by omega, fun b hb => hq b (by simp [hb])⟩

theorem split_opt (f : Bool) (q : List Nat) (hq : Bytes q) (h : f.toNat ≤ q.length) :
    ∃ x r, q = P.wr x (fun x => [x]) ++ r ∧ x.isSome = f ∧ (∀ a, x = some a → a ≤ 255) ∧
      Bytes r := by
  cases f with
  | false => exact ⟨none, q, rfl, rfl, by simp, hq⟩
  | true =>
    obtain ⟨x, r, rfl, hx, hr⟩ := split_octet q hq h
    exact ⟨some x, r, rfl, rfl, by rintro _ ⟨⟩; exact hx, hr⟩

theorem split_opt2 (f : Bool) (q : List Nat) (hq : Bytes q) (h : f.toNat * 2 ≤ q.length) :
    ∃ (x : Option (Nat × Nat)) (r : List Nat), q = P.wr x (fun x => [x.1, x.2]) ++ r ∧
      x.isSome = f ∧ (∀ a, x = some a → a.1 ≤ 255 ∧ a.2 ≤ 255) ∧ Bytes r := by
  cases f with
  | false => exact ⟨none, q, rfl, rfl, by simp, hq⟩
  | true =>
    simp only [Bool.toNat_true] at h
    obtain ⟨x, r, rfl, hx, hr⟩ := split_octet q hq (by omega)
    obtain ⟨y, r, rfl, hy, hr⟩ := split_octet r hr (by simp only [List.length_cons] at h; omega)
    exact ⟨some (x, y), r, rfl, rfl, by rintro _ ⟨⟩; exact ⟨hx, hy⟩, hr⟩

theorem split_be (n : Nat) (q : List Nat) (hq : Bytes q) (h : n ≤ q.length) :
    ∃ x r, q = beBytes n x ++ r ∧ x < 256 ^ n ∧ Bytes r := by
  have hb : Bytes (q.take n) := fun b hb => hq b (List.mem_of_mem_take hb)
  have hl : (q.take n).length = n := by simp [h]
  refine ⟨ofBE (q.take n), q.drop n, ?_, ?_, fun b hb => hq b (List.mem_of_mem_drop hb)⟩
  · have := beBytes_ofBE _ hb
    rw [hl] at this
    rw [this, List.take_append_drop]
  · have := ofBE_lt _ hb
    rwa [hl] at this

end Verif
