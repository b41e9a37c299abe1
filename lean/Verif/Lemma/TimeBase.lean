import Verif.Model.TimeBase
import Verif.Lemma.AllocationSearch
import Mathlib.Tactic.Linarith
import Mathlib.Tactic.NormNum
import Mathlib.Tactic.FieldSimp
import Mathlib.Tactic.Positivity
import Mathlib.Data.Rat.Cast.Order

/-!
# Lemmas on time bases -/

namespace Verif.Mac.TimeBase

open Verif.Sp3.Duration (i64)
open Verif.Mac.Allocation (i64_ok)

theorem ediv_unique {s y n r : Int} (hy : 0 < y) (h : s = n * y + r) (h0 : 0 ≤ r) (h1 : r < y) : s / y = n := by
  rw [h, Int.add_comm, Int.add_mul_ediv_right _ _ (by omega), Int.ediv_eq_zero_of_lt h0 h1, Int.zero_add]

/-- Rounding to the nearest multiple; half of the divisor is rounded away from zero. -/
theorem roundInteger_pos {x y n r : Int} (hy : 0 < y) (hy' : y < 4611686018427387904)
    (hx : -4611686018427387904 ≤ x ∧ x ≤ 4611686018427387904) (h : x = n * y + r)
    (hr : 2 * r < y ∧ -y < 2 * r ∨ 2 * r = y ∧ 0 < x ∨ 2 * r = -y ∧ x < 0) :
    roundInteger x y =
      .ok (if 2 * r = y ∧ 0 < x then n + 1 else if 2 * r = -y ∧ x < 0 then n - 1 else n) := by
  unfold roundInteger
  rw [if_neg (by omega)]
  have hd2 : y.tdiv 2 = y / 2 := Int.tdiv_eq_ediv_of_nonneg (by omega)
  have hn2 : (-y).tdiv 2 = -(y / 2) := by rw [Int.neg_tdiv, hd2]
  have key : ∀ m : Int, (∃ q, 0 ≤ q ∧ q < y ∧ (if 0 ≤ x then x + y / 2 = m * y + q else -x + y / 2 = -m * y + q)) →
      (i64 (x + (if decide (x < 0) = decide (y < 0) then y else -y).tdiv 2) >>= fun s => i64 (s.tdiv y)) = .ok m := by
    rintro m ⟨q, hq0, hq1, hq⟩
    have hyn : decide (y < 0) = false := by simp; omega
    by_cases hxs : 0 ≤ x
    · rw [if_pos hxs] at hq
      have : decide (x < 0) = false := by simp; omega
      rw [if_pos (by rw [this, hyn]), hd2, i64_ok (by omega) (by omega), Res.ok_bind,
        Int.tdiv_eq_ediv_of_nonneg (by omega), ediv_unique hy hq hq0 hq1]
      have hb := Int.ediv_le_self (a := x + y / 2) y (by omega)
      have hc := Int.ediv_nonneg (a := x + y / 2) (b := y) (by omega) (by omega)
      rw [ediv_unique hy hq hq0 hq1] at hb hc
      exact i64_ok (by omega) (by omega)
    · rw [if_neg hxs] at hq
      have : decide (x < 0) = true := by simp; omega
      rw [if_neg (by rw [this, hyn]; simp), hn2, i64_ok (by omega) (by omega), Res.ok_bind]
      have e : (x + -(y / 2)).tdiv y = m := by
        rw [show x + -(y / 2) = -(-x + y / 2) by ring, Int.neg_tdiv, Int.tdiv_eq_ediv_of_nonneg (by omega),
          ediv_unique hy hq hq0 hq1, Int.neg_neg]
      rw [e]
      have hb := Int.ediv_le_self (a := -x + y / 2) y (by omega)
      have hc := Int.ediv_nonneg (a := -x + y / 2) (b := y) (by omega) (by omega)
      rw [ediv_unique hy hq hq0 hq1] at hb hc
      exact i64_ok (by omega) (by omega)
  by_cases hh : 2 * r = y ∧ 0 < x
  · rw [if_pos hh]
    apply key
    refine ⟨r + y / 2 - y, by omega, by omega, ?_⟩
    rw [if_pos (by omega), h]
    ring
  · rw [if_neg hh]
    by_cases hh2 : 2 * r = -y ∧ x < 0
    · rw [if_pos hh2]
      apply key
      refine ⟨-r + y / 2 - y, by omega, by omega, ?_⟩
      rw [if_neg (by omega), h]
      ring
    · rw [if_neg hh2]
      apply key
      by_cases hxs : 0 ≤ x
      · refine ⟨r + y / 2, by omega, by omega, ?_⟩
        rw [if_pos hxs, h]
        ring
      · refine ⟨-r + y / 2, by omega, by omega, ?_⟩
        rw [if_neg hxs, h]
        ring

/-- Every number is close to a multiple. -/
theorem exists_near (x : Int) {y : Int} (hy : 0 < y) :
    ∃ n r, x = n * y + r ∧ (2 * r < y ∧ -y < 2 * r ∨ 2 * r = y ∧ 0 < x ∨ 2 * r = -y ∧ x < 0) := by
  have h1 := Int.emod_nonneg x (b := y) (by omega)
  have h2 := Int.emod_lt_of_pos x hy
  have h3 : x = x / y * y + x % y := by
    have := Int.mul_ediv_add_emod x y
    rw [Int.mul_comm] at this
    omega
  by_cases h : 2 * (x % y) < y
  · exact ⟨x / y, x % y, h3, by omega⟩
  · by_cases h' : 2 * (x % y) = y
    · by_cases h0 : 0 < x
      · exact ⟨x / y, x % y, h3, by omega⟩
      · refine ⟨x / y + 1, x % y - y, ?_, ?_⟩
        · rw [Int.add_mul, Int.one_mul]; omega
        · have : x ≠ 0 := by
            intro hx
            rw [hx, Int.zero_emod] at h'
            omega
          omega
    · refine ⟨x / y + 1, x % y - y, ?_, by omega⟩
      rw [Int.add_mul, Int.one_mul]; omega

end Verif.Mac.TimeBase
