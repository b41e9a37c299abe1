import Mathlib.Data.Int.Log
import Mathlib.Algebra.Order.Round
import Mathlib.Algebra.Order.Archimedean.Basic
import Mathlib.Data.Rat.Floor
import Mathlib.Tactic.Ring
import Mathlib.Tactic.Linarith
import Mathlib.Tactic.Positivity
import Mathlib.Tactic.FieldSimp

/-!
# Rounding to single precision

Only what is needed of `float` arithmetic: non-negative numbers with a significand of 24 bits, without limits of the
exponent, rounded to nearest. How ties are broken is left open: theorems hold for every function `rnd` with
`Rounds rnd`. -/

namespace Verif.F32

/-- Non-negative numbers with a significand of 24 bits -/
def IsFloat (x : ℚ) : Prop := ∃ (m : ℕ) (e : ℤ), m < 2 ^ 24 ∧ x = m * (2 : ℚ) ^ e

/-- `rnd` rounds non-negative numbers to nearest. -/
structure Rounds (rnd : ℚ → ℚ) : Prop where
  isFloat : ∀ x, 0 ≤ x → IsFloat (rnd x)
  nearest : ∀ x f, 0 ≤ x → IsFloat f → |x - rnd x| ≤ |x - f|

/-- Such a function exists. -/
def rnd (x : ℚ) : ℚ := round (x / (2 : ℚ) ^ (Int.log 2 x - 23)) * (2 : ℚ) ^ (Int.log 2 x - 23)

theorem isFloat_two_pow (m : ℕ) (hm : m ≤ 2 ^ 24) (e : ℤ) : IsFloat (m * (2 : ℚ) ^ e) := by
  rcases Nat.lt_or_eq_of_le hm with h | h
  · exact ⟨m, e, h, rfl⟩
  · refine ⟨2 ^ 23, e + 1, by norm_num, ?_⟩
    rw [h, zpow_add₀ (by norm_num)]
    norm_num
    ring

theorem isFloat_nat {n : ℕ} (h : n ≤ 2 ^ 24) : IsFloat n := by
  have := isFloat_two_pow n h 0
  rwa [zpow_zero, mul_one] at this

theorem rounds_rnd : Rounds rnd := by
  have key : ∀ x : ℚ, 0 < x → ∃ y : ℚ, x = y * (2 : ℚ) ^ (Int.log 2 x - 23) ∧ 2 ^ 23 ≤ y ∧ y < 2 ^ 24 ∧
      rnd x = round y * (2 : ℚ) ^ (Int.log 2 x - 23) := by
    intro x hx
    have h1 := Int.zpow_log_le_self (b := 2) (r := x) (by norm_num) hx
    have h2 := Int.lt_zpow_succ_log_self (b := 2) (r := x) (by norm_num)
    have hp : (0 : ℚ) < (2 : ℚ) ^ (Int.log 2 x - 23) := zpow_pos (by norm_num) _
    push_cast at h1 h2
    refine ⟨x / (2 : ℚ) ^ (Int.log 2 x - 23), by field_simp, ?_, ?_, rfl⟩
    · rw [le_div_iff₀ hp]
      refine le_trans (le_of_eq ?_) h1
      rw [← zpow_natCast, ← zpow_add₀ (by norm_num)]
      congr 1; push_cast; ring
    · rw [div_lt_iff₀ hp]
      refine lt_of_lt_of_eq h2 ?_
      rw [← zpow_natCast, ← zpow_add₀ (by norm_num)]
      congr 1; push_cast; ring
  have zero : rnd 0 = 0 := by unfold rnd; simp
  constructor
  · intro x hx
    rcases hx.eq_or_lt with rfl | hx
    · rw [zero]; exact ⟨0, 0, by norm_num, by simp⟩
    obtain ⟨y, -, h1, h2, h3⟩ := key x hx
    rw [h3]
    have hr : 0 ≤ round y := by
      rw [round_eq]; exact Int.floor_nonneg.mpr (by linarith)
    have hr2 : round y ≤ 2 ^ 24 := by
      rw [round_eq]
      have : y + 1 / 2 < ((2 ^ 24 + 1 : ℤ) : ℚ) := by push_cast; linarith
      have := Int.floor_lt.mpr this
      omega
    obtain ⟨m, hm⟩ := Int.eq_ofNat_of_zero_le hr
    rw [hm] at hr2 ⊢
    exact isFloat_two_pow m (by exact_mod_cast hr2) _
  · intro x f hx hf
    rcases hx.eq_or_lt with rfl | hx
    · rw [zero]; simp
    obtain ⟨y, h0, h1, h2, h3⟩ := key x hx
    generalize he : Int.log 2 x - 23 = e at *
    have hp : (0 : ℚ) < (2 : ℚ) ^ e := zpow_pos (by norm_num) _
    rw [h3]
    obtain ⟨m, e', hm, rfl⟩ := hf
    have e1 : x - round y * (2 : ℚ) ^ e = (y - round y) * (2 : ℚ) ^ e := by
      conv_lhs => rw [h0]
      ring
    have e2 : x - m * (2 : ℚ) ^ e' = (y - m * (2 : ℚ) ^ (e' - e)) * (2 : ℚ) ^ e := by
      conv_lhs => rw [h0]
      rw [sub_mul, mul_assoc, ← zpow_add₀ (by norm_num), sub_add_cancel]
    rw [e1, e2, abs_mul, abs_mul]
    refine mul_le_mul_of_nonneg_right ?_ (abs_nonneg _)
    rcases le_or_gt e e' with h | h
    · obtain ⟨k, hk⟩ := Int.eq_ofNat_of_zero_le (sub_nonneg.mpr h)
      rw [hk]
      have := round_le y (m * 2 ^ k : ℤ)
      push_cast at this
      simpa using this
    · have hlt : (m : ℚ) * (2 : ℚ) ^ (e' - e) ≤ 2 ^ 23 := by
        have a : (2 : ℚ) ^ (e' - e) ≤ (2 : ℚ) ^ (-1 : ℤ) := zpow_le_zpow_right₀ (by norm_num) (by omega)
        have b : (m : ℚ) ≤ 2 ^ 24 := by exact_mod_cast hm.le
        calc (m : ℚ) * (2 : ℚ) ^ (e' - e) ≤ 2 ^ 24 * (2 : ℚ) ^ (-1 : ℤ) := mul_le_mul b a (zpow_pos (by norm_num) _).le (by norm_num)
          _ = 2 ^ 23 := by norm_num
      have := round_le y (2 ^ 23 : ℤ)
      rw [show ((2 ^ 23 : ℤ) : ℚ) = 2 ^ 23 by norm_num] at this
      rw [abs_of_nonneg (by linarith : 0 ≤ y - 2 ^ 23)] at this
      rw [abs_of_nonneg (by linarith : 0 ≤ y - (m : ℚ) * 2 ^ (e' - e))]
      linarith

variable {rnd : ℚ → ℚ}

theorem rnd_float (hr : Rounds rnd) {x : ℚ} (h0 : 0 ≤ x) (hx : IsFloat x) : rnd x = x := by
  have := hr.nearest x x h0 hx
  rw [sub_self, abs_zero] at this
  have := abs_eq_zero.mp (le_antisymm this (abs_nonneg _))
  linarith

theorem rnd_nat (hr : Rounds rnd) {n : ℕ} (h : n ≤ 2 ^ 24) : rnd n = n := rnd_float hr (by positivity) (isFloat_nat h)

/-- The quotient of natural numbers below 2^24 has the right ceiling although it is rounded. -/
theorem ceil_div (hr : Rounds rnd) {a b : ℕ} (hb : 0 < b) (ha : a < 2 ^ 24) (hb2 : b < 2 ^ 24) :
    ⌈rnd (rnd a / rnd b)⌉₊ = (a + b - 1) / b := by
  rw [rnd_nat hr ha.le, rnd_nat hr hb2.le]
  have hbq : (0 : ℚ) < b := by exact_mod_cast hb
  have hdm := Nat.div_add_mod a b
  generalize hq : a / b = q at *
  generalize hg : a % b = g at *
  have hgb : g < b := hg ▸ Nat.mod_lt _ hb
  have hx : (a : ℚ) / b = q + (g : ℚ) / b := by
    rw [← hdm]; push_cast; field_simp
  rcases Nat.eq_zero_or_pos g with h0 | h0
  · have hr2 : (a + b - 1) / b = q := by
      rw [← hdm, h0]
      rw [show b * q + 0 + b - 1 = (b - 1) + q * b by rw [Nat.mul_comm]; omega, Nat.add_mul_div_right _ _ hb, Nat.div_eq_of_lt (by omega)]
      omega
    rw [hr2, hx, h0, Nat.cast_zero, zero_div, add_zero, rnd_nat hr (hq ▸ (Nat.div_le_self a b).trans ha.le)]
    exact Nat.ceil_natCast q
  · have hr2 : (a + b - 1) / b = q + 1 := by
      rw [← hdm]
      rw [show b * q + g + b - 1 = (g - 1) + (q + 1) * b by rw [Nat.add_mul, Nat.mul_comm b]; omega,
        Nat.add_mul_div_right _ _ hb, Nat.div_eq_of_lt (by omega)]
      omega
    rw [hr2, hx]
    generalize hxx : (q : ℚ) + (g : ℚ) / b = x at *
    have hgq : (0 : ℚ) < g := by exact_mod_cast h0
    have hfrac : (1 : ℚ) / b ≤ (g : ℚ) / b := by
      apply div_le_div_of_nonneg_right _ hbq.le
      exact_mod_cast h0
    have hfrac2 : (g : ℚ) / b < 1 := by
      rw [div_lt_one hbq]; exact_mod_cast hgb
    have hpos : (0 : ℚ) < (g : ℚ) / b := by positivity
    have hqn : (0 : ℚ) ≤ q := by positivity
    have hx0 : 0 ≤ x := by linarith
    have hqa : q ≤ a := hq ▸ Nat.div_le_self a b
    have up := hr.nearest x (q + 1 : ℕ) hx0 (isFloat_nat (by omega))
    have lo := hr.nearest x q hx0 (isFloat_nat (by omega))
    push_cast at up
    rw [abs_of_nonpos (by linarith : x - (q + 1) ≤ 0)] at up
    rw [abs_of_nonneg (by linarith : 0 ≤ x - q)] at lo
    have up' := abs_le.mp up
    have lo' := abs_le.mp lo
    have h1 : rnd x ≤ q + 1 := by linarith [up'.1]
    have h2 : (q : ℚ) < rnd x := by
      rcases (show (q : ℚ) ≤ rnd x by linarith [lo'.2]).eq_or_lt with heq | hlt
      · exfalso
        -- a float closer to x than q
        obtain ⟨d, hd0, hd1, hd2⟩ : ∃ d : ℚ, 0 < d ∧ d < 2 * ((g : ℚ) / b) ∧ IsFloat (q + d) := by
          rcases Nat.eq_zero_or_pos q with hq0 | hq0
          · refine ⟨(2 : ℚ) ^ (-24 : ℤ), by positivity, ?_, 1, -24, by norm_num, by rw [hq0]; simp⟩
            have : (2 : ℚ) ^ (-24 : ℤ) < 1 / b := by
              rw [lt_div_iff₀ hbq, zpow_neg, inv_mul_lt_iff₀ (by positivity), mul_one]
              exact_mod_cast hb2
            linarith
          · have hk1 : 2 ^ Nat.log 2 q ≤ q := Nat.pow_log_le_self 2 (by omega)
            have hk2 : q < 2 ^ (Nat.log 2 q + 1) := Nat.lt_pow_succ_log_self (by norm_num) q
            generalize Nat.log 2 q = k at hk1 hk2
            have hk : k < 24 := by
              by_contra hk
              have : 2 ^ 24 ≤ 2 ^ k := Nat.pow_le_pow_right (by norm_num) (by omega)
              omega
            have hbk : b * 2 ^ k < 2 ^ 24 := by
              calc b * 2 ^ k ≤ b * q := Nat.mul_le_mul_left _ hk1
                _ ≤ a := by omega
                _ < 2 ^ 24 := ha
            refine ⟨(2 : ℚ) ^ ((k : ℤ) - 23), zpow_pos (by norm_num) _, ?_, ?_⟩
            · have : (2 : ℚ) ^ ((k : ℤ) - 24) < 1 / b := by
                rw [lt_div_iff₀ hbq, zpow_sub₀ (by norm_num), div_mul_eq_mul_div, div_lt_one (by positivity), mul_comm]
                exact_mod_cast hbk
              have e : (2 : ℚ) ^ ((k : ℤ) - 23) = 2 * (2 : ℚ) ^ ((k : ℤ) - 24) := by
                rw [show (k : ℤ) - 23 = (k - 24) + 1 by ring, zpow_add₀ (by norm_num)]; ring
              rw [e]; linarith
            · have e : ((q * 2 ^ (23 - k) + 1 : ℕ) : ℚ) * (2 : ℚ) ^ ((k : ℤ) - 23) = q + (2 : ℚ) ^ ((k : ℤ) - 23) := by
                push_cast
                rw [add_mul, one_mul, mul_assoc]
                congr 1
                rw [← zpow_natCast, ← zpow_add₀ (by norm_num)]
                have : ((23 - k : ℕ) : ℤ) + ((k : ℤ) - 23) = 0 := by omega
                rw [this, zpow_zero, mul_one]
              rw [← e]
              refine isFloat_two_pow _ ?_ _
              have : (q + 1) * 2 ^ (23 - k) ≤ 2 ^ (k + 1) * 2 ^ (23 - k) := Nat.mul_le_mul_right _ hk2
              rw [← Nat.pow_add, show k + 1 + (23 - k) = 24 by omega, Nat.add_mul] at this
              have := Nat.one_le_two_pow (n := 23 - k)
              omega
        have cl := hr.nearest x (q + d) hx0 hd2
        rw [← heq, abs_of_nonneg (by linarith : 0 ≤ x - q)] at cl
        have : |x - (q + d)| < x - q := by
          rw [abs_lt]; constructor <;> linarith
        linarith
      · exact hlt
    apply le_antisymm
    · rw [Nat.ceil_le]; push_cast; exact h1
    · rw [Nat.add_one_le_ceil_iff]; exact h2

end Verif.F32
