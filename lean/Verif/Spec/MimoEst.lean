import Verif.Spec.Codebook
import Mathlib.Algebra.Order.Field.Basic

/-!
# What a recommended beamforming matrix is -/

namespace Verif.Phy.MimoEst.Spec

variable {F : Type} [Field F] [LinearOrder F]

/-- What is received if `n` antennas send the same signal with the weights `W`: the sum over all antennas and the four cells considered,
`h a c` is the channel from antenna `a` in cell `c` -/
def received (W : List (Cx F)) (n : Nat) (h : Nat → Nat → Cx F) : Cx F :=
  ∑ a ∈ Finset.range n, ∑ c ∈ Finset.range 4, h a c * Codebook.Spec.weight W 1 a 0

/-- `r` has the highest lowest amplitude among all indices `lo..hi`: where antenna `i` receives less with `r`, some antenna receives at most as
much with any other index. Amplitudes from 10^6 on are not distinguished. Among equals it is the first. `none` is NaN. -/
structure Best (amp : Nat → Nat → Option F) (n lo hi r : Nat) : Prop where
  range : lo ≤ r ∧ r ≤ hi
  best : ∀ k, lo ≤ k → k ≤ hi → ∀ i < n, ∀ y, amp r i = some y → y < 1000000 → ∃ i' < n, ∃ x, amp k i' = some x ∧ x ≤ y
  first : ∀ k, lo ≤ k → k < r → ∃ i < n, ∃ x, amp k i = some x ∧ x < 1000000 ∧ ∀ i' < n, ∀ y, amp r i' = some y → x < y

/-- `sqrt` is the square root of positive integers -/
def Root (sqrt : F → F) : Prop := ∀ n : Nat, 0 < n → 0 < sqrt n ∧ sqrt n * sqrt n = n

/-- Cell `c` of those considered among the 14 b cells of a channel estimate -/
def cell (b c : Nat) : Nat := 14 * b / 4 / 2 + c * (14 * b / 4)

/-- The channel from stream `ts` to antenna `rx` in cell `c` -/
def chan (b : Nat) (ch : List (List (List (Cx F)))) (rx ts c : Nat) : Cx F := ((ch.getD rx []).getD ts []).getD (cell b c) 0

/-- One channel estimate per antenna and stream, each with at least 14 b cells -/
def Complete (b nRx nTs : Nat) (ch : List (List (List (Cx F)))) : Prop :=
  ch.length = nRx ∧ ∀ a ∈ ch, nTs ≤ a.length ∧ ∀ p ∈ a, 14 * b ≤ p.length

end Verif.Phy.MimoEst.Spec
