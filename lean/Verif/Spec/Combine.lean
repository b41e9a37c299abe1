import Verif.Spec.SymbolMap
import Mathlib.Algebra.BigOperators.Group.Finset.Basic

/-!
# Specification of the combining: channel and what is received -/

namespace Verif.Spec.Combine
open Verif.Spec.SymbolMap Finset

variable {K : Type} [Field K]

/-- A real multiple of a complex number -/
def scale (c : K) (z : Cx K) : Cx K := ⟨c * z.re, c * z.im⟩

/-- The signal at a receive antenna: what each of the `nTs` transmit streams sends is multiplied with the coefficient of the channel of that
stream, the sum is received with noise `n`. -/
def superposed (nTs : Nat) (g x : Nat → Cx K) (n : Cx K) : Cx K := (∑ t ∈ range nTs, g t * x t) + n

/-- Power received with all antennas from the streams whose coefficients are given -/
def power (nRx : Nat) (g : Nat → Cx K) : K := ∑ a ∈ range nRx, (g a).sq

/-- What remains of noise `n` with one stream and coefficients `g`: the noise of each antenna is weighted with its conjugated
coefficient. -/
def noise (nRx : Nat) (g n : Nat → Cx K) : Cx K := scale (power nRx g)⁻¹ (∑ a ∈ range nRx, n a * (g a).conj)

/-- Power received from the two streams of a pair -/
def pairPower (nRx : Nat) (gA gB : Nat → Cx K) : K := ∑ a ∈ range nRx, ((gA a).sq + (gB a).sq)

/-- What remains of the noise `n0` and `n1` in the two cells of a pair, for the first and for the second symbol -/
def pairNoise (second nRx : Nat) (gA gB n0 n1 : Nat → Cx K) : Cx K :=
  scale (pairPower nRx gA gB)⁻¹ (∑ a ∈ range nRx,
    if second = 0 then (gA a).conj * n0 a + gB a * (n1 a).conj else -gB a * (n0 a).conj + (gA a).conj * n1 a)

/-- What transmit stream `t` sends in cell `i`, with one spatial stream: symbol `i`, with transmit diversity if there is more than one
transmit stream -/
def sent (nTs : Nat) (sym : Nat → Cx K) (i t : Nat) : Cx K := if nTs = 1 then multiplexed 1 sym i t else diversity nTs sym i t

/-- At least one antenna receives cell `i`, on subcarrier `k`, from a stream which sends it; `g a t k` is the coefficient of the channel
from stream `t` to antenna `a`. -/
def Heard (nTs nRx : Nat) (g : Nat → Nat → Nat → Cx K) (i k : Nat) : Prop :=
  ∃ a < nRx, if nTs = 1 then g a 0 k ≠ 0 else g a (streams nTs (i / 2)).1 k ≠ 0 ∨ g a (streams nTs (i / 2)).2 k ≠ 0

/-- The channel can be used for these cells: each of them is heard, and it is the same in both cells of a pair. The latter is needed with
transmit diversity only. -/
def Usable (nTs nRx : Nat) (H : Nat → Nat → Nat → Nat → Cx K) (cells : List (Nat × Nat)) : Prop :=
  (∀ i l k, cells[i]? = some (l, k) → Heard nTs nRx (H l) i k) ∧
  (nTs ≠ 1 → ∀ c l k k', cells[2 * c]? = some (l, k) → cells[2 * c + 1]? = some (l, k') → ∀ a < nRx, ∀ t < nTs, H l a t k = H l a t k')

/-- What remains of the noise in symbol `i`, of which `cells` lists OFDM symbols and subcarriers; `H l a t k` is the channel in OFDM symbol
`l`, `N l a k` the noise -/
def residual (nTs nRx : Nat) (H : Nat → Nat → Nat → Nat → Cx K) (N : Nat → Nat → Nat → Cx K) (cells : List (Nat × Nat)) (i : Nat) : Cx K :=
  let l := (cells.getD i (0, 0)).1
  let k := (cells.getD i (0, 0)).2
  if nTs = 1 then noise nRx (fun a => H l a 0 k) (fun a => N l a k)
  else pairNoise (i % 2) nRx (fun a => H l a (streams nTs (i / 2)).1 k) (fun a => H l a (streams nTs (i / 2)).2 k)
    (fun a => N l a (cells.getD (i - i % 2) (0, 0)).2) (fun a => N l a (cells.getD (i - i % 2 + 1) (0, 0)).2)

end Verif.Spec.Combine
