import Verif.Model.Cells

/-!
# Vocabulary for C30

ETSI TS 103 636-3, 5.2.3. The occupied subcarriers are counted from the lowest, the DC subcarrier has index `28 b`. -/

namespace Verif.Sp3.Cells.Spec

/-- Index of the p-th of the `56 b` occupied subcarriers: the DC subcarrier is left out. -/
def subc (b p : Nat) : Nat := if p < 28 * b then p else p + 1

/-- Subcarrier `k` is occupied. -/
def Occupied (b k : Nat) : Prop := k ≤ 56 * b ∧ k ≠ 28 * b

/-- Distance in OFDM symbols of the DRS of a transmit stream -/
def step (nTs : Nat) : Nat := if nTs ≤ 2 then 5 else 10

/-- Cell `k` of OFDM symbol `l` carries a DRS of stream `t`: the n-th DRS symbol of stream t is 1 + t/4 + n step, every fourth
occupied subcarrier, shifted by two for odd n. -/
def DrsCell (b nTs t l k : Nat) : Prop :=
  t < nTs ∧ ∃ n p, l = 1 + t / 4 + n * step nTs ∧ p < 56 * b ∧ p % 4 = (t + n % 2 * 2) % 4 ∧ k = subc b p

end Verif.Sp3.Cells.Spec
