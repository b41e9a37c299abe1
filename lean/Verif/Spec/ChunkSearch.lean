import Mathlib.Algebra.BigOperators.Group.Finset.Basic
import Mathlib.Data.Rat.Defs
import Mathlib.Algebra.Order.Ring.Rat

/-!
# Search for the peak of the smoothed metric -/

namespace Verif.Spec.ChunkSearch
open Finset

/-- Average of the most recent `L` values of the metric at position `pos`, in a search that begins at `r0`; values before
the beginning count as zero. -/
def smooth (m : Nat → ℚ) (r0 L pos : Nat) : ℚ := (∑ k ∈ range L, if r0 + k ≤ pos then m (pos - k) else 0) / (L : ℚ)

/-- `j` is the last one of the positions `r0`, ..., `r - 1` at which the average is largest. -/
structure LastMax (m : Nat → ℚ) (r0 L r j : Nat) : Prop where
  lo : r0 ≤ j
  hi : j < r
  max : ∀ i, r0 ≤ i → i < r → smooth m r0 L i ≤ smooth m r0 L j
  last : ∀ i, j < i → i < r → smooth m r0 L i < smooth m r0 L j

/-- Every report lies more than `d` samples behind the one before. -/
def Apart (d : Nat) (l : List Nat) : Prop := l.Pairwise fun a b => a + d < b

end Verif.Spec.ChunkSearch
