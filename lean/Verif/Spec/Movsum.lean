import Mathlib.Algebra.BigOperators.Group.Finset.Basic
import Mathlib.Algebra.Ring.Int.Defs

/-!
# Moving sums: sums over the most recent samples -/

namespace Verif.Spec.Movsum

open Finset

/-- `n` samples beginning with sample `t` of a sequence, each multiplied by its weight -/
def weighted {R : Type} [CommRing R] (w : Nat → Int) (s : Nat → R) (t n : Nat) : R := ∑ p ∈ range n, (w p : R) * s (t + p)

/-- The most recent `n` samples: the register holds the samples `first` at the beginning (zeros, unless it was loaded),
oldest one first, and then the samples `pushed` arrive. -/
def samples {R : Type} [Zero R] (first pushed : List R) (k : Nat) : R := (first ++ pushed).getD k 0

/-- Each weight of a cover sequence is repeated `n` times. -/
def repeated (uw : List Int) (n : Nat) (p : Nat) : Int := uw.getD (p / n) 0

/-- A cover sequence: signs, ending in +1 -/
def IsCover (uw : List Int) : Prop := (∀ x ∈ uw, x = 1 ∨ x = -1) ∧ uw.getLast? = some 1

end Verif.Spec.Movsum
