import Verif.Model.ChScan
import Mathlib.Algebra.BigOperators.Group.Finset.Basic

/-! # Specification of channel measurements -/

namespace Verif.ChScan

variable {R : Type} [Field R]

/-- Energy of the samples `x a t` of the first `nAnt` antennas at the `len` times from `t0` on -/
def windowEnergy (x : Nat → Nat → Cx R) (nAnt t0 len : Nat) : R :=
  ∑ a ∈ Finset.range nAnt, ∑ i ∈ Finset.range len, (x a (t0 + i)).sq

/-- RMS of these samples -/
def rms (sqrt : R → R) (x : Nat → Nat → Cx R) (nAnt t0 len : Nat) : R :=
  sqrt (windowEnergy x nAnt t0 len / ((len : R) * (nAnt : R)))

/-- Smallest and largest of measurement values within start values -/
def lowest [LinearOrder R] (top : R) (l : List R) : R := l.foldl min top
def highest [LinearOrder R] (bot : R) (l : List R) : R := l.foldl max bot

end Verif.ChScan
