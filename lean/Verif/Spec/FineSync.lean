import Verif.Model.FineSync
import Mathlib.Algebra.BigOperators.Group.Finset.Basic

/-! # Specification of the fine synchronization -/

namespace Verif.Phy.FineSync

variable {K : Type} [Field K]

/-- Correlation of `n` samples of a signal from position `j` on with a template -/
def corr (n : Nat) (x t : Nat → Cx K) (j : Nat) : Cx K := ∑ i ∈ Finset.range n, x (j + i) * (t i).conj

/-- Energy of `n` samples from position `j` on -/
def energy (n : Nat) (x : Nat → Cx K) (j : Nat) : K := ∑ i ∈ Finset.range n, (x (j + i)).sq

/-- Samples of antenna `a` from the global time `t0` on, each turned by `step` more than the one before -/
def heard (cis : K → Cx K) (step : K) (t0 : Int) (rx : Nat → Int → Cx K) (a i : Nat) : Cx K := rx a (t0 + i) * cis (i * step)

/-- Template `k` as a signal -/
def template (tmpl : List (List (Cx K))) (k i : Nat) : Cx K := (tmpl.getD k []).getD i 0

/-- The libraries work: the index is one of a largest element, magnitudes do not decrease and are zero for zero only, cosine and sine are
those of an angle. -/
structure Lib.Good [LinearOrder K] (lib : Lib K) : Prop where
  imax_lt : ∀ l : List K, l ≠ [] → lib.imax l < l.length
  imax_le : ∀ l : List K, ∀ x ∈ l, x ≤ l.getD (lib.imax l) 0
  mag_zero : lib.mag 0 = 0
  mag_pos : ∀ x, 0 < x → 0 < lib.mag x
  mag_mono : ∀ x y, x ≤ y → lib.mag x ≤ lib.mag y
  cis_zero : lib.cis 0 = ⟨1, 0⟩
  cis_add : ∀ a b, lib.cis (a + b) = lib.cis a * lib.cis b
  cis_sq : ∀ a, (lib.cis a).sq = 1

/-- Single precision: products and quotients have a relative error of at most 2⁻²⁴ (there is no over- or underflow), adding to zero is exact, and so is the
conversion of integers up to 2²⁴. -/
structure Fp.Single [LinearOrder K] (fp : Fp K) : Prop where
  zero_add : ∀ x, fp.add 0 x = x
  mul : ∀ x y, |fp.mul x y - x * y| ≤ |x * y| / 2 ^ 24
  div : ∀ x y, y ≠ 0 → |fp.div x y - x / y| ≤ |x / y| / 2 ^ 24
  ofNat : ∀ n : Nat, n ≤ 2 ^ 24 → fp.ofNat n = n

/-- No rounding -/
def Fp.exact : Fp K := ⟨(· + ·), (· * ·), (· / ·), Nat.cast⟩

/-- What the search is given: as many coarse peaks and, for a number of antennas that is a power of two, as many templates as expected, each
as long as an STF, and enough samples. -/
structure Given (z : Dim) (n copied : Nat) (coarse : List K) (tmpl : List (List (Cx K))) : Prop where
  eff : z.eff ≤ z.stf
  stf : 0 < z.stf
  nCoarse : coarse.length = z.nLim
  pos : 0 < n
  le : n ≤ 4
  ant : z.nAnt = 2 ^ (n - 1)
  nTmpl : tmpl.length = n
  len : ∀ t ∈ tmpl, t.length = z.stf
  enough : z.required ≤ copied

/-- Antenna `a` is the first of those with the largest coarse peak, which is positive. -/
def Strongest [LinearOrder K] (coarse : List K) (a : Nat) : Prop :=
  a < coarse.length ∧ 0 < coarse.getD a 0 ∧ (∀ b < coarse.length, coarse.getD b 0 ≤ coarse.getD a 0) ∧ ∀ b < a, coarse.getD b 0 < coarse.getD a 0

end Verif.Phy.FineSync
