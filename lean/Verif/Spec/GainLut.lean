import Mathlib.Data.Rat.Floor

/-!
# Interpolation in tables of gains and powers -/

namespace Verif.Spec.GainLut

/-- The requested value, limited to the range of the table -/
def Limited (first last value limited : ℚ) : Prop :=
  (value < first → limited = first) ∧ (first ≤ value ∧ value ≤ last → limited = value) ∧ (last < value → limited = last)

/-- A function that rounds: monotone, exact for zero and one, and without effect on what it returns. Rounding to nearest
`float` is of this kind, and so is no rounding at all. -/
structure Rounding (rnd : ℚ → ℚ) : Prop where
  mono : ∀ x y, x ≤ y → rnd x ≤ rnd y
  zero : rnd 0 = 0
  one : rnd 1 = 1
  idem : ∀ x, rnd (rnd x) = rnd x

/-- What a table must look like: at least two entries, the first one does not exceed the last one -/
def Table (vec : List ℚ) : Prop := 2 ≤ vec.length ∧ vec.headD 0 ≤ vec.getLastD 0

/-- What is required in gain_lut.hpp:47-58: strictly ascending, at least two entries -/
def Ascending (vec : List ℚ) : Prop := 2 ≤ vec.length ∧ vec.Pairwise (· < ·)

/-- One row of powers for each frequency, and at least as many gains as powers in each row -/
structure Tables (freqs : List ℚ) (gains powers : List (List ℚ)) : Prop where
  table : Table freqs
  nofPowers : freqs.length ≤ powers.length
  nofGains : freqs.length ≤ gains.length
  rows : ∀ r ∈ powers, Table r
  fits : ∀ i, i < freqs.length → (powers.getD i []).length ≤ (gains.getD i []).length

instance (vec : List ℚ) : Decidable (Table vec) := inferInstanceAs (Decidable (_ ∧ _))

instance (vec : List ℚ) : Decidable (Ascending vec) := inferInstanceAs (Decidable (_ ∧ _))

end Verif.Spec.GainLut
