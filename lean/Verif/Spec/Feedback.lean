/-!
# Specification vocabulary for feedback info (ETSI TS 103 636-4, table 6.2.2-2a and following)
-/

namespace Verif.Spec

/-- `d` is the lower limit of the buffer status class containing `n`: classes are `{0}`,
`(0,16]`, `(16,32]`, ..., `(65536,131072]`, `(131072,∞)`. -/
def ClassFloor (d n : Nat) : Prop :=
  (n ≤ 16 ∧ d = 0) ∨ (∃ k, 4 ≤ k ∧ k ≤ 17 ∧ d = 2 ^ k ∧ 2 ^ k < n ∧ (n ≤ 2 ^ (k + 1) ∨ k = 17))

/-- `c` is the buffer status code of size `n`. -/
def StatusCode (c n : Nat) : Prop :=
  (c = 0 ∧ n = 0) ∨ (c = 1 ∧ 0 < n ∧ n ≤ 16) ∨
  (2 ≤ c ∧ c ≤ 14 ∧ 2 ^ (c + 2) < n ∧ n ≤ 2 ^ (c + 3)) ∨ (c = 15 ∧ 131072 < n)

end Verif.Spec
