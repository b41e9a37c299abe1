import Verif.Model.Bimap

/-!
# Partial maps as functions, and what the calls of a bidirectional map do to them
-/

namespace Verif.Adt

/-- The calls that are allowed: new key for `insert`, known key for `erase` and `setV`, and, if values
are unique, a value that no key has. -/
def Allowed {K V : Type} (unique : Bool) (f : K → Option V) : BCall K V → Prop
  | .insert k v => f k = none ∧ (unique = true → ∀ k', f k' ≠ some v)
  | .erase k => f k ≠ none
  | .setV k v => f k ≠ none ∧ (unique = true → ∀ k', f k' ≠ some v)

/-- The effect of an allowed call. -/
def effect {K V : Type} [DecidableEq K] (f : K → Option V) : BCall K V → K → Option V
  | .insert k v => Function.update f k (some v)
  | .erase k => Function.update f k none
  | .setV k v => Function.update f k (some v)

end Verif.Adt
