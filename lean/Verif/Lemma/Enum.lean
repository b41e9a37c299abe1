import Verif.Model.Enum

namespace Verif

theorem enumFrom_of_lt {u v : Nat} (h : v < u) : enumFrom u v = v := if_pos h

theorem enumFromL_of {l u v : Nat} (h : l < v) (h' : v < u) : enumFromL l u v = v :=
  if_pos ⟨h, h'⟩

theorem enumValid_of_lt {u v : Nat} (h : v < u) (hu : u ≤ 1000) : enumValid u v = true := by
  have h1 : v ≠ undef32 := by unfold undef32; omega
  have h2 : v ≠ u := by omega
  simp [enumValid, h1, h2]

theorem enumValidL_of {l u v : Nat} (h : l < v) (h' : v < u) (hu : u ≤ 1000) :
    enumValidL l u v = true := by
  have h1 : v ≠ undef32 := by unfold undef32; omega
  simp [enumValidL, h1]; omega

/-- The values a variable of an enumeration with `upper` can have. -/
def EnumVal (u v : Nat) : Prop := v ≤ u ∨ v = undef32

/-- The values a variable of an enumeration with `lower` and `upper` can have. -/
def EnumValL (l u v : Nat) : Prop := (l ≤ v ∧ v ≤ u) ∨ v = undef32

theorem enumValid_iff {u v : Nat} (h : EnumVal u v) (hu : u ≤ 1000) :
    enumValid u v = true ↔ v < u := by
  constructor
  · intro hv
    simp only [enumValid, Bool.and_eq_true, Bool.not_eq_true', decide_eq_false_iff_not] at hv
    rcases h with h | h <;> omega
  · exact fun h => enumValid_of_lt h hu

theorem enumValidL_iff {l u v : Nat} (h : EnumValL l u v) (hu : u ≤ 1000) :
    enumValidL l u v = true ↔ l < v ∧ v < u := by
  constructor
  · intro hv
    simp only [enumValidL, Bool.and_eq_true, Bool.not_eq_true', decide_eq_false_iff_not] at hv
    rcases h with h | h <;> omega
  · exact fun h => enumValidL_of h.1 h.2 hu

theorem enumVal_from (u v : Nat) : EnumVal u (enumFrom u v) := by
  unfold enumFrom EnumVal; split <;> omega

theorem enumValL_from (l u v : Nat) : EnumValL l u (enumFromL l u v) := by
  unfold enumFromL EnumValL; split <;> omega

end Verif
