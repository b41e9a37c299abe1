import Mathlib.Data.Set.Basic
import Mathlib.Data.Rat.Defs

/-!
# Allocations: the terms of the properties C32, C33, C34 and C48

A resource of offset `off` and length `len` covers the samples `off`, ..., `off + len - 1` of each beacon period. -/

namespace Verif.Spec.Allocation

/-- Sample `s` of a beacon period belongs to the resource -/
def Covers (off len s : Nat) : Prop := off ≤ s ∧ s < off + len

/-- Two resources have no sample in common -/
def Apart (off len off' len' : Nat) : Prop := ∀ s, ¬ (Covers off len s ∧ Covers off' len' s)

/-- Times at which a resource starts: each offset, in each beacon period from the last known beacon on -/
def Start (beacon : Int) (period : Nat) (offsets : List Nat) (t : Int) : Prop :=
  ∃ k : Nat, ∃ o ∈ offsets, t = beacon + k * period + o

/-- `d` is the deviation of `t` from the closest point of the raster `ref + k * raster` -/
def ClosestDeviation (ref raster t d : Int) : Prop :=
  (∃ k : Int, t = ref + k * raster + d) ∧ ∀ k : Int, d.natAbs ≤ (t - (ref + k * raster)).natAbs

end Verif.Spec.Allocation
