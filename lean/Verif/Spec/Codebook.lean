import Verif.Base.Cx
import Mathlib.Algebra.BigOperators.Group.Finset.Basic

/-!
# What beamforming does

Transmit stream `t` is sent on antenna `a` with weight `W[a][t]`. -/

namespace Verif.Phy.Codebook.Spec

variable {F : Type} [Field F]

/-- Weight of a transmit stream on an antenna, the matrix is stored row by row, one row per antenna -/
def weight (W : List (Cx F)) (nTs a t : Nat) : Cx F := W.getD (a * nTs + t) 0

/-- A signal with another amplitude -/
def scaled (c : F) (z : Cx F) : Cx F := ⟨c * z.re, c * z.im⟩

/-- What antenna `a` sends, `x` are the transmit streams -/
def sent (W : List (Cx F)) (nTs : Nat) (x : Nat → Cx F) (a : Nat) : Cx F := ∑ t ∈ Finset.range nTs, weight W nTs a t * x t

/-- `sqrt` is exact for positive integers -/
def Exact (sqrt : F → F) : Prop := ∀ n : Nat, 0 < n → sqrt n * sqrt n = n

end Verif.Phy.Codebook.Spec
