import Mathlib.Algebra.BigOperators.Group.Finset.Basic
import Mathlib.Algebra.Field.Defs

/-!
# What an OFDM symbol is

ETSI TS 103 636-3: subcarriers are numbered from the lowest frequency to the highest, the one in the middle is the carrier (DC). -/

namespace Verif.Phy.Ofdm.Spec

variable {F : Type} [Field F]

/-- Number of the subcarrier relative to the carrier, of `occ + 1` -/
def freq (occ s : Nat) : Int := (s : Int) - (occ / 2 : Nat)

/-- Superposition of the subcarriers at time `t` (in samples, zero at the end of the cyclic prefix); `ω` is the rotation of the first
subcarrier in one sample -/
def wave (ω : F) (occ : Nat) (Y : Nat → F) (t : Int) : F := ∑ s ∈ Finset.range (occ + 1), Y s * ω ^ (freq occ s * t)

/-- What antenna `a` sends on a subcarrier: the transmit streams, weighted with the row of the antenna in the matrix -/
def precoded (W : List F) (nTs n : Nat) (ts : List (List F)) (a s : Nat) : F :=
  ∑ t ∈ Finset.range n, W.getD (a * nTs + t) 0 * (ts.getD t []).getD s 0

/-- A path from a transmit antenna to a receive antenna: antenna, gain, delay in samples -/
structure Path (F : Type) where
  ant : Nat
  gain : F
  delay : Nat

/-- Sample `n` received over all paths, `tx` are the samples of the transmit antennas -/
def heard (paths : List (Path F)) (tx : Nat → Nat → F) (n : Nat) : F := (paths.map fun p => p.gain * tx p.ant (n - p.delay)).sum

/-- What arrives on a subcarrier: each path delays all subcarriers alike, and thus rotates each according to its frequency -/
def response (ω : F) (occ : Nat) (paths : List (Path F)) (Y : Nat → Nat → F) (s : Nat) : F :=
  (paths.map fun p => p.gain * ω ^ (-(freq occ s * p.delay)) * Y p.ant s).sum

end Verif.Phy.Ofdm.Spec
