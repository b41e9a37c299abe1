import Verif.Base.Res
import Verif.Model.Duration
import Mathlib.Data.Rat.Defs
import Mathlib.Data.Rat.Floor

/-!
# Time bases: pulses derived from beacons, and the ratio of the clocks

src/mac/ppx/ppx.cpp, src/mac/pll/pll.cpp, `round_integer` of inc/common/adt/miscellaneous.hpp and inc/common/adt/ema.hpp.
Durations are given by their number of samples (`uint32_t`). -/

namespace Verif.Mac.TimeBase

open Verif.Sp3.Duration (i64)

/-- miscellaneous.hpp:38-43; both divisions truncate, a divisor of zero is undefined. -/
def roundInteger (x y : Int) : Res Int :=
  if y = 0 then .ub
  else do
    let s ← i64 (x + (if decide (x < 0) = decide (y < 0) then y else -y).tdiv 2)
    i64 (s.tdiv y)

/-- ppx_t, ppx.hpp:67-82 -/
structure Ppx where
  period : Nat
  length : Nat
  advance : Nat
  beaconPeriod : Nat
  devMax : Nat
  warped : Int
  edge : Int
  deriving DecidableEq

/-- Constructor, ppx.cpp:29-48; UNDEFINED_EARLY_64 is INT64_MIN/8. -/
def Ppx.make (period length advance beaconPeriod devMax : Nat) : Res Ppx := do
  Res.assert (decide (length < period))
  Res.assert (decide (advance < period))
  Res.assert (decide (beaconPeriod < period))
  if beaconPeriod = 0 then .ub
  else do
    Res.assert (decide (period % beaconPeriod = 0))
    .ok ⟨period, length, advance, beaconPeriod, devMax, period, -1152921504606846976⟩

/-- ppx.hpp:38 -/
def Ppx.hasEdge (p : Ppx) : Bool := decide (0 ≤ p.edge)

/-- ppx.cpp:50-55 -/
def Ppx.setEdge (p : Ppx) (t : Int) : Res Ppx := do
  Res.assert (decide (p.edge < 0))
  Res.assert (decide (0 < t))
  .ok { p with edge := t }

/-- ppx.hpp:62-64 -/
def Ppx.setWarped (p : Ppx) (w : Int) : Ppx := { p with warped := w }

/-- ppx.cpp:57-59 -/
def Ppx.extrapolate (p : Ppx) : Res Ppx := do
  let e ← i64 (p.edge + p.warped)
  .ok { p with edge := e }

/-- ppx.cpp:89-102 -/
def determineOffset (ref raster t : Int) : Res Int := do
  Res.assert (decide (raster.tmod 2 = 0))
  let a ← i64 (t - ref)
  let b ← roundInteger a raster
  let br ← i64 (b * raster)
  let c ← i64 (ref + br)
  let d ← i64 (t - c)
  Res.assert (decide ((d.natAbs : Int) < raster.tdiv 2))
  .ok d

/-- ppx.cpp:65-80 -/
def Ppx.provideRaster (p : Ppx) (beacon raster : Int) : Res Ppx := do
  Res.assert (decide (0 ≤ p.edge))
  let d ← determineOffset p.edge raster beacon
  Res.assert (decide (d.natAbs ≤ p.devMax))
  let e ← i64 (p.edge + d)
  .ok { p with edge := e }

/-- ppx.cpp:61-63 -/
def Ppx.provide (p : Ppx) (beacon : Int) : Res Ppx := p.provideRaster beacon p.beaconPeriod

/-- ppx.cpp:82-86: rising and falling edge -/
def Ppx.imminent (p : Ppx) : Res (Int × Int) := do
  let a ← i64 (p.edge + p.warped)
  let b ← i64 (a + p.length)
  .ok (a, b)

/-- pll_t, pll.hpp:59-77. The exponential moving average is a `double`; here its value is exact. -/
structure Pll where
  period : Nat
  accept : Int
  distMax : Int
  vec : List Int
  idx : Nat
  warp : ℚ
  deriving DecidableEq, Repr

/-- Constructor, pll.cpp:30-49 with the values of pll_param.hpp and reference_time.cpp:27-39 (15 ppm). `rate` is the
sample rate of the beacon period. `dist_min_64` is 5·rate, `dist_min_accept_64` is `rate`; the length of the vector is their ratio. -/
def Pll.make (rate period : Nat) : Res Pll := do
  let accept : Int := rate * 1000 / 1000
  let distMin : Int := rate * 5000 / 1000
  let distMax : Int := distMin + period * 8
  Res.assert (decide (accept < distMin))
  if accept = 0 then .ub
  else do
    Res.assert (decide (distMin % accept = 0))
    Res.assert (decide (distMin < distMax))
    Res.assert (decide (distMax * 15 / 1000000 < period / 8))
    .ok ⟨period, accept, distMax, List.replicate (distMin / accept).toNat (-1152921504606846976), 0, 1⟩

/-- pll.hpp:79 -/
def Pll.prevIdx (p : Pll) : Nat := if p.idx = 0 then p.vec.length - 1 else p.idx - 1

/-- pll.hpp:80 -/
def Pll.nextIdx (p : Pll) : Nat := if p.idx = p.vec.length - 1 then 0 else p.idx + 1

/-- pll.hpp:39 and 42; the default outside the vector stands for the exception of `at`. -/
def Pll.lastKnown (p : Pll) : Int := p.vec.getD p.prevIdx 0

def Pll.oldestKnown (p : Pll) : Int := p.vec.getD p.nextIdx 0

/-- 150 ppm, pll_param.hpp:35 -/
def outOfSync : ℚ := 150 / 1000000

/-- pll.cpp:81-108: the new ratio enters the average with weight 1 - 0.9. A number of periods of zero makes the ratio
infinite, so that the first assert of the average fails. -/
def Pll.measure (p : Pll) (dist : Int) : Res Pll := do
  let n ← roundInteger dist p.period
  let eq ← i64 (n * p.period)
  Res.assert (decide (eq ≠ 0))
  let latest : ℚ := (dist : ℚ) / (eq : ℚ)
  let w : ℚ := p.warp * (9 / 10) + (1 - 9 / 10) * latest
  Res.assert (decide (w < 1 + outOfSync))
  Res.assert (decide (1 - outOfSync < w))
  .ok { p with warp := w }

/-- pll.cpp:52-108. Signed differences beyond 64 bits are undefined. -/
def Pll.provide (p : Pll) (t : Int) : Res Pll := do
  let a ← i64 (t - p.lastKnown)
  if a < p.accept then .ok p
  else
    let p1 : Pll := { p with vec := p.vec.set p.idx t }
    if p1.oldestKnown < 0 then .ok { p1 with idx := p1.nextIdx }
    else do
      let dist ← i64 (t - p1.oldestKnown)
      if p.distMax < dist then .ok { p1 with idx := p1.nextIdx }
      else Pll.measure { p1 with idx := p1.nextIdx } dist

/-- pll.cpp:110-114 -/
def Pll.reset (p : Pll) : Pll :=
  { p with vec := p.vec.map fun _ => -1152921504606846976, idx := 0, warp := 1 }

/-- pll.hpp:48-53 for integers: rounding half away from zero (`std::round`), exact arithmetic. -/
def Pll.warped (p : Pll) (n : Int) : Int :=
  let x : ℚ := n * p.warp
  if 0 ≤ x then ⌊x + 1 / 2⌋ else ⌈x - 1 / 2⌉

end Verif.Mac.TimeBase
