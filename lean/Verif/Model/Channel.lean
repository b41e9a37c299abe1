import Verif.Base.Bits

/-!
# Absolute channel numbers (src/sections_part2/channel_arrangement.cpp)
-/

namespace Verif.Channel

/-- `n_min`, `n_max` of `get_absolute_channel_frequency_numbering`, channel_arrangement.cpp:30-137.
The assertion `ASSERT_BAND_NUMBER` (line 32, channel_arrangement.hpp) is always true, so any other
band number uses the default branch, which is that of band 19. -/
def band (band_number : Nat) : Nat × Nat :=
  match band_number with
  | 1 => (1657, 1677)
  | 2 => (1680, 1700)
  | 3 => (2258, 2352)
  | 4 => (524, 552)
  | 5 => (1, 22)
  | 6 => (288, 411)
  | 7 => (309, 321)
  | 8 => (1137, 1234)
  | 9 => (1691, 1711)
  | 10 => (1806, 1822)
  | 11 => (2142, 2256)
  | 12 => (2374, 2511)
  | 13 => (3126, 3183)
  | 14 => (3184, 3298)
  | 15 => (3299, 3356)
  | 16 => (3994, 4103)
  | 17 => (4392, 4466)
  | 18 => (4105, 4203)
  | _ => (4265, 4391)

/-- `get_center_frequency`, channel_arrangement.cpp:139-174: `(F0_i, channel_spacing_i, FC_i)`; the
`double` copies are left out. -/
def centerFrequency (band_number n : Nat) : Res (Int × Int × Int) := do
  let acfn := band band_number
  Res.assert (decide (acfn.1 ≤ n) && decide (n ≤ acfn.2))
  let (f0, spacing, off) : Int × Int × Int :=
    if 1 ≤ band_number ∧ band_number ≤ 12 then (450144000, 864000, 0)
    else if 13 ≤ band_number ∧ band_number ≤ 16 then (3000596000, 1728000, 2952)
    else (5150000000, 2000000, 4104)
  pure (f0, spacing, f0 + ((n : Int) - off) * spacing)

/-- The loop of lines 183-189 for band numbers from `b`, `k` of them. -/
def scan (n : Nat) : Nat → Nat → Bool
  | _, 0 => false
  | b, k + 1 =>
    if (band b).1 ≤ n ∧ n ≤ (band b).2 then true else scan n (b + 1) k

/-- `is_absolute_channel_number_in_range`, channel_arrangement.cpp:176-192 -/
def inRange (n : Nat) : Bool :=
  if bitmaskLsb 13 < n then false else scan n 1 19

/-- `get_operating_band`, operating_bands.cpp:27-123: lower and upper frequency. The C++ code computes with `double`,
which is exact for these values; here they are in Hz. -/
def operatingBand (band_number : Nat) : Res (Int × Int) := do
  Res.assert (decide (1 ≤ band_number) && decide (band_number ≤ 17))
  pure (match band_number with
    | 1 => (1880000000, 1900000000)
    | 2 => (1900000000, 1920000000)
    | 3 => (2400000000, 2483500000)
    | 4 => (902000000, 928000000)
    | 5 => (450000000, 470000000)
    | 6 => (698000000, 806000000)
    | 7 => (716000000, 728000000)
    | 8 => (1432000000, 1517000000)
    | 9 => (1910000000, 1930000000)
    | 10 => (2010000000, 2025000000)
    | 11 => (2300000000, 2400000000)
    | 12 => (2500000000, 2620000000)
    | 13 => (3300000000, 3400000000)
    | 14 => (3400000000, 3600000000)
    | 15 => (3600000000, 3700000000)
    | 16 => (4800000000, 4990000000)
    | _ => (5725000000, 5875000000))

end Verif.Channel
