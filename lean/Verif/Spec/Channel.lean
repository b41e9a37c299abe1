/-!
# Channels of ETSI TS 103 636-2, tables 5.4.2-1 and 5.4.2-2

Band number, first and last absolute channel number, and per group of bands: frequency of the reference channel, its
number, and the raster in Hz. -/

namespace Verif.Spec.Channel

def table : List (Nat × Nat × Nat) :=
  [(1, 1657, 1677), (2, 1680, 1700), (3, 2258, 2352), (4, 524, 552), (5, 1, 22), (6, 288, 411), (7, 309, 321),
   (8, 1137, 1234), (9, 1691, 1711), (10, 1806, 1822), (11, 2142, 2256), (12, 2374, 2511), (13, 3126, 3183),
   (14, 3184, 3298), (15, 3299, 3356), (16, 3994, 4103), (17, 4392, 4466), (18, 4105, 4203), (19, 4265, 4391)]

/-- Channel `n` belongs to band `b`. -/
def InBand (b n : Nat) : Prop := ∃ e ∈ table, e.1 = b ∧ e.2.1 ≤ n ∧ n ≤ e.2.2

/-- Frequency that the numbering of a group starts with, in Hz -/
def reference (n : Nat) : Int := if n < 2952 then 450144000 else if n < 4104 then 3000596000 else 5150000000

/-- Distance of neighbouring channels in Hz -/
def spacing (n : Nat) : Int := if n < 2952 then 864000 else if n < 4104 then 1728000 else 2000000

/-- Center frequency in Hz: channels 1 to 2951 are 864 kHz apart, 2952 to 4103 are 1728 kHz apart, and those from 4104
on 2 MHz. -/
def frequency (n : Nat) : Int :=
  if n < 2952 then 450144000 + n * 864000
  else if n < 4104 then 3000596000 + (n - 2952) * 1728000
  else 5150000000 + (n - 4104) * 2000000

end Verif.Spec.Channel

namespace Verif.Channel

/-- A channel number assigned to some band: the union of the 19 ranges, merged and in increasing
order. -/
def Assigned (n : Nat) : Prop :=
  (1 ≤ n ∧ n ≤ 22) ∨ (288 ≤ n ∧ n ≤ 411) ∨ (524 ≤ n ∧ n ≤ 552) ∨ (1137 ≤ n ∧ n ≤ 1234) ∨
  (1657 ≤ n ∧ n ≤ 1677) ∨ (1680 ≤ n ∧ n ≤ 1711) ∨ (1806 ≤ n ∧ n ≤ 1822) ∨
  (2142 ≤ n ∧ n ≤ 2256) ∨ (2258 ≤ n ∧ n ≤ 2352) ∨ (2374 ≤ n ∧ n ≤ 2511) ∨
  (3126 ≤ n ∧ n ≤ 3356) ∨ (3994 ≤ n ∧ n ≤ 4103) ∨ (4105 ≤ n ∧ n ≤ 4203) ∨
  (4265 ≤ n ∧ n ≤ 4466)

end Verif.Channel
