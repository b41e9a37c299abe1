import Verif.Base.Res
import Verif.Model.PacketSizes

/-!
# Durations

src/sections_part3/derivative/{duration,duration_ec,duration_lut}.cpp, and the packet lengths of packet_sizes.cpp:234-258.
`uint32_t` values are natural numbers, `int64_t` values are integers; leaving the range of `int64_t` is undefined. -/

namespace Verif.Sp3.Duration

/-- A result of type `int64_t` -/
def i64 (x : Int) : Res Int := if -9223372036854775808 ≤ x ∧ x < 9223372036854775808 then .ok x else .ub

/-- duration_ec.hpp:27-36 -/
inductive Kind where
  | ms001 | s001 | slot001 | subslotU1 | subslotU2 | subslotU4 | subslotU8
  deriving DecidableEq

/-- duration.cpp:40-64 -/
def Kind.divisor : Kind → Nat
  | .ms001 => 1000
  | .s001 => 1
  | .slot001 => 2400
  | .subslotU1 => 4800
  | .subslotU2 => 9600
  | .subslotU4 => 19200
  | .subslotU8 => 38400

/-- Constructor, duration.cpp:28-82: `N_samples` -/
def samples (rate : Nat) (k : Kind) (mult : Nat) : Res Nat := do
  Res.assert (decide (0 < rate))
  Res.assert (decide (0 < mult))
  Res.assert (decide (rate % k.divisor = 0))
  let n := rate / k.divisor
  Res.assert (decide (0 < n))
  Res.assert (decide (n * mult ≤ 4294967295 / 2))
  .ok (n * mult)

/-- `get_duration_ec_depending_on_mu`, duration_ec.cpp:27-42 -/
def kindOfMu (u : Nat) : Res Kind := do
  Res.assert (decide (u = 1 ∨ u = 2 ∨ u = 4 ∨ u = 8))
  .ok (if u = 1 then .subslotU1 else if u = 2 then .subslotU2 else if u = 4 then .subslotU4 else .subslotU8)

/-- All entries of the array of duration_lut_t, duration_lut.cpp:30-39 -/
structure Lut where
  rate : Nat
  vec : Kind → Nat

/-- Constructor, duration_lut.cpp:30-39. -/
def Lut.make (rate : Nat) : Res Lut := do
  let a ← samples rate .ms001 1
  let b ← samples rate .s001 1
  let c ← samples rate .slot001 1
  let d ← samples rate .subslotU1 1
  let e ← samples rate .subslotU2 1
  let f ← samples rate .subslotU4 1
  let g ← samples rate .subslotU8 1
  .ok ⟨rate, fun k => Kind.casesOn k a b c d e f g⟩

/-- duration_lut.hpp:44-47 -/
def Lut.fromDuration (l : Lut) (k : Kind) (mult : Nat) : Res Int := i64 (l.vec k * mult)

/-- duration_lut.cpp:41-43 -/
def Lut.fromSubslots (l : Lut) (u mult : Nat) : Res Int := do
  let k ← kindOfMu u
  l.fromDuration k mult

/-- `multiple_leq`, miscellaneous.hpp:46-50; the division truncates. -/
def multipleLeq (x m : Int) : Res Int := do
  Res.assert (decide (1 ≤ m))
  i64 (x.tdiv m * m)

/-- `multiple_geq`, miscellaneous.hpp:52-56 -/
def multipleGeq (x m : Int) : Res Int := do
  let l ← multipleLeq x m
  if l < x then i64 (l + m) else .ok l

/-- duration_lut.cpp:45-48 -/
def Lut.lastSecond (l : Lut) (t : Int) : Res Int := multipleLeq t l.rate

/-- duration_lut.cpp:50-53 -/
def Lut.nextSecond (l : Lut) (t : Int) : Res Int := multipleGeq t l.rate

/-- `get_N_ns_from_samples`, duration_lut.cpp:55-63 -/
def Lut.ns (l : Lut) (n : Int) : Res Int := do
  let a := n.tdiv l.rate
  let b := n.tmod l.rate
  let x ← i64 (a * 1000000000)
  let y ← i64 (b * 1000000000)
  i64 (x + y.tdiv l.rate)

/-- duration_lut.hpp:67-69 -/
def Lut.us (l : Lut) (n : Int) : Res Int := do
  let x ← l.ns n
  .ok (x.tdiv 1000)

/-- `get_N_duration_in_second`, duration_lut.cpp:65-69, for a duration of `d` samples; a default constructed one has zero. -/
def Lut.inSecond (l : Lut) (d : Nat) : Res Nat := do
  if d = 0 then .ub
  else do
    Res.assert (decide (l.rate % d = 0))
    .ok (l.rate / d)

/-- `get_N_samples_in_packet_length`, packet_sizes.cpp:234-250; 64-bit products, `static_cast<uint32_t>` -/
def packetLength (r : PacketSizes) (rate : Nat) : Res Nat := do
  let b := r.psdef.u * r.psdef.b * 1728000 % 4294967296
  if b = 0 then .ub
  else do
    let ret := (r.nSamplesPacket * rate + b - 1) / b % 4294967296
    Res.assert (decide (r.nSamplesPacket ≤ ret))
    .ok ret

/-- `get_N_samples_in_packet_length_max`, packet_sizes.cpp:252-258 -/
def packetLengthMax (r : PacketSizes) (rate : Nat) : Res Nat := do
  let d ← samples rate .slot001 1
  .ok (r.psdef.pl * d % 4294967296)

end Verif.Sp3.Duration
