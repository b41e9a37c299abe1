import Verif.Base.Res
import Verif.Base.Cx

/-!
# Channel scanner and the scanning firmware

phy/rx/chscan/chscanner.cpp, chscan.hpp, upper/chscanner/tfw_chscanner.cpp. Exact arithmetic, `sqrt` is any function. -/

namespace Verif.ChScan

variable {R : Type} [Field R]

/-- `ant_streams`: length of the ring, samples allocated beyond it, number of antennas -/
structure Ring where
  L : Nat
  K : Nat
  nAnt : Nat

/-- Members set by the constructor of `chscan_t`, chscan.hpp:39-48 -/
structure Req where
  endT : Int
  nPartial : Nat
  nAnt : Nat

/-- `rms_vec` and `rms_avg` -/
structure Result (R : Type) where
  rms : List R
  avg : R

/-- `static_cast<uint32_t>(t % L)`, chscanner.cpp:82-85; the remainder has the sign of `t` -/
def idx (L : Nat) (t : Int) : Nat := ((t.tmod L) % 2 ^ 32).toNat

/-- Real part of `volk_32fc_x2_conjugate_dot_prod_32fc` of `n` samples from index `a` with themselves -/
def energy (v : Nat → Cx R) (a n : Nat) : R := ((List.range n).map fun i => (v (a + i)).sq).sum

/-- The same with the bounds of the memory -/
def readEnergy (c : Ring) (v : Nat → Cx R) (a n : Nat) : Res R := if a + n ≤ c.L + c.K then .ok (energy v a n) else .ub

/-- `ant_streams_length_samples - A` as `uint32_t` -/
def toEnd (c : Ring) (a : Nat) : Nat := if a ≤ c.L then c.L - a else c.L + 2 ^ 32 - a

/-- Energy over the antennas, chscanner.cpp:108-135; `v a i` is what the scan finds at index `i` of antenna `a` -/
def energyAll (c : Ring) (v : Nat → Nat → Cx R) (nAnt a b : Nat) : Res R :=
  if a < b then
    (List.range nAnt).foldlM (fun s k => do
      let x ← readEnergy c (v k) a (b - a + 1)
      .ok (s + x)) 0
  else
    (List.range nAnt).foldlM (fun s k => do
      let x ← readEnergy c (v k) a (toEnd c a)
      let y ← readEnergy c (v k) 0 (b + 1)
      .ok (s + x + y)) 0

/-- `scan_partial`, chscanner.cpp:77-141 -/
def scanPartial (c : Ring) (sqrt : R → R) (v : Nat → Nat → Cx R) (nAnt : Nat) (start len : Int) : Res R := do
  let e ← energyAll c v nAnt (idx c.L start) (idx c.L (start + len - 1))
  .ok (sqrt (e / ((len : R) * (nAnt : R))))

/-- The loop of `scan`, chscanner.cpp:65-74: `k` partial scans from number `n` on -/
def scanLoop (c : Ring) (sqrt : R → R) (v : Nat → Nat → Nat → Cx R) (nAnt : Nat) (len : Int) : Nat → Nat → Int → Result R → Res (Result R)
  | 0, _, _, r => .ok r
  | k + 1, n, start, r => do
    let x ← scanPartial c sqrt (v n) nAnt start len
    scanLoop c sqrt v nAnt len k (n + 1) (start + len) ⟨r.rms ++ [x], r.avg + x⟩

/-- `scan`, chscanner.cpp:38-75. `p1`, `p2` are the two values of `get_rx_time_passed()`, `len` the number of samples of the duration;
`v n a i` is what partial scan `n` finds at index `i` of antenna `a`, as the hardware goes on writing. -/
def scan (c : Ring) (sqrt : R → R) (p1 p2 : Int) (v : Nat → Nat → Nat → Cx R) (q : Req) (len : Int) : Res (Result R) := do
  Res.assert (decide (q.endT ≤ p1))
  Res.assert (decide (0 < q.nPartial))
  Res.assert (decide (0 < q.nAnt))
  Res.assert (decide (0 < len))
  let start := q.endT - ((q.nPartial : Int) * len - 1)
  Res.assert (decide (start ≤ q.endT))
  Res.assert (decide (q.endT - start < (c.L : Int)))
  Res.assert (decide (p2 - (c.L : Int) ≤ start))
  scanLoop c sqrt v (min q.nAnt c.nAnt) len q.nPartial 0 start ⟨[], 0⟩

/-! ## Firmware -/

/-- Members of `tfw_chscanner_t`; `reports` are the logged results, last one first -/
structure Fw (R : Type) where
  next : Int
  freq : Nat
  cnt : Nat
  lo : R
  hi : R
  reports : List (Nat × R × R)

/-- Number of frequencies, `N_measurement`, samples of `measurement_period_ms` and `measurement_spacing_between_frequencies_ms`,
initial values of `rms_min` and `rms_max` -/
structure FwCfg (R : Type) where
  nFreq : Nat
  nMeas : Nat
  period : Int
  spacing : Int
  top : R
  bot : R

/-- Constructor and `work_start`, tfw_chscanner.cpp:37-67; `d` are the samples of 50 ms -/
def Fw.start (c : FwCfg R) (t0 d : Int) : Fw R := ⟨t0 + d, 0, 0, c.top, c.bot, []⟩

/-- `work_channel`, tfw_chscanner.cpp:114-159, for the average RMS `x` -/
def Fw.work [LinearOrder R] (c : FwCfg R) (s : Fw R) (x : R) : Fw R :=
  let lo := min s.lo x
  let hi := max s.hi x
  let cnt := s.cnt + 1
  if cnt = c.nMeas then
    ⟨s.next + c.spacing, if s.freq + 1 = c.nFreq then 0 else s.freq + 1, 0, c.top, c.bot, (s.freq, lo, hi) :: s.reports⟩
  else ⟨s.next + c.period, s.freq, cnt, lo, hi, s.reports⟩

/-- All measurements so far -/
def Fw.run [LinearOrder R] (c : FwCfg R) (s : Fw R) (l : List R) : Fw R := l.foldl (Fw.work c) s

end Verif.ChScan
