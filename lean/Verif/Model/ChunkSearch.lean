import Verif.Model.Movsum
import Mathlib.Data.Rat.Floor
import Mathlib.Algebra.Order.Floor.Ring
import Mathlib.Algebra.Order.Floor.Semiring

/-!
# Positions in the search for packets in one chunk

src/phy/rx/sync/sync_chunk.cpp:146-283, 299-310, src/phy/rx/sync/autocorrelator_detection.cpp:96-283,
src/phy/rx/sync/autocorrelator_peak.cpp:107-236, 238-346.

The search works on the resampled signal of a chunk, in a buffer of `A + B + C + D` samples. Modelled are all
positions: the read indices, the requests to the pacer, the ranges of samples read, the smoothed metric and its
peak, and the index before which detections are ignored. The signal is arbitrary: for every step of the detection
any outcome, and for every antenna and position any metric that is not negative.

Simplifications: the metric and its moving average are rational numbers (`float` without rounding and without
NaN, i.e. no window of the length of the STF without any power during the search for a peak). Indices are natural
numbers; a subtraction below zero, which wraps around in the code, is undefined here. The search in frequency
domain (coarse_peak_f_domain.cpp:67-70, compiled without its body), the values of the reports besides the
position of the peak, and the crosscorrelation are left out.
-/

namespace Verif.Phy.ChunkSearch
open Verif.Phy.Movsum

structure Dim where
  /-- `stf_nof_pattern`, sync_chunk.cpp:58 -/
  nPat : Nat
  /-- `bos_fac`, sync_chunk.cpp:60 -/
  bos : Nat
  /-- `A`, length of the chunk after resampling, sync_chunk.cpp:64 -/
  lenA : Nat
  /-- `nof_antennas_limited` -/
  nAnt : Nat
  /-- `RX_SYNC_PARAM_AUTOCORRELATOR_PEAK_MOVMEAN_SMOOTH_LEFT` and `..._RIGHT`, sync_param.hpp:208-212 -/
  left : Nat
  right : Nat
  /-- `RX_SYNC_PARAM_AUTOCORRELATOR_PEAK_METRIC_ABOVE_DETECTION_THRESHOLD_SP`, sync_param.hpp:221-223 -/
  thr : ℚ
  /-- `detection2peak_samples_64`, autocorrelator_peak.cpp:63-65 -/
  d2p : Int

/-- `stf_bos_pattern_length_samples`, sync_chunk.cpp:61-62, constants.hpp:51-53 -/
def Dim.pattern (z : Dim) : Nat := 16 * z.bos

/-- `stf_bos_length_samples`, sync_chunk.cpp:61 -/
def Dim.stf (z : Dim) : Nat := z.nPat * z.pattern

/-- `search_step_samples`: pattern by `RX_SYNC_PARAM_AUTOCORRELATOR_DETECTION_STEP_DIVIDER`, sync_param.hpp:86-88 -/
def Dim.step (z : Dim) : Nat := z.pattern / 4

/-- `A + B`, sync_chunk.cpp:66, 86; `RX_SYNC_PARAM_AUTOCORRELATOR_DETECTION_OVERLAP_LENGTH_IN_STFS_DP` is 4.0 -/
def Dim.searchLen (z : Dim) : Nat := z.lenA + 4 * z.stf

/-- `D`, sync_chunk.cpp:69; `RX_SYNC_PARAM_AUTOCORRELATOR_PEAK_MAX_SEARCH_LENGTH_IN_STFS_DP` is 1.0 -/
def Dim.peakLen (z : Dim) : Nat := z.stf

/-- `A + B + C + D`, sync_chunk.cpp:74-76 -/
def Dim.bufLen (z : Dim) : Nat := z.searchLen + z.pattern + z.peakLen

/-- `search_jump_back_samples`, autocorrelator_detection.cpp:52-53 -/
def Dim.jumpBack (z : Dim) : Nat := 1 * z.pattern

/-- `search_start_samples`, autocorrelator_detection.cpp:54 -/
def Dim.searchStart (z : Dim) : Nat := z.stf + z.jumpBack

/-- `skip_after_peak_samples`, autocorrelator_detection.cpp:70; two STFs, sync_param.hpp:191 -/
def Dim.skip (z : Dim) : Nat := 2 * z.stf

/-- `metric_smoother_bos_offset_to_center_samples`, autocorrelator_peak.cpp:68-69 -/
def Dim.offset (z : Dim) : Nat := z.right * z.bos

/-- Length of the moving average, autocorrelator_peak.cpp:91-93 -/
def Dim.smoothLen (z : Dim) : Nat := z.left * z.bos + 1 + z.offset

structure Env where
  /-- number of samples the pacer would like to have written at its `n`-th call -/
  pace : Nat → Nat
  /-- outcome of the detection at a position: metric at the detection, autocorrelator_detection.cpp:191-274 -/
  det : Nat → Option ℚ
  /-- metric of an antenna at a position, autocorrelator_peak.cpp:175-177 -/
  metric : Nat → Nat → ℚ

structure St where
  /-- `localbuffer_cnt_r` of the detection -/
  cntR : Nat
  /-- `ignore_before_index` -/
  ignore : Nat
  /-- samples written into the buffer by the pacer -/
  w : Nat
  /-- calls of the pacer -/
  calls : Nat
  /-- within the loop of `search_by_correlation` of the detection -/
  inLoop : Bool
  /-- `coarse_peak_time_local` of the reports returned by `search()`, in order -/
  peaks : List Nat
deriving DecidableEq

/-- `resample_until_nto`, rx_pacer.cpp: returns with at least the number of samples requested, and never writes
beyond the buffer (C23); requesting more than the length of the buffer is an error. `w` samples have been written
before. -/
def request (z : Dim) (e : Env) (calls w q : Nat) : Res Nat :=
  if q ≤ z.bufLen then .ok (min z.bufLen (max (max w q) (e.pace calls))) else .ub

/-- Samples `a`, ..., `b - 1` are readRange while samples up to `w` have been written. -/
def readRange (w a b : Nat) : Res Unit := if a ≤ b ∧ b ≤ w then .ok () else .ub

/-- Unsigned subtraction -/
def sub (a b : Nat) : Res Nat := if b ≤ a then .ok (a - b) else .ub

/-- `peak_t` and the smoother of one antenna, autocorrelator_peak.hpp:114-131 -/
structure Peak where
  sm : Movsum ℚ
  metric : ℚ
  index : Nat

/-- `reset`, autocorrelator_peak.hpp:117-120, and of the smoother, autocorrelator_peak.cpp:260 -/
def Peak.init (z : Dim) : Peak := ⟨make z.smoothLen, 0, 0⟩

/-- One sample, autocorrelator_peak.cpp:179-185, and `update_if_metric_is_larger`, autocorrelator_peak.hpp:122-127;
`get_mean`, movsum.hpp:76 -/
def Peak.push (z : Dim) (p : Peak) (pos : Nat) (metric : ℚ) : Res Peak := do
  let sm ← popPush p.sm metric
  let mean := sm.sum / (sm.length : ℚ)
  let i ← sub pos z.offset
  pure (if mean ≥ p.metric then ⟨sm, mean, i⟩ else { p with sm := sm })

/-- The samples `r`, ..., `limit - 1` of one antenna, autocorrelator_peak.cpp:168-204 -/
def Peak.block (z : Dim) (m : Nat → ℚ) (r limit : Nat) (p : Peak) : Res Peak :=
  (List.range' r (limit - r)).foldlM (fun p pos => p.push z pos (m pos)) p

/-- All antennas, the first of which has the number `a`, autocorrelator_peak.cpp:153-205 -/
def blocks (z : Dim) (e : Env) (r limit : Nat) : Nat → List Peak → Res (List Peak)
  | _, [] => .ok []
  | a, p :: ps => do
    let p ← p.block z (e.metric a) r limit
    let ps ← blocks z e r limit (a + 1) ps
    pure (p :: ps)

/-- sync_chunk.cpp:182-190 with `get_nof_samples_required` and `search_by_correlation`,
autocorrelator_peak.cpp:138-205: returns the number of samples written, the calls of the pacer, and the peaks. The
first argument bounds the number of rounds; a loop that does not end within it is undefined here. -/
def peakLoop (z : Dim) (e : Env) (rMax : Nat) : Nat → Nat → Nat → Nat → List Peak → Res (Nat × Nat × List Peak)
  | 0, _, _, _, _ => .ub
  | fuel + 1, calls, w, r, ps => do
    let w ← request z e calls w (min (r + z.pattern * 1) rMax)
    let limit := min rMax w
    let consumable ← sub limit r
    Res.assert (decide (consumable ≤ z.peakLen))
    let a ← sub r z.pattern
    readRange w a (a + consumable)
    readRange w r (r + consumable)
    let ps ← blocks z e r limit 0 ps
    if limit = rMax then pure (w, calls + 1, ps) else peakLoop z e rMax fuel (calls + 1) w limit ps

/-- `set_initial_movsums`, autocorrelator_peak.cpp:238-277: reads the correlation window (one pattern shorter than
the STF, twice) and the power window -/
def initialMovsums (z : Dim) (w start : Nat) : Res Unit := do
  readRange w start (start + (z.nPat - 1) * z.pattern)
  readRange w (start + z.pattern) (start + z.pattern + (z.nPat - 1) * z.pattern)
  readRange w start (start + z.stf)

/-- An antenna with a valid peak, autocorrelator_peak.cpp:292-306 -/
def valid (z : Dim) (detMetric : ℚ) (detTime : Nat) (p : Peak) : Bool :=
  decide (detMetric + z.thr < p.metric) && decide ((detTime : Int) + z.d2p < (p.index : Int))

/-- `post_processing_validity`, autocorrelator_peak.cpp:279-346 -/
def validity (z : Dim) (detMetric : ℚ) (detTime : Nat) (ps : List Peak) : Res (Option Nat) :=
  let v := ps.filter (valid z detMetric detTime)
  if v.all (fun p => decide (p.metric ≤ 0)) then .ok none
  else do
    let t := ⌊(v.map fun p => p.metric * (p.index : ℚ)).sum / (v.map fun p => p.metric).sum + 1 / 2⌋₊
    Res.assert (decide (z.stf - 1 ≤ t))
    pure (some (t - (z.stf - 1)))

/-- Search for the peak after a detection at `detTime`: sync_chunk.cpp:174-204, autocorrelator_peak.cpp:107-136, 207-219,
348-350 -/
def peakSearch (z : Dim) (e : Env) (s : St) (detMetric : ℚ) : Res (Option Nat × St) := do
  let r0 ← sub s.cntR z.jumpBack
  Res.assert (decide (z.stf ≤ r0))
  let rMax := r0 + z.peakLen
  let start ← sub r0 z.stf
  initialMovsums z s.w start
  let (w, calls, ps) ← peakLoop z e rMax (z.peakLen + 1) s.calls s.w r0 (List.replicate z.nAnt (Peak.init z))
  let c ← validity z detMetric s.cntR ps
  match c with
  | none => do
    Res.assert (decide (rMax ≤ z.searchLen + z.pattern + z.stf))
    pure (none, { s with w := w, calls := calls })
  | some t => do
    initialMovsums z w t
    Res.assert (decide (rMax ≤ z.searchLen + z.pattern + z.stf))
    pure (some t, { s with w := w, calls := calls })

/-- `skip_after_peak`, autocorrelator_detection.cpp:137-146, and the report, sync_chunk.cpp:205, 259 -/
def found (z : Dim) (s : St) (t : Nat) : Res St := do
  Res.assert (decide (s.ignore < t + z.skip))
  pure { s with ignore := t + z.skip, peaks := s.peaks ++ [t] }

/-- Start of a chunk, sync_chunk.cpp:299-310, autocorrelator_detection.cpp:96-135 -/
def start (z : Dim) (e : Env) : Res St := do
  let w ← request z e 0 0 z.pattern
  Res.assert (decide (z.pattern ≤ w))
  readRange w 0 (0 + 4 * z.step)
  pure ⟨z.pattern, z.searchStart, w, 1, false, []⟩

/-- Unless the loop of `search_by_correlation` goes on (autocorrelator_detection.cpp:157), the samples for the next step are
requested, sync_chunk.cpp:163-164, autocorrelator_detection.cpp:148-150. -/
def fetch (z : Dim) (e : Env) (s : St) : Res St :=
  if s.inLoop && decide (s.cntR + z.step ≤ s.w) then .ok s else do
    let w ← request z e s.calls s.w (s.cntR + z.step)
    pure { s with w := w, calls := s.calls + 1 }

/-- One step of the detection, autocorrelator_detection.cpp:157-280, with the request that precedes it, and with the search
for the peak if there is a detection, sync_chunk.cpp:166. -/
def detStep (z : Dim) (e : Env) (s : St) : Res St := do
  let s ← fetch z e s
  let a ← sub s.cntR z.pattern
  readRange s.w a (a + z.step)
  readRange s.w s.cntR (s.cntR + z.step)
  let s := { s with cntR := s.cntR + z.step }
  match (if s.ignore ≤ s.cntR then e.det s.cntR else none) with
  | none => pure { s with inLoop := true }
  | some m => do
    let (c, s) ← peakSearch z e s m
    let s := { s with inLoop := false }
    match c with
    | none => pure s
    | some t => found z s t

/-- The calls of `search()` during one chunk, sync_chunk.cpp:160-161: at most `n` steps of the detection -/
def run (z : Dim) (e : Env) : Nat → St → Res St
  | 0, s => .ok s
  | n + 1, s => if s.cntR < z.searchLen then do run z e n (← detStep z e s) else .ok s

end Verif.Phy.ChunkSearch
