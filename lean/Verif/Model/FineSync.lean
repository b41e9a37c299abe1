import Verif.Model.MimoEst
import Mathlib.Algebra.Order.Floor.Ring

/-!
# Fine synchronization

src/phy/rx/sync/crosscorrelator.cpp, include/dectnrp/phy/rx/sync/crosscorrelator.hpp, lengths of src/phy/rx/sync/stf_template.cpp, and the part
of src/phy/rx/sync/sync_chunk.cpp that prepares the search and turns its result into a global time.

Samples are complex numbers over an ordered field with exact arithmetic. The functions of VOLK and of the C library are in `Lib`; the
operations on the metrics and indices, in single precision, are in `Fp`, so that they may round. The templates in time domain
(stf_template.cpp:80-206) are given, of any content. A buffer that is too short or a division of zero by zero, whose result cannot be
converted to an integer, is undefined. -/

namespace Verif.Phy.FineSync

open MimoEst (atU)

/-- Lengths of the object, in samples of the hardware -/
structure Dim where
  /-- `search_length_l`, `search_length_r` -/
  l : Nat
  r : Nat
  /-- `stf_bos_rs_length_samples`, stf_template.cpp:45 -/
  stf : Nat
  /-- `stf_bos_rs_length_effective_samples`, stf_template.cpp:46-48 -/
  eff : Nat
  /-- `nof_antennas`, `nof_antennas_limited` -/
  nAnt : Nat
  nLim : Nat

/-- `search_length`, crosscorrelator.cpp:57 -/
def Dim.search (z : Dim) : Nat := z.l + 1 + z.r

/-- `mixer_stage_len`, crosscorrelator.cpp:62 -/
def Dim.mixLen (z : Dim) : Nat := z.l + z.stf + z.r

/-- `get_nof_samples_required`, crosscorrelator.cpp:85-87 -/
def Dim.required (z : Dim) : Nat := z.search + z.stf - 1

/-- `get_N_samples_stf`, stf.hpp:91-93, constants.hpp:51-53 -/
def stfSamples (u : Nat) : Nat := if u = 1 then 112 else 144

/-- `crosscorrelator_localbuffer_length_samples`, sync_chunk.cpp:97-101 -/
def localLen (u b os L M : Nat) : Nat := (16 * (b * os) + 16 * (b * os) + stfSamples u * (b * os) + 1) * L / M

/-- Constructors of the crosscorrelator and the templates and their use, crosscorrelator.cpp:41-73, stf_template.cpp:39-65,
sync_chunk.cpp:94-122; `RX_SYNC_PARAM_CROSSCORRELATOR_SEARCH_LEFT_SAMPLES` and `..._RIGHT_SAMPLES` are 16 and
`RX_SYNC_PARAM_CROSSCORRELATOR_STF_LENGTH_EFFECTIVE_DP` is 1.0, sync_param.hpp:265-278. `lim` is
`RX_SYNC_PARAM_AUTOCORRELATOR_ANTENNA_LIMIT`, sync_chunk.cpp:40. Products are natural numbers. -/
def construct (u b os L M nAnt lim : Nat) : Res (Dim × Nat) := do
  let bos := stfSamples u * b * os
  let rs := bos * L / M
  Res.assert (decide (bos ≤ rs))
  Res.assert (decide (rs ≤ rs))
  let z : Dim := ⟨16 * b * os * L / M, 16 * b * os * L / M, rs, rs, nAnt, min nAnt lim⟩
  Res.assert (decide (z.nLim ≤ z.nAnt))
  let n := localLen u b os L M
  Res.assert (decide ((0 : Int) ≤ (n : Int) - z.required))
  Res.assert (decide ((n : Int) - z.required ≤ 5))
  .ok (z, n)

variable {K : Type} [Field K] [LinearOrder K]

/-- Phase of the mixer after `n` samples, mixer.cpp:28-34, 55-60: the phase starts at 1 and is multiplied by the increment after each
sample -/
def phase (inc : Cx K) : Nat → Cx K
  | 0 => ⟨1, 0⟩
  | n + 1 => phase inc n * inc

/-- Mixing of one antenna, mixer.cpp:54-61: each antenna starts with the same phase -/
def mixRow (inc : Cx K) (cntR n : Nat) (row : List (Cx K)) : Res (List (Cx K)) := (List.range n).mapM fun i => do
  let x ← atU row (cntR + i)
  .ok (x * phase inc i)

/-- `mix_phase_continuous_offset` into `mixer_stage` with its `nLim` buffers, mixer.cpp:47-65, crosscorrelator.cpp:113-115 -/
def mix (z : Dim) (inc : Cx K) (cntR : Nat) (buf : List (List (Cx K))) : Res (List (List (Cx K))) :=
  (List.range buf.length).mapM fun a => do
    if z.nLim ≤ a then .ub else
      let row ← atU buf a
      mixRow inc cntR z.mixLen row

/-- `volk_32fc_x2_conjugate_dot_prod_32fc` of `n` samples from position `j` on with a template, crosscorrelator.cpp:183-187 -/
def dot (n : Nat) (a : List (Cx K)) (j : Nat) (b : List (Cx K)) : Res (Cx K) := (List.range n).foldlM (fun s i => do
  let x ← atU a (j + i)
  let y ← atU b i
  .ok (s + x * y.conj)) 0

/-- `xcorr_stage`, crosscorrelator.cpp:182-188 -/
def xcorr (z : Dim) (a b : List (Cx K)) : Res (List (Cx K)) := (List.range z.search).mapM fun j => dot z.eff a j b

/-- Functions of libraries -/
structure Lib (K : Type) where
  /-- `volk_32fc_index_max_32u`, given the squared magnitudes -/
  imax : List K → Nat
  /-- `std::abs` of a complex number, given its squared magnitude -/
  mag : K → K
  /-- cosine and sine of an angle -/
  cis : K → Cx K

/-- Operations in single precision -/
structure Fp (K : Type) where
  add : K → K → K
  mul : K → K → K
  div : K → K → K
  ofNat : Nat → K

/-- Peak of one antenna with one template, crosscorrelator.cpp:175-201: metric and index in the local buffer -/
def peak (lib : Lib K) (z : Dim) (cntR : Nat) (a b : List (Cx K)) : Res (K × Nat) := do
  let xs ← xcorr z a b
  let idx := lib.imax (xs.map Cx.sq)
  let x ← atU xs idx
  .ok (lib.mag x.sq, idx + cntR)

/-- Peaks of one antenna with all templates, crosscorrelator.cpp:173-202. `peak_vec[ant_idx]` has room for as many templates as there are
antennas in use (crosscorrelator.cpp:72, crosscorrelator.hpp:97-121). -/
def antPeaks (lib : Lib K) (z : Dim) (cntR : Nat) (tmpl : List (List (Cx K))) (a : List (Cx K)) : Res (List (K × Nat)) :=
  (List.range tmpl.length).mapM fun t => do
    let b ← atU tmpl t
    let p ← peak lib z cntR a b
    if z.nLim ≤ t then .ub else .ok p

/-- Sum of the metrics of all antennas for one template, crosscorrelator.cpp:221-226 -/
def metricSum (fp : Fp K) (pv : List (List (K × Nat))) (t : Nat) : Res K := pv.foldlM (fun s p => do
  let x ← atU p t
  .ok (fp.add s x.1)) 0

/-- Search for the template with the largest sum, crosscorrelator.cpp:218-233: largest sum and its template -/
def likely (fp : Fp K) (pv : List (List (K × Nat))) (n : Nat) : Res (K × Nat) := (List.range n).foldlM (fun m t => do
  let s ← metricSum fp pv t
  .ok (if m.1 < s then (s, t) else m)) (0, 0)

/-- Sum of the indices weighted by their metrics, crosscorrelator.cpp:239-244 -/
def weighted (fp : Fp K) (pv : List (List (K × Nat))) (t : Nat) : Res K := pv.foldlM (fun s p => do
  let x ← atU p t
  .ok (fp.add s (fp.mul x.1 (fp.ofNat x.2)))) 0

/-- `static_cast<uint32_t>(std::round(x))`: half away from zero; undefined if the result is not an integer without sign -/
def roundU [FloorRing K] (x : K) : Res Nat :=
  if x ≤ -(1 / 2) then .ub else .ok (⌊x + 1 / 2⌋).toNat

/-- From the peaks to the result, crosscorrelator.cpp:218-248: `N_eff_TX` and `fine_peak_time_local` -/
def evaluate [FloorRing K] (fp : Fp K) (pv : List (List (K × Nat))) (n : Nat) : Res (Nat × Nat) := do
  let m ← likely fp pv n
  let nEff ← atU [1, 2, 4, 8] m.2
  let w ← weighted fp pv m.2
  if m.1 = 0 then .ub else
    let t ← roundU (fp.div w m.1)
    .ok (nEff, t)

/-- `get_index_of_max`, ant.cpp:104-108: index of the first of the largest values -/
def indexOfMax : List K → Nat
  | [] => 0
  | x :: l => (l.foldl (fun (s : K × Nat × Nat) y => if s.1 < y then (y, s.2.2, s.2.2 + 1) else (s.1, s.2.1, s.2.2 + 1)) (x, 0, 1)).2.1

/-- `N_TS_2_nof_STF_templates_vec`, physical_resources.hpp:44 -/
def nofTemplates : List Nat := [0, 1, 2, 0, 3, 0, 0, 0, 4]

/-- Antennas that are searched, crosscorrelator.cpp:132-156, given the metrics of the coarse peaks. `all` stands for
`RX_SYNC_PARAM_CROSSCORRELATOR_ALL_ANTENNAS_OR_ONLY_STRONGEST`, which is not defined by default (sync_param.hpp:286). -/
def antennas (all : Bool) (z : Dim) (coarse : List K) : Res (List Nat) :=
  if all then do
    let as ← .ok ((List.range z.nLim).filter fun a => decide (0 < coarse.getD a 0))
    Res.assert (decide (0 < as.length))
    Res.assert (decide (as.length = (coarse.filter fun x => decide (0 < x)).length))
    .ok as
  else do
    let a := indexOfMax coarse
    Res.assert (decide (a < coarse.length))
    Res.assert (decide (0 < coarse.getD a 0))
    .ok [a]

/-- `run_fine_search`, crosscorrelator.cpp:122-249; `coarse` are the values of the antennas in `coarse_peak_array`, `tmpl` the templates of
the bandwidth found before, `stage` the mixed samples. -/
def runFineSearch [FloorRing K] (lib : Lib K) (fp : Fp K) (all : Bool) (z : Dim) (cntR : Nat) (coarse : List K)
    (tmpl : List (List (Cx K))) (stage : List (List (Cx K))) : Res (Nat × Nat) := do
  Res.assert (decide (coarse.length = z.nLim))
  let as ← antennas all z coarse
  let n ← atU nofTemplates z.nAnt
  Res.assert (decide (tmpl.length = n))
  let pv ← as.mapM fun a => do
    Res.assert (decide (0 < coarse.getD a 0))
    let row ← atU stage a
    antPeaks lib z cntR tmpl row
  evaluate fp pv tmpl.length

/-- `search_by_correlation`, crosscorrelator.cpp:89-120; `cfo` is the sum of both carrier frequency offsets, `L` and `M` are the ones of the
resampler. The phase increment is computed exactly. -/
def searchByCorrelation [FloorRing K] (lib : Lib K) (fp : Fp K) (all : Bool) (z : Dim) (L M cntR cntW : Nat) (cfo : K) (coarse : List K)
    (tmpl : List (List (Cx K))) (buf : List (List (Cx K))) : Res (Nat × Nat) := do
  Res.assert (decide (z.required ≤ cntW))
  let stage ← mix z (lib.cis (cfo * M / L)) cntR buf
  runFineSearch lib fp all z cntR coarse tmpl stage

/-- The fine search in a chunk, sync_chunk.cpp:234-257: first sample that is copied to the local buffer, then `N_eff_TX` and
`fine_peak_time_64`. `rx a t` is the sample of antenna `a` at the global time `t`, `copied` the number of samples the pacer has copied
(rx_pacer.cpp:231-261). -/
def fineSync [FloorRing K] (lib : Lib K) (fp : Fp K) (all : Bool) (z : Dim) (L M copied : Nat) (cfo : K) (coarse : List K)
    (tmpl : List (List (Cx K))) (coarseTime : Int) (rx : Nat → Int → Cx K) : Res (Nat × Int) := do
  let start := coarseTime - z.l
  let buf := (List.range z.nLim).map fun a => (List.range copied).map fun i => rx a (start + (i : Nat))
  let p ← searchByCorrelation lib fp all z L M 0 copied cfo coarse tmpl buf
  .ok (p.1, coarseTime - z.l + (p.2 : Nat))

end Verif.Phy.FineSync
