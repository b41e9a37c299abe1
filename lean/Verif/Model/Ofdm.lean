import Verif.Model.Cells
import Mathlib.Algebra.BigOperators.Group.Finset.Basic
import Mathlib.Algebra.Field.Defs

/-!
# OFDM symbols: beamforming, (I)FFT, cyclic prefix

src/phy/tx/tx.cpp:430-466, 716-911, src/phy/tx_rx.cpp:142-240, src/phy/dft/ofdm.cpp, src/phy/rx/rx_synced/rx_synced.cpp:199-204, 482-501,
711-765, src/sections_part3/stf.cpp:34-158, 171-285. Samples are from any field, arithmetic is exact; the FFT (a library) is the sum it is
defined as, with `ω` for the first of the roots of unity. Antennas are lists. Not modelled: the resampler between the OFDM symbols and the
radio (Model/Resampler.lean), the mixer, windowing (not compiled in), polarity and amplitude of the STF (any values here). -/

namespace Verif.Phy.Ofdm
open Verif.Sp3 Verif.Sp3.Cells

/-! ## Dimensions -/

/-- `constants::subcarrier_spacing_min_u_b` -/
def spacing : Nat := 27000

/-- `ofdm_vec_idx_effective`, tx_rx.cpp:142-195: lengths of the FFT -/
def fftSizes : List Nat := [64, 128, 256, 512, 768, 1024, 1536, 2048, 3072, 4096, 6144, 8192, 12288, 16384]

/-- tx_rx.cpp:238-239; `sub32` because the difference of unsigned numbers wraps -/
def subcOffset (os n guardsBottom : Nat) : Nat := n / 2 + 2 * (sub32 os n / 2) + guardsBottom

/-- `N_b_OCC`, `N_b_DFT_os`, `N_subc_offset_lower_half_os`, `N_b_CP_os`, `N_samples_STF_CP_only_os` -/
structure Dims where
  occ : Nat
  os : Nat
  off : Nat
  cp : Nat
  stfCp : Nat
  deriving DecidableEq, Repr

/-- `tx_t::run_packet_dimensions`, tx.cpp:433-466: `rate` is `dect_samp_rate_oversampled_max`, `uMax` and `bMax` are of the radio device
class, `u` and `b` of the packet -/
def txDims (rate uMax bMax u b : Nat) : Res Dims := do
  Res.assert (decide (u ≤ uMax))
  Res.assert (decide (rate % (spacing * u) = 0))
  let os := rate / (spacing * u)
  Res.assert (decide (os ∈ fftSizes))
  Res.assert (decide (b ≤ bMax))
  Res.assert (decide (sub32 os (dft b) % 2 = 0))
  Res.assert (decide (nSamplesStfCp u b * os % dft b = 0))
  Res.assert (decide (8 * b * os % dft b = 0))
  .ok ⟨occ b, os, subcOffset os (dft b) (guardsBottom b), 8 * b * os / dft b, nSamplesStfCp u b * os / dft b⟩

/-- `rx_synced_t::run_symbol_dimensions` and what precedes it, rx_synced.cpp:199-204, 482-501: the oversampling is a quotient of integers -/
def rxDims (rate u b : Nat) : Res Dims := do
  let os := rate / (u * spacing)
  Res.assert (decide (os ∈ fftSizes))
  .ok ⟨occ b, os, subcOffset os (dft b) (guardsBottom b), 8 * b * (os / dft b), nSamplesStfCp u b * (os / dft b)⟩

variable {F : Type}

/-! ## Memory -/

/-- `n` elements of `l` from `off` on; undefined behaviour if there are fewer -/
def slice (l : List F) (off n : Nat) : Res (List F) :=
  if off + n ≤ l.length then .ok ((l.drop off).take n) else .ub

/-- Elements of `l` from `off` on are replaced by `v`; undefined behaviour beyond the end -/
def write (l : List F) (off : Nat) (v : List F) : Res (List F) :=
  if off + v.length ≤ l.length then .ok (l.take off ++ v ++ l.drop (off + v.length)) else .ub

/-- `memcpy` within a buffer: undefined behaviour if source and destination overlap -/
def memcpy (l : List F) (dst src n : Nat) : Res (List F) := do
  let v ← slice l src n
  if dst + n ≤ src ∨ src + n ≤ dst then write l dst v else .ub

/-- A copy which goes from the first element to the last and tolerates overlapping -/
def copyAsc [Zero F] (l : List F) (dst src : Nat) : Nat → Res (List F)
  | 0 => .ok l
  | n + 1 => do
    let l ← copyAsc l dst src n
    let v ← slice l (src + n) 1
    write l (dst + n) v

/-! ## Transmitter -/

variable [Field F]

/-- `srsran_vec_add_fff_simd` onto a part of the first vector -/
def addAt (l : List F) (off : Nat) (v : List F) : Res (List F) := do
  let w ← slice l off v.length
  write l off (List.zipWith (· + ·) w v)

/-- `srsran_vec_sc_prod_cfc_simd` for a part of a vector -/
def scaleAt (l : List F) (off n : Nat) (c : F) : Res (List F) := do
  let w ← slice l off n
  write l off (w.map (· * c))

/-- Addition of a transmit stream to an antenna stream, tx.cpp:829-844: upper subcarriers and DC at the front, lower ones at the end -/
def addSpectrum (d : Dims) (ant src : List F) : Res (List F) := do
  let up ← slice src (d.occ / 2) (d.occ / 2 + 1)
  let ant ← addAt ant 0 up
  let lo ← slice src 0 (d.occ / 2)
  addAt ant d.off lo

/-- Access to an element; undefined behaviour if there is none -/
def at? {α : Type} (l : List α) (i : Nat) : Res α := match l[i]? with | some a => .ok a | none => .ub

/-- Bit `j` of the mask is set, tx.cpp:782, 820 -/
def bitSet (mask j : Nat) : Bool := decide ((mask >>> j) &&& 1 = 1)

/-- Body of the loop over `j_compare`, tx.cpp:818-851; line 820 tests bit `j`. State: index of the weight, mask, antenna streams. -/
def compareStep [DecidableEq F] (d : Dims) (W : List F) (nTs : Nat) (src : List F) (weight : F) (j : Nat)
    (s : Nat × Nat × List (List F)) (jc : Nat) : Res (Nat × Nat × List (List F)) :=
  if bitSet s.2.1 j then .ok (s.1 + nTs, s.2)
  else do
    let w ← at? W s.1
    if weight = w then do
      let a ← at? s.2.2 jc
      let a ← addSpectrum d a src
      .ok (s.1 + nTs, s.2.1 ||| 1 <<< jc, s.2.2.set jc a)
    else .ok (s.1 + nTs, s.2)

/-- What is added to the antenna streams, tx.cpp:796-806: the transmit stream itself if the weight is one -/
def weighted [DecidableEq F] (d : Dims) (ts : List F) (weight : F) : Res (List F) :=
  if weight = 1 then .ok ts else do
    let v ← slice ts 0 (d.occ + 1)
    .ok (v.map (· * weight))

/-- Body of the loop over the antenna streams, tx.cpp:780-855 -/
def antennaStep [DecidableEq F] (d : Dims) (W : List F) (nTs nTx : Nat) (ts : List F)
    (s : Nat × Nat × List (List F)) (j : Nat) : Res (Nat × Nat × List (List F)) :=
  if bitSet s.2.1 j then .ok (s.1 + nTs, s.2)
  else do
    let weight ← at? W s.1
    if weight = 0 then .ok (s.1 + nTs, s.2.1 ||| 1 <<< j, s.2.2)
    else do
      let src ← weighted d ts weight
      let r ← (List.range' j (nTx - j)).foldlM (compareStep d W nTs src weight j) s
      .ok (s.1 + nTs, r.2)

/-- Body of the loop over the transmit streams, tx.cpp:768-859 -/
def streamStep [DecidableEq F] (d : Dims) (W : List F) (nTs nTx : Nat) (ts : List (List F)) (ants : List (List F)) (i : Nat) :
    Res (List (List F)) := do
  let t ← at? ts i
  let r ← (List.range nTx).foldlM (antennaStep d W nTs nTx t) (i, 0, ants)
  Res.assert (decide (r.2.1 = 2 ^ nTx - 1))
  .ok r.2.2

/-- `run_zero_stages` and `run_beamforming`, tx.cpp:724-726, 729-860: `W` is the matrix of the codebook, row by row -/
def beamform [DecidableEq F] (d : Dims) (W : List F) (nTs nTx n : Nat) (ts : List (List F)) : Res (List (List F)) :=
  (List.range n).foldlM (streamStep d W nTs nTx ts) (List.replicate nTx (List.replicate d.os 0))

/-- `srsran_dft_run_c_zerocopy`: the sum over all bins, not normalised -/
def transform (ω : F) (x : List F) : List F :=
  (List.range x.length).map fun n => ∑ k ∈ Finset.range x.length, x.getD k 0 * ω ^ (k * n)

/-- The loop and the residual of ofdm.cpp:70-78 for a way `copy` of copying; without a length of the FFT the loop would not end, there is
none (tx_rx.cpp:142-195) -/
def prefixLoop (copy : List F → Nat → Nat → Nat → Res (List F)) (os cp cnt : Nat) (out : List F) : Res (List F) :=
  if h : os < cnt ∧ 0 < os then do
    let out ← copy out (cnt - os) os cp
    prefixLoop copy os cp (cnt - os) out
  else copy out 0 os cp
termination_by cnt

/-- `single_symbol_tx_ofdm_zero_copy`, ofdm.cpp:62-79: `out` is the buffer with what it held before -/
def symbolTx (copy : List F → Nat → Nat → Nat → Res (List F)) (ω : F) (x : List F) (cp : Nat) (out : List F) : Res (List F) := do
  let out ← write out cp (transform ω x)
  prefixLoop copy x.length cp cp out

/-- `run_ifft_cp_scale` of one antenna, tx.cpp:862-879, 910-918: the samples given to the resampler -/
def ifftCpScale (copy : List F → Nat → Nat → Nat → Res (List F)) (ω scale : F) (d : Dims) (cp : Nat) (ant out : List F) :
    Res (List F) := do
  let ant ← scaleAt ant 0 (d.occ / 2 + 1) scale
  let ant ← scaleAt ant d.off (d.occ / 2) scale
  let out ← symbolTx copy ω ant cp out
  slice out 0 (cp + d.os)

/-- One OFDM symbol of all antennas, tx.cpp:264-270; `stage` is `ifft_cp_stage` with what it held before -/
def txSymbol [DecidableEq F] (copy : List F → Nat → Nat → Nat → Res (List F)) (ω scale : F) (d : Dims) (W : List F) (nTs nTx n cp : Nat)
    (ts stage : List (List F)) : Res (List (List F)) := do
  let ants ← beamform d W nTs nTx n ts
  (List.range nTx).mapM fun a => do
    let x ← at? ants a
    let out ← at? stage a
    ifftCpScale copy ω scale d cp x out

/-! ## STF -/

/-- `cover_sequence`, stf.hpp:146-148 -/
def cover : List Int := [1, -1, 1, 1, -1, -1, -1, -1, -1]

/-- `get_N_stf_pattern`, stf.hpp:95-97 -/
def nPattern (u : Nat) : Nat := if u = 1 then 7 else 9

/-- Body of the loop of `apply_cover_sequence`, stf.cpp:114-126 -/
def coverStep (len : Nat) (l : List F) (p : Nat) : Res (List F) :=
  if cover.getD p 1 = 1 then .ok l else scaleAt l (p * len) len (cover.getD p 1 : F)

/-- `apply_cover_sequence`, stf.cpp:104-127 -/
def applyCover (u len : Nat) (l : List F) : Res (List F) := (List.range (nPattern u)).foldlM (coverStep len) l

/-- `fill_k_i`, stf.cpp:171-183: subcarriers of the STF -/
def stfK (n : Nat) : List Int :=
  (List.range (n / 8)).map (fun i => (kOcc n).getD (i * 4) 0) ++
    (List.range (n / 4 - n / 8)).map (fun i => (kOcc n).getD (n / 2 + 3 + i * 4) 0)

/-- `fill_y_STF_filled`, stf.cpp:272-285, for any values of the subcarriers -/
def stfFilled (n : Nat) (y : List F) : List F :=
  (List.range (n / 4)).foldl (fun r i => r.set (((stfK n).getD i 0 + (n / 2 : Nat)).toNat) (y.getD i 0)) (List.replicate (n + 1) 0)

/-- STF of all antennas, tx.cpp:216-234 -/
def txStf [DecidableEq F] (copy : List F → Nat → Nat → Nat → Res (List F)) (ω scale : F) (d : Dims) (W : List F) (nTs nTx u b : Nat)
    (ts stage : List (List F)) : Res (List (List F)) := do
  let r ← txSymbol copy ω scale d W nTs nTx 1 d.stfCp ts stage
  r.mapM (applyCover u (16 * b * d.os / dft b))

/-! ## Receiver -/

/-- `single_symbol_rx_ofdm_zero_copy` and `run_cp_fft_scale` of one antenna, ofdm.cpp:86-92, rx_synced.cpp:748-764: `r` are the samples of
one OFDM symbol, `ω` the root of the transmitter, the FFT is the inverse of that of the transmitter -/
def rxSymbol (ω scale : F) (d : Dims) (cp : Nat) (r : List F) : Res (List F) := do
  let body ← slice r cp d.os
  let x := transform ω⁻¹ body
  let up ← slice x 0 (d.occ / 2 + 1)
  let lo ← slice x d.off (d.occ / 2)
  .ok ((lo ++ up).map (· * scale))

/-- `run_stf` of one antenna, rx_synced.cpp:507-517, 561; the removal of the amplitude boost is part of the scale -/
def rxStf (ω scale : F) (d : Dims) (u : Nat) (r : List F) : Res (List F) := do
  let r ← applyCover u ((d.stfCp + d.os) / nPattern u) r
  rxSymbol ω scale d d.stfCp r

/-- `run_mix_resample`, rx_synced.cpp:711-746, without resampling and mixing: the next samples of one antenna -/
def nextSymbol (d : Dims) (cp : Nat) (r : List F) : Res (List F × List F) := do
  let v ← slice r 0 (cp + d.os)
  .ok (v, r.drop (cp + d.os))

/-- OFDM symbols one after the other, rx_synced.cpp:282-288, 1141-1143 -/
def rxSymbols (ω scale : F) (d : Dims) : Nat → List F → Res (List (List F))
  | 0, _ => .ok []
  | n + 1, r => do
    let s ← nextSymbol d d.cp r
    let x ← rxSymbol ω scale d d.cp s.1
    let xs ← rxSymbols ω scale d n s.2
    .ok (x :: xs)

end Verif.Phy.Ofdm
