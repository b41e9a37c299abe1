import Verif.Model.Codebook

/-!
# Recommendation of a beamforming matrix

phy/rx/rx_synced/mimo/estimator_mimo with the metric compiled by default (`RX_SYNCED_PARAM_MODE_3_7_METRIC_HIGHEST_MIN_RX_POWER`, only matrices
without zeros, four cells). Arithmetic is exact; the magnitude of a complex number is a function of the environment that may return NaN
(`none`), for which comparisons are false. -/

namespace Verif.Phy.MimoEst

open Codebook

/-- Element of an array without a check of the index -/
def atU {α : Type} (l : List α) (i : Nat) : Res α :=
  match l[i]? with
  | some x => .ok x
  | none => .ub

/-- `RX_SYNCED_PARAM_MIMO_N_WIDEBAND_CELLS`, rx_synced_param.hpp:269 -/
def nCells : Nat := 4

/-- `reset_internal`, estimator_mimo.cpp:112-117: width and offset of the steps; the number of DRS cells is 14 b, estimator.cpp:37 -/
def steps (b : Nat) : Res (Nat × Nat) := do
  let width := 14 * b / nCells
  Res.assert (decide (0 < width))
  .ok (width, width / 2)

section
variable {F : Type} [Field F] [LinearOrder F]

/-- Cells of one receive antenna and transmit stream, estimator_mimo.cpp:138-142 -/
def cells (st : Nat × Nat) (p : List (Cx F)) : Res (List (Cx F)) := (List.range nCells).mapM fun cell => atU p (st.2 + cell * st.1)

/-- One stage `stage_rx_ts_vec[rx]`, estimator_mimo.cpp:132-143; `ch` are the channel estimates of the antenna, one list per transmit stream.
Only the part written here is modelled, the rest of the buffer is not read. -/
def stage (st : Nat × Nat) (nTs : Nat) (ch : List (List (Cx F))) : Res (List (Cx F)) := do
  let r ← (List.range nTs).mapM fun ts => do
    let p ← atU ch ts
    cells st p
  .ok r.flatten

/-- `stage_rx_ts_vec`, estimator_mimo.cpp:127-144; each buffer has room for `nTsMax` streams (lines 42-45) -/
def stages (st : Nat × Nat) (nRx nTsMax nTs : Nat) (ch : List (List (List (Cx F)))) : Res (List (List (Cx F))) :=
  if nTsMax < nTs then .ub
  else (List.range nRx).mapM fun rx => do
    let a ← atA ch rx
    stage st nTs a

/-- `nCells` elements of a stage from `i` on -/
def slice (l : List (Cx F)) (i : Nat) : Res (List (Cx F)) := (List.range nCells).mapM fun c => atU l (i + c)

/-- `stage_rx_ts_transpose_vec`, estimator_mimo.cpp:146-159 -/
def transposed (nRx nTs : Nat) (s : List (List (Cx F))) : Res (List (List (Cx F))) :=
  (List.range nTs).mapM fun ts => do
    let r ← (List.range nRx).mapM fun rx => do
      let src ← atA s rx
      slice src (ts * nCells)
    .ok r.flatten

/-- One round of the loop over the antennas of the transmitter, estimator_mimo.cpp:215-229 -/
def sumStep (s : List (List (Cx F))) (W : List (Cx F)) (rx : Nat) (sum : Cx F) (tx : Nat) : Res (Cx F) := do
  let src ← atA s rx
  let p ← slice src (tx * nCells)
  let w ← atA W tx
  .ok (sum + (p.map fun x => x * w).foldl (· + ·) 0)

/-- `sum`, estimator_mimo.cpp:213-229 -/
def sumOf (s : List (List (Cx F))) (W : List (Cx F)) (nTx rx : Nat) : Res (Cx F) := (List.range nTx).foldlM (sumStep s W rx) 0

/-- Comparison `<` of floating point numbers -/
def flt : Option F → F → Bool
  | some x, y => decide (x < y)
  | none, _ => false

/-- estimator_mimo.cpp:232-234 -/
def lower (m : Option F) (inner : F) : F := if flt m inner then m.getD inner else inner

/-- `power_inner` after the loop over the receive antennas, estimator_mimo.cpp:199-244 -/
def inner (abs : Cx F → Option F) (s : List (List (Cx F))) (W : List (Cx F)) (nTx nRx : Nat) : Res F :=
  (List.range nRx).foldlM (fun (m : F) rx => do
    let sum ← sumOf s W nTx rx
    .ok (lower (abs sum) m)) 1000000

/-- estimator_mimo.cpp:249-252: `power_outer` and `ret`, -1 is `none` -/
def better (o : F × Option Nat) (v : F) (wm : Nat) : F × Option Nat := if o.1 < v then (v, some wm) else o

/-- `mode_single_spatial_stream_3_7`, estimator_mimo.cpp:162-271 -/
def mode37 (sqrt : F → F) (abs : Cx F → Option F) (nTx nRx : Nat) (s : List (List (Cx F))) : Res Nat := do
  Res.assert (decide (1 < nTx))
  let Ws ← getWs 1 nTx
  let sc ← getScales sqrt 1 nTx
  let A ← indexNonzero 1 nTx
  Res.assert (decide (A < Ws.length))
  let o ← (List.range' A (Ws.length - A)).foldlM (fun (o : F × Option Nat) wm => do
    let W ← atU Ws wm
    let m ← inner abs s W nTx nRx
    let c ← atU sc wm
    .ok (better o (m * c) wm)) (-1000000, none)
  Res.assert o.2.isSome
  .ok (o.2.getD 0)

/-- One index of the report, estimator_mimo.cpp:94-99 and 102-107 -/
def recommend (sqrt : F → F) (abs : Cx F → Option F) (nTx nRx : Nat) (s : List (List (Cx F))) : Res Nat :=
  if nTx = 1 then .ok 0 else mode37 sqrt abs nTx nRx s

/-- `process_drs`, estimator_mimo.cpp:80-108: the two indices of the report -/
def processDrs (sqrt : F → F) (abs : Cx F → Option F) (b nRx nTsMax nTs tsFirst tsLast : Nat) (ch : List (List (List (Cx F)))) :
    Res (Nat × Nat) := do
  let st ← steps b
  Res.assert (decide (nRx = ch.length))
  Res.assert (decide (tsFirst = 0))
  Res.assert (decide (nTs = tsLast + 1))
  let s ← stages st nRx nTsMax nTs ch
  let t ← transposed nRx nTs s
  let i ← recommend sqrt abs nTs nRx s
  let j ← recommend sqrt abs nRx nTs t
  .ok (i, j)

end
end Verif.Phy.MimoEst
