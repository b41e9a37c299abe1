import Verif.Base.Res
import Verif.Base.Cx

/-!
# Beamforming matrices

sections_part3/beamforming_and_antenna_port_mapping.{hpp,cpp} (`W_t`) and its use by the transmitter, phy/tx/tx.cpp:573-594.

Floating point numbers are elements of an ordered field `F`, complex numbers pairs of them, the square root any function `sqrt`. -/

namespace Verif.Phy.Codebook

/-- `.at` of a container: an exception nobody catches if there is no such element -/
def atA {α : Type} (l : List α) (i : Nat) : Res α := match l[i]? with | some a => .ok a | none => .abort

/-- `j`, beamforming_and_antenna_port_mapping.hpp:83 -/
def j : Int := 2

/-- `W_1`, beamforming_and_antenna_port_mapping.cpp:250 -/
def W1 : List (List Int) := [[1, 0], [0, 1], [1, 1], [1, -1], [1, j], [1, -j]]

/-- `W_2`, beamforming_and_antenna_port_mapping.cpp:252-257 -/
def W2 : List (List Int) := [
  [1, 0, 0, 0], [0, 1, 0, 0], [0, 0, 1, 0], [0, 0, 0, 1], [1, 0, 1, 0], [1, 0, -1, 0],
  [1, 0, j, 0], [1, 0, -j, 0], [0, 1, 0, 1], [0, 1, 0, -1], [0, 1, 0, j], [0, 1, 0, -j],
  [1, 1, 1, 1], [1, 1, j, j], [1, 1, -1, -1], [1, 1, -j, -j], [1, j, 1, j], [1, j, j, -1],
  [1, j, -1, -j], [1, j, -j, 1], [1, -1, 1, -1], [1, -1, j, -j], [1, -1, -1, 1], [1, -1, -j, j],
  [1, -j, 1, -j], [1, -j, j, 1], [1, -j, -1, j], [1, -j, -j, -1]]

/-- `W_3`, beamforming_and_antenna_port_mapping.cpp:259 -/
def W3 : List (List Int) := [[1, 0, 0, 1], [1, 1, 1, -1], [1, 1, j, -j]]

/-- `W_4`, beamforming_and_antenna_port_mapping.cpp:261-269 -/
def W4 : List (List Int) := [
  [1, 0, 0, 1, 0, 0, 0, 0], [1, 0, 0, 0, 0, 1, 0, 0], [1, 0, 0, 0, 0, 0, 0, 1],
  [0, 0, 1, 0, 0, 1, 0, 0], [0, 0, 1, 0, 0, 0, 0, 1], [0, 0, 0, 0, 1, 0, 0, 1],
  [1, 0, 0, 1, 1, 0, 0, -j], [1, 0, 0, 1, 1, 0, 0, j], [1, 0, 0, 1, -j, 0, 0, 1],
  [1, 0, 0, 1, -j, 0, 0, -1], [1, 0, 0, 1, -1, 0, 0, -j], [1, 0, 0, 1, -1, 0, 0, j],
  [1, 0, 0, 1, j, 0, 0, 1], [1, 0, 0, 1, j, 0, 0, -1], [1, 1, 1, 1, 1, -1, 1, -1],
  [1, 1, 1, 1, j, -j, j, -j], [1, 1, j, j, 1, -1, j, -j], [1, 1, j, j, j, -j, -1, 1],
  [1, 1, -1, -1, 1, -1, -1, 1], [1, 1, -1, -1, j, -j, -j, j], [1, 1, -j, -j, 1, -1, -j, j],
  [1, 1, -j, -j, j, -j, 1, -1]]

/-- `W_5`, beamforming_and_antenna_port_mapping.cpp:271-277 -/
def W5 : List (List Int) := [
  [1, 0, 0, 0, 0, 1, 0, 0, 0, 0, 1, 0, 0, 0, 0, 1],
  [1, 1, 0, 0, 0, 0, 1, 1, 1, -1, 0, 0, 0, 0, 1, -1],
  [1, 1, 0, 0, 0, 0, 1, 1, j, -j, 0, 0, 0, 0, j, -j],
  [1, 1, 1, 1, 1, -1, 1, -1, 1, 1, -1, -1, 1, -1, -1, 1],
  [1, 1, 1, 1, 1, -1, 1, -1, j, j, -j, -j, j, -j, -j, j]]

/-- `W_6`, beamforming_and_antenna_port_mapping.cpp:279-282 -/
def W6 : List (List Int) := [[
  1, 0, 0, 0, 0, 0, 0, 0, 0, 1, 0, 0, 0, 0, 0, 0,
  0, 0, 1, 0, 0, 0, 0, 0, 0, 0, 0, 1, 0, 0, 0, 0,
  0, 0, 0, 0, 1, 0, 0, 0, 0, 0, 0, 0, 0, 1, 0, 0,
  0, 0, 0, 0, 0, 0, 1, 0, 0, 0, 0, 0, 0, 0, 0, 1]]

/-- `N_TS_N_TX_idx`, beamforming_and_antenna_port_mapping.hpp:88-97 -/
def idxTable : List (List Nat) := [
  [0, 0, 0, 0, 0, 0, 0, 0, 0],
  [0, 0, 1, 0, 2, 0, 0, 0, 0],
  [0, 0, 3, 0, 4, 0, 0, 0, 0],
  [0, 0, 0, 0, 0, 0, 0, 0, 0],
  [0, 0, 0, 0, 5, 0, 0, 0, 0],
  [0, 0, 0, 0, 0, 0, 0, 0, 0],
  [0, 0, 0, 0, 0, 0, 0, 0, 0],
  [0, 0, 0, 0, 0, 0, 0, 0, 0],
  [0, 0, 0, 0, 0, 0, 0, 0, 6]]

/-- `N_TS_N_TX_codebook_index_max`, beamforming_and_antenna_port_mapping.hpp:99-108 -/
def maxTable : List (List Nat) := [
  [0, 0, 0, 0, 0, 0, 0, 0, 0],
  [0, 0, 5, 0, 27, 0, 0, 0, 0],
  [0, 0, 2, 0, 21, 0, 0, 0, 0],
  [0, 0, 0, 0, 0, 0, 0, 0, 0],
  [0, 0, 0, 0, 4, 0, 0, 0, 0],
  [0, 0, 0, 0, 0, 0, 0, 0, 0],
  [0, 0, 0, 0, 0, 0, 0, 0, 0],
  [0, 0, 0, 0, 0, 0, 0, 0, 0],
  [0, 0, 0, 0, 0, 0, 0, 0, 0]]

/-- `N_TS_N_TX_codebook_index_nonzero`, beamforming_and_antenna_port_mapping.hpp:110-119 -/
def nonzeroTable : List (List Nat) := [
  [0, 0, 0, 0, 0, 0, 0, 0, 0],
  [0, 0, 2, 0, 12, 0, 0, 0, 0],
  [0, 0, 1, 0, 14, 0, 0, 0, 0],
  [0, 0, 0, 0, 0, 0, 0, 0, 0],
  [0, 0, 0, 0, 3, 0, 0, 0, 0],
  [0, 0, 0, 0, 0, 0, 0, 0, 0],
  [0, 0, 0, 0, 0, 0, 0, 0, 0],
  [0, 0, 0, 0, 0, 0, 0, 0, 0],
  [0, 0, 0, 0, 0, 0, 0, 0, 0]]

/-- Element of a table with two dimensions -/
def at2 (t : List (List Nat)) (nTs nTx : Nat) : Res Nat := do
  let r ← atA t nTs
  atA r nTx

/-- `get_codebook_index_max`, beamforming_and_antenna_port_mapping.cpp:238-240 -/
def indexMax (nTs nTx : Nat) : Res Nat := at2 maxTable nTs nTx

/-- `get_codebook_index_nonzero`, beamforming_and_antenna_port_mapping.cpp:242-248 -/
def indexNonzero (nTs nTx : Nat) : Res Nat := at2 nonzeroTable nTs nTx

/-- `clamp_W`, beamforming_and_antenna_port_mapping.cpp:196-203 -/
def clampW (nTs nTx cb : Nat) : Res Nat := do
  let m ← at2 maxTable nTs nTx
  .ok (min cb m)

section
variable {F : Type} [Field F]

/-- Body of the loop of `convert_to_cf32`, beamforming_and_antenna_port_mapping.cpp:289-301 -/
def entry (x : Int) : Res (Cx F) :=
  if x = 1 then .ok ⟨1, 0⟩
  else if x = -1 then .ok ⟨-1, 0⟩
  else if x = j then .ok ⟨0, 1⟩
  else if x = -j then .ok ⟨0, -1⟩
  else if x = 0 then .ok ⟨0, 0⟩
  else .abort

/-- `convert_to_cf32`, beamforming_and_antenna_port_mapping.cpp:284-305 -/
def convert (l : List Int) : Res (List (Cx F)) := l.mapM entry

/-- Number of matrices of each row and size of a matrix of each row, beamforming_and_antenna_port_mapping.cpp:70-97 -/
def dims : List (Nat × Nat) := [(1, 1), (6, 2), (28, 4), (3, 4), (22, 8), (5, 16), (1, 64)]

/-- The matrices built by the constructor, beamforming_and_antenna_port_mapping.cpp:30-97 -/
def matrices : Res (List (List (List (Cx F)))) := do
  let w1 ← W1.mapM convert
  let w2 ← W2.mapM convert
  let w3 ← W3.mapM convert
  let w4 ← W4.mapM convert
  let w5 ← W5.mapM convert
  let w6 ← W6.mapM convert
  let W := [[[⟨1, 0⟩]], w1, w2, w3, w4, w5, w6]
  Res.assert (decide (W.length = 7))
  Res.assert ((W.zip dims).all fun x => decide (x.1.length = x.2.1))
  Res.assert ((W.zip dims).all fun x => x.1.all fun m => decide (m.length = x.2.2))
  .ok W

/-- `get_W` of all codebook indices, beamforming_and_antenna_port_mapping.cpp:212-215 -/
def getWs (nTs nTx : Nat) : Res (List (List (Cx F))) := do
  let W ← matrices
  let k ← at2 idxTable nTs nTx
  atA W k

/-- `get_W`, beamforming_and_antenna_port_mapping.cpp:205-210 -/
def getW (nTs nTx cb : Nat) : Res (List (Cx F)) := do
  let r ← getWs nTs nTx
  atA r cb

/-- `get_W_scaling_factor`, beamforming_and_antenna_port_mapping.cpp:307-319 -/
def scaleOf (sqrt : F → F) (l : List Int) : F := 1 / sqrt (l.foldl (fun p x => if x ≠ 0 then p + 1 else p) 0)

/-- `scaling_factor`, beamforming_and_antenna_port_mapping.cpp:99-144 -/
def scales (sqrt : F → F) : List (List F) :=
  [[1], W1.map (scaleOf sqrt), W2.map (scaleOf sqrt), W3.map (scaleOf sqrt), W4.map (scaleOf sqrt), W5.map (scaleOf sqrt),
    W6.map (scaleOf sqrt)]

/-- `scaling_factor_optimal_DAC`, beamforming_and_antenna_port_mapping.cpp:146-193 -/
def scalesDac (sqrt : F → F) : List (List F) :=
  [[1], List.replicate 6 1, List.replicate 28 1, [1, 1 / sqrt 2, 1 / sqrt 2], List.replicate 14 1 ++ List.replicate 8 (1 / sqrt 2),
    [1, 1 / sqrt 2, 1 / sqrt 2, 1 / sqrt 4, 1 / sqrt 4], [1]]

/-- `get_scaling_factor` of all codebook indices, beamforming_and_antenna_port_mapping.cpp:223-225 -/
def getScales (sqrt : F → F) (nTs nTx : Nat) : Res (List F) := do
  let k ← at2 idxTable nTs nTx
  atA (scales sqrt) k

/-- `get_scaling_factor`, beamforming_and_antenna_port_mapping.cpp:217-221 -/
def getScale (sqrt : F → F) (nTs nTx cb : Nat) : Res F := do
  let r ← getScales sqrt nTs nTx
  atA r cb

/-- `get_scaling_factor_optimal_DAC`, beamforming_and_antenna_port_mapping.cpp:227-231 -/
def getScaleDac (sqrt : F → F) (nTs nTx cb : Nat) : Res F := do
  let k ← at2 idxTable nTs nTx
  let r ← atA (scalesDac sqrt) k
  atA r cb

/-- The scales of the STF and of all other OFDM symbols, tx.cpp:573-594; `bf` is `fec_cfg.beamforming`, set in tx.cpp:180 -/
def txScale (sqrt : F → F) (opt bf : Bool) (dac : F) (occ nTs nTx cb : Nat) : Res (F × F) := do
  let m ← indexMax nTs nTx
  Res.assert (decide (cb ≤ m))
  Res.assert ((decide (0 < cb) && bf) || (decide (cb = 0) && !bf))
  let s ← if opt then getScaleDac sqrt nTs nTx cb else getScale sqrt nTs nTx cb
  .ok (1 / sqrt ((occ / 4 : Nat) : F) * (dac * s), 1 / sqrt (occ : F) * (dac * s))

end
end Verif.Phy.Codebook
