import Verif.Model.SymbolMap

/-!
# Combining of the receive antennas

src/phy/rx/rx_synced/rx_synced.cpp:950-1006 (PCC), 1169-1187, 1204-1330 (PDC), 1335-1395 (transmit diversity). Exact arithmetic. The order
of OFDM symbols, and which channel estimate is used for each, are those of Model/RxFlow.lean (C68); here the OFDM symbols are visited in
their order. Not modelled: the soft demapper (a library), which gets the symbols below one after the other; division by zero, which gives
zero here and no number in the code. -/

namespace Verif.Phy.Combine
open Verif.Sp3 Verif.Sp3.Cells Verif.Phy.SymbolMap

variable {K : Type} [Field K]

/-- `ofdm_symbol_now`: antenna, subcarrier -/
abbrev Rx (K : Type) := Nat → Nat → Cx K

/-- `channel_antennas[..]->chestim`: antenna, transmit stream, subcarrier -/
abbrev Est (K : Type) := Nat → Nat → Nat → Cx K

/-- What is done in all three functions: the stages for numerator and denominator are set to zero, each of the antennas adds to them,
they are divided. rx_synced.cpp:960-994, 1236-1272, 1313-1394 -/
def combine (nRx n : Nat) (num den : Nat → List (Cx K)) : List (Cx K) :=
  let s := (List.range nRx).foldl
    (fun (s : List (Cx K) × List (Cx K)) a => (List.zipWith (· + ·) s.1 (num a), List.zipWith (· + ·) s.2 (den a)))
    (List.replicate n 0, List.replicate n 0)
  List.zipWith (· / ·) s.1 s.2

/-- PCC with one transmit stream, rx_synced.cpp:964-994 -/
def pccSingle (nRx : Nat) (y : Rx K) (h : Est K) (ks : List Nat) : List (Cx K) :=
  combine nRx ks.length (fun a => ks.map fun k => y a k * (h a 0 k).conj) (fun a => ks.map fun k => h a 0 k * (h a 0 k).conj)

/-- One step of `run_pdc_mode_single_antenna`, rx_synced.cpp:1231-1272: all subcarriers from `off` on -/
def mrcStep (nRx : Nat) (y : Rx K) (h : Est K) (off width : Nat) : List (Cx K) :=
  combine nRx width (fun a => (List.range width).map fun j => y a (off + j) * (h a 0 (off + j)).conj)
    (fun a => (List.range width).map fun j => h a 0 (off + j) * (h a 0 (off + j)).conj)

/-- `run_pdc_mode_single_antenna`, rx_synced.cpp:1204-1305; a subcarrier behind the stage must not be read -/
def pdcSingle (occ nRx : Nat) (y : Rx K) (h : Est K) (ks : List Nat) : Res (List (Cx K)) :=
  if ks.length = occ then
    .ok ((List.range 2).flatMap fun s => mrcStep nRx y h ((occ / 2 + 1) * s) (occ / 2))
  else if ks.any fun k => decide (occ + 1 ≤ k) then .ub
  else .ok (ks.map fun k => (mrcStep nRx y h 0 (occ + 1)).getD k 0)

/-- Channel of a transmit stream averaged over the two subcarriers of a pair, rx_synced.cpp:1366-1371 -/
def avg (h : Est K) (a t k k' : Nat) : Cx K := (h a t k + h a t k').half

/-- Numerators of a pair, rx_synced.cpp:1352-1378; `i` is `PXX_idx + cnt` -/
def divNum (nTs : Nat) (y : Rx K) (h : Est K) (a i k k' : Nat) : List (Cx K) :=
  let h0 := avg h a (pair nTs i).1 k k'
  let h1 := avg h a (pair nTs i).2 k k'
  [h0.conj * y a k + h1 * (y a k').conj, -h1 * (y a k).conj + h0.conj * y a k']

/-- Denominators of a pair, rx_synced.cpp:1381-1383 -/
def divDen (nTs : Nat) (h : Est K) (a i k k' : Nat) : List (Cx K) :=
  let h0 := avg h a (pair nTs i).1 k k'
  let h1 := avg h a (pair nTs i).2 k k'
  [h0 * h0.conj + h1 * h1.conj, h0 * h0.conj + h1 * h1.conj]

/-- `run_pxx_mode_transmit_diversity`, rx_synced.cpp:1335-1395; `idx` is `PXX_idx` -/
def pxxDiversity (nTs nRx : Nat) (y : Rx K) (h : Est K) (idx : Nat) (ks : List Nat) : Res (List (Cx K)) := do
  Res.assert (decide (ks.length % 2 = 0))
  .ok (combine nRx ks.length
    (fun a => (List.range (ks.length / 2)).flatMap fun c => divNum nTs y h a (idx + 2 * c) (ks.getD (2 * c) 0) (ks.getD (2 * c + 1) 0))
    (fun a => (List.range (ks.length / 2)).flatMap fun c => divDen nTs h a (idx + 2 * c) (ks.getD (2 * c) 0) (ks.getD (2 * c + 1) 0)))

/-- `run_pcc_collection_and_demapping`, rx_synced.cpp:950-1006: symbols handed to the demapper -/
def collectPcc (nTs nRx : Nat) (y : Rx K) (h : Est K) (idx : Nat) (ks : List Nat) : Res (List (Cx K)) :=
  if nTs = 1 then .ok (pccSingle nRx y h ks) else pxxDiversity nTs nRx y h idx ks

/-- `run_pdc`, rx_synced.cpp:1169-1187, 1307-1333; nothing is done with more than one spatial stream -/
def collectPdc (occ nTs nSs nRx : Nat) (y : Rx K) (h : Est K) (idx : Nat) (ks : List Nat) : Res (List (Cx K)) :=
  if nTs = 1 then pdcSingle occ nRx y h ks
  else if nSs = 1 then pxxDiversity nTs nRx y h idx ks
  else .ok []

/-- Only OFDM symbols with cells of the PCC, rx_synced.cpp:297-299 -/
def visitPcc (nTs nRx : Nat) (y : Rx K) (h : Est K) (idx : Nat) (ks : List Nat) : Res (List (Cx K)) :=
  if ks = [] then .ok [] else collectPcc nTs nRx y h idx ks

/-- Only OFDM symbols with cells of the PDC, rx_synced.cpp:1101-1103, 1131-1133, 1150-1152 -/
def visitPdc (occ nTs nSs nRx : Nat) (y : Rx K) (h : Est K) (idx : Nat) (ks : List Nat) : Res (List (Cx K)) :=
  if ks = [] then .ok [] else collectPdc occ nTs nSs nRx y h idx ks

/-- All symbols of the PCC handed to the demapper; `y l` and `h l` belong to OFDM symbol `l`, `idx` is `PCC_idx` -/
def pccLoop (nTs nRx : Nat) (y : Nat → Rx K) (h : Nat → Est K) : List Symbol → Nat → Nat → Res (List (Cx K))
  | [], _, _ => .ok []
  | x :: xs, l, idx => do
    let r ← visitPcc nTs nRx (y l) (h l) idx x.pcc
    let rest ← pccLoop nTs nRx y h xs (l + 1) (idx + x.pcc.length)
    .ok (r ++ rest)

/-- All symbols of the PDC handed to the demapper; `idx` is `PDC_subc_idx` -/
def pdcLoop (occ nTs nSs nRx : Nat) (y : Nat → Rx K) (h : Nat → Est K) : List Symbol → Nat → Nat → Res (List (Cx K))
  | [], _, _ => .ok []
  | x :: xs, l, idx => do
    let r ← visitPdc occ nTs nSs nRx (y l) (h l) idx x.pdc
    let rest ← pdcLoop occ nTs nSs nRx y h xs (l + 1) (idx + r.length)
    .ok (r ++ rest)

end Verif.Phy.Combine
