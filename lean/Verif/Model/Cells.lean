import Verif.Model.PacketSizes
import Mathlib.Data.List.Sort

/-!
# Cells of a packet: DRS, PCC, PDC

src/sections_part3/drs.cpp, pcc.cpp, pdc.cpp, physical_resources.cpp. The tables are built for a single bandwidth `b` and
number of transmit streams `nTs` (the constructors loop over both). The values of the DRS (`y_DRS_i`) are not modelled,
only their positions. -/

namespace Verif.Sp3.Cells

/-- physical_resources.hpp:31-38: `b2b_idx`, `N_b_DFT_lut`, `N_b_OCC_lut`, `guards_top_lut`, `guards_bottom_lut` -/
def b2bIdx : List Nat := [0, 0, 1, 0, 2, 0, 0, 0, 3, 0, 0, 0, 4, 0, 0, 0, 5]
def dftLut : List Nat := [64, 128, 256, 512, 768, 1024]
def occLut : List Nat := [56, 112, 224, 448, 672, 896]
def guardsTopLut : List Nat := [3, 7, 15, 31, 47, 63]
def guardsBottomLut : List Nat := [4, 8, 16, 32, 48, 64]

def lut (l : List Nat) (b : Nat) : Nat := l.getD (b2bIdx.getD b 0) 0
def dft (b : Nat) : Nat := lut dftLut b
def occ (b : Nat) : Nat := lut occLut b
def guardsTop (b : Nat) : Nat := lut guardsTopLut b
def guardsBottom (b : Nat) : Nat := lut guardsBottomLut b

/-- `get_k_b_OCC_vec`, physical_resources.cpp:49-69: -N/2 to -1, then 1 to N/2 -/
def kOcc (n : Nat) : List Int :=
  (List.range (n / 2)).map (fun i : Nat => (i : Int) - (n / 2 : Nat)) ++ (List.range (n / 2)).map (fun i : Nat => (i : Int) + 1)

/-- `get_N_step`, drs.cpp:184-186 -/
def nStep (nTs : Nat) : Nat := if nTs ≤ 2 then 5 else 10

/-- `drs_t::get_k_i_linear`, drs.cpp:127-182: a list for each transmit stream -/
def drsLinear (u b n nTs : Nat) : Res (List (List Nat)) := do
  let nSymb ← nDrsSymb u n nTs
  let r := (List.range nTs).map fun t => (List.range nSymb).flatMap fun m => (List.range (occ b / 4)).map fun i =>
    ((kOcc (occ b)).getD (i * 4 + (t + m % 2 * 2) % 4) 0 + (dft b / 2 + dft b * (1 + t / 4 + m * nStep nTs) : Nat)).toNat
  let d ← nDrsSubc u n nTs (occ b)
  Res.assert (decide ((r.map List.length).sum = d))
  .ok r

/-- The virtual frame: content of every cell, negative if occupied. Cells are marked through a raw pointer, an index beyond
the frame is undefined behaviour. -/
def mark (size : Nat) (v : Int) (idx : List Nat) (f : Nat → Int) : Res (Nat → Int) :=
  if ∀ j ∈ idx, j < size then .ok (fun j => if j ∈ idx then v else f j) else .ub

/-- DC and guards of all OFDM symbols: pcc.cpp:136-149, pdc.cpp:248-261 -/
def dcIdx (b n : Nat) : List Nat := (List.range n).map fun l => l * dft b + dft b / 2
def guardIdx (b n : Nat) : List Nat := (List.range n).flatMap fun l =>
  (List.range (guardsBottom b)).map (fun i => l * dft b + i) ++
    (List.range (guardsTop b)).map (fun i => l * dft b + (dft b - guardsTop b + i))

/-- Virtual frame with DC, guards and DRS marked: pcc.cpp:126-163, pdc.cpp:238-276 -/
def virtualFrame (u b n nTs : Nat) : Res (Nat → Int) := do
  let f ← mark (n * dft b) (-1) (dcIdx b n) (fun j => j)
  let f ← mark (n * dft b) (-2) (guardIdx b n) f
  let d ← drsLinear u b n nTs
  mark (n * dft b) (-3) d.flatten f

/-- Free cells of an OFDM symbol: pcc.cpp:175-183 -/
def freeCells (b : Nat) (f : Nat → Int) (l : Nat) : List Nat :=
  (((List.range (dft b)).map fun i => f (l * dft b + i)).filter fun v => decide (0 ≤ v)).map Int.toNat

/-- Steps 5 to 8, pcc.cpp:200-232. The two loops stop when `N_unalloc_subc`, which is positive, becomes zero. -/
def pccLast (free : List Nat) (unalloc : Nat) (acc : List Nat) : Res (List Nat) := do
  Res.assert (decide (free.length % 7 = 0))
  let c := free.length / 7
  let r := acc ++ (((List.range c).flatMap fun j => (List.range 7).map fun i => free.getD (i * c + j) 0).take unalloc)
  Res.assert (decide (r.length = 98))
  .ok (r.insertionSort (· ≤ ·))

/-- The while loop, pcc.cpp:174-243, from OFDM symbol `l` on; the first argument is the number of OFDM symbols which are left.
`virtual_frame.at` throws behind the last one. -/
def pccLoop (free : Nat → List Nat) : Nat → Nat → Nat → List Nat → Res (List Nat)
  | 0, _, _, _ => .abort
  | n + 1, l, unalloc, acc =>
    if (free l).length < unalloc then pccLoop free n (l + 1) (unalloc - (free l).length) (acc ++ free l)
    else pccLast (free l) unalloc acc

/-- `pcc_t::get_k_i_linear`, pcc.cpp:110-246; `N_PACKET_symb_MINIMUM` = 20, u = 8 -/
def pccLinear (b nTs : Nat) : Res (List Nat) := do
  let f ← virtualFrame 8 b 20 nTs
  pccLoop (freeCells b f) 19 1 98 []

/-- `idx2sub_col` and `idx2sub_row`, pcc.cpp:248-315, in one: OFDM symbols and their subcarriers -/
def groups (dim off : Nat) : List Nat → List (Nat × List Nat)
  | [] => []
  | x :: xs =>
    match groups dim off xs with
    | [] => [(x / dim, [x - x / dim * dim - off])]
    | (c, ks) :: rest =>
      if x / dim = c then (c, (x - x / dim * dim - off) :: ks) :: rest else (x / dim, [x - x / dim * dim - off]) :: (c, ks) :: rest

/-- Constructor, pcc.cpp:37-81 -/
def pccTable (b nTs : Nat) : Res (List (Nat × List Nat)) := do
  let l ← pccLinear b nTs
  Res.assert (decide (l.length = 98))
  let g := groups (dft b) (guardsBottom b) l
  Res.assert (decide ((g.map fun e => e.2.length).sum = 98))
  .ok g

/-- `pcc_t::is_symbol_index` and `get_k_i_one_symbol`, pcc.cpp:89-108: the subcarriers of the symbol, if any, and
`config_local_cnt` -/
def pccSymbol (tab : List (Nat × List Nat)) (cnt l : Nat) : List Nat × Nat :=
  match tab[cnt]? with
  | none => ([], cnt)
  | some e => if e.1 = l then (e.2, cnt + 1) else ([], cnt)

/-- Constructor and configuration of `drs_t`, drs.cpp:31-85: `get_k_i_single`, lines 206-225 -/
def drsSubc (b t n : Nat) : List Nat :=
  (List.range (occ b / 4)).map fun i => ((kOcc (occ b)).getD (i * 4 + (t + n % 2 * 2) % 4) 0 + (occ b / 2 : Nat)).toNat

/-- State of `drs_t` -/
structure Drs where
  lNext : Nat
  /-- `k_i_effective` points to `k_i_for_6_or_11_12` -/
  sel : Bool
  tsFirst : Nat

/-- `set_configuration`, drs.cpp:73-85 -/
def Drs.start : Drs := ⟨1, false, 0⟩

/-- `get_ts_idx_last_and_advance`, drs.cpp:95-125: `TS_idx_last` -/
def Drs.last (nTs : Nat) (s : Drs) : Nat := if s.tsFirst = 0 then min (nTs - 1) 3 else 7

def Drs.advance (nTs : Nat) (s : Drs) : Drs :=
  if nTs ≤ 2 then { s with lNext := s.lNext + 5, sel := !s.sel }
  else if nTs = 4 then { s with lNext := s.lNext + 10, sel := !s.sel }
  else if s.lNext % 2 = 1 then { s with lNext := s.lNext + 1, tsFirst := if s.tsFirst = 0 then 4 else 0 }
  else { lNext := s.lNext + 9, sel := !s.sel, tsFirst := if s.tsFirst = 0 then 4 else 0 }

/-- DRS of one OFDM symbol, tx.cpp:255-258, 979-1000: transmit streams and their subcarriers. The table has a row for
each of the streams 0 to 3, row `t % 4` is used for stream `t` (line 992). -/
def drsSymbol (b nTs : Nat) (s : Drs) (l : Nat) : List (Nat × List Nat) × Drs :=
  if l = s.lNext then
    ((List.range' s.tsFirst (s.last nTs + 1 - s.tsFirst)).map fun t => (t, drsSubc b (t % 4) (if s.sel then 1 else 0)), s.advance nTs)
  else ([], s)

/-- `pdc_t::get_k_i_linear`, pdc.cpp:221-310: `N_PACKET_symb` = 30, u = 8 -/
def pdcLinear (b nTs : Nat) : Res (List Nat) := do
  let f ← virtualFrame 8 b 30 nTs
  let p ← pccLinear b nTs
  let f ← mark (30 * dft b) (-4) p f
  let n ← nPdcSubc 30 8 nTs (occ b)
  Res.assert (decide (0 < n))
  let r := (List.range' 1 (nDfSymb 8 30)).flatMap (freeCells b f)
  Res.assert (decide (r.length = n))
  .ok r

/-- `idx2sub_row_zero_vec`, pdc.cpp:327-353: a row for every symbol, all entries of a symbol in order -/
def rows (dim off : Nat) (l : List Nat) : List (List Nat) :=
  (List.range (l.getLastD 0 / dim + 1)).map fun c => (l.filter fun x => decide (x / dim = c)).map fun x => x - c * dim - off

/-- Constructor, pdc.cpp:40-106: only one of the fully occupied symbols is kept, number 10, of others one entry is left. -/
def pdcTable (b nTs : Nat) : Res (List (List Nat)) := do
  let l ← pdcLinear b nTs
  let r := rows (dft b) (guardsBottom b) l
  Res.assert (decide (21 ≤ r.length))
  .ok ((r.take 21).mapIdx fun i ks => if i = 10 then ks else if ks.length = occ b then ks.take 1 else ks)

/-- `set_configuration`, pdc.cpp:108-125 -/
def lLimit (nTs : Nat) : Nat := if nTs ≤ 2 then 6 else 11

/-- `is_symbol_index`, `get_k_i_one_symbol`, pdc.cpp:127-153; `at` throws outside of the table -/
def pdcSymbol (tab : List (List Nat)) (nTs l : Nat) : Res (List Nat) :=
  let e := if l ≤ lLimit nTs then l else l - (l - lLimit nTs) / 10 * 10
  match tab[e]? with
  | none => .abort
  | some ks => if ks.length = 1 then
      match tab[10]? with
      | none => .abort
      | some ks => .ok ks
    else .ok ks

/-- What is put on an OFDM symbol, tx.cpp:245-265 -/
structure Symbol where
  drs : List (Nat × List Nat)
  pcc : List Nat
  pdc : List Nat

/-- The loop over the OFDM symbols, tx.cpp:245-275 -/
def symbols (b nTs : Nat) (pccTab : List (Nat × List Nat)) (pdcTab : List (List Nat)) : Nat → Nat → Nat → Drs → Res (List Symbol)
  | 0, _, _, _ => .ok []
  | n + 1, l, cnt, d => do
    let pdc ← pdcSymbol pdcTab nTs l
    let rest ← symbols b nTs pccTab pdcTab n (l + 1) (pccSymbol pccTab cnt l).2 (drsSymbol b nTs d l).2
    .ok (⟨(drsSymbol b nTs d l).1, (pccSymbol pccTab cnt l).1, pdc⟩ :: rest)

/-- All OFDM symbols of the data field -/
def packet (b nTs df : Nat) : Res (List Symbol) := do
  let pccTab ← pccTable b nTs
  let pdcTab ← pdcTable b nTs
  symbols b nTs pccTab pdcTab df 1 0 Drs.start

end Verif.Sp3.Cells
