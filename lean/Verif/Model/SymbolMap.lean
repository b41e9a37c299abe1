import Verif.Base.Cx
import Verif.Model.Cells

/-!
# Symbol mapping: from coded bits to the transmit streams

src/sections_part3/fix/mod.cpp, src/phy/tx/tx.cpp (lines 244-265, 295-308, 475-511, 602-677, 716-720, 944-1116),
src/sections_part3/transmit_diversity_precoding.cpp. The tables of the constellations are those of a library: a symbol is
`point i` for the index `i` into `symbol_table`, arbitrary. The packed tables of the library for whole octets
(`symbol_table_bpsk`, `symbol_table_qpsk`, `symbol_table_16qam`) are assumed to hold the symbols of the bits of the octet,
most significant first. Values are exact. `uint32_t` values are natural numbers; the two subtractions in `run_pdc` wrap
around. The values of the DRS are arbitrary (`drs` below), they are `y_DRS_i` of drs.cpp. -/

namespace Verif.Phy.SymbolMap
open Verif.Sp3 Verif.Sp3.Cells

/-! ## Modulation -/

/-- `mod_bpsk_bytes`, mod.cpp:32-54; `d i` is octet `i` -/
def modBpsk (d : Nat → Nat) (n : Nat) : List Nat :=
  ((List.range (n / 8)).flatMap fun i => (List.range 8).map fun j => (d i >>> (7 - j)) &&& 1) ++
    (List.range (n % 8)).map fun i => (d (n / 8) &&& [0x80, 0x40, 0x20, 0x10, 0x08, 0x04, 0x02, 0x01].getD i 0) >>>
      [7, 6, 5, 4, 3, 2, 1, 0].getD i 0

/-- `mod_qpsk_bytes`, mod.cpp:56-70 -/
def modQpsk (d : Nat → Nat) (n : Nat) : List Nat :=
  ((List.range (n / 8)).flatMap fun i => (List.range 4).map fun j => (d i >>> (6 - 2 * j)) &&& 3) ++
    (List.range (n % 8 / 2)).map fun i => (d (n / 8) &&& [0xc0, 0x30, 0x0c, 0x03].getD i 0) >>> [6, 4, 2, 0].getD i 0

/-- `mod_16qam_bytes`, mod.cpp:72-83 -/
def mod16 (d : Nat → Nat) (n : Nat) : List Nat :=
  ((List.range (n / 8)).flatMap fun i => (List.range 2).map fun j => (d i >>> (4 - 4 * j)) &&& 15) ++
    if n % 8 ≠ 0 then [(d (n / 8) &&& 0xf0) >>> 4] else []

/-- The four symbols of three octets, mod.cpp:92-105, 107-124 -/
def in64 (d : Nat → Nat) (i j : Nat) : Nat :=
  match j with
  | 0 => (d (3 * i) &&& 0xfc) >>> 2
  | 1 => (d (3 * i) &&& 0x03) <<< 4 ||| (d (3 * i + 1) &&& 0xf0) >>> 4
  | 2 => (d (3 * i + 1) &&& 0x0f) <<< 2 ||| (d (3 * i + 2) &&& 0xc0) >>> 6
  | _ => d (3 * i + 2) &&& 0x3f

/-- `mod_64qam_bytes`, mod.cpp:85-125 -/
def mod64 (d : Nat → Nat) (n : Nat) : List Nat :=
  ((List.range (n / 24)).flatMap fun i => (List.range 4).map fun j => in64 d i j) ++
    (if 6 ≤ n % 24 then [in64 d (n / 24) 0] else []) ++ (if 12 ≤ n % 24 then [in64 d (n / 24) 1] else []) ++
    (if 18 ≤ n % 24 then [in64 d (n / 24) 2] else [])

/-- `mod_256qam_bytes`, mod.cpp:127-134 -/
def mod256 (d : Nat → Nat) (n : Nat) : List Nat := (List.range (n / 8)).map d

/-- `srsran_mod_modulate_bytes_FIX`, mod.cpp:137-174: indices into the table of the constellation. The octets are `d` from
number `o` on; octets behind the end of the buffer must not be read. -/
def modulate (bps : Nat) (d : List Nat) (o n : Nat) : Res (List Nat) := do
  Res.assert (decide (n % bps = 0))
  if 8 * d.length < 8 * o + n then .ub
  else
    let f := fun i => d.getD (o + i) 0
    if bps = 1 then .ok (modBpsk f n) else if bps = 2 then .ok (modQpsk f n) else if bps = 4 then .ok (mod16 f n)
    else if bps = 6 then .ok (mod64 f n) else if bps = 8 then .ok (mod256 f n) else .abort

/-- The table selected for an MCS, tx.cpp:485-511, as number of bits per symbol; 256-QAM for all MCS above 7 -/
def modemBps (mcs : Nat) : Nat :=
  if mcs = 0 then 1 else if mcs = 1 ∨ mcs = 2 then 2 else if mcs = 3 ∨ mcs = 4 then 4
  else if mcs = 5 ∨ mcs = 6 ∨ mcs = 7 then 6 else 8

/-! ## Transmit diversity -/

/-- `get_modulo`, transmit_diversity_precoding.cpp:77-87 -/
def modulo (nTs : Nat) : Nat := if nTs = 2 then 1 else if nTs = 4 then 6 else 12

/-- Constructor and `get_index_mat_N_TS_x`, transmit_diversity_precoding.cpp:44-72, 89-93: rows of the table for two, four
and eight transmit streams; row 0 is also selected for other values -/
def indexMat (nTs : Nat) : List (Nat × Nat) :=
  if nTs = 4 then [(0, 1), (2, 3), (0, 2), (1, 3), (0, 3), (1, 2)]
  else if nTs = 8 then [(0, 1), (2, 3), (4, 5), (6, 7), (0, 4), (1, 5), (2, 6), (3, 7), (0, 2), (1, 3), (4, 6), (5, 7)]
  else [(0, 1)]

/-- Transmit streams used for symbol `i`, `TS_index_A` and `TS_index_B`: tx.cpp:961-967, 1090-1096 and
rx_synced.cpp:1360-1363 -/
def pair (nTs i : Nat) : Nat × Nat := (indexMat nTs).getD (i / 2 % modulo nTs) (0, 0)

variable {K : Type} [Field K]

/-- Pairwise flipping and the pattern, tx.cpp:657-675, 1071-1082 with transmit_diversity_precoding.cpp:39-42 -/
def flip (buf : Nat → Cx K) (i : Nat) : Cx K :=
  if i % 2 = 0 then ⟨-(buf (i + 1)).re, (buf (i + 1)).im⟩ else ⟨(buf (i - 1)).re, -(buf (i - 1)).im⟩

/-! ## Transmit streams of an OFDM symbol -/

/-- `transmit_streams_stage`: value for each transmit stream and subcarrier -/
abbrev Stage (K : Type) := Nat → Nat → Cx K

/-- Assignment of one value -/
def write (st : Stage K) (w : Nat × Nat × Cx K) : Stage K := fun t k => if t = w.1 ∧ k = w.2.1 then w.2.2 else st t k

/-- What does not change during a packet -/
structure Cfg where
  nTs : Nat
  nSs : Nat
  /-- `transmit_diversity_mode`, tx.cpp:475-477 -/
  diversity : Bool
  /-- `packet_sizes->mcs.N_bps` -/
  nBps : Nat
  /-- `nbits_x_symbol` of the selected table -/
  tableBps : Nat
  G : Nat
  /-- size of `pdc_cmplx_symbols`, tx_rx.cpp:125-126 -/
  cap : Nat

/-- State of the transmitter -/
structure Tx (K : Type) where
  stage : Stage K
  pccIdx : Nat
  drsIdx : Nat
  bitsIdx : Nat
  subcIdx : Nat
  /-- `PDC_nof_cmplx_subc_residual` -/
  resid : Nat
  /-- the first `resid` elements of `pdc_cmplx_symbols` -/
  buf : List (Cx K)

/-- `reset_common_counters`, tx_rx.cpp:249-256 -/
def Tx.start : Tx K := ⟨fun _ _ => 0, 0, 0, 0, 0, 0, []⟩

/-- `run_pcc_symbol_mapper_and_flipper`, tx.cpp:602-677 -/
def pccSymbols (qpsk : Nat → Cx K) (d : List Nat) : Res (List (Cx K)) := do
  let idx ← modulate 2 d 0 196
  Res.assert (decide (idx.length = 98))
  .ok (idx.map qpsk)

/-- `run_pcc`, tx.cpp:944-975; the two arrays have 98 elements, reading behind them is undefined -/
def runPcc (c : Cfg) (sym : List (Cx K)) (s : Tx K) (ks : List Nat) : Res (Tx K) :=
  if 98 < s.pccIdx + ks.length then .ub
  else if c.nTs = 1 then
    .ok { s with
      stage := ((List.range ks.length).map fun i => (0, ks.getD i 0, sym.getD (s.pccIdx + i) 0)).foldl write s.stage
      pccIdx := s.pccIdx + ks.length }
  else
    .ok { s with
      stage := ((List.range ks.length).flatMap fun i =>
        [((pair c.nTs (s.pccIdx + i)).1, ks.getD i 0, sym.getD (s.pccIdx + i) 0),
          ((pair c.nTs (s.pccIdx + i)).2, ks.getD i 0, flip (fun j => sym.getD j 0) (s.pccIdx + i))]).foldl write s.stage
      pccIdx := s.pccIdx + ks.length }

/-- `run_drs`, tx.cpp:977-1002: streams and their subcarriers from `drsSymbol`; `y t k` is the value -/
def runDrs (y : Nat → Nat → Cx K) (s : Tx K) (drs : List (Nat × List Nat)) : Tx K :=
  { s with
    stage := (drs.flatMap fun e => e.2.map fun k => (e.1, k, y e.1 k)).foldl write s.stage
    drsIdx := s.drsIdx + (drs.map fun e => e.2.length).sum }

/-- Subtraction of `uint32_t` -/
def sub32 (a b : Nat) : Nat := (a + 4294967296 - b) % 4294967296

/-- The values written by `run_pdc`, tx.cpp:1050-1104: in a mode without transmit diversity lines 1051-1060, otherwise
1071-1103 -/
def pdcWrites (c : Cfg) (buf : List (Cx K)) (subcIdx : Nat) (ks : List Nat) : List (Nat × Nat × Cx K) :=
  if c.diversity then
    (List.range ks.length).flatMap fun i =>
      [((pair c.nTs (subcIdx + i)).1, ks.getD i 0, buf.getD i 0),
        ((pair c.nTs (subcIdx + i)).2, ks.getD i 0, flip (fun j => buf.getD j 0) i)]
  else
    (List.range ks.length).flatMap fun i => (List.range c.nSs).map fun j => (j, ks.getD i 0, buf.getD (i * c.nSs + j) 0)

/-- `run_pdc`, tx.cpp:1004-1116. An odd number of cells makes the pairwise flipping read and write behind the values. -/
def runPdc (c : Cfg) (point : Nat → Cx K) (d : List Nat) (s : Tx K) (ks : List Nat) : Res (Tx K) := do
  let n := c.nSs * ks.length
  let proc := min (ceilDiv (sub32 n s.resid * c.nBps) 24 * 24) (sub32 c.G s.bitsIdx)
  Res.assert (decide (proc % c.nBps = 0))
  Res.assert (decide ((s.bitsIdx < c.G ∧ s.bitsIdx % 8 = 0) ∨ s.bitsIdx = c.G))
  let idx ← modulate c.tableBps d (s.bitsIdx / 8) proc
  if c.cap < s.resid + idx.length then .ub
  else do
    Res.assert (decide (proc / c.nBps = idx.length))
    if c.diversity = true ∧ n % 2 = 1 then .ub
    else do
      let buf := s.buf ++ idx.map point
      let resid := sub32 (s.resid + idx.length) n
      Res.assert (decide (resid ≤ 23))
      .ok { s with
        stage := (pdcWrites c buf s.subcIdx ks).foldl write s.stage
        bitsIdx := s.bitsIdx + proc
        subcIdx := s.subcIdx + n
        resid := resid
        buf := (buf.drop n).take resid }

/-- The transmit streams are zeroed (tx.cpp:716-720), then the PCC is written if the OFDM symbol has cells of it. -/
def zeroPcc (c : Cfg) (pcc : List (Cx K)) (s : Tx K) (ks : List Nat) : Res (Tx K) :=
  if ks = [] then .ok { s with stage := fun _ _ => 0 } else runPcc c pcc { s with stage := fun _ _ => 0 } ks

/-- One OFDM symbol, tx.cpp:246-265 -/
def txSymbol (c : Cfg) (pcc : List (Cx K)) (point : Nat → Cx K) (y : Nat → Nat → Cx K) (d : List Nat) (s : Tx K) (x : Symbol) :
    Res (Tx K) := do
  let s ← zeroPcc c pcc s x.pcc
  let s := runDrs y s x.drs
  if x.pdc = [] then .ok s else runPdc c point d s x.pdc

/-- The loop over the OFDM symbols, tx.cpp:245-280: the transmit streams of each, and the final state. `y l` are the values
of the DRS in symbol `l`. -/
def txLoop (c : Cfg) (pcc : List (Cx K)) (point : Nat → Cx K) (y : Nat → Nat → Nat → Cx K) (d : List Nat) :
    List Symbol → Nat → Tx K → Res (List (Stage K) × Tx K)
  | [], _, s => .ok ([], s)
  | x :: xs, l, s => do
    let s ← txSymbol c pcc point (y l) d s x
    let r ← txLoop c pcc point y d xs (l + 1) s
    .ok (s.stage :: r.1, r.2)

/-- `generate_tx_packet`, tx.cpp:165-314, as far as the transmit streams are concerned: transmit streams of all OFDM symbols
of the data field. `dPcc` and `d` are the coded bits of PLCF and transport block; `point` holds for the selected
constellation. -/
def txPacket (r : PacketSizes) (cap : Nat) (qpsk point : Nat → Cx K) (y : Nat → Nat → Nat → Cx K) (dPcc d : List Nat) :
    Res (List (Stage K)) := do
  Res.assert (decide (r.psdef.mcs ≤ 9))
  let syms ← packet r.psdef.b r.tm.nTs r.nDfSymb
  let c : Cfg := ⟨r.tm.nTs, r.tm.nSs, r.psdef.tm == 1 || r.psdef.tm == 5 || r.psdef.tm == 10, r.mcs.nBps, modemBps r.psdef.mcs, r.G, cap⟩
  let pcc ← pccSymbols qpsk dPcc
  let (stages, s) ← txLoop c pcc point y d syms 1 Tx.start
  Res.assert (decide (s.pccIdx = 98))
  Res.assert (decide (s.drsIdx = r.nDrsSubc))
  Res.assert (decide (s.bitsIdx = r.G))
  Res.assert (decide (s.subcIdx = r.nPdcSubc * r.tm.nSs))
  Res.assert (decide (s.resid = 0))
  .ok stages

end Verif.Phy.SymbolMap
