import Verif.Model.Cells

/-!
# Receiver: order of the OFDM symbols, processing stages, pilots

src/phy/rx/rx_synced/rx_synced.cpp (lines 222-303, 322-415, 708-746, 772-822, 892-945, 1027-1160),
channel_estimation/channel_lut.cpp, channel_estimation/channel_antenna.hpp, processing_stage.hpp. Samples, values and weights
are not modelled, but where a value comes from: a slot of the processing stage holds the number of an OFDM symbol, an entry of
the vectors of zero-forced pilots holds OFDM symbol and subcarrier it was taken from. `none` is what was left from earlier (the
STF, the packet before). All RX antennas are treated alike, they are not modelled. One spatial stream: packets with several are
turned away after the PCC (line 308). Decoding of what has been read (`decode_tb`, `mac_pdu_decoder`) is not part of it. -/

namespace Verif.Phy.RxFlow
open Verif.Sp3 Verif.Sp3.Cells

/-- OFDM symbol and subcarrier -/
abbrev Pilot := Nat × Nat

/-! ## Look-up tables -/

/-- `s0_calc_drs_pilot_vec`, channel_lut.cpp:352-392, for `k_i_l` and `k_i_r` of `init_lut` (lines 248-260: a `drs_t` for four
transmit streams, first symbol and the one after); `n` is `N_step_virtual` -/
def lutPilots (b n ts : Nat) : Res (List Pilot) := do
  let l := (drsSubc b ts 0).map fun k => (1, k)
  let r := (drsSubc b ts 1).map fun k => (1 + n, k)
  let v := if 0 < n then (if ts ≤ 1 then (l.zip r).flatMap fun p => [p.1, p.2] else (l.zip r).flatMap fun p => [p.2, p.1]) else l
  Res.assert (decide ((v.map Prod.snd).Pairwise (· < ·)))
  .ok v

/-- `s1_find_opt_idx_pilot`, channel_lut.cpp:394-434, the loop: `left` iterations, `i` is the next index, `opt` the best so far.
The sums of distances are floating point numbers, what the comparisons give is arbitrary: `less i` and `stop i`. -/
def optLoop (less stop : Nat → Bool) : Nat → Nat → Nat → Nat
  | 0, _, opt => opt
  | left + 1, i, opt =>
    let o := if less i then i else opt
    if stop i then o else optLoop less stop left (i + 1) o

/-- `size` pilots, `nof` of them are used; the subtraction is unsigned -/
def optIdx (less stop : Nat → Bool) (size nof prev : Nat) : Nat := optLoop less stop (sub32 size nof + 1 - prev) prev 0

/-- The loop over the subcarriers, channel_lut.cpp:299-348: index of the pilots for subcarrier `f` -/
def optRow (less stop : Nat → Nat → Bool) (size nof : Nat) : Nat → Nat
  | 0 => optIdx (less 0) (stop 0) size nof 0
  | f + 1 => optIdx (less (f + 1)) (stop (f + 1)) size nof (optRow less stop size nof f)

/-! ## State -/

/-- `chestim[ts]`: made with the table for `n` (`N_step_virtual`), its OFDM symbol `row` and transmit stream `ts`, from the
pilots which were in the vector at that moment -/
structure Est where
  n : Nat
  row : Nat
  ts : Nat
  pilots : Nat → Option Pilot

/-- Cells `ks` are looked up as those of symbol `l` and taken from the slot which holds symbol `src`. -/
structure Rd where
  l : Nat
  ks : List Nat
  src : Option Nat
  est : Nat → Option Est

structure Cfg where
  b : Nat
  nTs : Nat
  /-- `chestim_mode_lr_default` -/
  lrDefault : Bool
  /-- `chestim_mode_lr_t_stride` -/
  stride : Nat

structure St where
  /-- `ofdm_symb_idx` -/
  idx : Nat
  /-- `ofdm_symb_ps_idx` -/
  rel : Nat
  /-- `ps_idx` -/
  ps : Nat
  /-- `chestim_mode_lr` -/
  lr : Bool
  drs : Drs
  /-- `config_local_cnt` of `pcc_t` -/
  cnt : Nat
  /-- content of the processing stage -/
  stage : Nat → Option Nat
  /-- slot `ofdm_symbol_now` points to -/
  now : Nat
  /-- `TS_idx_first`, `TS_idx_last` -/
  tsFirst : Nat
  tsLast : Nat
  /-- `chestim_drs_zf[ts][i]`, `chestim_drs_zf_interlaced[ts][i]` -/
  zf : Nat → Nat → Option Pilot
  inter : Nat → Nat → Option Pilot
  est : Nat → Option Est
  /-- `DRS_idx` -/
  drsIdx : Nat
  pcc : List Rd
  pdc : List Rd

/-- `N_eff_TX2processing_stage_len`, rx_synced.hpp:151 -/
def psLen (nTs : Nat) : Nat := [0, 6, 6, 0, 11, 0, 0, 0, 12].getD nTs 0

/-! ## Steps -/

/-- `run_mix_resample` and `run_cp_fft_scale`, rx_synced.cpp:708-765: the next OFDM symbol is put on slot `ofdm_symb_ps_idx`.
The assert is that of `get_stage_specific`, processing_stage.hpp:72. -/
def take (c : Cfg) (s : St) : Res St := do
  Res.assert (decide (s.rel < psLen c.nTs))
  .ok { s with stage := fun j => if j = s.rel then some s.idx else s.stage j, now := s.rel }

/-- `get_write_offsets`, channel_antenna.hpp:46-70 -/
def writeOffset (ps rel ts : Nat) : Nat :=
  if (ps % 2 = 0 ∧ rel ≤ 1) ∨ (ps % 2 ≠ 0 ∧ ¬ rel ≤ 1) then [0, 0, 1, 1, 0, 0, 1, 1].getD ts 0 else [1, 1, 0, 0, 1, 1, 0, 0].getD ts 0

/-- Pilot `i` of stream `ts` in the current OFDM symbol, line 818: `k_i[ts % 4][i]` of `ofdm_symbol_now` -/
def pilotNow (c : Cfg) (s : St) (ts i : Nat) : Option Pilot :=
  (s.stage s.now).map fun l => (l, (drsSubc c.b (ts % 4) (if s.drs.sel then 1 else 0)).getD i 0)

/-- `run_drs_chestim_zf`, rx_synced.cpp:772-829 -/
def drsZf (c : Cfg) (s : St) : Res St := do
  Res.assert (!(!s.lr && decide (c.nTs ≤ 4) && decide (s.rel ≠ 0)))
  Res.assert (!(!s.lr && decide (c.nTs > 4) && decide (1 < s.rel)))
  let size := (drsSubc c.b 0 (if s.drs.sel then 1 else 0)).length
  let first := s.drs.tsFirst
  let last := s.drs.last c.nTs
  .ok { s with
    tsFirst := first, tsLast := last, drs := s.drs.advance c.nTs
    drsIdx := s.drsIdx + size * (last - first + 1)
    zf := fun ts i => if first ≤ ts ∧ ts ≤ last ∧ i < size then pilotNow c s ts i else s.zf ts i
    inter := fun ts i => if first ≤ ts ∧ ts ≤ last ∧ writeOffset s.ps s.rel ts ≤ i ∧ (i - writeOffset s.ps s.rel ts) % 2 = 0 ∧
        (i - writeOffset s.ps s.rel ts) / 2 < size
      then pilotNow c s ts ((i - writeOffset s.ps s.rel ts) / 2) else s.inter ts i }

/-- `set_configuration_ps`, channel_lut.cpp:71-96: `N_step_virtual` of the table -/
def lutStep (c : Cfg) (s : St) : Nat := if s.lr then (if c.nTs ≤ 2 then 5 else 10) else 0

/-- Estimate for transmit stream `ts`. For an odd stage upper and lower half of the table are swapped, channel_lut.cpp:119-121,
163-173. -/
def estNow (c : Cfg) (s : St) (ts : Nat) : Est :=
  { n := lutStep c s, row := s.rel, ts := if s.ps % 2 = 1 then (ts % 4 + 2) % 4 else ts % 4, pilots := if s.lr then s.inter ts else s.zf ts }

/-- `run_drs_ch_interpolation`, rx_synced.cpp:892-948. The table has `N_step_virtual + 1` OFDM symbols, the assert is that of
`get_stage_specific`. -/
def interpolate (c : Cfg) (s : St) : Res St := do
  Res.assert (decide (s.rel < lutStep c s + 1))
  .ok { s with est := fun ts => if (if s.lr then 0 else s.tsFirst) ≤ ts ∧ ts ≤ s.tsLast then some (estNow c s ts) else s.est ts }

/-- `if (drs.is_symbol_index(...)) { run_drs_chestim_zf(); run_drs_ch_interpolation(); }` -/
def drsFull (c : Cfg) (s : St) : Res St :=
  if s.idx = s.drs.lNext then do
    let s ← drsZf c s
    interpolate c s
  else .ok s

/-- `if (drs.is_symbol_index(...)) { run_drs_chestim_zf(); }` -/
def drsOnly (c : Cfg) (s : St) : Res St :=
  if s.idx = s.drs.lNext then drsZf c s else .ok s

/-- The assert of `run_pxx_mode_transmit_diversity`, rx_synced.cpp:1344, for more than one transmit stream -/
def evenOk (c : Cfg) (ks : List Nat) : Bool := decide (c.nTs = 1) || decide (ks.length % 2 = 0)

/-- `if (pcc.is_symbol_index(...)) { run_pcc_collection_and_demapping(); }`, rx_synced.cpp:298-300, 950-1006 -/
def readPcc (c : Cfg) (tab : List (Nat × List Nat)) (s : St) : Res St :=
  let r := pccSymbol tab s.cnt s.idx
  if r.1 = [] then .ok { s with cnt := r.2 }
  else do
    Res.assert (evenOk c r.1)
    .ok { s with cnt := r.2, pcc := s.pcc ++ [⟨s.idx, r.1, s.stage s.now, s.est⟩] }

/-- `if (pdc.is_symbol_index(l)) { run_pdc(); }`, rx_synced.cpp:1169-1330 -/
def readPdc (c : Cfg) (tab : List (List Nat)) (l : Nat) (s : St) : Res St := do
  let ks ← pdcSymbol tab c.nTs l
  if ks = [] then .ok s
  else do
    Res.assert (evenOk c ks)
    .ok { s with pdc := s.pdc ++ [⟨l, ks, s.stage s.now, s.est⟩] }

/-! ## PCC -/

/-- One OFDM symbol, rx_synced.cpp:285-303 -/
def pccStep (c : Cfg) (tab : List (Nat × List Nat)) (s : St) : Res St := do
  let s ← take c s
  let s ← drsFull c s
  let s ← readPcc c tab s
  .ok { s with idx := s.idx + 1, rel := s.rel + 1 }

def pccLoop (c : Cfg) (tab : List (Nat × List Nat)) : Nat → St → Res St
  | 0, s => .ok s
  | n + 1, s => do
    let s ← pccStep c tab s
    pccLoop c tab n s

/-- `get_pcc_symbol_idx_max`, pcc.hpp:43 -/
def pccMax (tab : List (Nat × List Nat)) : Nat := (tab.getLastD (0, [])).1

/-- State in front of the loop, rx_synced.cpp:228-272 -/
def start (est : Nat → Option Est) : St :=
  { idx := 1, rel := 0, ps := 0, lr := false, drs := Drs.start, cnt := 0, stage := fun _ => none, now := 0, tsFirst := 0, tsLast := 0,
    zf := fun _ _ => none, inter := fun _ _ => none, est := est, drsIdx := 0, pcc := [], pdc := [] }

/-- Number of cells which have been read -/
def cellsRead (l : List Rd) : Nat := (l.map fun r => r.ks.length).sum

/-- `demoddecod_rx_pcc` up to the decoding, rx_synced.cpp:222-305; `est` is left from the packet before -/
def runPcc (c : Cfg) (est : Nat → Option Est) : Res St := do
  let tab ← pccTable c.b c.nTs
  let s ← pccLoop c tab (pccMax tab) (start est)
  Res.assert (decide (cellsRead s.pcc = 98))
  .ok s

/-! ## PDC, pilots from left and right -/

/-- `for (; ofdm_symb_idx <= final_idx; ++ofdm_symb_idx)`, rx_synced.cpp:1063-1073; the first argument is the number of
iterations -/
def collectLoop (c : Cfg) : Nat → St → Res St
  | 0, s => .ok s
  | n + 1, s => do
    let s ← take c s
    let s ← drsOnly c s
    collectLoop c n { s with idx := s.idx + 1, rel := s.rel + 1 }

/-- Update of the channel estimate, line 1097 -/
def strideInterp (c : Cfg) (start : Nat) (s : St) : Res St :=
  if (s.rel - start) % c.stride = 0 then interpolate c s else .ok s

/-- `for (ofdm_symb_ps_idx = relative_start; ofdm_symb_ps_idx <= N_step; ++ofdm_symb_ps_idx)`, rx_synced.cpp:1092-1104 -/
def stageLoop (c : Cfg) (tab : List (List Nat)) (first start : Nat) : Nat → St → Res St
  | 0, s => .ok s
  | n + 1, s => do
    Res.assert (decide (s.rel < psLen c.nTs))
    let s ← strideInterp c start { s with now := s.rel }
    let s ← readPdc c tab (first + s.rel) s
    stageLoop c tab first start n { s with rel := s.rel + 1 }

/-- One processing stage, rx_synced.cpp:1044-1110 -/
def stageFull (c : Cfg) (tab : List (List Nat)) (s : St) : Res St := do
  let start := if s.ps = 0 then 0 else 1
  let s1 := if 0 < s.ps then { s with rel := 1 } else s
  let s2 ← collectLoop c (psLen c.nTs + s.ps * nStep c.nTs + 1 - s.idx) s1
  let s3 ← stageLoop c tab (1 + s.ps * nStep c.nTs) start (nStep c.nTs + 1 - start) { s2 with rel := start }
  .ok { s3 with ps := s3.ps + 1, rel := 0 }

def stagesLoop (c : Cfg) (tab : List (List Nat)) : Nat → St → Res St
  | 0, s => .ok s
  | n + 1, s => do
    let s ← stageFull c tab s
    stagesLoop c tab n s

/-- `run_pdc_ps_in_chestim_mode_lr_t`, rx_synced.cpp:1027-1113; the subtraction is unsigned -/
def lrT (c : Cfg) (tab : List (List Nat)) (df : Nat) (s : St) : Res St :=
  let full := sub32 df (psLen c.nTs - nStep c.nTs) / nStep c.nTs
  if full = 0 then .ok s else stagesLoop c tab (full - s.ps) { s with lr := true }

/-! ## PDC, pilots from the left -/

/-- `for (uint32_t i = 1; i < ofdm_symb_idx; ++i)`, rx_synced.cpp:1129-1138 -/
def againLoop (c : Cfg) (tab : List (List Nat)) : Nat → Nat → St → Res St
  | 0, _, s => .ok s
  | n + 1, i, s => do
    let s ← readPdc c tab i s
    againLoop c tab n (i + 1) { s with rel := s.rel + 1 }

/-- End of a processing stage, lines 1156-1160 -/
def wrap (c : Cfg) (s : St) : St := if s.rel = nStep c.nTs then { s with ps := s.ps + 1, rel := 0 } else s

/-- `for (; ofdm_symb_idx <= packet_sizes->N_DF_symb; ++ofdm_symb_idx)`, rx_synced.cpp:1142-1161 -/
def restLoop (c : Cfg) (tab : List (List Nat)) : Nat → St → Res St
  | 0, s => .ok s
  | n + 1, s => do
    let s ← take c s
    let s ← drsFull c s
    let s ← readPdc c tab s.idx s
    restLoop c tab n (wrap c { s with idx := s.idx + 1, rel := s.rel + 1 })

/-- lines 1126-1139 -/
def again (c : Cfg) (tab : List (List Nat)) (s : St) : Res St :=
  if s.ps = 0 then againLoop c tab (s.idx - 1) 1 { s with rel := 0 } else .ok s

/-- `run_pdc_ps_in_chestim_mode_lr_f`, rx_synced.cpp:1115-1162 -/
def lrF (c : Cfg) (tab : List (List Nat)) (df : Nat) (s : St) : Res St := do
  let s ← again c tab { s with lr := false }
  restLoop c tab (df + 1 - s.idx) s

/-- `if (chestim_mode_lr_default) run_pdc_ps_in_chestim_mode_lr_t();`, rx_synced.cpp:389-395 -/
def lrMaybe (c : Cfg) (tab : List (List Nat)) (df : Nat) (s : St) : Res St := if c.lrDefault then lrT c tab df s else .ok s

/-- `demoddecod_rx_pdc`, rx_synced.cpp:322-415, from the assert of line 387 on; `df`, `nDrs`, `nPdc` are `N_DF_symb`, `N_DRS_subc`
and `N_PDC_subc` of the packet sizes. The number of bits is the number of cells times `N_bps` (lines 1288, 1299, 1329), the
two asserts are one. -/
def runPdc (c : Cfg) (df nDrs nPdc : Nat) (s : St) : Res St := do
  let tab ← pdcTable c.b c.nTs
  Res.assert (decide (s.idx ≤ df))
  let s ← lrMaybe c tab df s
  let s ← lrF c tab df s
  Res.assert (decide (cellsRead s.pcc = 98))
  Res.assert (decide (s.drsIdx = nDrs))
  Res.assert (decide (cellsRead s.pdc = nPdc))
  Res.assert (decide (s.tsLast = c.nTs - 1))
  .ok s

/-- The whole packet -/
def receive (c : Cfg) (df nDrs nPdc : Nat) (est : Nat → Option Est) : Res St := do
  let s ← runPcc c est
  runPdc c df nDrs nPdc s

end Verif.Phy.RxFlow
