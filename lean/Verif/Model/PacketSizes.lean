import Verif.Base.Res

/-!
# Packet dimensions, transport block size, code block segmentation

src/sections_part3/{mcs,tm_mode,numerologies,pdc,transmission_packet_structure,transport_block_size}.cpp,
src/sections_part3/fix/cbsegm.cpp, src/sections_part3/derivative/packet_sizes.cpp. `uint32_t` values are natural numbers;
C24_no_overflow shows that no product of `get_packet_sizes` reaches 2^32. -/

namespace Verif.Sp3

/-- `ceil_divide_integer`, miscellaneous.hpp:33-36 -/
def ceilDiv (x y : Nat) : Nat := (x + y - 1) / y

/-! ## Tables -/

structure Mcs where
  nBps : Nat
  rNum : Nat
  rDen : Nat
  deriving DecidableEq

/-- mcs.cpp:26-107, `index <= 11` is asserted -/
def getMcs : Nat → Res Mcs
  | 0 => .ok ⟨1, 1, 2⟩
  | 1 => .ok ⟨2, 1, 2⟩
  | 2 => .ok ⟨2, 3, 4⟩
  | 3 => .ok ⟨4, 1, 2⟩
  | 4 => .ok ⟨4, 3, 4⟩
  | 5 => .ok ⟨6, 2, 3⟩
  | 6 => .ok ⟨6, 3, 4⟩
  | 7 => .ok ⟨6, 5, 6⟩
  | 8 => .ok ⟨8, 3, 4⟩
  | 9 => .ok ⟨8, 5, 6⟩
  | 10 => .ok ⟨10, 3, 4⟩
  | 11 => .ok ⟨10, 5, 6⟩
  | _ => .abort

structure Tm where
  nEffTx : Nat
  nSs : Nat
  cl : Bool
  nTs : Nat
  nTx : Nat
  deriving DecidableEq

/-- tm_mode.cpp:26-127, `index <= 11` is asserted -/
def getTm : Nat → Res Tm
  | 0 => .ok ⟨1, 1, false, 1, 1⟩
  | 1 => .ok ⟨2, 1, false, 2, 2⟩
  | 2 => .ok ⟨2, 2, false, 2, 2⟩
  | 3 => .ok ⟨1, 1, true, 1, 2⟩
  | 4 => .ok ⟨2, 2, true, 2, 2⟩
  | 5 => .ok ⟨4, 1, false, 4, 4⟩
  | 6 => .ok ⟨4, 4, false, 4, 4⟩
  | 7 => .ok ⟨1, 1, true, 1, 4⟩
  | 8 => .ok ⟨2, 2, true, 2, 4⟩
  | 9 => .ok ⟨4, 4, true, 4, 4⟩
  | 10 => .ok ⟨8, 1, false, 8, 8⟩
  | 11 => .ok ⟨8, 8, false, 8, 8⟩
  | _ => .abort

/-- `get_max_tm_mode_index_depending_on_N_TX`, tm_mode.cpp:129-142 -/
def maxTmIndex : Nat → Res Nat
  | 1 => .ok 0
  | 2 => .ok 4
  | 4 => .ok 9
  | 8 => .ok 11
  | _ => .abort

/-- `has_single_bit(u) && u <= 8` -/
def uOk (u : Nat) : Bool := u == 1 || u == 2 || u == 4 || u == 8

/-- `(has_single_bit(b) && b <= 16) || b == 12` -/
def bOk (b : Nat) : Bool := b == 1 || b == 2 || b == 4 || b == 8 || b == 16 || b == 12

/-- `N_b_OCC`, numerologies.cpp:62 -/
def nbOcc (b : Nat) : Nat := b * 56

/-! ## Packet dimensions -/

/-- `get_N_PACKET_symb`, transmission_packet_structure.cpp:27-33, with `N_SLOT_u_symb = 10 u` and
`N_SLOT_u_subslot = 2 u` of numerologies.cpp:39-40 -/
def nPacketSymb (u plt pl : Nat) : Nat := if plt = 0 then pl * (u * 10) / (u * 2) else pl * (u * 10)

/-- `get_N_DF_symb`, pdc.cpp:155-165 -/
def nDfSymb (u n : Nat) : Nat := if u = 1 then n - 2 else if u = 2 ∨ u = 4 then n - 3 else n - 4

/-- The packet cannot accommodate the DRS symbols, packet_sizes.cpp:128-142 and the asserts of pdc.cpp:170-177 -/
def drsImpossible (u n nEff : Nat) : Bool :=
  decide (nEff = 4 ∧ n < 15) || decide (u = 8 ∧ nEff = 8 ∧ (n < 20 ∨ n % 10 ≠ 0))

/-- `get_nof_OFDM_symbols_carrying_DRS_per_TS`, pdc.cpp:167-193 -/
def nDrsSymb (u n nEff : Nat) : Res Nat := do
  Res.assert (!drsImpossible u n nEff)
  let step := if nEff ≤ 2 then 5 else 10
  if step = 10 ∧ n % 10 ≠ 0 then do
    Res.assert (decide (n % 5 = 0))
    .ok (n / step + 1)
  else .ok (n / step)

/-- `get_N_DRS_subc`, pdc.cpp:195-201 -/
def nDrsSubc (u n nEff occ : Nat) : Res Nat := do
  let d ← nDrsSymb u n nEff
  .ok (nEff * occ / 4 * d)

/-- `get_N_PDC_subc`, pdc.cpp:203-219 -/
def nPdcSubc (n u nEff occ : Nat) : Res Nat := do
  let d ← nDrsSubc u n nEff occ
  let df := nDfSymb u n
  if df * occ ≤ d + 98 then .ok 0 else .ok (df * occ - d - 98)

/-- `get_N_samples_STF`, transmission_packet_structure.cpp:57-71 -/
def nSamplesStf (u b : Nat) : Nat :=
  if u = 1 then 72 * b * 14 / 9 else if u = 2 ∨ u = 4 ∨ u = 8 then 72 * b * 2 else 0

/-- `get_N_samples_STF_CP_only`, lines 73-77 -/
def nSamplesStfCp (u b : Nat) : Nat := nSamplesStf u b - 64 * b

/-- `get_N_samples_DF`, lines 79-81 -/
def nSamplesDf (u b n : Nat) : Nat := 72 * b * nDfSymb u n

/-- `get_N_samples_GI`, lines 83-98 -/
def nSamplesGi (u b : Nat) : Nat :=
  if u = 1 then 72 * b * 4 / 9 else if u = 2 ∨ u = 4 then 72 * b else if u = 8 then 72 * b * 2 else 0

/-! ## Transport block size -/

/-- `get_G`, transport_block_size.cpp:26-28 -/
def getG (nSs nPdc nBps : Nat) : Nat := nSs * nPdc * nBps

/-- `get_N_PDC_bits`, lines 30-36 -/
def nPdcBits (nSs nPdc nBps rNum rDen : Nat) : Nat := getG nSs nPdc nBps * rNum / rDen

/-- M, lines 50-59 -/
def tbsM (n : Nat) : Nat := if n ≤ 512 then 8 else if n ≤ 1024 then 16 else if n ≤ 2048 then 32 else 64

/-- lines 48-80 as a function of `N_PDC_bits` -/
def tbs (n z : Nat) : Nat :=
  let nM := n / tbsM n * tbsM n
  if nM = 0 then 0
  else if nM ≤ 24 then 0
  else if nM ≤ z then nM - 24
  else nM - (ceilDiv (nM - 24) z + 1) * 24

/-- `get_N_TB_bits`, lines 38-81 -/
def nTbBits (nSs nPdc nBps rNum rDen z : Nat) : Nat := tbs (nPdcBits nSs nPdc nBps rNum rDen) z

/-! ## Code block segmentation -/

/-- `tc_cb_sizes`, cbsegm.cpp:34-46 -/
def tcCbSizes : List Nat := [
    40,   48,   56,   64,   72,   80,   88,   96,   104,  112,  120,  128,  136,  144,  152,  160,
    168,  176,  184,  192,  200,  208,  216,  224,  232,  240,  248,  256,  264,  272,  280,  288,
    296,  304,  312,  320,  328,  336,  344,  352,  360,  368,  376,  384,  392,  400,  408,  416,
    424,  432,  440,  448,  456,  464,  472,  480,  488,  496,  504,  512,  528,  544,  560,  576,
    592,  608,  624,  640,  656,  672,  688,  704,  720,  736,  752,  768,  784,  800,  816,  832,
    848,  864,  880,  896,  912,  928,  944,  960,  976,  992,  1008, 1024, 1056, 1088, 1120, 1152,
    1184, 1216, 1248, 1280, 1312, 1344, 1376, 1408, 1440, 1472, 1504, 1536, 1568, 1600, 1632, 1664,
    1696, 1728, 1760, 1792, 1824, 1856, 1888, 1920, 1952, 1984, 2016, 2048, 2112, 2176, 2240, 2304,
    2368, 2432, 2496, 2560, 2624, 2688, 2752, 2816, 2880, 2944, 3008, 3072, 3136, 3200, 3264, 3328,
    3392, 3456, 3520, 3584, 3648, 3712, 3776, 3840, 3904, 3968, 4032, 4096, 4160, 4224, 4288, 4352,
    4416, 4480, 4544, 4608, 4672, 4736, 4800, 4864, 4928, 4992, 5056, 5120, 5184, 5248, 5312, 5376,
    5440, 5504, 5568, 5632, 5696, 5760, 5824, 5888, 5952, 6016, 6080, 6144]

/-- `srsran_cbsegm_cbindex_FIX`, lines 126-137: the while loop; `none` is SRSRAN_ERROR -/
def cbIndex (long : Nat) : List Nat → Nat → Option Nat
  | [], _ => none
  | k :: ks, j => if k < long then cbIndex long ks (j + 1) else some j

/-- srsran_cbsegm_t -/
structure Seg where
  C : Nat
  C1 : Nat
  C2 : Nat
  K1 : Nat
  K2 : Nat
  F : Nat
  deriving DecidableEq

/-- uint32_t subtraction -/
def sub32 (a b : Nat) : Nat := (a + 4294967296 - b) % 4294967296

/-- `cbsegm_cb_size`, lines 55-63: C and B_prime -/
def cbSize (B z : Nat) : Nat × Nat := if B ≤ z then (1, B) else (ceilDiv B (z - 24), B + 24 * ceilDiv B (z - 24))

/-- lines 82-121 for given C, B_prime and index of K1; K2 stays K1 for index 0 (`ret` is not changed). Division by zero is
undefined behaviour. -/
def segWith (C bp idx : Nat) : Res Seg :=
  let k1 := tcCbSizes.getD idx 0
  if C = 1 then .ok ⟨1, 1, 0, k1, 0, sub32 (1 * k1 + 0 * 0) bp⟩
  else
    let k2 := if idx = 0 then k1 else tcCbSizes.getD (idx - 1) 0
    if k1 = k2 then .ub
    else
      let c2 := sub32 (C * k1) bp / (k1 - k2)
      .ok ⟨C, sub32 C c2, c2, k1, k2, sub32 (sub32 C c2 * k1 + c2 * k2) bp⟩

/-- `srsran_cbsegm_FIX`, lines 65-124; `none` is SRSRAN_ERROR -/
def cbsegm (tbs z : Nat) : Res (Option Seg) :=
  if tbs = 0 then .ok (some ⟨0, 0, 0, 0, 0, 0⟩)
  else
    let r := cbSize (tbs + 24) z
    match cbIndex ((r.2 - 1) / r.1 + 1) tcCbSizes 0 with
    | none => .ok none
    | some idx => do
      let s ← segWith r.1 r.2 idx
      .ok (some s)

/-! ## Packet sizes -/

/-- packet_sizes_def_t -/
structure PsDef where
  u : Nat
  b : Nat
  plt : Nat
  pl : Nat
  tm : Nat
  mcs : Nat
  z : Nat
  deriving DecidableEq

/-- packet_sizes_t -/
structure PacketSizes where
  psdef : PsDef
  mcs : Mcs
  tm : Tm
  nPacketSymb : Nat
  nPdcSubc : Nat
  G : Nat
  nPdcBits : Nat
  nTbBits : Nat
  nTbByte : Nat
  C : Nat
  nDfSymb : Nat
  nDrsSubc : Nat
  nSamplesOfdm : Nat
  nSamplesStf : Nat
  nSamplesStfCp : Nat
  nSamplesDf : Nat
  nSamplesGi : Nat
  nSamplesPacketNoGi : Nat
  nSamplesPacket : Nat
  deriving DecidableEq

/-- asserts of packet_sizes.cpp:107-113 -/
def PsDef.valid (q : PsDef) : Bool :=
  uOk q.u && bOk q.b && decide (q.plt ≤ 1) && decide (0 < q.pl ∧ q.pl ≤ 16) && decide (q.tm ≤ 11) && decide (q.mcs ≤ 11) &&
    decide (q.z = 2048 ∨ q.z = 6144)

/-- lines 178-229 -/
def packetSizesFinish (q : PsDef) (mcs : Mcs) (tm : Tm) (n nPdc nTb nDrs : Nat) (seg : Seg) : Res (Option PacketSizes) :=
  if 0 < seg.F then .ok none
  else do
    let r : PacketSizes := {
      psdef := q, mcs := mcs, tm := tm, nPacketSymb := n, nPdcSubc := nPdc
      G := getG tm.nSs nPdc mcs.nBps, nPdcBits := Sp3.nPdcBits tm.nSs nPdc mcs.nBps mcs.rNum mcs.rDen
      nTbBits := nTb, nTbByte := ceilDiv nTb 8, C := seg.C, nDfSymb := Sp3.nDfSymb q.u n, nDrsSubc := nDrs
      nSamplesOfdm := 72 * q.b, nSamplesStf := Sp3.nSamplesStf q.u q.b, nSamplesStfCp := Sp3.nSamplesStfCp q.u q.b
      nSamplesDf := Sp3.nSamplesDf q.u q.b n, nSamplesGi := Sp3.nSamplesGi q.u q.b
      nSamplesPacketNoGi := Sp3.nSamplesStf q.u q.b + Sp3.nSamplesDf q.u q.b n
      nSamplesPacket := Sp3.nSamplesStf q.u q.b + Sp3.nSamplesDf q.u q.b n + Sp3.nSamplesGi q.u q.b }
    Res.assert (decide (r.nSamplesPacket = r.nSamplesStfCp + 64 * q.b + r.nSamplesDf + r.nSamplesGi))
    Res.assert (decide (r.nSamplesPacket = r.nSamplesOfdm * r.nPacketSymb))
    .ok (some r)

/-- `get_packet_sizes`, packet_sizes.cpp:96-232; `none` is nullopt -/
def getPacketSizes (q : PsDef) : Res (Option PacketSizes) := do
  Res.assert q.valid
  let n := nPacketSymb q.u q.plt q.pl
  Res.assert (decide (5 ≤ n ∧ n ≤ 1280 ∧ n % 5 = 0))
  let tm ← getTm q.tm
  if drsImpossible q.u n tm.nEffTx then .ok none
  else do
    let nPdc ← nPdcSubc n q.u tm.nEffTx (nbOcc q.b)
    if nPdc = 0 then .ok none
    else do
      let mcs ← getMcs q.mcs
      let nTb := nTbBits tm.nSs nPdc mcs.nBps mcs.rNum mcs.rDen q.z
      if nTb = 0 then .ok none
      else do
        let seg ← cbsegm nTb q.z
        match seg with
        | none => .abort
        | some seg => do
          let nDrs ← nDrsSubc q.u n tm.nEffTx (nbOcc q.b)
          packetSizesFinish q mcs tm n nPdc nTb nDrs seg

/-- radio_device_class_t, the fields used here -/
structure Rdc where
  uMin : Nat
  bMin : Nat
  nTxMin : Nat
  mcsMin : Nat
  zMin : Nat
  plMin : Nat
  deriving DecidableEq

/-- asserts at the end of `get_radio_device_class`, radio_device_class.cpp:166-182 -/
def Rdc.valid (r : Rdc) : Bool :=
  uOk r.uMin && bOk r.bMin && uOk r.nTxMin && decide (r.mcsMin ≤ 11) && decide (r.zMin = 2048 ∨ r.zMin = 6144) &&
    decide (1 ≤ r.plMin ∧ r.plMin ≤ 16)

/-- packet_sizes.cpp:42-49 -/
def Rdc.maxDef (r : Rdc) (tm : Nat) : PsDef := ⟨r.uMin, r.bMin, 1, r.plMin, tm, r.mcsMin, r.zMin⟩

/-- asserts of lines 76-91 -/
def covers (q m : PacketSizes) : Bool :=
  decide (m.nPacketSymb ≤ q.nPacketSymb ∧ m.nPdcSubc ≤ q.nPdcSubc ∧ m.G ≤ q.G ∧ m.nPdcBits ≤ q.nPdcBits ∧
    m.nTbBits ≤ q.nTbBits ∧ m.nTbByte ≤ q.nTbByte ∧ m.C ≤ q.C ∧ m.nDfSymb ≤ q.nDfSymb ∧ m.nDrsSubc ≤ q.nDrsSubc ∧
    m.nSamplesOfdm ≤ q.nSamplesOfdm ∧ m.nSamplesStf ≤ q.nSamplesStf ∧ m.nSamplesStfCp ≤ q.nSamplesStfCp ∧
    m.nSamplesDf ≤ q.nSamplesDf ∧ m.nSamplesGi ≤ q.nSamplesGi ∧ m.nSamplesPacketNoGi ≤ q.nSamplesPacketNoGi ∧
    m.nSamplesPacket ≤ q.nSamplesPacket)

/-- for loop of lines 55-92 over `u = 1, 2, 4, ...` below `u_min` -/
def checkSmaller (d : PsDef) (q : PacketSizes) : List Nat → Res Unit
  | [] => .ok ()
  | u :: us => do
    let m ← getPacketSizes { d with u := u }
    match m with
    | none => .abort
    | some m => do
      Res.assert (covers q m)
      checkSmaller d q us

/-- `get_maximum_packet_sizes`, lines 39-95 -/
def maximumPacketSizes (r : Rdc) : Res PacketSizes := do
  let tm ← maxTmIndex r.nTxMin
  let q ← getPacketSizes (r.maxDef tm)
  match q with
  | none => .abort
  | some q => do
    checkSmaller (r.maxDef tm) q ([1, 2, 4].filter (· < r.uMin))
    .ok q

end Verif.Sp3
