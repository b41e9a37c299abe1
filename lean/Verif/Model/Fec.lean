import Verif.Model.PacketSizes
import Verif.Model.Scrambling
import Mathlib.Data.Rat.Floor
import Mathlib.Logic.Function.Basic

/-!
# Forward error correction of the transport block

src/phy/fec/pdc_enc.cpp:125-219 (`pdc_encode_codeblocks`), 291-494 (`pdc_decode_codeblocks`), src/phy/fec/fec.cpp:82-147,
src/phy/harq/process_rx.cpp:37-71. The functions of srsRAN (turbo code, rate matching, CRC) are parameters. -/

namespace Verif.Phy.Fec

open Sp3

/-- The part of `fec_cfg_t` and `srsran_cbsegm_t` which is used here -/
structure Cfg where
  seg : Seg
  /-- `cb_segm->tbs` -/
  tbs : Nat
  /-- `N_bps` -/
  Qm : Nat
  G : Nat

/-- `cb_len`, lines 149-155, 320 -/
def cbLen (s : Seg) (i : Nat) : Nat := if i < s.C2 then s.K2 else s.K1

/-- `rlen` of the encoder, lines 156-160 -/
def rlenEnc (s : Seg) (i : Nat) : Nat := if 1 < s.C then cbLen s i - 24 else cbLen s i

/-- `rlen` of the decoder, line 323 -/
def rlenDec (s : Seg) (i : Nat) : Nat := if s.C = 1 then cbLen s i else cbLen s i - 24

def Cfg.Gp (c : Cfg) : Nat := c.G / c.Qm

/-- lines 138-141, 326 -/
def Cfg.gamma (c : Cfg) : Nat := if 0 < c.seg.C then c.Gp % c.seg.C else c.Gp

/-- `n_e` of the encoder, lines 161-165; the division is done with `float`, `rnd` is its rounding -/
def nE (rnd : ℚ → ℚ) (c : Cfg) (i : Nat) : Nat :=
  if i ≤ sub32 (sub32 c.seg.C c.gamma) 1 then c.Qm * (c.Gp / c.seg.C) else c.Qm * ⌈rnd (rnd c.Gp / rnd c.seg.C)⌉₊

/-! ## Encoder -/

/-- Functions of srsRAN used by the encoder -/
structure TxLib where
  /-- content of `softbuffer->buffer_b[i]` -/
  S : Type
  /-- content of `c_systematic` and `c_parity` after the turbo encoder -/
  T : Type
  /-- state of `crc_tb` -/
  W : Type
  /-- `srsran_tcod_encode_lut(crc_tb, with code block CRC, data, cb_len, last_cb)` -/
  turbo : W → Bool → List Nat → Nat → Bool → T × W
  /-- `srsran_rm_turbo_tx_lut(buffer_b, systematic and parity bits, cb_len, n_e, rv)`: the coded bits and the new content of
  buffer_b -/
  rm : S → T → Nat → Nat → Nat → (Nat → Bool) × S
  /-- bits written behind the end of the last byte by the scrambling -/
  pad : Nat → Bool

/-- Sizes of the memories -/
structure TxMem where
  /-- length of the packed transport block `a` in bytes -/
  aLen : Nat
  /-- length of the packed coded bits `d` in bytes -/
  dLen : Nat
  /-- `softbuffer->max_cb` -/
  maxCb : Nat
  /-- length of `c_systematic` in bytes, line 43 -/
  sysLen : Nat

/-- Everything the encoder changes -/
structure Enc (x : TxLib) where
  /-- `cb_idx` -/
  cbIdx : Nat
  rp : Nat
  wp : Nat
  /-- `e_bits` -/
  bits : Nat → Bool
  soft : Nat → x.S
  turbo : x.T
  crc : x.W

/-- Bytes copied to `c_systematic`, lines 171-179 -/
def copyLen (s : Seg) (i : Nat) : Nat := if i < sub32 s.C 1 then rlenEnc s i / 8 else (rlenEnc s i - 24) / 8

/-- Turbo encoder for `rv == 0`, lines 167-191. Only reading and writing of `c_systematic` beyond its end is checked, not
that of the turbo encoder. -/
def turboStep (x : TxLib) (m : TxMem) (c : Cfg) (rv : Nat) (data : Nat → Nat) (st : Enc x) : Res (x.T × x.W) :=
  if rv = 0 then
    if st.rp / 8 + copyLen c.seg st.cbIdx ≤ m.aLen ∧ copyLen c.seg st.cbIdx ≤ m.sysLen then
      .ok (x.turbo st.crc (decide (1 < c.seg.C)) ((List.range (copyLen c.seg st.cbIdx)).map (fun k => data (st.rp / 8 + k)))
        (cbLen c.seg st.cbIdx) (!decide (st.cbIdx < sub32 c.seg.C 1)))
    else .ub
  else .ok (st.turbo, st.crc)

/-- Rate matching and scrambling of the code block `cb_idx`, lines 193-208, and the update of the counters, lines 210-214 -/
def rateMatch (x : TxLib) (rnd : ℚ → ℚ) (c : Cfg) (rv : Nat) (seq : Nat → Bool) (st : Enc x) (t : x.T × x.W) : Enc x :=
  let i := st.cbIdx
  let n := nE rnd c i
  let r := x.rm (st.soft i) t.1 (cbLen c.seg i) n rv
  let bits := fun k => if st.wp ≤ k ∧ k < st.wp + n then r.1 (k - st.wp) else st.bits k
  { cbIdx := i + 1, rp := st.rp + rlenEnc c.seg i, wp := st.wp + n
    bits := Scrambling.scramble seq x.pad bits n st.wp
    soft := Function.update st.soft i r.2, turbo := t.1, crc := t.2 }

/-- The while loop, lines 145-215. A code block index beyond `buffer_b` and coded bits beyond `d` are undefined
behaviour. -/
def encodeLoop (x : TxLib) (rnd : ℚ → ℚ) (m : TxMem) (c : Cfg) (rv : Nat) (data : Nat → Nat) (seq : Nat → Bool) (min : Nat)
    (st : Enc x) : Res (Enc x) :=
  if st.wp < min then
    if st.cbIdx < m.maxCb ∧ st.wp + nE rnd c st.cbIdx ≤ 8 * m.dLen then
      match turboStep x m c rv data st with
      | .ok t => encodeLoop x rnd m c rv data seq min (rateMatch x rnd c rv seq st t)
      | .abort => .abort
      | .ub => .ub
    else .ub
  else .ok st
termination_by m.maxCb - st.cbIdx
decreasing_by
  show m.maxCb - (st.cbIdx + 1) < m.maxCb - st.cbIdx
  omega

/-- `encode_tb`, fec.cpp:106-127 and pdc_enc.cpp:132-136 -/
def encodeTb (x : TxLib) (rnd : ℚ → ℚ) (m : TxMem) (c : Cfg) (rv : Nat) (data : Nat → Nat) (seq : Nat → Bool) (nofBits : Nat)
    (st : Enc x) : Res (Enc x) := do
  Res.assert (decide (c.seg.F = 0))
  Res.assert (decide (c.seg.C ≤ m.maxCb))
  Res.assert (decide (c.Qm ≠ 0))
  encodeLoop x rnd m c rv data seq (Nat.min nofBits c.G) st

/-- Several calls of `encode_tb` -/
def encodeAll (x : TxLib) (rnd : ℚ → ℚ) (m : TxMem) (c : Cfg) (rv : Nat) (data : Nat → Nat) (seq : Nat → Bool) :
    List Nat → Enc x → Res (Enc x)
  | [], st => .ok st
  | n :: ns, st => do
    let st ← encodeTb x rnd m c rv data seq n st
    encodeAll x rnd m c rv data seq ns st

/-- `segmentate_and_pick_scrambling_sequence`, fec.cpp:82-104: reset of the counters and of the CRC -/
def Enc.start {x : TxLib} (crc0 : x.W) (st : Enc x) : Enc x := { st with cbIdx := 0, rp := 0, wp := 0, crc := crc0 }

/-! ## Decoder -/

/-- Functions of srsRAN used by the decoder -/
structure RxLib where
  /-- content of `softbuffer->buffer_f[i]` -/
  F : Type
  /-- `srsran_rm_turbo_rx_lut_(e_bits, buffer_f, n_e2, cb_len, rv)` -/
  combine : F → List Int → Nat → Nat → F
  /-- output of `srsran_tdec_iteration` after some iterations for a code block of `cb_len` bits -/
  iter : F → Nat → Nat → List Nat
  iter_length : ∀ f k n, (iter f k n).length = k / 8
  /-- `!srsran_crc_checksum_byte(crc_cb, ...)` -/
  crcCb : List Nat → Bool
  /-- `!srsran_crc_checksum_byte(crc_tb, ...)` -/
  crcTb : List Nat → Bool
  /-- `srsran_crc_match_byte(crc_tb, data, tbs)`, it reads the data and the 24 bits which follow -/
  crcMatch : List Nat → Bool
  /-- `srsran_softbuffer_rx_reset` -/
  zero : F

/-- Everything the decoder changes -/
structure Dec (x : RxLib) where
  cbIdx : Nat
  wp : Nat
  /-- `e_bits`, 16 bit per value -/
  llr : Nat → Int
  /-- `data`, the memory `a` of the HARQ process -/
  data : List Nat
  soft : Nat → x.F
  /-- `softbuffer->cb_crc` -/
  crc : Nat → Bool
  /-- `softbuffer->data` -/
  saved : Nat → Nat → Nat

/-- Start `rp` and length `n_e2` of the soft bits of a code block, lines 325-336 -/
def window (c : Cfg) (i : Nat) : Nat × Nat :=
  if sub32 c.seg.C c.gamma < i then
    (sub32 c.seg.C c.gamma * (c.Qm * (c.Gp / c.seg.C)) + (i - sub32 c.seg.C c.gamma) * (c.Qm * (c.Gp / c.seg.C) + c.Qm),
      c.Qm * (c.Gp / c.seg.C) + c.Qm)
  else (i * (c.Qm * (c.Gp / c.seg.C)), c.Qm * (c.Gp / c.seg.C))

/-- srsran_scrambling_s_offset, line 347: signs are changed where the sequence is one -/
def descramble (seq : Nat → Bool) (rp n : Nat) (llr : Nat → Int) : Nat → Int :=
  fun k => if rp ≤ k ∧ k < rp + n then (if seq k then -llr k else llr k) else llr k

/-- The do-while loop, lines 374-405: at least two iterations, at most ten. `fuel` is the number of further iterations. -/
def tdec (ok : List Nat → Bool) (it : Nat → List Nat) : Nat → Nat → List Nat × Bool
  | 0, noi => (it (noi + 1), ok (it (noi + 1)) && decide (2 ≤ noi + 1))
  | fuel + 1, noi => if (ok (it (noi + 1)) && decide (2 ≤ noi + 1)) = true then (it (noi + 1), true) else tdec ok it fuel (noi + 1)

/-- Check of a code block, lines 387-398 -/
def cbOk (x : RxLib) (c : Cfg) (b : List Nat) : Bool :=
  if 1 < c.seg.C then x.crcCb b else x.crcTb (b.take ((c.tbs + 24) / 8))

/-- Turbo decoding of the soft bits `f` of a code block, `max_iterations = 10` -/
def turboDecode (x : RxLib) (c : Cfg) (i : Nat) (f : x.F) : List Nat × Bool := tdec (cbOk x c) (x.iter f (cbLen c.seg i)) 9 0

/-- Writing bytes to memory -/
def put (d : List Nat) (off : Nat) (b : List Nat) : Res (List Nat) :=
  if off + b.length ≤ d.length then .ok (d.take off ++ b ++ d.drop (off + b.length)) else .ub

/-- The soft bits of code block `i` -/
def softBits (c : Cfg) (llr : Nat → Int) (i : Nat) : List Int := (List.range (window c i).2).map (fun k => llr ((window c i).1 + k))

/-- Saved bytes of a code block, line 409 -/
def savedBytes (c : Cfg) (saved : Nat → Nat) (i : Nat) : List Nat := (List.range (rlenDec c.seg i / 8)).map saved

/-- One round of the while loop, lines 343-415 -/
def decodeBlock (x : RxLib) (c : Cfg) (rv : Nat) (seq : Nat → Bool) (st : Dec x) : Res (Dec x) :=
  let i := st.cbIdx
  let llr := descramble seq (window c i).1 (window c i).2 st.llr
  if st.crc i then do
    let d ← put st.data (st.wp / 8) (savedBytes c (st.saved i) i)
    .ok { st with cbIdx := i + 1, wp := st.wp + rlenDec c.seg i, llr := llr, data := d }
  else do
    let f := x.combine (st.soft i) (softBits c llr i) (cbLen c.seg i) rv
    let r := turboDecode x c i f
    let d ← put st.data (st.wp / 8) r.1
    .ok { st with cbIdx := i + 1, wp := st.wp + rlenDec c.seg i, llr := llr, data := d, soft := Function.update st.soft i f,
                  crc := Function.update st.crc i r.2 }

theorem decodeBlock_idx {x : RxLib} {c : Cfg} {rv : Nat} {seq : Nat → Bool} {st st' : Dec x} (h : decodeBlock x c rv seq st = .ok st') :
    st'.cbIdx = st.cbIdx + 1 := by
  unfold decodeBlock at h
  simp only at h
  split at h
  · obtain ⟨d, -, h⟩ := Res.bind_eq_ok.mp h
    cases h; rfl
  · obtain ⟨d, -, h⟩ := Res.bind_eq_ok.mp h
    cases h; rfl

/-- The while loop, lines 319-415 -/
def decodeLoop (x : RxLib) (c : Cfg) (rv : Nat) (seq : Nat → Bool) (max : Nat) (st : Dec x) : Res (Dec x) :=
  if st.cbIdx < c.seg.C ∧ (window c st.cbIdx).1 + (window c st.cbIdx).2 ≤ max then
    match h : decodeBlock x c rv seq st with
    | .ok st' => decodeLoop x c rv seq max st'
    | .abort => .abort
    | .ub => .ub
  else .ok st
termination_by c.seg.C - st.cbIdx
decreasing_by
  have := decodeBlock_idx h
  omega

/-- lines 455-469: offset of code block `i` -/
def writeOffset (s : Seg) : Nat → Nat
  | 0 => 0
  | i + 1 => writeOffset s i + rlenDec s i

/-- lines 451-471: correctly decoded code blocks are saved -/
def saveBlocks (c : Cfg) (crc : Nat → Bool) (data : List Nat) (saved : Nat → Nat → Nat) : Nat → Nat → Nat :=
  fun i k => if i < c.seg.C ∧ crc i = true ∧ k < rlenDec c.seg i / 8 then data.getD (writeOffset c.seg i / 8 + k) 0 else saved i k

/-- The check after the last code block, lines 445-490 -/
def finalCheck (x : RxLib) (c : Cfg) (st : Dec x) : Bool × Dec x :=
  if ¬ ∀ i < c.seg.C, st.crc i = true then (false, { st with saved := saveBlocks c st.crc st.data st.saved })
  else if c.seg.C = 1 then (true, st)
  else if x.crcMatch (st.data.take (c.tbs / 8 + 3)) then (true, st)
  else (false, { st with crc := fun i => if i < c.seg.C then false else st.crc i })

/-- `decode_tb`, fec.cpp:129-147 and pdc_enc.cpp:306-312; `maxCb` is `softbuffer->max_cb`, `limit` is
SRSRAN_MAX_CODEBLOCKS. The result is `decode_tb_status_latest`. -/
def decodeTb (x : RxLib) (maxCb limit : Nat) (c : Cfg) (rv : Nat) (seq : Nat → Bool) (n : Nat) (st : Dec x) : Res (Bool × Dec x) := do
  Res.assert (decide (n ≤ c.G))
  Res.assert (decide (c.seg.F = 0))
  Res.assert (decide (c.seg.C ≤ maxCb))
  Res.assert (decide (c.seg.C ≤ limit))
  Res.assert (decide (c.Qm ≠ 0))
  let st ← decodeLoop x c rv seq n st
  if st.cbIdx = c.seg.C then .ok (finalCheck x c st) else .ok (false, st)

/-- New soft bits of an OFDM symbol are stored behind those already received, rx_synced.cpp:1285, 1298, 1323 -/
def store (lo : Nat) (ys : List Int) (llr : Nat → Int) : Nat → Int :=
  fun k => if lo ≤ k ∧ k < lo + ys.length then ys.getD (k - lo) 0 else llr k

/-- PDC of a packet: `run_pdc` for every OFDM symbol, rx_synced.cpp:1171-1194. `lo` is `PDC_bits_idx`, `b` the latest status. -/
def receive (x : RxLib) (maxCb limit : Nat) (c : Cfg) (rv : Nat) (seq : Nat → Bool) :
    Nat → List (List Int) → Bool → Dec x → Res (Bool × Dec x)
  | _, [], b, st => .ok (b, st)
  | lo, ys :: rest, _, st => do
    let r ← decodeTb x maxCb limit c rv seq (lo + ys.length) { st with llr := store lo ys st.llr }
    receive x maxCb limit c rv seq (lo + ys.length) rest r.1 r.2

/-- `segmentate_and_pick_scrambling_sequence`, fec.cpp:82-104 -/
def Dec.start {x : RxLib} (st : Dec x) : Dec x := { st with cbIdx := 0, wp := 0 }

/-- A transmission: the counters are reset, then the symbols are received. -/
def transmission (x : RxLib) (maxCb limit : Nat) (c : Cfg) (seq : Nat → Bool) (rv : Nat) (chunks : List (List Int)) (st : Dec x) :
    Res (Bool × Dec x) := receive x maxCb limit c rv seq 0 chunks false st.start

/-- `reset_a_cnt_and_softbuffer(C)`, buffer_rx.cpp:61-64 -/
def Dec.reset {x : RxLib} (C : Nat) (st : Dec x) : Dec x :=
  { st with soft := fun i => if i < C then x.zero else st.soft i, crc := fun i => if i < C then false else st.crc i }

/-- finalize_rx_t -/
inductive Policy
  | resetAndTerminate
  | keepRunning
  | keepRunningOrResetAndTerminateIfCrcCorrect
  deriving DecidableEq

/-- `process_rx_t::finalize`, process_rx.cpp:37-58 -/
def finalize {x : RxLib} (C : Nat) (p : Policy) (crc : Bool) (st : Dec x) : Dec x :=
  match p with
  | .resetAndTerminate => st.reset C
  | .keepRunning => st
  | .keepRunningOrResetAndTerminateIfCrcCorrect => if crc then st.reset C else st

end Verif.Phy.Fec
