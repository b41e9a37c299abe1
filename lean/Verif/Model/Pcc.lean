import Verif.Base.Res

/-!
# Coding of the PLCF: checksum, masks and blind detection

src/phy/fec/pcc_enc.cpp:36-44, 145-183, 215-364, src/phy/fec/fec.cpp:46-79, src/phy/rx/rx_synced/rx_synced.cpp:1011-1026.

Octets are vectors of eight bits. The checksum is the CRC16 of the library srsRAN (`SRSRAN_LTE_CRC16`, polynomial
`D^16 + D^12 + D^5 + 1`, register initialised with zero, most significant bit of the octets first, attached with the most
significant octet first); the library is not part of the repository, this definition is an assumption about it. 16 bit
words are read from and written to memory in little endian order.

Turbo coding, rate matching and scrambling are left out: the decoder may deliver any octets in each of its iterations.
Both branches of `pcc_enc_decode` (8 and 16 bit soft bits) are the same in this respect.
-/

namespace Verif.Phy.Pcc

abbrev Byte := BitVec 8

/-- `plcf_type_1_bit`, `plcf_type_2_bit` in octets, constants.hpp:75-78 -/
def nofBytes (type : Nat) : Nat := if type = 1 then 5 else 10

/-- `SRSRAN_PDSCH_MAX_TDEC_ITERS`, pcc_enc.cpp:39 -/
def maxIterations : Nat := 5

/-- pcc_enc.cpp:41-44 -/
def maskNone : BitVec 16 := 0x0000#16
def maskMimoCl : BitVec 16 := 0x5555#16
def maskBf : BitVec 16 := 0xAAAA#16
def maskMimoClBf : BitVec 16 := 0xFFFF#16

/-- One bit shifted into the register of the CRC (library) -/
def crcStep (r : BitVec 16) (b : Bool) : BitVec 16 :=
  if r.msb ^^ b then (r <<< 1) ^^^ 0x1021#16 else r <<< 1

/-- Bits of an octet, most significant one first -/
def byteBits (x : Byte) : List Bool := (List.range 8).map fun i => x.getMsbD i

/-- `srsran_crc_checksum_byte` (library) -/
def crc16 (l : List Byte) : BitVec 16 := (l.flatMap byteBits).foldl crcStep 0

/-- `srsran_crc_attach_byte` (library): the checksum overwrites the two octets behind the data. -/
def attach (l : List Byte) (n : Nat) : List Byte :=
  l.take n ++ [(crc16 (l.take n)).extractLsb' 8 8, (crc16 (l.take n)).extractLsb' 0 8]

/-- The two octets at position `n` as a 16 bit word -/
def load16 (l : List Byte) (n : Nat) : BitVec 16 := l.getD (n + 1) 0 ++ l.getD n 0

/-- Writing a 16 bit word to position `n` -/
def store16 (l : List Byte) (n : Nat) (x : BitVec 16) : List Byte :=
  (l.set n (x.extractLsb' 0 8)).set (n + 1) (x.extractLsb' 8 8)

/-- pcc_enc.cpp:171-180 -/
def maskOf (cl bf : Bool) : BitVec 16 :=
  if !cl && !bf then maskNone else if cl && !bf then maskMimoCl else if !cl && bf then maskBf else maskMimoClBf

/-- `pcc_enc_encode` up to the systematic octets handed to the turbo encoder, pcc_enc.cpp:145-183; reading beyond the
octets of the PLCF is undefined. -/
def encode (a : List Byte) (type : Nat) (cl bf : Bool) : Res (List Byte) := do
  Res.assert (decide (type = 1 ∨ type = 2))
  let n := nofBytes type
  if a.length < n then .ub else do
    let c := attach (a.take n) n
    pure (store16 c n (load16 c n ^^^ maskOf cl bf))

/-- Check of the octets delivered by one iteration, pcc_enc.cpp:319-349 (and 255-285) -/
def check (c : List Byte) (n : Nat) : Option (Bool × Bool) :=
  let rx := load16 c n
  let recalc := load16 (attach c n) n
  if rx ^^^ maskNone = recalc then some (false, false)
  else if rx ^^^ maskMimoCl = recalc then some (true, false)
  else if rx ^^^ maskBf = recalc then some (false, true)
  else if rx ^^^ maskMimoClBf = recalc then some (true, true)
  else none

/-- The iterations, pcc_enc.cpp:313-351: `out` are the octets delivered one iteration after the other. Returned is the
PLCF with the flags, `memcpy` in line 358. -/
def iterate (n : Nat) (out : Nat → List Byte) : (left i : Nat) → Option (List Byte × Bool × Bool)
  | 0, _ => none
  | left + 1, i =>
    match check (out i) n with
    | some (cl, bf) => some ((out i).take n, cl, bf)
    | none => iterate n out left (i + 1)

/-- `decode_plcf_test`, fec.cpp:56-79, `pcc_enc_decode`, pcc_enc.cpp:215-364 -/
def decode (type : Nat) (out : Nat → List Byte) : Res (Option (List Byte × Bool × Bool)) := do
  Res.assert (decide (type = 1 ∨ type = 2))
  pure (iterate (nofBytes type) out maxIterations 0)

/-- `run_pcc_decoding_and_candidate_search`, rx_synced.cpp:1011-1026: both types are tried, each one with its own
decoding. The PLCFs found are handed to the PLCF decoder (C43). -/
def candidates (out1 out2 : Nat → List Byte) :
    Res (Option (List Byte × Bool × Bool) × Option (List Byte × Bool × Bool)) := do
  let c1 ← decode 1 out1
  let c2 ← decode 2 out2
  pure (c1, c2)

end Verif.Phy.Pcc
