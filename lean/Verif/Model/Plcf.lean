import Verif.Model.BitByte
import Verif.Model.Feedback
import Verif.Model.Identity

/-!
# Physical layer control field (src/sections_part4/physical_header_field/plcf_*.cpp)

`pack` returns the bytes written from `plcf_front[0]` on (every byte is written, so the previous
contents do not matter). `unpack` gets the previous contents of the object and the received bytes
and returns the new object and the return value.
-/

namespace Verif.Plcf
open BitByte Identity Feedback

/-- Fields of `plcf_base_t` written by `plcf_base_t::pack`, inc/.../plcf_base.hpp:41-43. -/
structure Base where
  hf : Nat
  plt : Nat
  plm1 : Nat
  deriving DecidableEq, Repr

/-- plcf_base.cpp:36-50 -/
def Base.isValid (b : Base) : Bool := !(1 < b.hf) && !(1 < b.plt) && !(bitmaskLsb 4 < b.plm1)

/-- plcf_base.cpp:52-58 -/
def Base.pack (b : Base) : Res Nat := do
  Res.assert b.isValid
  let p0 := u8 (b.hf <<< 5)
  let p0 := u8 (p0 ||| b.plt <<< 4)
  let p0 := u8 (p0 ||| b.plm1)
  pure p0

/-- plcf_base.cpp:60-66 -/
def Base.unpack (p0 : Nat) : Base × Bool :=
  let b : Base := { hf := p0 >>> 5, plt := (p0 >>> 4) &&& 1, plm1 := p0 &&& 15 }
  (b, b.isValid)

/-- plcf_base.cpp:72 -/
def Base.packetLength (b : Base) : Nat := b.plm1 + 1

/-- `tx_power_table`, plcf_base.hpp:66-67 -/
def txPowerTable : List Int := [-40, -30, -20, -16, -12, -8, -4, 0, 4, 7, 10, 13, 16, 19, 21, 23]

/-- `std::lower_bound`: index of the first element not below `v` (binary search on a sorted range;
modelled as the index it is specified to return). -/
def lowerBound (t : List Int) (v : Int) : Nat := t.findIdx (fun x => decide (¬ x < v))

/-- `set_TransmitPower`, plcf_base.cpp:74-80 -/
def setTransmitPower (dBm : Int) : Nat :=
  let i := lowerBound txPowerTable dBm
  if i = txPowerTable.length then txPowerTable.length - 1 else i

/-- `N_SS_coded_lut_rev`, plcf_base.hpp:71; `.at` out of range throws. -/
def nSsOfCode (c : Nat) : Res Nat :=
  match [1, 2, 4, 8][c]? with
  | some n => .ok n
  | none => .abort

/-- `N_SS_coded_lut`, plcf_base.hpp:69, with `set_NumberOfSpatialStreams`, plcf_20.cpp:135-137,
plcf_21.cpp:108-110. -/
def codeOfNSs (n : Nat) : Res Nat :=
  match [0, 0, 1, 0, 2, 0, 0, 0, 3][n]? with
  | some c => .ok c
  | none => .abort

/-- PLCF type 1, header format 0: plcf_10.hpp, plcf_10.cpp:29-37. -/
structure P10 where
  base : Base
  shortNetworkId : Nat
  transmitterId : Nat
  power : Nat
  reserved : Nat
  mcs : Nat
  deriving DecidableEq, Repr

/-- plcf_10.cpp:39-66 -/
def P10.isValid (f : P10) : Bool :=
  !(f.base.hf ≠ 0) && validShortNetworkId f.shortNetworkId && validShortRdId f.transmitterId
    && !(bitmaskLsb 4 < f.power) && !(f.reserved ≠ 0) && !(bitmaskLsb 3 < f.mcs)

/-- plcf_10.cpp:68-78 -/
def P10.pack (f : P10) : Res (List Nat) := do
  let p0 ← f.base.pack
  Res.assert f.isValid
  let p1 := u8 f.shortNetworkId
  let p2 ← l2bLower 4 f.transmitterId 2
  let p4 := u8 (f.power <<< 4)
  let p4 := u8 (p4 ||| f.reserved <<< 3)
  let p4 := u8 (p4 ||| f.mcs)
  pure ([p0, p1] ++ p2 ++ [p4])

/-- plcf_10.cpp:80-92 -/
def P10.unpack (old : P10) (p : List Nat) : Res (P10 × Bool) := do
  let (base, ok) := Base.unpack (← rd p 0)
  if !ok then
    pure ({ old with base }, false)
  else
    let p4 ← rd p 4
    let f : P10 := {
      base
      shortNetworkId := ← rd p 1
      transmitterId := ← b2lLower 4 (p.drop 2) 2
      power := (p4 >>> 4) &&& 15
      reserved := (p4 >>> 3) &&& 1
      mcs := p4 &&& 7 }
    pure (f, f.isValid)

/-- PLCF type 2, header format 0: plcf_20.hpp, plcf_20.cpp:29-42. -/
structure P20 where
  base : Base
  shortNetworkId : Nat
  transmitterId : Nat
  power : Nat
  mcs : Nat
  receiverId : Nat
  nss : Nat
  rv : Nat
  ndi : Nat
  harq : Nat
  fmt : Nat
  pool : Pool
  deriving DecidableEq, Repr

/-- plcf_20.cpp:44-92 -/
def P20.isValid (f : P20) : Bool :=
  !(f.base.hf ≠ 0) && validShortNetworkId f.shortNetworkId && validShortRdId f.transmitterId
    && !(bitmaskLsb 4 < f.power) && !(11 < f.mcs) && validShortRdId f.receiverId
    && !(bitmaskLsb 2 < f.nss) && !(bitmaskLsb 2 < f.rv) && !(1 < f.ndi)
    && !(bitmaskLsb 3 < f.harq) && !(bitmaskLsb 4 < f.fmt)

/-- plcf_20.cpp:94-111 -/
def P20.pack (f : P20) : Res (List Nat) := do
  let p0 ← f.base.pack
  Res.assert f.isValid
  let p1 := u8 f.shortNetworkId
  let p2 ← l2bLower 4 f.transmitterId 2
  let p4 := u8 (f.power <<< 4)
  let p4 := u8 (p4 ||| f.mcs)
  let p5 ← l2bLower 4 f.receiverId 2
  let p7 := u8 (f.nss <<< 6)
  let p7 := u8 (p7 ||| f.rv <<< 4)
  let p7 := u8 (p7 ||| f.ndi <<< 3)
  let p7 := u8 (p7 ||| f.harq)
  let p8 := u8 (f.fmt <<< 4)
  let (p8, p9) ← f.pool.pack f.fmt p8 0
  pure ([p0, p1] ++ p2 ++ [p4] ++ p5 ++ [p7, p8, p9])

/-- plcf_20.cpp:113-133 -/
def P20.unpack (old : P20) (p : List Nat) : Res (P20 × Bool) := do
  let (base, ok) := Base.unpack (← rd p 0)
  if !ok then
    pure ({ old with base }, false)
  else
    let p4 ← rd p 4
    let p7 ← rd p 7
    let p8 ← rd p 8
    let p9 ← rd p 9
    let fmt := (p8 >>> 4) &&& 15
    let (pool, okp) := old.pool.unpack fmt p8 p9
    let f : P20 := {
      base
      shortNetworkId := ← rd p 1
      transmitterId := ← b2lLower 4 (p.drop 2) 2
      power := (p4 >>> 4) &&& 15
      mcs := p4 &&& 15
      receiverId := ← b2lLower 4 (p.drop 5) 2
      nss := (p7 >>> 6) &&& 3
      rv := (p7 >>> 4) &&& 3
      ndi := (p7 >>> 3) &&& 1
      harq := p7 &&& 7
      fmt
      pool }
    pure (f, okp && f.isValid)

/-- PLCF type 2, header format 1: plcf_21.hpp, plcf_21.cpp:29-40. -/
structure P21 where
  base : Base
  shortNetworkId : Nat
  transmitterId : Nat
  power : Nat
  mcs : Nat
  receiverId : Nat
  nss : Nat
  reserved : Nat
  fmt : Nat
  pool : Pool
  deriving DecidableEq, Repr

/-- plcf_21.cpp:42-82 -/
def P21.isValid (f : P21) : Bool :=
  !(f.base.hf ≠ 1) && validShortNetworkId f.shortNetworkId && validShortRdId f.transmitterId
    && !(bitmaskLsb 4 < f.power) && !(11 < f.mcs) && validShortRdId f.receiverId
    && !(bitmaskLsb 2 < f.nss) && !(f.reserved ≠ 0) && !(bitmaskLsb 4 < f.fmt)

/-- plcf_21.cpp:84-99 -/
def P21.pack (f : P21) : Res (List Nat) := do
  let p0 ← f.base.pack
  Res.assert f.isValid
  let p1 := u8 f.shortNetworkId
  let p2 ← l2bLower 4 f.transmitterId 2
  let p4 := u8 (f.power <<< 4)
  let p4 := u8 (p4 ||| f.mcs)
  let p5 ← l2bLower 4 f.receiverId 2
  let p7 := u8 (f.nss <<< 6)
  let p7 := u8 (p7 ||| f.reserved)
  let p8 := u8 (f.fmt <<< 4)
  let (p8, p9) ← f.pool.pack f.fmt p8 0
  pure ([p0, p1] ++ p2 ++ [p4] ++ p5 ++ [p7, p8, p9])

/-- plcf_21.cpp:101-119 -/
def P21.unpack (old : P21) (p : List Nat) : Res (P21 × Bool) := do
  let (base, ok) := Base.unpack (← rd p 0)
  if !ok then
    pure ({ old with base }, false)
  else
    let p4 ← rd p 4
    let p7 ← rd p 7
    let p8 ← rd p 8
    let p9 ← rd p 9
    let fmt := (p8 >>> 4) &&& 15
    let (pool, okp) := old.pool.unpack fmt p8 p9
    let f : P21 := {
      base
      shortNetworkId := ← rd p 1
      transmitterId := ← b2lLower 4 (p.drop 2) 2
      power := (p4 >>> 4) &&& 15
      mcs := p4 &&& 15
      receiverId := ← b2lLower 4 (p.drop 5) 2
      nss := (p7 >>> 6) &&& 3
      reserved := p7 &&& 63
      fmt
      pool }
    pure (f, okp && f.isValid)

/-! ## Decoder (plcf_decoder.cpp, plcf_decoder.hpp) -/

/-- `plcf_decoder_t`. `hf1`/`hf2` are `HeaderFormat_type1/2`, `none` = `UNDEFINED_NUMERIC_32`. -/
structure Decoder where
  plMax : Nat
  mcsMax : Nat
  nssMax : Nat
  hf1 : Option Nat
  hf2 : Option Nat
  p10 : P10
  p20 : P20
  p21 : P21

/-- `set_configuration`, plcf_decoder.cpp:39-42 -/
def Decoder.setConfiguration (d : Decoder) : Decoder := { d with hf1 := none, hf2 := none }

/-- `check_rdc_limits`, plcf_decoder.cpp:56-63 -/
def Decoder.checkRdc (d : Decoder) (pl mcs nss : Nat) : Bool :=
  !(d.plMax < pl || d.mcsMax < mcs || d.nssMax < nss)

/-- `decode_and_rdc_check`, plcf_decoder.cpp:50-110. `array_plcf_type1 = {&plcf_10}`,
`array_plcf_type2 = {&plcf_20, &plcf_21}` (plcf_decoder.hpp). -/
def Decoder.decode (d : Decoder) (plcfType : Nat) (p : List Nat) : Res Decoder := do
  Res.assert (plcfType = 1 || plcfType = 2)
  let hf := ((← rd p 0) >>> 5) &&& 7
  if plcfType = 1 then
    Res.assert (d.hf1 = none)
    if 1 ≤ hf then
      pure d
    else
      let (f, ok) ← d.p10.unpack p
      let d := { d with p10 := f }
      if !ok then pure d
      else if !d.checkRdc f.base.packetLength f.mcs 1 then pure d
      else pure { d with hf1 := some hf }
  else
    Res.assert (d.hf2 = none)
    if 2 ≤ hf then
      pure d
    else if hf = 0 then
      let (f, ok) ← d.p20.unpack p
      let d := { d with p20 := f }
      if !ok then pure d
      else if !d.checkRdc f.base.packetLength f.mcs (← nSsOfCode f.nss) then pure d
      else pure { d with hf2 := some hf }
    else
      let (f, ok) ← d.p21.unpack p
      let d := { d with p21 := f }
      if !ok then pure d
      else if !d.checkRdc f.base.packetLength f.mcs (← nSsOfCode f.nss) then pure d
      else pure { d with hf2 := some hf }

/-- `has_any_plcf`, plcf_decoder.cpp:112-124 -/
def Decoder.hasAny (d : Decoder) : Nat :=
  (if d.hf1 ≠ none then 1 else 0) + (if d.hf2 ≠ none then 2 else 0)

end Verif.Plcf
