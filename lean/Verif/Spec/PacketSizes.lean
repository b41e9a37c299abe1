import Verif.Model.PacketSizes

/-!
# Vocabulary for C24, C25, C26
-/

namespace Verif.Sp3.Spec

/-- Bits entering the turbo encoder for a transport block cut into `C` code blocks: 24 bits of CRC for the transport block
and, if there are several code blocks, 24 bits for each of them. -/
def withCrc (tb C : Nat) : Nat := tb + 24 + if C = 1 then 0 else C * 24

/-- Granularity of the transport block size: code block sizes are multiples of 8, 16, 32, 64. -/
def granularity (n : Nat) : Nat := if n ≤ 512 then 8 else if n ≤ 1024 then 16 else if n ≤ 2048 then 32 else 64

/-- The packet `d` respects the radio device class `r` (asserts of tx.cpp:429-480, packet length of the PLCF
decoder). -/
structure Allowed (r : Rdc) (d : PsDef) (t : Tm) : Prop where
  valid : d.valid = true
  u : d.u ≤ r.uMin
  b : d.b ≤ r.bMin
  pl : d.pl ≤ r.plMin
  tm : getTm d.tm = .ok t
  nTx : t.nTx ≤ r.nTxMin
  mcs : d.mcs ≤ r.mcsMin
  z : d.z = r.zMin

end Verif.Sp3.Spec
