import Mathlib.Data.Int.Init

/-!
# Scrambling of packed bits

src/sections_part3/fix/scrambling.cpp:35-61. A packed buffer is a sequence of bits: bit `k` is bit `7 - k % 8` of byte
`k / 8`. `c k` is the sequence; `c_bytes` is the same sequence packed. -/

namespace Verif.Sp3.Scrambling

/-- lines 42-47: unpack the byte of `offset`, scramble from `offset` to the end of the byte, pack -/
def head (c d : Nat → Bool) (offset : Nat) : Nat → Bool :=
  fun k => if offset ≤ k ∧ k < (offset / 8 + 1) * 8 then xor (c k) (d k) else d k

/-- line 53: `n` bytes from byte `offset / 8` -/
def body (c d : Nat → Bool) (offset n : Nat) : Nat → Bool :=
  fun k => if offset / 8 * 8 ≤ k ∧ k < (offset / 8 + n) * 8 then xor (c k) (d k) else d k

/-- lines 56-61: the first `m` bits of byte `full / 8` are scrambled. What srsran_bit_pack_vector writes to the remaining
bits of that byte is left open (`pad`). -/
def tail (c d pad : Nat → Bool) (full m : Nat) : Nat → Bool :=
  fun k => if 8 * (full / 8) ≤ k ∧ k < 8 * (full / 8) + m then xor (c k) (d k)
    else if 8 * (full / 8) ≤ k ∧ k < 8 * (full / 8) + 8 then pad k else d k

/-- srsran_scrambling_bytes_with_sequence_offset_FIX, lines 35-61. `len` is an `int` and gets negative if the first byte
is not filled; division and remainder truncate. -/
def scramble (c pad d : Nat → Bool) (len offset : Nat) : Nat → Bool :=
  let d1 := if 0 < offset % 8 then head c d offset else d
  let len1 : Int := if 0 < offset % 8 then (len : Int) - (8 - offset % 8 : Nat) else len
  let offset1 := if 0 < offset % 8 then (offset / 8 + 1) * 8 else offset
  let d2 := body c d1 offset1 (len1.tdiv 8).toNat
  if 0 < len1.tmod 8 then tail c d2 pad (offset + len) (len1.tmod 8).toNat else d2

/-- Bits [lo, hi) -/
def within (lo hi k : Nat) : Prop := lo ≤ k ∧ k < hi

instance (lo hi k : Nat) : Decidable (within lo hi k) := inferInstanceAs (Decidable (_ ∧ _))

end Verif.Sp3.Scrambling
