import Verif.Base.Bits

/-!
# Byte order helpers (inc/common/adt/bitbyte.hpp:75-154)

`w` is `sizeof(T)` (4 or 8). The word is a `Nat` below `256^w`. `__builtin_bswap` followed by
reading the memory of a little endian machine lists the bytes most significant first (`beBytes`).
-/

namespace Verif.BitByte

/-- Memory of the byte-swapped word: bytes of `x`, most significant first, `w` bytes. -/
def beBytes : Nat → Nat → List Nat
  | 0, _ => []
  | w + 1, x => beBytes w (x / 256) ++ [x % 256]

/-- Value of a byte-swapped word held in memory (most significant byte first). -/
def ofBE (l : List Nat) : Nat := l.foldl (fun acc b => acc * 256 + b) 0

/-- `l2b_lower<T>(dst, src, n_byte)`, bitbyte.hpp:75-87. Returns the bytes stored at `dst`.
`n_byte > sizeof(T)` makes the pointer computation run out of the object: undefined. -/
def l2bLower (w src n : Nat) : Res (List Nat) :=
  if n ≤ w then .ok ((beBytes w src).drop (w - n)) else .ub

/-- `b2l_lower<T>(src, n_byte)`, bitbyte.hpp:90-102. Reading past the buffer is undefined. -/
def b2lLower (w : Nat) (src : List Nat) (n : Nat) : Res Nat :=
  if n ≤ w ∧ n ≤ src.length then .ok (ofBE (List.replicate (w - n) 0 ++ src.take n)) else .ub

/-- `l2b_upper<T>(dst, src, n_byte)`, bitbyte.hpp:127-139. -/
def l2bUpper (w src n : Nat) : Res (List Nat) :=
  if n ≤ w then .ok ((beBytes w src).take n) else .ub

/-- `b2l_upper<T>(src, n_byte)`, bitbyte.hpp:142-154. -/
def b2lUpper (w : Nat) (src : List Nat) (n : Nat) : Res Nat :=
  if n ≤ w ∧ n ≤ src.length then .ok (ofBE (src.take n ++ List.replicate (w - n) 0)) else .ub

/-- `bitmask<T, msb, lsb>()`, bitbyte.hpp:30-38, for a `w`-bit `T`: `1 << i` is computed in `int`,
so a shift by 32 or more is undefined, and bit 31 is sign extended when `T` is 64 bits wide. -/
def bitmask (w msb lsb : Nat) : Res Nat :=
  (List.range' lsb (msb - lsb)).foldlM (init := 0) fun ret i =>
    if 32 ≤ i then Res.ub
    else if i = 31 ∧ 32 < w then .ok ((ret ||| (2 ^ w - 2 ^ 31)) % 2 ^ w)
    else .ok ((ret ||| (1 <<< i)) % 2 ^ w)

end Verif.BitByte
