import Verif.Model.Mmh

/-!
# Padding IE and filling a MAC PDU with padding
(src/sections_part4/mac_messages_and_ie/padding_ie.cpp, mmie_pool_tx.cpp:90-106)
-/

namespace Verif.Mac

/-- `N_PADDING_BYTES_MAX`, padding_ie.hpp:47 -/
def nPaddingBytesMax : Nat := bitmaskLsb 8 + 2

/-- `set_nof_padding_bytes`, padding_ie.cpp:31-63, on the multiplexing header of the IE. -/
def setNofPaddingBytes (h : Mmh) (n : Nat) : Res Mmh := do
  Res.assert (decide (1 ≤ n) && decide (n ≤ nPaddingBytesMax))
  match n with
  | 1 => pure { h with ext := some .len1, ie := 0, length := 0 }
  | 2 => pure { h with ext := some .len1, ie := 0, length := 1 }
  | n =>
    let h := { h with ext := some MacExt.len8, ie := 0 }
    let s ← h.packedSize
    pure { h with length := u32 (n + 2 ^ 32 - s) }

/-- `pack_mmh_sdu`, padding_ie.cpp:71-76: header, then `length` zero bytes. -/
def packPadding (h : Mmh) : Res (List Nat) := do
  let l ← h.pack
  pure (l ++ List.replicate h.length 0)

/-- The loop of `fill_with_padding_ies`, mmie_pool_tx.cpp:90-106. Returns for every iteration the
bytes written at the current position and the number by which the position advances; `h` is the
header left from the previous iteration. -/
def fillLoop (h : Mmh) (n : Nat) : Res (List (List Nat × Nat)) :=
  if _h0 : n = 0 then .ok []
  else do
    let k := if nPaddingBytesMax < n then nPaddingBytesMax else n
    let h ← setNofPaddingBytes h k
    let l ← packPadding h
    let rest ← fillLoop h (n - k)
    pure ((l, k) :: rest)
termination_by n
decreasing_by
  have : 0 < nPaddingBytesMax := by decide
  by_cases hh : nPaddingBytesMax < n <;> simp [hh] <;> omega

/-- The memory starting at `mac_pdu_offset` after writing the pieces one after the other, each at
the position reached so far: `mem` is the previous content. -/
def writePieces (mem : List Nat) : List (List Nat × Nat) → List Nat
  | [] => mem
  | (l, k) :: rest =>
    let mem' := l ++ mem.drop l.length
    mem'.take k ++ writePieces (mem'.drop k) rest

/-- `fill_with_padding_ies(mac_pdu_offset, n)` on memory `mem`. -/
def fillWithPadding (mem : List Nat) (n : Nat) : Res (List Nat) := do
  let pieces ← fillLoop Mmh.zero n
  pure (writePieces mem pieces)

end Verif.Mac
