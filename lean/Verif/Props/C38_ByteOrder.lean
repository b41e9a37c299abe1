import Verif.Lemma.BitByte

/-!
# C38: byte order helpers are inverse

`w` is the size of the word type in bytes (the code instantiates 4 and 8), `n` the number of bytes.
-/

namespace Verif.BitByte

/-- Storing `l` at offset `off` of a buffer (`memcpy`); leaving the buffer is undefined. -/
def store (buf : List Nat) (off : Nat) (l : List Nat) : Res (List Nat) :=
  if off + l.length ≤ buf.length then
    .ok (buf.take off ++ l ++ buf.drop (off + l.length))
  else .ub

/-- C38: the low `n` bytes are written in network byte order (byte `i` has weight `256^(n-1-i)`),
other bytes of the buffer stay, and reading back gives the word with its higher bytes cleared. -/
theorem C38_lower (w n x off : Nat) (buf : List Nat) (hn : n ≤ w) (hb : off + n ≤ buf.length) :
    ∃ l buf', l2bLower w x n = .ok l ∧ l.length = n ∧ Bytes l ∧
      (∀ i < n, l[i]? = some (x / 256 ^ (n - 1 - i) % 256)) ∧
      store buf off l = .ok buf' ∧ buf'.length = buf.length ∧
      (∀ i, i < off ∨ off + n ≤ i → buf'[i]? = buf[i]?) ∧
      b2lLower w (buf'.drop off) n = .ok (x % 256 ^ n) := by
  have hl := beBytes_length n x
  have h1 : (buf.take off).length = off := by rw [List.length_take]; omega
  refine ⟨beBytes n x, buf.take off ++ beBytes n x ++ buf.drop (off + n),
    l2bLower_eq x hn, hl, beBytes_bytes n x, fun i hi => beBytes_get n x i hi, ?_, ?_, ?_, ?_⟩
  · rw [store, if_pos (by omega), hl]
  · simp [hl]; omega
  · intro i hi
    rcases hi with hi | hi
    · rw [List.append_assoc, List.getElem?_append_left (by omega), List.getElem?_take,
        if_pos hi]
    · rw [List.getElem?_append_right (by simp [hl]; omega), List.getElem?_drop]
      congr 1; simp [hl]; omega
  · rw [List.append_assoc, List.drop_left' h1, b2lLower_eq _ hn (by simp [hl]),
      List.take_left' hl, ofBE_beBytes]

/-- C38: the high `n` bytes are written in network byte order, and reading back gives the word with
its lower bytes cleared. -/
theorem C38_upper (w n x off : Nat) (buf : List Nat) (hn : n ≤ w) (hx : x < 256 ^ w)
    (hb : off + n ≤ buf.length) :
    ∃ l buf', l2bUpper w x n = .ok l ∧ l.length = n ∧ Bytes l ∧
      (∀ i < n, l[i]? = some (x / 256 ^ (w - 1 - i) % 256)) ∧
      store buf off l = .ok buf' ∧ buf'.length = buf.length ∧
      (∀ i, i < off ∨ off + n ≤ i → buf'[i]? = buf[i]?) ∧
      b2lUpper w (buf'.drop off) n = .ok (x - x % 256 ^ (w - n)) := by
  have hl := beBytes_length n (x / 256 ^ (w - n))
  have h1 : (buf.take off).length = off := by rw [List.length_take]; omega
  refine ⟨beBytes n (x / 256 ^ (w - n)),
    buf.take off ++ beBytes n (x / 256 ^ (w - n)) ++ buf.drop (off + n),
    l2bUpper_eq x hn, hl, beBytes_bytes n _, ?_, ?_, ?_, ?_, ?_⟩
  · intro i hi
    rw [beBytes_get n _ i hi, Nat.div_div_eq_div_mul, ← Nat.pow_add]
    congr 4; omega
  · rw [store, if_pos (by omega), hl]
  · simp [hl]; omega
  · intro i hi
    rcases hi with hi | hi
    · rw [List.append_assoc, List.getElem?_append_left (by omega), List.getElem?_take,
        if_pos hi]
    · rw [List.getElem?_append_right (by simp [hl]; omega), List.getElem?_drop]
      congr 1; simp [hl]; omega
  · rw [List.append_assoc, List.drop_left' h1, b2lUpper_eq _ hn (by simp [hl]),
      List.take_left' hl, ofBE_beBytes, Nat.mod_eq_of_lt]
    · congr 1
      have := Nat.div_add_mod x (256 ^ (w - n))
      rw [Nat.mul_comm] at this; omega
    · rw [Nat.div_lt_iff_lt_mul (Nat.pow_pos (by omega)), ← Nat.pow_add]
      rwa [show n + (w - n) = w by omega]

/-- C38, other direction: reading `n` bytes and writing them again restores the bytes. -/
theorem C38_lower_reverse (w n : Nat) (buf : List Nat) (hn : n ≤ w) (hb : n ≤ buf.length)
    (hby : Bytes buf) :
    ∃ x, b2lLower w buf n = .ok x ∧ x < 256 ^ n ∧ l2bLower w x n = .ok (buf.take n) := by
  have hl : (buf.take n).length = n := by rw [List.length_take]; omega
  have hby' : Bytes (buf.take n) := fun b h => hby b (List.mem_of_mem_take h)
  refine ⟨_, b2lLower_eq buf hn hb, ?_, ?_⟩
  · have := ofBE_lt _ hby'; rwa [hl] at this
  · rw [l2bLower_eq _ hn]
    congr 1
    have := beBytes_ofBE _ hby'; rwa [hl] at this

theorem C38_upper_reverse (w n : Nat) (buf : List Nat) (hn : n ≤ w) (hb : n ≤ buf.length)
    (hby : Bytes buf) :
    ∃ x, b2lUpper w buf n = .ok x ∧ x < 256 ^ w ∧ x % 256 ^ (w - n) = 0 ∧
      l2bUpper w x n = .ok (buf.take n) := by
  have hl : (buf.take n).length = n := by rw [List.length_take]; omega
  have hby' : Bytes (buf.take n) := fun b h => hby b (List.mem_of_mem_take h)
  have hp : 0 < 256 ^ (w - n) := Nat.pow_pos (by omega)
  refine ⟨_, b2lUpper_eq buf hn hb, ?_, Nat.mul_mod_left _ _, ?_⟩
  · have h1 := ofBE_lt _ hby'
    rw [hl] at h1
    have h2 : 256 ^ w = 256 ^ n * 256 ^ (w - n) := by rw [← Nat.pow_add]; congr 1; omega
    rw [h2]; exact Nat.mul_lt_mul_of_pos_right h1 hp
  · rw [l2bUpper_eq _ hn, Nat.mul_div_cancel _ hp]
    congr 1
    have := beBytes_ofBE _ hby'; rwa [hl] at this

/-- C38: more bytes than the word has is undefined behaviour. -/
theorem C38_too_many (w n x : Nat) (l : List Nat) (h : w < n) :
    l2bLower w x n = .ub ∧ l2bUpper w x n = .ub ∧ b2lLower w l n = .ub ∧ b2lUpper w l n = .ub := by
  simp [l2bLower, l2bUpper, b2lLower, b2lUpper, Nat.not_le.2 h]

/-- C38: a bit mask of a type of at most 32 bits has exactly the bits `[lsb, msb)`. -/
theorem C38_bitmask (w msb lsb : Nat) (hw : w ≤ 32) (h1 : lsb ≤ msb) (h2 : msb ≤ w) :
    ∃ m, bitmask w msb lsb = .ok m ∧ ∀ i, m.testBit i = (decide (lsb ≤ i) && decide (i < msb)) := by
  refine ⟨_, bitmask_eq w msb lsb hw h1 h2, fun i => ?_⟩
  obtain ⟨n, rfl⟩ := Nat.exists_eq_add_of_le h1
  have : 2 ^ (lsb + n) - 2 ^ lsb = 2 ^ lsb * (2 ^ n - 1) := by
    rw [Nat.pow_add, Nat.mul_sub, Nat.mul_one]
  rw [this, Nat.testBit_two_pow_mul, Nat.testBit_two_pow_sub_one]
  by_cases h : lsb ≤ i
  · simp [h]; omega
  · simp [h]

/-- C38: the masks used throughout the model are what the template computes. -/
theorem C38_bitmask_lsb_msb (w n : Nat) (hw : w ≤ 32) (h : n ≤ w) :
    bitmask w n 0 = .ok (bitmaskLsb n) ∧ bitmask w w (w - n) = .ok (bitmaskMsb w n) := by
  constructor
  · rw [bitmask_eq w n 0 hw (by omega) h, bitmaskLsb_eq]; rfl
  · rw [bitmask_eq w w (w - n) hw (by omega) (by omega), bitmaskMsb, bitmaskLsb_eq,
      Nat.shiftLeft_eq, Nat.sub_mul, ← Nat.pow_add, Nat.one_mul]
    congr 3; omega

/-- Finding: for a 64-bit type a mask beyond bit 32 is undefined (`1 << i` is an `int` shift). -/
theorem C38_bitmask64_ub : bitmask 64 33 0 = .ub := by decide +kernel

example : l2bLower 4 0x0A0B0C0D 3 = .ok [0x0B, 0x0C, 0x0D] := by decide
example : l2bUpper 4 0x0A0B0C0D 3 = .ok [0x0A, 0x0B, 0x0C] := by decide
example : b2lLower 4 [0x0B, 0x0C, 0x0D, 0xFF] 3 = .ok 0x0B0C0D := by decide
example : b2lUpper 4 [0x0A, 0x0B, 0x0C, 0xFF] 3 = .ok 0x0A0B0C00 := by decide
example : store [1, 2, 3, 4] 1 [9, 8] = .ok [1, 9, 8, 4] := by decide

end Verif.BitByte
