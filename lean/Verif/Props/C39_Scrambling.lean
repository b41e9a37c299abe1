import Verif.Model.Scrambling

/-!
# C39: scrambling
-/

set_option linter.unusedSimpArgs false

namespace Verif.Sp3.Scrambling

theorem tdiv8 (n : Nat) : ((n : Int).tdiv 8).toNat = n / 8 := rfl

theorem tmod8 (n : Nat) : (n : Int).tmod 8 = (n % 8 : Nat) := rfl

theorem neg8 {x : Int} (h0 : x ≤ 0) (h : -8 < x) : (x.tdiv 8).toNat = 0 ∧ ¬ 0 < x.tmod 8 := by
  have : x = 0 ∨ x = -1 ∨ x = -2 ∨ x = -3 ∨ x = -4 ∨ x = -5 ∨ x = -6 ∨ x = -7 := by omega
  rcases this with rfl | rfl | rfl | rfl | rfl | rfl | rfl | rfl <;> decide

theorem scramble_aligned (c pad d : Nat → Bool) {len offset : Nat} (h : offset % 8 = 0) : scramble c pad d len offset =
    if 0 < len % 8 then tail c (body c d offset (len / 8)) pad (offset + len) (len % 8) else body c d offset (len / 8) := by
  have e1 := tdiv8 len
  have e2 := tmod8 len
  unfold scramble
  simp only [h, Nat.lt_irrefl, if_false, e1, e2]
  by_cases h0 : 0 < len % 8
  · rw [if_pos (by omega), if_pos h0]; rfl
  · rw [if_neg (by omega), if_neg h0]

theorem scramble_split (c pad d : Nat → Bool) {len offset : Nat} (h : 0 < offset % 8) (hl : 8 ≤ offset % 8 + len) :
    scramble c pad d len offset = scramble c pad (head c d offset) (len - (8 - offset % 8)) ((offset / 8 + 1) * 8) := by
  rw [scramble_aligned _ _ _ (by omega : (offset / 8 + 1) * 8 % 8 = 0)]
  have e0 : (len : Int) - (8 - offset % 8 : Nat) = (len - (8 - offset % 8) : Nat) := by omega
  have e1 := tdiv8 (len - (8 - offset % 8))
  have e2 := tmod8 (len - (8 - offset % 8))
  have e3 : (offset / 8 + 1) * 8 + (len - (8 - offset % 8)) = offset + len := by omega
  unfold scramble
  simp only [h, if_true, e0, e1, e2, e3]
  by_cases h0 : 0 < (len - (8 - offset % 8)) % 8
  · rw [if_pos (by omega), if_pos h0]; rfl
  · rw [if_neg (by omega), if_neg h0]

theorem scramble_short (c pad d : Nat → Bool) {len offset : Nat} (h : 0 < offset % 8) (hl : offset % 8 + len < 8) :
    scramble c pad d len offset = head c d offset := by
  obtain ⟨e1, e2⟩ := neg8 (x := (len : Int) - (8 - offset % 8 : Nat)) (by omega) (by omega)
  unfold scramble
  simp only [h, if_true, e1, e2, if_false]
  funext k
  unfold body
  rw [if_neg (by omega)]

theorem aligned_bits (c pad d : Nat → Bool) {len offset : Nat} (h : offset % 8 = 0) (k : Nat) :
    (within offset (offset + len) k → scramble c pad d len offset k = xor (c k) (d k)) ∧
      (¬ within offset ((offset + len + 7) / 8 * 8) k → scramble c pad d len offset k = d k) := by
  rw [scramble_aligned c pad d h]
  unfold within
  split
  · unfold tail body
    constructor
    · intro hk
      by_cases h1 : 8 * ((offset + len) / 8) ≤ k
      · rw [if_pos (by omega), if_neg (by omega)]
      · rw [if_neg (by omega), if_neg (by omega), if_pos (by omega)]
    · intro hk
      rw [if_neg (by omega), if_neg (by omega), if_neg (by omega)]
  · unfold body
    constructor
    · intro hk; rw [if_pos (by omega)]
    · intro hk; rw [if_neg (by omega)]

/-- If the range starts at a byte or reaches the end of its first byte, then exactly the bits of the range are combined with
the sequence. Bits in front of the range, and bits behind the last byte of the range, are not changed. Missing for
the full claim: bits behind the range in its last byte (they get a value which srsran_bit_pack_vector chooses), short ranges
inside of one byte (see `C39_short`). -/
theorem C39_range_partial (c pad d : Nat → Bool) {len offset : Nat} (h : offset % 8 = 0 ∨ 8 ≤ offset % 8 + len) (k : Nat) :
    (within offset (offset + len) k → scramble c pad d len offset k = xor (c k) (d k)) ∧
      (¬ within offset ((offset + len + 7) / 8 * 8) k → scramble c pad d len offset k = d k) := by
  by_cases h0 : offset % 8 = 0
  · exact aligned_bits c pad d h0 k
  · rw [scramble_split c pad d (by omega) (by omega)]
    obtain ⟨h1, h2⟩ := aligned_bits c pad (head c d offset) (len := len - (8 - offset % 8)) (offset := (offset / 8 + 1) * 8) (by omega) k
    unfold within at *
    constructor
    · intro hk
      by_cases h3 : (offset / 8 + 1) * 8 ≤ k
      · rw [h1 (by omega)]; unfold head; rw [if_neg (by omega)]
      · rw [h2 (by omega)]; unfold head; rw [if_pos (by omega)]
    · intro hk
      rw [h2 (by omega)]; unfold head; rw [if_neg (by omega)]

/-- Scrambling the same range twice restores the range. -/
theorem C39_involution (c pad pad' d : Nat → Bool) {len offset : Nat} (h : offset % 8 = 0 ∨ 8 ≤ offset % 8 + len) {k : Nat}
    (hk : ¬ within (offset + len) ((offset + len + 7) / 8 * 8) k) :
    scramble c pad' (scramble c pad d len offset) len offset k = d k := by
  by_cases h1 : within offset (offset + len) k
  · rw [(C39_range_partial c pad' _ h k).1 h1, (C39_range_partial c pad d h k).1 h1]
    cases c k <;> cases d k <;> rfl
  · have h2 : ¬ within offset ((offset + len + 7) / 8 * 8) k := by
      unfold within at *; omega
    rw [(C39_range_partial c pad' _ h k).2 h2, (C39_range_partial c pad d h k).2 h2]

/-- Finding: a range which neither starts at a byte nor reaches the end of its first byte is scrambled to the end of this
byte. -/
theorem C39_short (c pad d : Nat → Bool) {len offset : Nat} (h : 0 < offset % 8) (hl : offset % 8 + len < 8) (k : Nat) :
    scramble c pad d len offset k = if within offset ((offset / 8 + 1) * 8) k then xor (c k) (d k) else d k := by
  rw [scramble_short c pad d h hl]
  unfold head within
  rfl

/-- The claim is violated by a range of one bit. -/
theorem C39_negation : ∃ (c pad d : Nat → Bool) (len offset k : Nat), ¬ within offset (offset + len) k ∧
    scramble c pad d len offset k ≠ d k := by
  refine ⟨fun _ => true, fun _ => false, fun _ => false, 1, 9, 10, by unfold within; omega, ?_⟩
  rw [C39_short _ _ _ (by omega) (by omega), if_pos (by unfold within; omega)]
  decide

/-- 13 bits from bit 3, sequence of ones -/
theorem C39_example : (List.range 24).map (scramble (fun _ => true) (fun _ => false) (fun k => k % 3 == 0) 13 3) =
    [true, false, false, false, true, true, false, true, true, false, true, true, false, true, true, false,
     false, false, true, false, false, true, false, false] ∧
    (List.range 16).map (scramble (fun _ => true) (fun _ => false) (fun k => k % 3 == 0) 11 0) =
    [false, true, true, false, true, true, false, true, true, false, true, false, false, false, false, false] := by
  decide

end Verif.Sp3.Scrambling
