import Verif.Model.Padding
import Verif.Props.C04_MuxHeader

/-!
# C05: padding fills exactly the requested number of bytes
-/

namespace Verif.Mac
open Mmh

/-- Specification: a run of padding IEs as in 6.4.3.8: a lone octet, an octet followed by one byte,
or an octet with an 8-bit length followed by that many bytes. All padding content is zero. The last
argument counts the IEs. -/
inductive PaddingRun : List Nat → Nat → Prop
  | nil : PaddingRun [] 0
  | one {l c} : PaddingRun l c → PaddingRun (0xC0 :: l) (c + 1)
  | two {l c} : PaddingRun l c → PaddingRun (0xE0 :: 0 :: l) (c + 1)
  | many {l c} (len : Nat) : 1 ≤ len → len ≤ 255 → PaddingRun l c →
      PaddingRun (0x40 :: len :: (List.replicate len 0 ++ l)) (c + 1)

theorem maxPad : nPaddingBytesMax = 257 := by decide

/-- One padding IE of `n` bytes. -/
def padIe (n : Nat) : List Nat :=
  if n = 1 then [0xC0] else if n = 2 then [0xE0, 0] else 0x40 :: (n - 2) :: List.replicate (n - 2) 0

theorem padIe_length {n : Nat} (h : 1 ≤ n) : (padIe n).length = n := by
  unfold padIe; split
  · subst_vars; rfl
  · split
    · subst_vars; rfl
    · simp; omega

theorem padIe_run {n c : Nat} {l : List Nat} (h : 1 ≤ n) (h' : n ≤ 257) (hl : PaddingRun l c) :
    PaddingRun (padIe n ++ l) (c + 1) := by
  unfold padIe; split
  · exact .one hl
  · split
    · exact .two hl
    · exact .many (n - 2) (by omega) (by omega) hl

/-- C05: one padding IE is exactly as long as requested; 0 or more than 257 bytes abort. -/
theorem C05_padding_ie (h : Mmh) (n : Nat) :
    (1 ≤ n ∧ n ≤ 257 → ∃ h', setNofPaddingBytes h n = .ok h' ∧ packPadding h' = .ok (padIe n) ∧
      (padIe n).length = n) ∧
    (¬ (1 ≤ n ∧ n ≤ 257) → setNofPaddingBytes h n = .abort) := by
  constructor
  · rintro ⟨h1, h2⟩
    have ha : (decide (1 ≤ n) && decide (n ≤ nPaddingBytesMax)) = true := by
      simp [maxPad]; omega
    by_cases e1 : n = 1
    · subst e1
      exact ⟨⟨some .len1, 0, 0, h.tinfo⟩, by simp [setNofPaddingBytes, maxPad], by
        simp only [packPadding]
        obtain ⟨l, hp, -, -, -, rfl⟩ := C04_pack .len1 0 0 h.tinfo (by simp [Assigned])
          (by simp [LengthFits])
        rw [hp]; rfl, rfl⟩
    · by_cases e2 : n = 2
      · subst e2
        exact ⟨⟨some .len1, 0, 1, h.tinfo⟩, by simp [setNofPaddingBytes, maxPad], by
          simp only [packPadding]
          obtain ⟨l, hp, -, -, -, rfl⟩ := C04_pack .len1 0 1 h.tinfo (by simp [Assigned])
            (by simp [LengthFits])
          rw [hp]; rfl, rfl⟩
      · refine ⟨⟨some .len8, 0, n - 2, h.tinfo⟩, ?_, ?_, padIe_length h1⟩
        · simp only [setNofPaddingBytes, ha, Res.assert_true, Res.ok_bind]
          simp [packedSize]; unfold u32; omega
        · simp only [packPadding]
          obtain ⟨l, hp, -, -, -, rfl⟩ := C04_pack .len8 0 (n - 2) h.tinfo (by simp [Assigned])
            (by simp only [LengthFits]; omega)
          rw [hp]
          simp [padIe, e1, e2, firstOctet, lengthOctets]
  · intro hn
    have ha : (decide (1 ≤ n) && decide (n ≤ nPaddingBytesMax)) = false := by
      rw [← Bool.not_eq_true]; simpa [maxPad] using hn
    simp only [setNofPaddingBytes, ha, Res.assert_false, Res.abort_bind]

theorem fillLoop_spec (n : Nat) : ∀ h : Mmh, ∃ ps, fillLoop h n = .ok ps ∧
    (∀ mem, n ≤ mem.length → ∃ l, writePieces mem ps = l ++ mem.drop n ∧ l.length = n ∧
      PaddingRun l ((n + 256) / 257)) := by
  induction n using Nat.strongRecOn with
  | _ n ih =>
    intro h
    rw [fillLoop]
    by_cases h0 : n = 0
    · subst h0
      exact ⟨[], by simp, fun mem _ => ⟨[], by simp [writePieces], rfl, .nil⟩⟩
    · rw [dif_neg h0, maxPad]
      obtain ⟨k, hk, hk1, hk2, hkn⟩ : ∃ k, (if 257 < n then 257 else n) = k ∧ 1 ≤ k ∧ k ≤ 257 ∧
          (n - k = 0 ∨ k = 257) ∧ k ≤ n := by
        refine ⟨_, rfl, ?_⟩
        split <;> omega
      obtain ⟨h', e1, e2, e3⟩ := (C05_padding_ie h k).1 ⟨hk1, hk2⟩
      obtain ⟨ps, e4, hps⟩ := ih (n - k) (by omega) h'
      refine ⟨(padIe k, k) :: ps, ?_, ?_⟩
      · simp only [hk, e1, Res.ok_bind, e2, e4, Res.pure_eq]
      · intro mem hm
        have hd : (padIe k ++ mem.drop (padIe k).length).drop k = mem.drop k := by
          rw [List.drop_append_of_le_length (by omega), e3,
            List.drop_of_length_le (by omega), List.nil_append]
        obtain ⟨l, e5, e6, e7⟩ := hps (mem.drop k) (by simp; omega)
        refine ⟨padIe k ++ l, ?_, by simp; omega, ?_⟩
        · simp only [writePieces, hd, e5]
          rw [List.take_append_of_le_length (by omega), List.take_of_length_le (by omega),
            List.drop_drop, List.append_assoc]
          congr 3; omega
        · have : (n + 256) / 257 = (n - k + 256) / 257 + 1 := by omega
          rw [this]
          exact padIe_run hk1 hk2 e7

/-- C05: filling `n` bytes of any memory that has them overwrites exactly the first `n` bytes, with
a run of padding IEs, and leaves the rest unchanged. The number of IEs is the least possible,
`⌈n/257⌉`. -/
theorem C05_fill (mem : List Nat) (n : Nat) (hn : n ≤ mem.length) :
    ∃ l, fillWithPadding mem n = .ok (l ++ mem.drop n) ∧ l.length = n ∧
      PaddingRun l ((n + 256) / 257) := by
  obtain ⟨ps, e, h⟩ := fillLoop_spec n Mmh.zero
  obtain ⟨l, e1, e2, e3⟩ := h mem hn
  exact ⟨l, by simp [fillWithPadding, e, e1], e2, e3⟩

/-- C05: no padding run of `n` bytes uses fewer IEs. -/
theorem C05_least (l : List Nat) (c : Nat) (h : PaddingRun l c) : (l.length + 256) / 257 ≤ c := by
  have : l.length ≤ 257 * c := by
    induction h with
    | nil => simp
    | one _ ih => simp; omega
    | two _ ih => simp; omega
    | many len _ _ _ ih => simp; omega
  omega

/-- C05: the receiver recognises the start of every nonempty padding run as padding, whatever
follows it. -/
theorem C05_recognised (l : List Nat) (c : Nat) (h : PaddingRun l c) (hl : l ≠ []) (rest : List Nat) :
    ∃ m, unpackExtIe zero (l ++ rest) = .ok (m, true) ∧ m.tinfo = some .padding := by
  cases h with
  | nil => exact absurd rfl hl
  | one _ => exact ⟨_, C04_unpack_first .len1 0 0 (by simp [Assigned]) (by simp [LengthFits]) _, rfl⟩
  | two _ => exact ⟨_, C04_unpack_first .len1 0 1 (by simp [Assigned]) (by simp [LengthFits]) _, rfl⟩
  | many len _ h2 _ => exact ⟨_, C04_unpack_first .len8 0 len (by simp [Assigned]) h2 _, rfl⟩

/-- Non-vacuity: three IEs for 516 bytes; the last one is a two byte IE. -/
example : ∃ l, fillWithPadding (List.replicate 520 7) 516 = .ok (l ++ [7, 7, 7, 7]) ∧
    l.length = 516 ∧ PaddingRun l 3 := by
  have h := C05_fill (List.replicate 520 7) 516 (by rw [List.length_replicate]; omega)
  rwa [List.drop_replicate] at h

end Verif.Mac
