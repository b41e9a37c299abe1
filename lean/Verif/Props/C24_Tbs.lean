import Verif.Lemma.PacketSizes
import Verif.Spec.PacketSizes

set_option linter.unusedSimpArgs false

/-!
# C24: Transport block size agrees with code block segmentation
# C25: Transport block size never decreases when the packet grows
-/

namespace Verif.Sp3

/-- For every number of payload bits with a nonzero transport block size, segmenting succeeds; the code blocks have sizes of
the turbo code table, at most Z; their number is the one for which the transport block with all checksums fills the
largest multiple of the granularity in the payload bits; and their sizes add up to exactly these bits. The only exception is
the transport block of 8 bits, which gets 8 filler bits. -/
theorem C24_segmentation {n z : Nat} (hn : n < 2147483648) (hz : z = 2048 ∨ z = 6144) (ht : tbs n z ≠ 0) :
    ∃ s, cbsegm (tbs n z) z = .ok (some s) ∧ s.C1 + s.C2 = s.C ∧ 0 < s.C1 ∧ s.K1 ∈ tcCbSizes ∧ s.K1 ≤ z ∧
      (s.C2 ≠ 0 → s.K2 ∈ tcCbSizes ∧ s.K2 < s.K1) ∧
      Spec.withCrc (tbs n z) s.C = n / Spec.granularity n * Spec.granularity n ∧
      s.C1 * s.K1 + s.C2 * s.K2 = Spec.withCrc (tbs n z) s.C + s.F ∧
      s.F = if tbs n z = 8 then 8 else 0 := by
  have hu : n / Spec.granularity n * Spec.granularity n = used n := rfl
  rw [hu]
  by_cases h24 : used n ≤ 24
  · exact absurd (by rw [tbs_eq, if_pos h24]) ht
  by_cases h : used n ≤ z
  · have h6 : used n ≤ 6144 := by omega
    have hup := up_used (by omega) h6
    have ht' : tbs n z = used n - 24 := by rw [tbs_eq, if_neg h24, if_pos h]
    refine ⟨_, cbsegm_single hn hz (by omega) h, rfl, Nat.one_pos, up_mem h6, ?_, fun h => absurd rfl h, ?_, ?_, ?_⟩
    · show up (used n) ≤ z
      rw [hup]; split <;> omega
    · simp only [Spec.withCrc, if_true]; omega
    · simp only [Spec.withCrc, if_true]
      rw [hup]; split <;> omega
    · show up (used n) - used n = _
      rw [hup, ht']
      by_cases h32 : used n = 32
      · rw [if_pos h32, if_pos (by omega), h32]
      · rw [if_neg h32, if_neg (by omega)]; omega
  · obtain ⟨s, h1, h2, h3, h4, h5, h6, h7, h8, h9, h10⟩ := cbsegm_multi hn hz (by omega)
    obtain ⟨m1, -, -, -, m5, -, m7⟩ := multi (n := n) hz (by omega)
    have hw : Spec.withCrc (tbs n z) s.C = used n := by
      unfold Spec.withCrc
      rw [if_neg (by omega), h2]
      omega
    exact ⟨s, h1, h3, h4, h5, h6, fun _ => ⟨h7, h8⟩, hw, by rw [h10, hw, h9, Nat.add_zero], by rw [h9, if_neg (by omega)]⟩

/-- The smallest transport block and one with code blocks of two sizes -/
theorem C24_example : tbs 35 2048 = 8 ∧ tbs 4500 2048 = 4384 ∧
    cbsegm 4384 2048 = .ok (some ⟨3, 2, 1, 1504, 1472, 0⟩) := by
  decide +kernel

theorem tbs_dvd (n : Nat) {z : Nat} : tbs n z % 8 = 0 := by
  have h1 := used_cases n
  rw [tbs_eq]
  split
  · rfl
  split
  · omega
  · generalize ceilDiv (used n - 24) z = c
    omega

/-- Every transport block consists of whole bytes. -/
theorem C24_whole_bytes (n z : Nat) : ceilDiv (tbs n z) 8 * 8 = tbs n z := by
  have := tbs_dvd n (z := z)
  unfold ceilDiv
  omega

theorem used_mono {n m : Nat} (h : n ≤ m) : used n ≤ used m := by
  have h1 := used_cases n
  have h2 := used_cases m
  omega

/-- More payload bits never yield a smaller transport block. -/
theorem C25_monotone_bits {n m z : Nat} (hz : z = 2048 ∨ z = 6144) (h : n ≤ m) : tbs n z ≤ tbs m z := by
  have hm := used_mono h
  have h1 := used_cases n
  have h2 := used_cases m
  have ln := used_le n
  have lm := used_le m
  rw [tbs_eq, tbs_eq]
  unfold ceilDiv
  rcases hz with rfl | rfl <;> (split <;> (split <;> (try split) <;> (try split) <;> omega))

/-- At the same code rate, more streams, subcarriers or bits per symbol never yield a smaller transport block. -/
theorem C25_monotone {a b c a' b' c' num den z : Nat} (hz : z = 2048 ∨ z = 6144) (h1 : a ≤ a') (h2 : b ≤ b') (h3 : c ≤ c') :
    nTbBits a b c num den z ≤ nTbBits a' b' c' num den z := by
  refine C25_monotone_bits hz (Nat.div_le_div_right (Nat.mul_le_mul_right _ ?_))
  exact Nat.mul_le_mul (Nat.mul_le_mul h1 h2) h3

/-- Twelve times the spectral efficiency of an MCS -/
def eff12 : Nat → Nat
  | 0 => 6 | 1 => 12 | 2 => 18 | 3 => 24 | 4 => 36 | 5 => 48 | 6 => 54 | 7 => 60 | 8 => 72 | 9 => 80 | 10 => 90 | _ => 100

theorem mcs_bits {i : Nat} {m : Mcs} (hm : getMcs i = .ok m) (a b : Nat) : nPdcBits a b m.nBps m.rNum m.rDen = a * b * eff12 i / 12 := by
  unfold nPdcBits getG
  generalize a * b = x
  revert hm
  match i with
  | 0 | 1 | 2 | 3 | 4 | 5 | 6 | 7 | 8 | 9 | 10 | 11 => intro hm; cases hm; simp only [eff12]; omega
  | _ + 12 => intro hm; cases hm

theorem eff12_mono {i j : Nat} (h : i ≤ j) (hj : j ≤ 11) : eff12 i ≤ eff12 j := by
  have : ∀ j ≤ 11, ∀ i ≤ j, eff12 i ≤ eff12 j := by decide
  exact this j hj i h

/-- A higher MCS index never yields a smaller transport block. -/
theorem C25_monotone_mcs {i j : Nat} {m m' : Mcs} (hm : getMcs i = .ok m) (hm' : getMcs j = .ok m') (hij : i ≤ j) {a b a' b' z : Nat}
    (hz : z = 2048 ∨ z = 6144) (h : a * b ≤ a' * b') :
    nTbBits a b m.nBps m.rNum m.rDen z ≤ nTbBits a' b' m'.nBps m'.rNum m'.rDen z := by
  have hj : j ≤ 11 := by
    by_contra hj
    obtain ⟨k, rfl⟩ : ∃ k, j = k + 12 := ⟨j - 12, by omega⟩
    cases hm'
  refine C25_monotone_bits hz ?_
  rw [mcs_bits hm, mcs_bits hm']
  exact Nat.div_le_div_right (Nat.mul_le_mul h (eff12_mono hij hj))

/-- A growing packet crossing the size of one code block: the additional checksums never outweigh the additional bits. -/
theorem C25_example : tbs 2048 2048 = 2024 ∧ tbs 2111 2048 = 2024 ∧ tbs 2112 2048 = 2040 ∧ tbs 4096 2048 = 4024 ∧
    tbs 4160 2048 = 4064 := by
  decide +kernel

end Verif.Sp3
