import Verif.Model.Channel
import Verif.Spec.Channel

/-!
# C35: Channel numbers, bands and frequencies agree -/

namespace Verif.Props.C35

open Verif.Channel Verif.Spec.Channel

set_option linter.unusedSimpArgs false

/-- The nineteen bands -/
theorem band_cases {b : Nat} (h1 : 1 ≤ b) (h2 : b ≤ 19) :
    b = 1 ∨ b = 2 ∨ b = 3 ∨ b = 4 ∨ b = 5 ∨ b = 6 ∨ b = 7 ∨ b = 8 ∨ b = 9 ∨ b = 10 ∨ b = 11 ∨ b = 12 ∨ b = 13 ∨ b = 14 ∨
      b = 15 ∨ b = 16 ∨ b = 17 ∨ b = 18 ∨ b = 19 := by omega

theorem inBand_iff {b n : Nat} (h1 : 1 ≤ b) (h2 : b ≤ 19) : InBand b n ↔ (band b).1 ≤ n ∧ n ≤ (band b).2 := by
  rcases band_cases h1 h2 with h | h | h | h | h | h | h | h | h | h | h | h | h | h | h | h | h | h | h <;> subst h <;>
    simp [InBand, table, band]

theorem inBand_range {b n : Nat} (h : InBand b n) : 1 ≤ b ∧ b ≤ 19 := by
  obtain ⟨e, he, rfl, -⟩ := h
  have : ∀ e ∈ table, 1 ≤ e.1 ∧ e.1 ≤ 19 := by decide
  exact this e he

theorem frequency_band {b n : Nat} (h1 : 1 ≤ b) (h2 : b ≤ 19) (h : (band b).1 ≤ n ∧ n ≤ (band b).2) :
    centerFrequency b n = .ok (reference n, spacing n, frequency n) := by
  rcases band_cases h1 h2 with hb | hb | hb | hb | hb | hb | hb | hb | hb | hb | hb | hb | hb | hb | hb | hb | hb | hb | hb <;>
    subst hb <;> simp only [band] at h <;>
    first
    | (have hn : n < 2952 := by omega
       simp [centerFrequency, band, h, frequency, reference, spacing, Res.assert, hn])
    | (have hn : ¬ n < 2952 := by omega
       have hn' : n < 4104 := by omega
       simp [centerFrequency, band, h, frequency, reference, spacing, Res.assert, hn, hn'])
    | (have hn : ¬ n < 2952 := by omega
       have hn' : ¬ n < 4104 := by omega
       simp [centerFrequency, band, h, frequency, reference, spacing, Res.assert, hn, hn'])

/-- Every channel of a band has the center frequency of the standard; a channel outside of the band is rejected. -/
theorem C35_frequency (b n : Nat) (h1 : 1 ≤ b) (h2 : b ≤ 19) :
    (InBand b n → centerFrequency b n = .ok (reference n, spacing n, frequency n)) ∧ (¬ InBand b n → centerFrequency b n = .abort) := by
  rw [inBand_iff h1 h2]
  refine ⟨fun h => frequency_band h1 h2 h, fun h => ?_⟩
  have : (decide ((band b).1 ≤ n) && decide (n ≤ (band b).2)) = false := by
    rw [Bool.and_eq_false_iff, decide_eq_false_iff_not, decide_eq_false_iff_not]
    omega
  simp only [centerFrequency, this]
  rfl

theorem scan_iff (n : Nat) : ∀ k b, scan n b k = true ↔ ∃ i, i < k ∧ (band (b + i)).1 ≤ n ∧ n ≤ (band (b + i)).2 := by
  intro k
  induction k with
  | zero => intro b; simp [scan]
  | succ k ih =>
    intro b
    rw [scan]
    by_cases h : (band b).1 ≤ n ∧ n ≤ (band b).2
    · rw [if_pos h]
      exact ⟨fun _ => ⟨0, by omega, by simpa using h⟩, fun _ => rfl⟩
    · rw [if_neg h, ih]
      constructor
      · rintro ⟨i, hi, h'⟩
        exact ⟨i + 1, by omega, by rw [show b + (i + 1) = b + 1 + i by omega]; exact h'⟩
      · rintro ⟨i, hi, h'⟩
        cases i with
        | zero => exact absurd (by simpa using h') h
        | succ i => exact ⟨i, by omega, by rw [show b + 1 + i = b + (i + 1) by omega]; exact h'⟩

/-- An absolute channel number is accepted exactly if it belongs to one of the bands. -/
theorem C35_in_range (n : Nat) : inRange n = true ↔ ∃ b, InBand b n := by
  unfold inRange
  have hmax : ∀ b, InBand b n → n ≤ 4466 := by
    rintro b ⟨e, he, -, -, h⟩
    have : ∀ e ∈ table, e.2.2 ≤ 4466 := by decide
    exact Nat.le_trans h (this e he)
  have hmask : bitmaskLsb 13 = 8191 := by decide
  rw [hmask]
  split
  · next h =>
    refine ⟨fun h' => absurd h' (by simp), fun ⟨b, hb⟩ => ?_⟩
    have := hmax b hb
    omega
  · rw [scan_iff]
    constructor
    · rintro ⟨i, hi, h⟩
      exact ⟨1 + i, (inBand_iff (by omega) (by omega)).2 h⟩
    · rintro ⟨b, hb⟩
      obtain ⟨r1, r2⟩ := inBand_range hb
      refine ⟨b - 1, by omega, ?_⟩
      rw [show 1 + (b - 1) = b by omega]
      exact (inBand_iff r1 r2).1 hb

/-- Different channel numbers have different frequencies, also across bands and rasters; the frequency of a channel does
not depend on the band, where bands overlap. -/
theorem C35_injective (b b' n n' : Nat) (hb : InBand b n) (hb' : InBand b' n') (f0 sp f f0' sp' f' : Int)
    (h : centerFrequency b n = .ok (f0, sp, f)) (h' : centerFrequency b' n' = .ok (f0', sp', f')) : f = f' ↔ n = n' := by
  obtain ⟨r1, r2⟩ := inBand_range hb
  obtain ⟨r1', r2'⟩ := inBand_range hb'
  have e := (C35_frequency b n r1 r2).1 hb
  have e' := (C35_frequency b' n' r1' r2').1 hb'
  rw [h] at e
  rw [h'] at e'
  injection e with e
  injection e' with e'
  have hf : f = frequency n := by injection e with _ e; injection e
  have hf' : f' = frequency n' := by injection e' with _ e'; injection e'
  rw [hf, hf']
  constructor
  · intro heq
    unfold frequency at heq
    split at heq
    · split at heq
      · omega
      · split at heq <;> omega
    · split at heq
      · split at heq
        · omega
        · split at heq <;> omega
      · split at heq
        · omega
        · split at heq <;> omega
  · rintro rfl; rfl

/-- Center frequencies lie inside of the operating band, with a distance of at least 212 kHz to its borders. -/
theorem C35_operating_band (b n : Nat) (h : InBand b n) (hb : b ≤ 17) :
    ∃ lo hi, operatingBand b = .ok (lo, hi) ∧ lo + 212000 ≤ frequency n ∧ frequency n + 236000 ≤ hi := by
  obtain ⟨r1, r2⟩ := inBand_range h
  rw [inBand_iff r1 r2] at h
  rcases band_cases r1 r2 with hb' | hb' | hb' | hb' | hb' | hb' | hb' | hb' | hb' | hb' | hb' | hb' | hb' | hb' | hb' | hb' |
      hb' | hb' | hb' <;> subst hb' <;> simp only [band] at h <;>
    first
    | (refine ⟨_, _, rfl, ?_, ?_⟩ <;> unfold frequency <;> split <;> first | omega | (split <;> omega))
    | omega

/-- Operating bands other than 1 to 17 are rejected. -/
theorem C35_operating_band_rejected (b : Nat) (h : b = 0 ∨ 17 < b) : operatingBand b = .abort := by
  have : (decide (1 ≤ b) && decide (b ≤ 17)) = false := by
    rw [Bool.and_eq_false_iff, decide_eq_false_iff_not, decide_eq_false_iff_not]
    omega
  simp only [operatingBand, this]
  rfl

/-- Finding: undefined bands are not rejected, since the condition that is asserted is always true. They are taken for
band 19. -/
theorem C35_negation_undefined_band (b : Nat) (h : b = 0 ∨ 20 ≤ b) (n : Nat) :
    band b = band 19 ∧ centerFrequency b n = centerFrequency 19 n := by
  have hb : band b = band 19 := by
    unfold band
    split <;> first | omega | rfl
  refine ⟨hb, ?_⟩
  simp only [centerFrequency, hb]
  congr 1
  funext _
  rw [if_neg (show ¬ (1 ≤ b ∧ b ≤ 12) by omega), if_neg (show ¬ (13 ≤ b ∧ b ≤ 16) by omega)]
  simp

/-- C35 without the rejection of undefined bands, which does not take place (`C35_negation_undefined_band`): channels of
the nineteen bands are accepted, and have the frequency of the standard; all others are rejected. -/
theorem C35_channels_partial (b n : Nat) (h1 : 1 ≤ b) (h2 : b ≤ 19) :
    (InBand b n → inRange n = true ∧ centerFrequency b n = .ok (reference n, spacing n, frequency n)) ∧
      (¬ InBand b n → centerFrequency b n = .abort) ∧ ((∀ b', ¬ InBand b' n) → inRange n = false) := by
  refine ⟨fun h => ⟨(C35_in_range n).2 ⟨b, h⟩, (C35_frequency b n h1 h2).1 h⟩, (C35_frequency b n h1 h2).2, fun h => ?_⟩
  rw [← Bool.not_eq_true, C35_in_range]
  rintro ⟨b', hb'⟩
  exact h b' hb'

/-- Non-vacuity: one channel of each raster -/
theorem C35_example : InBand 1 1657 ∧ centerFrequency 1 1657 = .ok (450144000, 864000, 1881792000) ∧
    InBand 14 3200 ∧ centerFrequency 14 3200 = .ok (3000596000, 1728000, 3429140000) ∧
    InBand 17 4392 ∧ centerFrequency 17 4392 = .ok (5150000000, 2000000, 5726000000) ∧
    inRange 1679 = false ∧ centerFrequency 1 1678 = .abort := by
  refine ⟨⟨(1, 1657, 1677), by decide, by decide⟩, by decide +kernel, ⟨(14, 3184, 3298), by decide, by decide⟩, by decide +kernel,
    ⟨(17, 4392, 4466), by decide, by decide⟩, by decide +kernel, by decide +kernel, by decide +kernel⟩

end Verif.Props.C35
