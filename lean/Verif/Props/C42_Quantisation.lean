import Verif.Lemma.Plcf
import Verif.Spec.Feedback
import Verif.Spec.TxPower

/-!
# C42: buffer status and transmit power quantisation
-/

namespace Verif.Feedback
open Verif.Spec

/-- C42: every buffer size is signalled with the code of its class. -/
theorem C42_buffer_status (n : Nat) : StatusCode (bufferStatus n) n := bufferStatus_code n

/-- C42: the class limits decoded by the receiver enclose the size that was signalled (the size is a
32-bit number; the last class is unbounded, its upper limit is the largest 32-bit number). -/
theorem C42_buffer_limits (n : Nat) (hn : n < 2 ^ 32) :
    ∃ lo hi, lowerTable[bufferStatus n]? = some lo ∧ upperTable[bufferStatus n]? = some hi ∧
      lo ≤ n ∧ n ≤ hi ∧ (n ≠ 0 → lo < n) := by
  unfold bufferStatus
  apply ite_ind (P := fun x => ∃ lo hi, lowerTable[x]? = some lo ∧ upperTable[x]? = some hi ∧
      lo ≤ n ∧ n ≤ hi ∧ (n ≠ 0 → lo < n))
  · intro h; exact ⟨_, _, rfl, rfl, by omega⟩
  intro _
  iterate 14
    apply ite_ind (P := fun x => ∃ lo hi, lowerTable[x]? = some lo ∧ upperTable[x]? = some hi ∧
      lo ≤ n ∧ n ≤ hi ∧ (n ≠ 0 → lo < n))
    · intro h; exact ⟨_, _, rfl, rfl, by omega⟩
    intro _
  exact ⟨_, _, rfl, rfl, by omega⟩

/-- C42: a larger buffer is never signalled with a smaller code. -/
theorem C42_buffer_monotone (m n : Nat) (h : m ≤ n) : bufferStatus m ≤ bufferStatus n := by
  have hm := bufferStatus_code m
  have hn := bufferStatus_code n
  generalize bufferStatus m = a at *
  generalize bufferStatus n = b at *
  by_contra hc
  have mid : 2 ^ (b + 3) ≤ 2 ^ (a + 2) := Nat.pow_le_pow_right (by omega) (by omega)
  have lo : 2 ≤ a → 2 ^ 4 ≤ 2 ^ (a + 2) := fun hx => Nat.pow_le_pow_right (by omega) (by omega)
  have hi : b ≤ 14 → 2 ^ (b + 3) ≤ 2 ^ 17 := fun hx => Nat.pow_le_pow_right (by omega) (by omega)
  unfold StatusCode at *
  omega

/-- C42, finding: the decoded size is not a fixed point. Signalling a decoded nonzero class again
gives the next smaller class, so relaying feedback drifts down. -/
theorem C42_relay_drift : ∀ c ≤ 15, bufferStatus (bufferLower c) = c - 1 := by decide

/-- C42: a CQI obtained from an MCS maps back to it; other CQI values are marked undefined. -/
theorem C42_cqi (m : Nat) : (m ≤ 11 → mcs2cqi m = .ok (m + 1) ∧ cqi2mcs (m + 1) = m) ∧
    (11 < m → mcs2cqi m = .abort ∧ cqi2mcs (m + 1) = undef32) ∧ cqi2mcs 0 = undef32 := by
  refine ⟨fun h => ⟨by simp [mcs2cqi, h], cqi2mcs_succ h⟩, fun h => ⟨?_, ?_⟩, rfl⟩
  · simp [mcs2cqi, Nat.not_le.2 h]
  · simp [cqi2mcs]; omega

end Verif.Feedback

namespace Verif.Plcf

theorem txPowerTable_spec (k : Nat) : txPowerTable[k]? = Spec.txPowerDbm k := by
  rcases Nat.lt_or_ge k 16 with h | h
  · revert k; decide
  · rw [List.getElem?_eq_none (by simpa [txPowerTable] using h)]
    unfold Spec.txPowerDbm
    split <;> first | omega | rfl

/-- C42: the transmit power code is the smallest code whose power is not below the request, and the
largest code if there is none. -/
theorem C42_tx_power (dBm : Int) :
    ∃ p, Spec.txPowerDbm (setTransmitPower dBm) = some p ∧
      (dBm ≤ 23 → dBm ≤ p ∧ ∀ j q, j < setTransmitPower dBm → Spec.txPowerDbm j = some q → q < dBm) ∧
      (23 < dBm → setTransmitPower dBm = 15 ∧ p = 23) := by
  simp only [← txPowerTable_spec]
  have hsplit : ∀ k : Nat, setTransmitPower dBm = k → k < 16 →
      lowerBound txPowerTable dBm = k ∨ lowerBound txPowerTable dBm = 16 := by
    intro k hk hlt
    unfold setTransmitPower at hk
    simp only at hk
    split at hk
    · right; assumption
    · left; exact hk
  by_cases h : dBm ≤ 23
  · have hlt : lowerBound txPowerTable dBm < txPowerTable.length := by
      apply List.findIdx_lt_length_of_exists
      exact ⟨23, by simp [txPowerTable], by simp; omega⟩
    have hs : setTransmitPower dBm = lowerBound txPowerTable dBm := by
      unfold setTransmitPower; simp only; rw [if_neg (by omega)]
    rw [hs]
    refine ⟨txPowerTable[lowerBound txPowerTable dBm], List.getElem?_eq_getElem hlt, ?_, by omega⟩
    intro _
    refine ⟨?_, ?_⟩
    · have := List.findIdx_getElem (xs := txPowerTable) (p := fun x => decide (¬ x < dBm)) (w := hlt)
      rw [decide_eq_true_eq, Int.not_lt] at this
      exact this
    · intro j q hj hq
      have hj' : j < txPowerTable.length := by omega
      have := List.not_of_lt_findIdx (xs := txPowerTable) (p := fun x => decide (¬ x < dBm)) hj
      rw [List.getElem?_eq_getElem hj'] at hq
      cases hq
      simpa using this
  · have hl : lowerBound txPowerTable dBm = txPowerTable.length := by
      apply List.findIdx_eq_length.2
      intro x hx
      simp only [txPowerTable, List.mem_cons, List.not_mem_nil, or_false] at hx
      simp; omega
    have hs : setTransmitPower dBm = 15 := by
      unfold setTransmitPower; simp only; rw [if_pos hl]; rfl
    rw [hs]
    exact ⟨23, rfl, by omega, fun _ => ⟨rfl, rfl⟩⟩

/-- C42: a larger requested power never gives a smaller code. -/
theorem C42_tx_power_monotone (a b : Int) (h : a ≤ b) : setTransmitPower a ≤ setTransmitPower b := by
  obtain ⟨p, hp, ha, ha'⟩ := C42_tx_power a
  obtain ⟨q, hq, hb, hb'⟩ := C42_tx_power b
  by_contra hc
  by_cases h23 : b ≤ 23
  · have h1 := (hb h23).1
    have h2 := (ha (by omega)).2 _ q (by omega) hq
    omega
  · have := (hb' (by omega)).1
    have hlt : setTransmitPower a < 16 := by
      rw [← txPowerTable_spec] at hp
      have := (List.getElem?_eq_some_iff.1 hp).1
      exact this
    omega

/-- C42: the number of spatial streams is coded and decoded consistently for 1, 2, 4 and 8. -/
theorem C42_nss (n : Nat) (h : n = 1 ∨ n = 2 ∨ n = 4 ∨ n = 8) :
    ∃ c, codeOfNSs n = .ok c ∧ nSsOfCode c = .ok n := by
  rcases h with rfl | rfl | rfl | rfl
  · exact ⟨0, rfl, rfl⟩
  · exact ⟨1, rfl, rfl⟩
  · exact ⟨2, rfl, rfl⟩
  · exact ⟨3, rfl, rfl⟩

/-- C42, finding: the unsupported stream counts 0, 3, 5, 6 and 7 are silently coded as one stream. -/
theorem C42_nss_unsupported (n : Nat) (h : n = 0 ∨ n = 3 ∨ n = 5 ∨ n = 6 ∨ n = 7) :
    ∃ c, codeOfNSs n = .ok c ∧ nSsOfCode c = .ok 1 := by
  rcases h with rfl | rfl | rfl | rfl | rfl <;> exact ⟨0, rfl, rfl⟩

example : setTransmitPower 5 = 9 ∧ setTransmitPower (-100) = 0 ∧ setTransmitPower 30 = 15 := by decide

end Verif.Plcf
