import Verif.Props.C02_Plcf

/-!
# C37: identities

The claim "a valid network ID yields a valid short network ID" is false for the code: the short
network ID is the low byte, and the constructor accepts network IDs whose low byte is 0.
-/

namespace Verif.Identity

/-- C37, exact characterisation (partial: the claim holds only for network IDs whose low byte is not
zero). For every accepted identity the short network ID is the low byte of the network ID, and it is
valid exactly when that byte is not zero. -/
theorem C37_short_network_id_partial (n l s : Nat) (i : Ident) (h : mk n l s = .ok i) :
    i.networkId = n ∧ i.longRdId = l ∧ i.shortRdId = s ∧ i.shortNetworkId = n % 256 ∧
      (validShortNetworkId i.shortNetworkId = true ↔ n % 256 ≠ 0) := by
  simp only [mk, Res.bind_eq_ok, Res.assert_eq_ok, Res.pure_eq, Res.ok.injEq] at h
  obtain ⟨_, _, _, _, _, _, rfl⟩ := h
  have e : fullToShort n = n % 256 := Nat.and_two_pow_sub_one_eq_mod n 8
  simp only [e, true_and]
  rw [Plcf.validShortNetworkId_iff]; omega

/-- C37: identities are rejected exactly for the reserved values. -/
theorem C37_constructor (n l s : Nat) :
    (∃ i, mk n l s = .ok i) ↔
      n ≠ 0 ∧ l ≠ 0 ∧ l ≠ 0xFFFFFFFE ∧ l ≠ 0xFFFFFFFF ∧ s ≠ 0 ∧ s ≠ 0xFFFF := by
  simp only [mk, Res.bind_eq_ok, Res.assert_eq_ok, Res.pure_eq, Res.ok.injEq]
  simp
  tauto

/-- C37, negation: the valid network ID 0x100 is accepted and yields the invalid short network ID
0; every PLCF of that device then aborts when it is packed. -/
theorem C37_negation :
    validNetworkId 0x100 = true ∧
    ∃ i, mk 0x100 1 1 = .ok i ∧ validShortNetworkId i.shortNetworkId = false ∧
      ∀ f : Plcf.P10, f.shortNetworkId = i.shortNetworkId → f.pack = .abort := by
  refine ⟨by decide, ⟨0x100, 0, 1, 1⟩, by decide, by decide, fun f hf => ?_⟩
  apply Plcf.C02_p10_abort
  intro hok
  have := hok.2.1
  rw [hf] at this
  simp at this

/-- C37, second finding: a short radio device ID above 16 bits is accepted although it is invalid. -/
theorem C37_short_rd_id_negation :
    ∃ i, mk 1 1 0x10000 = .ok i ∧ validShortRdId i.shortRdId = false :=
  ⟨⟨1, 1, 1, 0x10000⟩, by decide, by decide⟩

example : mk 0x12345678 77 99 = .ok ⟨0x12345678, 0x78, 77, 99⟩ := by decide

end Verif.Identity
