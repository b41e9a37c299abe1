import Verif.Model.AssociationResponse
import Verif.Props.C12_AssociationRequest

set_option linter.unusedSimpArgs false

/-!
# C55: association response message

The bit that tells an acceptance from a rejection is tested with `~byte >> 7`, which is never zero.
A rejection is packed and received correctly. An acceptance aborts the sender, with one exception:
an acceptance of one flow and nothing else is sent, and received as a rejection.
-/

namespace Verif.Mac
open BitByte

structure RejectOk (r : RejectInfo) : Prop where
  cause : r.cause ≤ 4
  time : r.time ≤ 8

/-- Field ranges (Table 6.4.2.5-1). A rejection has no other field; an acceptance names the flows
exactly if it says so. -/
structure ResponseOk (m : AssociationResponse) : Prop where
  reject : ∀ r, m.reject = some r → RejectOk r
  harq : m.reject = none → ∀ h, m.harq = some h → HarqOk h.1 ∧ HarqOk h.2
  accepted : m.reject = none → m.accepted = 0 ∨ m.accepted = 1 ∨ m.accepted = 7
  flows : m.reject = none → (m.accepted = 1 ↔ m.flows ≠ [])
  flowIds : m.reject = none → ∀ x ∈ m.flows, 1 ≤ x ∧ x ≤ 6
  group : m.reject = none → ∀ g, m.group = some g → g.groupId ≤ 127 ∧ g.resourceTag ≤ 127

/-- The test for a rejection succeeds for every byte. -/
theorem notShr7_true (b : Nat) (h : b < 256) : notShr7 b = true := by
  have : ∀ b < 256, notShr7 b = true := by decide +kernel
  exact this b h

/-- C55, the code does not meet the claim: whatever the bytes, the size found is the one of a
rejection. -/
theorem C55_finding_peek (p : List Nat) (hp : Bytes p) (h : 1 ≤ p.length) :
    AssociationResponse.peek p = .ok 2 := by
  match p, h with
  | b :: l, _ =>
    simp only [AssociationResponse.peek, rd_zero, Res.ok_bind, notShr7_true b (hp b (by simp)),
      if_true, Res.pure_eq]

/-- The message with this rejection and nothing else. -/
def rejectOf (r : RejectInfo) : AssociationResponse :=
  ⟨some r, none, undef32, [], none, false⟩

theorem reject_valid {m : AssociationResponse} {r : RejectInfo} (hm : m.reject = some r)
    (ht : EnumVal 5 r.cause ∧ EnumVal 9 r.time) : m.isValid = true ↔ RejectOk r := by
  simp only [AssociationResponse.isValid, hm, Bool.not_or, Bool.and_eq_true, Bool.not_not,
    enumValid_iff ht.1 (by omega : 5 ≤ 1000), enumValid_iff ht.2 (by omega : 9 ≤ 1000)]
  exact ⟨fun h => ⟨by omega, by omega⟩, fun h => ⟨by have := h.cause; omega, by
    have := h.time; omega⟩⟩

/-- C55: what the receiver does with arbitrary bytes: two bytes suffice, the first one is not looked
at; the message is a rejection if cause and time are assigned codes, otherwise the receiver
aborts. -/
theorem C55_receive (b0 b1 : Nat) (q : List Nat) (h0 : b0 < 256) (h1 : b1 < 256) :
    AssociationResponse.unpack (b0 :: b1 :: q) =
      if b1 / 16 ≤ 4 ∧ b1 % 16 ≤ 8 then .ok (rejectOf ⟨b1 / 16, b1 % 16⟩, true) else .abort := by
  have e1 : b1 >>> 4 = b1 / 16 := by bitsg
  have e2 : b1 &&& 15 = b1 % 16 := by bitsg
  simp only [AssociationResponse.unpack, rd_zero, rd_succ, Res.ok_bind, notShr7_true b0 h0, if_true,
    e1, e2, AssociationResponse.packedSize, Option.isSome_some]
  have ht : EnumVal 5 (enumFrom 5 (b1 / 16)) ∧ EnumVal 9 (enumFrom 9 (b1 % 16)) :=
    ⟨enumVal_from _ _, enumVal_from _ _⟩
  have hv := reject_valid (m := { AssociationResponse.zero with
    reject := some ⟨enumFrom 5 (b1 / 16), enumFrom 9 (b1 % 16)⟩ }) rfl ht
  by_cases hc : b1 / 16 ≤ 4 ∧ b1 % 16 ≤ 8
  · have g1 := enumFrom_of_lt (show b1 / 16 < 5 by omega)
    have g2 := enumFrom_of_lt (show b1 % 16 < 9 by omega)
    rw [g1, g2] at hv ⊢
    rw [if_pos hc, hv.2 ⟨hc.1, hc.2⟩]
    rfl
  · rw [if_neg hc]
    have : AssociationResponse.isValid { AssociationResponse.zero with
        reject := some ⟨enumFrom 5 (b1 / 16), enumFrom 9 (b1 % 16)⟩ } = false := by
      rw [← Bool.not_eq_true, hv]
      rintro ⟨k1, k2⟩
      apply hc
      simp only [enumFrom, undef32] at k1 k2
      constructor
      · split at k1 <;> omega
      · split at k2 <;> omega
    rw [this]
    rfl

/-- C55 (partial): a rejection is packed into two bytes and received as it was sent. -/
theorem C55_reject_partial (m : AssociationResponse) (r : RejectInfo) (hm : m.reject = some r)
    (h : RejectOk r) (rest : List Nat) :
    m.pack = .ok [0, r.cause * 16 + r.time] ∧ m.packedSize = .ok 2 ∧
      AssociationResponse.unpack ([0, r.cause * 16 + r.time] ++ rest) = .ok (rejectOf r, true) := by
  have k1 := h.cause
  have k2 := h.time
  have hv := (reject_valid hm ⟨Or.inl (by omega), Or.inl (by omega)⟩).2 h
  have e : u8 (u8 (r.cause <<< 4) ||| r.time) = r.cause * 16 + r.time := by bitsg; omega
  refine ⟨?_, ?_, ?_⟩
  · simp only [AssociationResponse.pack, hv, Res.assert_true, Res.ok_bind, hm, e]
    rw [C55_finding_peek _ (by intro b hb; simp at hb; omega) (by simp)]
    rfl
  · simp [AssociationResponse.packedSize, hv, hm]
  · simp only [List.cons_append, List.nil_append]
    rw [C55_receive _ _ _ (by omega) (by omega), if_pos (by omega),
      show (r.cause * 16 + r.time) / 16 = r.cause by omega,
      show (r.cause * 16 + r.time) % 16 = r.time by omega]

/-- The size of an acceptance. -/
def acceptSize (m : AssociationResponse) : Nat :=
  1 + m.harq.isSome.toNat * 2 + m.flows.length + m.group.isSome.toNat * 2

theorem accept_valid {m : AssociationResponse} (hm : m.reject = none) (h : ResponseOk m) :
    m.isValid = true := by
  have a1 := h.accepted hm
  have a2 := h.flows hm
  have a3 := h.flowIds hm
  have h1 : P.all m.harq (fun h => h.1.isValid && h.2.isValid) = true := by
    rw [P.all_iff]
    intro c hc
    obtain ⟨k1, k2⟩ := h.harq hm c hc
    rw [Bool.and_eq_true, HarqConfig.isValid_iff (Or.inl (by have := k1.delay; omega)),
      HarqConfig.isValid_iff (Or.inl (by have := k2.delay; omega))]
    exact ⟨k1, k2⟩
  have h2 : enumValid 8 m.accepted = true :=
    enumValid_of_lt (by rcases a1 with e | e | e <;> omega) (by omega)
  have h3 : (m.accepted == 1 && m.flows.isEmpty) = false := by
    by_cases e : m.accepted = 1
    · have := a2.1 e
      cases hf : m.flows with
      | nil => exact absurd hf this
      | cons a l => simp
    · simp [e]
  have h4 : m.flows.all (enumValidL 0 7) = true := by
    rw [List.all_eq_true]
    intro x hx
    have := a3 x hx
    exact enumValidL_of (by omega) (by omega) (by omega)
  have h5 : P.all m.group (fun g => !(decide (bitmaskLsb 7 < g.groupId) ||
      decide (bitmaskLsb 7 < g.resourceTag))) = true := by
    rw [P.all_iff]
    intro g hg
    obtain ⟨k1, k2⟩ := h.group hm g hg
    rw [show bitmaskLsb 7 = 127 by decide]
    simp; omega
  simp only [AssociationResponse.isValid, hm, h1, h2, h3, h4, h5]
  rfl

/-- The sender of an acceptance aborts, or emits two bytes of which the second one is the flow. -/
theorem accept_pack {m : AssociationResponse} (hm : m.reject = none) (h : ResponseOk m)
    (hs : m.flows.Pairwise (· < ·)) :
    m.pack = if acceptSize m = 2 then .ok [128 + 4 + m.txPower.toNat, m.flows.headD 0]
      else .abort := by
  have hv := accept_valid hm h
  have hfl := flows_length hs (h.flowIds hm)
  simp only [AssociationResponse.pack, hv, Res.assert_true, Res.ok_bind, hm]
  rw [flatMap_u8 (h.flowIds hm)]
  generalize hp0 : u8 (u8 (u8 (u8 (u8 (1 <<< 7) ||| m.harq.isSome.toNat <<< 5) |||
    (if m.accepted = 1 then m.flows.length else m.accepted) <<< 2) |||
    m.group.isSome.toNat <<< 1) ||| m.txPower.toNat) = p0
  have hb : p0 < 256 := by rw [← hp0]; exact Nat.mod_lt _ (by omega)
  have hpk : ∀ l, AssociationResponse.peek (p0 :: l) = .ok 2 := by
    intro l
    simp only [AssociationResponse.peek, rd_zero, Res.ok_bind, notShr7_true p0 hb, if_true,
      Res.pure_eq]
  simp only [List.cons_append, List.nil_append, hpk, Res.ok_bind]
  have hlen : (p0 :: (P.wr m.harq (fun h => [h.1.byte, h.2.byte]) ++ (m.flows ++
      P.wr m.group (fun g => [u8 g.groupId, u8 g.resourceTag])))).length = acceptSize m := by
    unfold acceptSize
    cases m.harq <;> cases m.group <;> simp [P.wr] <;> omega
  simp only [hlen]
  by_cases hc : acceptSize m = 2
  · rw [if_pos hc, hc]
    have h1 : m.harq = none := by
      cases hh : m.harq with
      | none => rfl
      | some c => simp [acceptSize, hh] at hc; omega
    have h2 : m.group = none := by
      cases hh : m.group with
      | none => rfl
      | some c => simp [acceptSize, hh] at hc
    have h3 : m.flows.length = 1 := by
      simp [acceptSize, h1, h2] at hc; omega
    obtain ⟨x, hx⟩ := List.length_eq_one_iff.1 h3
    have ha : m.accepted = 1 := (h.flows hm).2 (by rw [hx]; simp)
    have hp : p0 = 128 + 4 + m.txPower.toNat := by
      rw [← hp0, h1, h2, ha, if_pos rfl, h3]
      cases m.txPower <;> decide
    rw [h1, h2, hx, hp]
    rfl
  · rw [if_neg hc, decide_eq_false (fun e => hc e.symm)]
    rfl

/-- C55, the code does not meet the claim: every acceptance, with all fields in range, aborts the
sender, except one that consists of exactly one flow. -/
theorem C55_finding_sender (m : AssociationResponse) (hm : m.reject = none) (h : ResponseOk m)
    (hs : m.flows.Pairwise (· < ·))
    (hc : ¬ (m.harq = none ∧ m.group = none ∧ m.flows.length = 1)) : m.pack = .abort := by
  rw [accept_pack hm h hs, if_neg]
  intro e
  apply hc
  refine ⟨?_, ?_, ?_⟩
  · cases hh : m.harq with
    | none => rfl
    | some c => simp [acceptSize, hh] at e; omega
  · cases hh : m.group with
    | none => rfl
    | some c => simp [acceptSize, hh] at e
  · have : m.harq.isSome.toNat = 0 ∧ m.group.isSome.toNat = 0 := by
      unfold acceptSize at e; omega
    unfold acceptSize at e; omega

/-- C55, the code does not meet the claim: the acceptance of one flow is sent, and received as a
rejection because of insufficient radio capacity. The time to wait is the code of the flow. -/
theorem C55_finding_accept_as_reject (m : AssociationResponse) (hm : m.reject = none)
    (h : ResponseOk m) (flow : Nat) (hf : m.flows = [flow]) (hh : m.harq = none)
    (hg : m.group = none) (rest : List Nat) :
    ∃ l, m.pack = .ok l ∧
      AssociationResponse.unpack (l ++ rest) = .ok (rejectOf ⟨0, flow⟩, true) := by
  have hfl := h.flowIds hm flow (by rw [hf]; simp)
  have b := toNat_le m.txPower
  refine ⟨[128 + 4 + m.txPower.toNat, flow], ?_, ?_⟩
  · rw [accept_pack hm h (by rw [hf]; simp), if_pos (by simp [acceptSize, hh, hg, hf]), hf]
    rfl
  · simp only [List.cons_append, List.nil_append]
    rw [C55_receive _ _ _ (by omega) (by omega), if_pos (by omega),
      show flow / 16 = 0 by omega, show flow % 16 = flow by omega]

/-- The acceptance of flow 3. -/
def sampleAccept : AssociationResponse := ⟨none, none, 1, [3], none, true⟩

theorem sampleAccept_ok : ResponseOk sampleAccept := by
  refine ⟨?_, ?_, ?_, ?_, ?_, ?_⟩
  · rintro _ ⟨⟩
  · rintro _ _ ⟨⟩
  · intro _; decide
  · intro _; decide
  · intro _; decide
  · rintro _ _ ⟨⟩

/-- C55, negation: a valid acceptance that is received as a rejection. -/
theorem C55_negation : ∃ m l m', ResponseOk m ∧ m.reject = none ∧ m.pack = .ok l ∧
    AssociationResponse.unpack l = .ok (m', true) ∧ m'.reject = some ⟨0, 3⟩ :=
  ⟨sampleAccept, [133, 3], rejectOf ⟨0, 3⟩, sampleAccept_ok, rfl, by decide +kernel,
    by decide +kernel, rfl⟩

/-- C55: an acceptance with a HARQ configuration, all fields in range, aborts the sender. -/
theorem C55_example_abort :
    AssociationResponse.pack ⟨none, some (⟨4, 3⟩, ⟨2, 7⟩), 7, [], none, false⟩ = .abort := by
  decide +kernel

end Verif.Mac
