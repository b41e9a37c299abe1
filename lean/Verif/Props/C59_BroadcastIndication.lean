import Verif.Model.BroadcastIndication
import Verif.Props.C58_LoadInfo

set_option linter.unusedSimpArgs false

/-!
# C59: broadcast indication IE

The sender works. The receiver does not shift the field FEEDBACK: it takes an MCS feedback for a MIMO
feedback, or aborts.
-/

namespace Verif.Mac
open BitByte

/-- Value ranges of the feedback (Table 6.4.3.7-1; TS 103 636-3, Tables 6.3.4-1 to 6.3.4-5). -/
inductive FbOk : Nat → BiFeedback → Prop where
  | none (v : BiFeedback) : FbOk 0 v
  | mcs (q : Nat) : 1 ≤ q → q ≤ 12 → FbOk 1 (.mcs q)
  | two1 (i : Nat) : i ≤ 5 → FbOk 2 (.mimo 0 i)
  | two2 (i : Nat) : i ≤ 2 → FbOk 2 (.mimo 1 i)
  | four1 (i : Nat) : i ≤ 27 → FbOk 3 (.mimo 0 i)
  | four2 (i : Nat) : i ≤ 21 → FbOk 3 (.mimo 1 i)
  | four4 (i : Nat) : i ≤ 4 → FbOk 3 (.mimo 2 i)

/-- The number of octets of the identity. -/
def biIdSize (t : Nat) : Nat := if t = 0 then 2 else 4

/-- Field ranges. A random access response is addressed to a short identity. -/
structure BiOk (m : BroadcastInd) : Prop where
  kind : m.kind ≤ 1
  idType : m.idType ≤ 1
  rdId : m.rdId < 256 ^ biIdSize m.idType
  response : m.kind = 1 → m.idType = 0 ∧ m.ack ≤ 1 ∧ FbOk m.fb m.value

/-- Values the members can hold. -/
structure BiTyped (m : BroadcastInd) : Prop where
  kind : EnumVal 2 m.kind
  idType : EnumVal 2 m.idType
  rdId : m.rdId < 2 ^ 32
  ack : EnumVal 2 m.ack
  quality : ∀ q, m.value = .mcs q → EnumValL 0 13 q

theorem fbValid_iff {m : BroadcastInd} (h : ∀ q, m.value = .mcs q → EnumValL 0 13 q) :
    m.fbValid = true ↔ FbOk m.fb m.value := by
  obtain ⟨k, t, a, fb, fo, i, v⟩ := m
  simp only at h
  unfold BroadcastInd.fbValid
  simp only
  by_cases h0 : fb = 0
  · subst h0; simpa using FbOk.none v
  rw [if_neg h0]
  by_cases h1 : fb = 1
  · subst h1
    rw [if_pos rfl]
    cases v with
    | none => simp only [Bool.false_eq_true, false_iff]; rintro ⟨⟩
    | mimo n i => simp only [Bool.false_eq_true, false_iff]; rintro ⟨⟩
    | mcs q =>
      simp only [enumValidL_iff (h q rfl) (by omega : 13 ≤ 1000)]
      constructor
      · rintro ⟨x, y⟩; exact .mcs q (by omega) (by omega)
      · rintro ⟨⟩; omega
  rw [if_neg h1]
  by_cases h2 : fb = 2
  · subst h2
    rw [if_pos rfl]
    cases v with
    | none => simp only [Bool.false_eq_true, false_iff]; rintro ⟨⟩
    | mcs q => simp only [Bool.false_eq_true, false_iff]; rintro ⟨⟩
    | mimo n i =>
      simp only [Bool.or_eq_true, Bool.and_eq_true, beq_iff_eq, decide_eq_true_eq]
      constructor
      · rintro (⟨rfl, x⟩ | ⟨rfl, x⟩)
        · exact .two1 i x
        · exact .two2 i x
      · rintro ⟨⟩
        · left; exact ⟨rfl, by assumption⟩
        · right; exact ⟨rfl, by assumption⟩
  rw [if_neg h2]
  by_cases h3 : fb = 3
  · subst h3
    rw [if_pos rfl]
    cases v with
    | none => simp only [Bool.false_eq_true, false_iff]; rintro ⟨⟩
    | mcs q => simp only [Bool.false_eq_true, false_iff]; rintro ⟨⟩
    | mimo n i =>
      simp only [Bool.or_eq_true, Bool.and_eq_true, beq_iff_eq, decide_eq_true_eq]
      constructor
      · rintro ((⟨rfl, x⟩ | ⟨rfl, x⟩) | ⟨rfl, x⟩)
        · exact .four1 i x
        · exact .four2 i x
        · exact .four4 i x
      · rintro ⟨⟩
        · left; left; exact ⟨rfl, by assumption⟩
        · left; right; exact ⟨rfl, by assumption⟩
        · right; exact ⟨rfl, by assumption⟩
  rw [if_neg h3]
  simp only [Bool.false_eq_true, false_iff]
  rintro ⟨⟩ <;> omega

theorem BroadcastInd.isValid_iff {m : BroadcastInd} (h : BiTyped m) :
    m.isValid = true ↔ BiOk m := by
  have e1 := enumValid_iff h.kind (by omega : 2 ≤ 1000)
  have e2 := enumValid_iff h.idType (by omega : 2 ≤ 1000)
  have e3 := enumValid_iff h.ack (by omega : 2 ≤ 1000)
  have e4 := fbValid_iff h.quality
  have hi := h.rdId
  have eb : bitmaskLsb 16 = 65535 := by decide
  unfold isValid
  rw [eb]
  constructor
  · intro hv
    split at hv
    · cases hv
    · rename_i c0
      simp only [Bool.or_eq_true, Bool.not_eq_true', not_or, Bool.not_eq_false] at c0
      have k1 := e1.1 c0.1
      have k2 := e2.1 c0.2
      split at hv
      · cases hv
      · rename_i c1
        have hr : m.rdId < 256 ^ biIdSize m.idType := by
          unfold biIdSize
          split
          · have : ¬ 65535 < m.rdId := fun hc => c1 ⟨by assumption, hc⟩
            omega
          · omega
        split at hv
        · rename_i c2
          split at hv
          · cases hv
          · rename_i c3
            have k3 : m.idType = 0 := by
              by_contra hc; exact c3 (Or.inl hc)
            have k4 : enumValid 2 m.ack = true := by
              by_contra hc; exact c3 (Or.inr (by simpa using hc))
            have := e3.1 k4
            exact ⟨by omega, by omega, hr, fun _ => ⟨k3, by omega, e4.1 hv⟩⟩
        · rename_i c2
          exact ⟨by omega, by omega, hr, fun hc => absurd hc c2⟩
  · rintro ⟨a, b, c, d⟩
    rw [e1.2 (by omega), e2.2 (by omega), if_neg (by decide), if_neg (by
      rintro ⟨x, y⟩
      rw [x] at c
      simp [biIdSize] at c
      omega)]
    split
    · rename_i hk
      obtain ⟨x, y, z⟩ := d hk
      rw [e3.2 (by omega), if_neg (by simp [x]), e4.2 z]
    · rfl

theorem FbOk.le {fb : Nat} {v : BiFeedback} (h : FbOk fb v) : fb ≤ 3 := by
  cases h <;> omega

/-- The octets of a feedback. -/
def fbBytes (fb : Nat) : BiFeedback → List Nat
  | .none => []
  | .mcs q => if fb = 1 then [q] else []
  | .mimo n i => if fb = 2 then [n * 8 + i] else if fb = 3 then [n * 64 + i] else []

/-- The octets of the IE. -/
def biBytes (m : BroadcastInd) : List Nat :=
  (m.kind * 32 + m.idType * 16 + (if m.kind = 1 then m.ack * 8 + m.fb * 2 else 0) +
    m.follows.toNat) :: (beBytes (biIdSize m.idType) m.rdId ++
    (if m.kind = 1 then fbBytes m.fb m.value else []))

/-- The size of the IE. -/
def biSize (m : BroadcastInd) : Nat :=
  1 + biIdSize m.idType + (if m.kind = 1 ∧ m.fb ≠ 0 then 1 else 0)

theorem fbBytes_length {fb : Nat} {v : BiFeedback} (h : FbOk fb v) :
    (fbBytes fb v).length = if fb ≠ 0 then 1 else 0 := by
  cases h with
  | none v => cases v <;> simp [fbBytes]
  | _ => simp [fbBytes]

theorem biBytes_length {m : BroadcastInd} (h : BiOk m) : (biBytes m).length = biSize m := by
  simp only [biBytes, biSize, List.length_cons, List.length_append, beBytes_length]
  by_cases hk : m.kind = 1
  · rw [if_pos hk, fbBytes_length (h.response hk).2.2]
    simp only [hk, true_and]
    omega
  · simp [hk]; omega

theorem BiOk.typed {m : BroadcastInd} (h : BiOk m) (hq : ∀ q, m.value = .mcs q → EnumValL 0 13 q)
    (ha : EnumVal 2 m.ack) : BiTyped m := by
  refine ⟨Or.inl (by have := h.kind; omega), Or.inl (by have := h.idType; omega), ?_, ha, hq⟩
  have := h.rdId
  have h2 : biIdSize m.idType ≤ 4 := by unfold biIdSize; split <;> omega
  exact lt_of_lt_of_le this ((Nat.pow_le_pow_right (by omega) h2).trans (by norm_num))

set_option synthInstance.maxSize 2000 in
set_option synthInstance.maxHeartbeats 200000 in
theorem first_bits : ∀ (f : Bool), ∀ k < 2, ∀ t < 2, ∀ a < 2, ∀ c < 4,
    let x := k * 32 + t * 16 + (if k = 1 then a * 8 + c * 2 else 0) + f.toNat
    x < 256 ∧ x >>> 5 = k ∧ (x >>> 4) &&& 1 = t ∧ (x &&& 1 != 0) = f ∧
    (¬ k = 1 ∨ ((x >>> 3) &&& 1 = a ∧ x &&& 6 = c * 2)) ∧
    (if k = 1 then u8 (u8 (u8 (u8 (u8 (k <<< 5) ||| t <<< 4) ||| f.toNat) ||| a <<< 3) ||| c <<< 1)
      else u8 (u8 (u8 (k <<< 5) ||| t <<< 4) ||| f.toNat)) = x := by decide +kernel

theorem first_bits' (m : BroadcastInd) (h : BiOk m) :
    let x := m.kind * 32 + m.idType * 16 + (if m.kind = 1 then m.ack * 8 + m.fb * 2 else 0) +
      m.follows.toNat
    x < 256 ∧ x >>> 5 = m.kind ∧ (x >>> 4) &&& 1 = m.idType ∧ (x &&& 1 != 0) = m.follows ∧
    (¬ m.kind = 1 ∨ ((x >>> 3) &&& 1 = m.ack ∧ x &&& 6 = m.fb * 2)) ∧
    (if m.kind = 1 then u8 (u8 (u8 (u8 (u8 (m.kind <<< 5) ||| m.idType <<< 4) |||
      m.follows.toNat) ||| m.ack <<< 3) ||| m.fb <<< 1)
      else u8 (u8 (u8 (m.kind <<< 5) ||| m.idType <<< 4) ||| m.follows.toNat)) = x := by
  have h1 := h.kind
  have h2 := h.idType
  by_cases hk : m.kind = 1
  · obtain ⟨-, h3, h4⟩ := h.response hk
    have := h4.le
    exact first_bits m.follows m.kind (by omega) m.idType (by omega) m.ack (by omega) m.fb (by omega)
  · have := first_bits m.follows m.kind (by omega) m.idType (by omega) 0 (by omega) 0 (by omega)
    simpa [hk] using this

theorem bi_peek (m : BroadcastInd) (h : BiOk m) (rest : List Nat) :
    BroadcastInd.peek (biBytes m ++ rest) = .ok (biSize m) := by
  obtain ⟨e0, e1, e2, e3, e4, -⟩ := first_bits' m h
  have h1 := h.kind
  simp only [BroadcastInd.peek, biBytes, List.cons_append, rd_zero, Res.ok_bind]
  rw [e1, e2, if_neg (by omega)]
  simp only [Res.pure_eq, Res.ok.injEq, biSize]
  have hs : (if m.idType = 0 then 3 else 5) = 1 + biIdSize m.idType := by
    unfold biIdSize; split <;> rfl
  rw [hs]
  by_cases hk : m.kind = 1
  · rw [(e4.resolve_left (not_not.2 hk)).2]
    have : m.fb * 2 ≠ 0 ↔ m.fb ≠ 0 := by omega
    simp only [this]
  · simp [hk]

theorem packFeedback_eq (m : BroadcastInd) (h : FbOk m.fb m.value) :
    m.packFeedback = .ok (fbBytes m.fb m.value) := by
  obtain ⟨k, t, a, fb, fo, i, v⟩ := m
  simp only at h
  cases h with
  | none v => cases v <;> simp [BroadcastInd.packFeedback, fbBytes]
  | mcs q x y =>
    simp only [BroadcastInd.packFeedback, fbBytes, if_true, u8, Nat.mod_eq_of_lt
      (show q < 256 by omega)]
    rfl
  | two1 i x =>
    have : ∀ i < 6, u8 (u8 (0 <<< 3) ||| i) = 0 * 8 + i := by decide +kernel
    simp [BroadcastInd.packFeedback, fbBytes, this i (by omega)]
    simpa using this i (by omega)
  | two2 i x =>
    have : ∀ i < 3, u8 (u8 (1 <<< 3) ||| i) = 1 * 8 + i := by decide +kernel
    simpa [BroadcastInd.packFeedback, fbBytes] using this i (by omega)
  | four1 i x =>
    have : ∀ i < 28, u8 (u8 (0 <<< 6) ||| i) = 0 * 64 + i := by decide +kernel
    simpa [BroadcastInd.packFeedback, fbBytes] using this i (by omega)
  | four2 i x =>
    have : ∀ i < 22, u8 (u8 (1 <<< 6) ||| i) = 1 * 64 + i := by decide +kernel
    simpa [BroadcastInd.packFeedback, fbBytes] using this i (by omega)
  | four4 i x =>
    have : ∀ i < 5, u8 (u8 (2 <<< 6) ||| i) = 2 * 64 + i := by decide +kernel
    simpa [BroadcastInd.packFeedback, fbBytes] using this i (by omega)

/-- The fields of a paging that the receiver leaves undefined are undefined, and so is the value of
an absent feedback. -/
def BiNormal (m : BroadcastInd) : Prop :=
  (m.kind = 0 → m.ack = undef32 ∧ m.fb = undef32 ∧ m.value = .none) ∧
  (m.kind = 1 → m.fb = 0 → m.value = .none)

theorem BiOk.typed' {m : BroadcastInd} (h : BiOk m) (hn : BiNormal m) : BiTyped m := by
  have h1 := h.kind
  have hk : m.kind = 0 ∨ m.kind = 1 := by omega
  rcases hk with hk | hk
  · obtain ⟨a, b, c⟩ := hn.1 hk
    exact h.typed (by rw [c]; rintro _ ⟨⟩) (Or.inr a)
  · obtain ⟨a, b, c⟩ := h.response hk
    refine h.typed ?_ (Or.inl (by omega))
    intro q hq
    have h2 := hn.2 hk
    by_cases hfb : m.fb = 0
    · rw [h2 hfb] at hq; cases hq
    · rw [hq] at c
      generalize m.fb = fb at c hfb
      cases c with
      | none => exact absurd rfl hfb
      | mcs _ x y => exact Or.inl (by omega)

/-- C59: a broadcast indication in range is packed in the layout of the standard, and its size is
announced correctly, by the sender and by the first octet. -/
theorem C59_pack (m : BroadcastInd) (h : BiOk m) (hn : BiNormal m) :
    m.pack = .ok (biBytes m) ∧ (biBytes m).length = biSize m ∧ m.packedSize = .ok (biSize m) ∧
      ∀ rest, BroadcastInd.peek (biBytes m ++ rest) = .ok (biSize m) := by
  have hv := (BroadcastInd.isValid_iff (h.typed' hn)).2 h
  have hpk := bi_peek m h []
  rw [List.append_nil] at hpk
  have hs : (if m.idType = 0 then 2 else 4) = biIdSize m.idType := rfl
  have hs2 : (if m.idType = 0 then 3 else 5) = 1 + biIdSize m.idType := by
    unfold biIdSize; split <;> rfl
  have hle : biIdSize m.idType ≤ 4 := by unfold biIdSize; split <;> omega
  obtain ⟨-, -, -, -, -, e⟩ := first_bits' m h
  refine ⟨?_, biBytes_length h, ?_, fun rest => bi_peek m h rest⟩
  · simp only [BroadcastInd.pack, hv, Res.assert_true, Res.ok_bind, hs, l2bLower_eq _ hle, e]
    have hb : biBytes m = [m.kind * 32 + m.idType * 16 +
        (if m.kind = 1 then m.ack * 8 + m.fb * 2 else 0) + m.follows.toNat] ++
        (beBytes (biIdSize m.idType) m.rdId ++
        (if m.kind = 1 then fbBytes m.fb m.value else [])) := rfl
    by_cases hk : m.kind = 1
    · rw [if_pos hk, packFeedback_eq m (h.response hk).2.2, Res.ok_bind]
      rw [if_pos hk, if_pos hk] at hb
      rw [if_pos hk, ← hb, hpk, biBytes_length h]
      simp
    · rw [if_neg hk, Res.pure_eq, Res.ok_bind]
      rw [if_neg hk, if_neg hk] at hb
      rw [if_neg hk, ← hb, hpk, biBytes_length h]
      simp
  · simp only [BroadcastInd.packedSize, hv, Res.assert_true, Res.ok_bind, hs2]
    rfl

/-- C59: a broadcast indication with a field out of range aborts the sender. -/
theorem C59_abort (m : BroadcastInd) (ht : BiTyped m) (h : ¬ BiOk m) : m.pack = .abort := by
  have : m.isValid = false := by
    rw [← Bool.not_eq_true, BroadcastInd.isValid_iff ht]; exact h
  simp [BroadcastInd.pack, this]

/-! ## Receiving -/

theorem bi_unpack_of {p rest : List Nat} {x : BroadcastInd} {n : Nat}
    (hr : BroadcastInd.parse.run 0 p = .ok ((x, n), n, rest)) (h : BiOk x) (ht : BiTyped x)
    (hn : n = biSize x) : BroadcastInd.unpack p = .ok (x, true) := by
  have hv := (BroadcastInd.isValid_iff ht).2 h
  have hs2 : (if x.idType = 0 then 3 else 5) = 1 + biIdSize x.idType := by
    unfold biIdSize; split <;> rfl
  have hsz : x.packedSize = .ok (biSize x) := by
    simp only [BroadcastInd.packedSize, hv, Res.assert_true, Res.ok_bind, hs2]; rfl
  have hev : BroadcastInd.parse.eval p = .ok (x, n) := by unfold P.eval; rw [hr]; rfl
  simp only [BroadcastInd.unpack, hev, Res.ok_bind, hsz, hn, decide_true, Res.assert_true, hv,
    Res.pure_eq]

theorem bi_unpack_abort {p rest : List Nat} {x : BroadcastInd} {n o : Nat}
    (hr : BroadcastInd.parse.run 0 p = .ok ((x, n), o, rest)) (h : ¬ BiOk x) (ht : BiTyped x) :
    BroadcastInd.unpack p = .abort := by
  have hv : x.isValid = false := by
    rw [← Bool.not_eq_true, BroadcastInd.isValid_iff ht]; exact h
  have hev : BroadcastInd.parse.eval p = .ok (x, n) := by unfold P.eval; rw [hr]; rfl
  simp [BroadcastInd.unpack, hev, BroadcastInd.packedSize, hv]

/-- What reading the octets of a paging gives. -/
theorem bi_run_paging (m : BroadcastInd) (h : BiOk m) (hk : m.kind = 0) (rest : List Nat) :
    BroadcastInd.parse.run 0 (biBytes m ++ rest) =
      .ok (({ m with ack := undef32, fb := undef32, value := .none }, 1 + biIdSize m.idType),
        1 + biIdSize m.idType, rest) := by
  obtain ⟨e0, e1, e2, e3, -, -⟩ := first_bits' m h
  have h2 := h.idType
  have hk1 : ¬ m.kind = 1 := by omega
  have hle : biIdSize m.idType ≤ 4 := by unfold biIdSize; split <;> omega
  have rs : ∀ o l, (P.be 4 (biIdSize m.idType)).run o (beBytes (biIdSize m.idType) m.rdId ++ l) =
      .ok (m.rdId, o + biIdSize m.idType, l) := fun o l => P.run_be 4 _ _ _ _ hle h.rdId
  have hs : (if m.idType = 0 then 2 else 4) = biIdSize m.idType := rfl
  unfold biBytes
  simp only [List.cons_append, List.append_assoc]
  unfold BroadcastInd.parse
  refine P.step (P.run_byte _ _ _) ?_
  simp only [e1, e2, e3, enumFrom_of_lt (show m.kind < 2 by omega),
    enumFrom_of_lt (show m.idType < 2 by omega), hs]
  refine P.step (rs _ _) ?_
  simp only [if_neg hk1, List.nil_append]
  refine P.step (P.run_offset _ _) ?_
  rw [P.run_pure]

/-- What reading the octets of a random access response gives, up to the feedback. -/
theorem bi_run_response (m : BroadcastInd) (h : BiOk m) (hk : m.kind = 1) (rest rest' : List Nat)
    (f : Nat × BiFeedback) (k : Nat)
    (hf : ∀ b o, b &&& 6 = m.fb * 2 → (BroadcastInd.parseFeedback b).run o
      (fbBytes m.fb m.value ++ rest) = .ok (f, o + k, rest')) :
    BroadcastInd.parse.run 0 (biBytes m ++ rest) =
      .ok (({ m with fb := f.1, value := f.2 }, 1 + biIdSize m.idType + k),
        1 + biIdSize m.idType + k, rest') := by
  obtain ⟨e0, e1, e2, e3, e4, -⟩ := first_bits' m h
  have h2 := h.idType
  have hle : biIdSize m.idType ≤ 4 := by unfold biIdSize; split <;> omega
  have rs : ∀ o l, (P.be 4 (biIdSize m.idType)).run o (beBytes (biIdSize m.idType) m.rdId ++ l) =
      .ok (m.rdId, o + biIdSize m.idType, l) := fun o l => P.run_be 4 _ _ _ _ hle h.rdId
  have hs : (if m.idType = 0 then 2 else 4) = biIdSize m.idType := rfl
  obtain ⟨g1, g2⟩ := e4.resolve_left (not_not.2 hk)
  obtain ⟨i1, i2, i3⟩ := h.response hk
  unfold biBytes
  simp only [List.cons_append, List.append_assoc]
  unfold BroadcastInd.parse
  refine P.step (P.run_byte _ _ _) ?_
  simp only [e1, e2, e3, enumFrom_of_lt (show m.kind < 2 by omega),
    enumFrom_of_lt (show m.idType < 2 by omega), hs]
  refine P.step (rs _ _) ?_
  rw [if_pos hk]
  simp only [if_pos hk] at g1 g2 ⊢
  refine P.step (hf _ _ g2) (P.step (P.run_offset _ _) ?_)
  rw [P.run_pure, g1, enumFrom_of_lt (show m.ack < 2 by omega)]

theorem enumFrom_ge {u v : Nat} (h : u ≤ v) : enumFrom u v = undef32 := by
  unfold enumFrom; rw [if_neg (by omega)]

/-- C59 (partial): round trip for pagings, and for random access responses without feedback. Missing:
the feedback, see `C59_finding_mcs` and `C59_finding_mimo`. -/
theorem C59_roundtrip_partial (m : BroadcastInd) (h : BiOk m) (hn : BiNormal m)
    (hf : m.kind = 1 → m.fb = 0) (rest : List Nat) :
    ∃ l, m.pack = .ok l ∧ BroadcastInd.unpack (l ++ rest) = .ok (m, true) := by
  refine ⟨_, (C59_pack m h hn).1, ?_⟩
  have h1 := h.kind
  by_cases hk : m.kind = 1
  · have a := hf hk
    have b := hn.2 hk a
    have hr := bi_run_response m h hk rest rest (0, .none) 0 (by
      intro c o hc
      rw [a] at hc
      unfold BroadcastInd.parseFeedback
      rw [hc, a, b]
      rfl)
    have hx : ({ m with fb := (0, BiFeedback.none).1, value := (0, BiFeedback.none).2 } :
        BroadcastInd) = m := by cases m; simp_all
    rw [hx] at hr
    exact bi_unpack_of hr h (h.typed' hn) (by simp [biSize, a])
  · obtain ⟨a, b, c⟩ := hn.1 (by omega)
    have hr := bi_run_paging m h (by omega) rest
    have hx : ({ m with ack := undef32, fb := undef32, value := BiFeedback.none } :
        BroadcastInd) = m := by cases m; simp_all
    rw [hx] at hr
    exact bi_unpack_of hr h (h.typed' hn) (by simp [biSize, hk])

/-- C59, the code does not meet the claim: an MCS feedback is received as a feedback for two
antennas, as if the coded MCS were a codebook index, and some MCS abort the receiver. -/
theorem C59_finding_mcs (m : BroadcastInd) (h : BiOk m) (hk : m.kind = 1) (q : Nat)
    (hf : m.fb = 1) (hv : m.value = .mcs q) (rest : List Nat) :
    BroadcastInd.unpack (biBytes m ++ rest) =
      if q ≤ 5 then .ok ({ m with fb := 2, value := .mimo 0 q }, true)
      else if 8 ≤ q ∧ q ≤ 10 then .ok ({ m with fb := 2, value := .mimo 1 (q - 8) }, true)
      else .abort := by
  obtain ⟨i1, i2, i3⟩ := h.response hk
  rw [hf, hv] at i3
  have hq : 1 ≤ q ∧ q ≤ 12 := by cases i3; omega
  have hbit : ∀ q < 13, enumFrom 3 ((q >>> 3) &&& 1) = q / 8 ∧ q &&& 7 = q % 8 := by
    decide +kernel
  obtain ⟨b1, b2⟩ := hbit q (by omega)
  have hr := bi_run_response m h hk rest rest (2, .mimo (q / 8) (q % 8)) 1 (by
    intro b o hb
    unfold BroadcastInd.parseFeedback
    rw [hb, hf, hv]
    have : enumFrom 4 (1 * 2) = 2 := rfl
    simp only [this, fbBytes, if_true]
    refine P.step (P.run_byte _ _ _) ?_
    rw [b1, b2]; rfl)
  have hlen : 1 + biIdSize m.idType + 1 = biSize m := by simp [biSize, hk, hf]
  have ht : BiTyped { m with fb := 2, value := .mimo (q / 8) (q % 8) } :=
    ⟨Or.inl (by show m.kind ≤ 2; omega), Or.inl (by show m.idType ≤ 2; omega), by
      have := h.rdId
      rw [i1] at this
      exact lt_of_lt_of_le this (by norm_num [biIdSize]), Or.inl (by show m.ack ≤ 2; omega),
      by rintro _ ⟨⟩⟩
  have hsz : biSize m = biSize { m with fb := 2, value := .mimo (q / 8) (q % 8) } := by
    simp [biSize, hk, hf]
  have hok : ∀ n i, FbOk 2 (.mimo n i) → BiOk { m with fb := 2, value := .mimo n i } :=
    fun n i hfo => ⟨h.kind, h.idType, h.rdId, fun _ => ⟨i1, i2, hfo⟩⟩
  split
  · have d1 : q / 8 = 0 := by omega
    have d2 : q % 8 = q := by omega
    rw [d1, d2] at hr ht hsz
    exact bi_unpack_of hr (hok _ _ (.two1 q (by omega))) ht (hlen.trans hsz)
  · split
    · have d1 : q / 8 = 1 := by omega
      have d2 : q % 8 = q - 8 := by omega
      rw [d1, d2] at hr ht hsz
      exact bi_unpack_of hr (hok _ _ (.two2 _ (by omega))) ht (hlen.trans hsz)
    · refine bi_unpack_abort hr ?_ ht
      intro hc
      obtain ⟨-, -, hc⟩ := hc.response hk
      simp only at hc
      have : q = 6 ∨ q = 7 ∨ q = 11 ∨ q = 12 := by omega
      rcases this with rfl | rfl | rfl | rfl <;> (cases hc <;> omega)

/-- C59, the code does not meet the claim: every MIMO feedback aborts the receiver. -/
theorem C59_finding_mimo (m : BroadcastInd) (h : BiOk m) (hk : m.kind = 1)
    (hf : m.fb = 2 ∨ m.fb = 3) (rest : List Nat) :
    BroadcastInd.unpack (biBytes m ++ rest) = .abort := by
  obtain ⟨i1, i2, i3⟩ := h.response hk
  have hr := bi_run_response m h hk rest (fbBytes m.fb m.value ++ rest) (undef32, .none) 0 (by
    intro b o hb
    have hu : enumFrom 4 (b &&& 6) = undef32 := by
      rw [hb]
      rcases hf with hf | hf <;> rw [hf] <;> rfl
    unfold BroadcastInd.parseFeedback
    simp only [hu]
    rfl)
  refine bi_unpack_abort hr ?_ ⟨Or.inl (by show m.kind ≤ 2; omega),
    Or.inl (by show m.idType ≤ 2; omega), by
      have := h.rdId
      rw [i1] at this
      exact lt_of_lt_of_le this (by norm_num [biIdSize]), Or.inl (by show m.ack ≤ 2; omega),
      by rintro _ ⟨⟩⟩
  intro hc
  obtain ⟨-, -, hc⟩ := hc.response hk
  have := hc.le
  simp only [undef32] at this
  omega

/-- The octets read for an IE with first octet `b`. -/
def biNeed (b : Nat) : Nat :=
  1 + (if b / 16 % 2 = 0 then 2 else 4) + (if b / 32 = 1 ∧ b / 2 % 4 = 1 then 1 else 0)

/-- C59: arbitrary octets are delivered as a valid IE or abort the receiver; with a reserved
indication type they abort it. -/
theorem C59_receive (b : Nat) (q : List Nat) (hb : Bytes (b :: q))
    (hn : biNeed b ≤ (b :: q).length) :
    (BroadcastInd.unpack (b :: q) = .abort ∨
      ∃ m, BroadcastInd.unpack (b :: q) = .ok (m, true) ∧ BiOk m ∧ m.kind = b / 32) ∧
    (2 ≤ b / 32 → BroadcastInd.unpack (b :: q) = .abort) := by
  have hb0 : b < 256 := hb b (by simp)
  have hq : Bytes q := fun c hc => hb c (by simp [hc])
  have bits : ∀ x < 256, x >>> 5 = x / 32 ∧ (x >>> 4) &&& 1 = x / 16 % 2 ∧
      x &&& 6 = x / 2 % 4 * 2 := by decide +kernel
  obtain ⟨e1, e2, e3⟩ := bits b hb0
  have hidt : enumFrom 2 (b / 16 % 2) = b / 16 % 2 := enumFrom_of_lt (by omega)
  have hkind : enumFrom 2 (b / 32) = 1 ↔ b / 32 = 1 := by
    unfold enumFrom undef32; split <;> omega
  have hle : biIdSize (b / 16 % 2) ≤ 4 := by unfold biIdSize; split <;> omega
  have hneed : biNeed b = 1 + biIdSize (b / 16 % 2) +
      (if b / 32 = 1 ∧ b / 2 % 4 = 1 then 1 else 0) := rfl
  rw [hneed, List.length_cons] at hn
  have hrun : ∃ x o l', BroadcastInd.parse.run 0 (b :: q) = .ok (x, o, l') ∧
      (BiTyped x.1 ∧ x.1.kind = enumFrom 2 (b / 32) ∧
        (x.2 = biSize x.1 ∨ ¬ BiOk x.1)) := by
    unfold BroadcastInd.parse
    refine P.run_step (P.run_byte _ _ _) ?_
    refine P.WP.run (N := q.length + 1) ?_ hq (by omega)
    simp only [e1, e2, hidt]
    have hsz : (if b / 16 % 2 = 0 then 2 else 4) = biIdSize (b / 16 % 2) := rfl
    rw [hsz]
    refine .bind (.be hle (by omega) fun s hs => ?_)
    have hs32 : s < 2 ^ 32 :=
      lt_of_lt_of_le hs ((Nat.pow_le_pow_right (by omega) hle).trans (by norm_num))
    by_cases hk : b / 32 = 1
    · simp only [if_pos (hkind.2 hk)]
      unfold BroadcastInd.parseFeedback
      rw [e3]
      have hc : b / 2 % 4 = 0 ∨ b / 2 % 4 = 1 ∨ b / 2 % 4 = 2 ∨ b / 2 % 4 = 3 := by omega
      rcases hc with hc | hc | hc | hc
      · rw [hc]
        simp only [show enumFrom 4 (0 * 2) = 0 from rfl]
        refine .bind (.pure (.bind (.offset (.pure ⟨⟨enumVal_from _ _, Or.inl (by
          show b / 16 % 2 ≤ 2; omega), hs32, enumVal_from _ _, by rintro _ ⟨⟩⟩, rfl, Or.inl ?_⟩))))
        simp only [biSize, hkind.2 hk]
        simp
      · rw [hc]
        simp only [show enumFrom 4 (1 * 2) = 2 from rfl]
        rw [if_pos ⟨hk, hc⟩] at hn
        refine .bind (.bind (.byte (by omega) fun c hc => ?_))
        refine .pure (.bind (.offset (.pure ⟨⟨enumVal_from _ _, Or.inl (by
          show b / 16 % 2 ≤ 2; omega), hs32, enumVal_from _ _, by rintro _ ⟨⟩⟩, rfl, Or.inl ?_⟩)))
        simp only [biSize, hkind.2 hk]
        simp
      · rw [hc]
        simp only [show enumFrom 4 (2 * 2) = undef32 from rfl]
        refine .bind (.pure (.bind (.offset (.pure ⟨⟨enumVal_from _ _, Or.inl (by
          show b / 16 % 2 ≤ 2; omega), hs32, enumVal_from _ _, by rintro _ ⟨⟩⟩, rfl, Or.inr ?_⟩))))
        intro hok
        have := (hok.response (hkind.2 hk)).2.2.le
        simp only [undef32] at this
        omega
      · rw [hc]
        simp only [show enumFrom 4 (3 * 2) = undef32 from rfl]
        refine .bind (.pure (.bind (.offset (.pure ⟨⟨enumVal_from _ _, Or.inl (by
          show b / 16 % 2 ≤ 2; omega), hs32, enumVal_from _ _, by rintro _ ⟨⟩⟩, rfl, Or.inr ?_⟩))))
        intro hok
        have := (hok.response (hkind.2 hk)).2.2.le
        simp only [undef32] at this
        omega
    · simp only [if_neg (fun hc => hk (hkind.1 hc))]
      refine .bind (.offset (.pure ⟨⟨enumVal_from _ _, Or.inl (by
        show b / 16 % 2 ≤ 2; omega), hs32, Or.inr rfl, by rintro _ ⟨⟩⟩, rfl, Or.inl ?_⟩))
      simp only [biSize, if_neg (fun hc : _ ∧ _ => hk (hkind.1 hc.1))]
      omega
  obtain ⟨⟨x, n⟩, o, l', hr, ht, hkd, hsz⟩ := hrun
  have hev : BroadcastInd.parse.eval (b :: q) = .ok (x, n) := by unfold P.eval; rw [hr]; rfl
  by_cases hok : BiOk x
  · have hn' : n = biSize x := hsz.resolve_right (not_not.2 hok)
    have hk2 : x.kind = b / 32 ∧ b / 32 < 2 := by
      have := hok.kind
      simp only at hkd
      rw [hkd] at this ⊢
      unfold enumFrom undef32 at this ⊢
      split at this <;> rename_i hc
      · exact ⟨if_pos hc, hc⟩
      · omega
    refine ⟨Or.inr ⟨x, ?_, hok, hk2.1⟩, fun hc => absurd hk2.2 (by omega)⟩
    have hv := (BroadcastInd.isValid_iff ht).2 hok
    have hs2 : (if x.idType = 0 then 3 else 5) = 1 + biIdSize x.idType := by
      unfold biIdSize; split <;> rfl
    have hsz : x.packedSize = .ok (biSize x) := by
      simp only [BroadcastInd.packedSize, hv, Res.assert_true, Res.ok_bind, hs2]; rfl
    simp only [BroadcastInd.unpack, hev, Res.ok_bind, hsz, hn', decide_true, Res.assert_true, hv,
      Res.pure_eq]
  · have := bi_unpack_abort hr hok ht
    exact ⟨Or.inl this, fun _ => this⟩

/-- A random access response with an MCS feedback. -/
def sampleBi : BroadcastInd := ⟨1, 0, 1, 1, true, 0x1234, .mcs 4⟩

theorem sampleBi_ok : BiOk sampleBi ∧ BiNormal sampleBi :=
  ⟨⟨by decide, by decide, by decide, fun _ => ⟨rfl, by decide, .mcs 4 (by decide) (by decide)⟩⟩,
    by decide, by decide⟩

theorem C59_example :
    BroadcastInd.pack ⟨0, 1, undef32, undef32, true, 0xdeadbeef, .none⟩ =
      .ok [17, 222, 173, 190, 239] ∧
    BroadcastInd.unpack [17, 222, 173, 190, 239] =
      .ok (⟨0, 1, undef32, undef32, true, 0xdeadbeef, .none⟩, true) ∧
    sampleBi.pack = .ok [43, 18, 52, 4] := by decide +kernel

/-- C59, negation: an acknowledgement with MCS 3 (coded 4) is received as a MIMO feedback with
codebook index 4. -/
theorem C59_negation : ∃ l, sampleBi.pack = .ok l ∧
    BroadcastInd.unpack l = .ok ({ sampleBi with fb := 2, value := .mimo 0 4 }, true) :=
  ⟨[43, 18, 52, 4], by decide +kernel, by decide +kernel⟩

end Verif.Mac
