import Verif.Lemma.MacHeader

set_option linter.unusedSimpArgs false

/-!
# C03: MAC header type and MAC common headers round trip

The claim holds for the header type octet (except the escape type, which a sender may pack but every
receiver refuses) and for data, unicast, RD broadcasting and empty common headers. It is false for
the beacon header: the low byte of the network ID is lost.
-/

namespace Verif.Mac
open BitByte Identity Feedback

/-- C03, header type octet: one byte with version, security, type; recovered for every type except
the escape type. -/
theorem C03_header_type_roundtrip (s : Nat) (t : HType) (hs : s ≤ 3) (ht : t ≠ .escape) :
    ∃ b, HeaderType.pack ⟨some 0, some s, some t⟩ = .ok [b] ∧ b < 256 ∧ b = s * 16 + t.val ∧
      ∀ rest, HeaderType.unpack (b :: rest) = .ok (⟨some 0, some s, some t⟩, true) := by
  have htv : t.val ≤ 4 := by cases t <;> simp_all [HType.val]
  have hto : HType.of t.val = some t := by cases t <;> simp_all [HType.val, HType.of]
  refine ⟨s * 16 + t.val, ?_, by omega, rfl, ?_⟩
  · simp only [HeaderType.pack, Nat.zero_shiftLeft]
    bits
    simp; omega
  · intro rest
    have e1 : (s * 16 + t.val) >>> 6 &&& 3 = 0 := by bits; omega
    have e2 : (s * 16 + t.val) >>> 4 &&& 3 = s := by bits; omega
    have e3 : (s * 16 + t.val) &&& 15 = t.val := by bits; omega
    simp [HeaderType.unpack, e1, e2, e3, hto, hs, HeaderType.isValid]

/-- C03: an undefined member aborts. -/
theorem C03_header_type_abort (h : HeaderType)
    (hn : h.version = none ∨ h.security = none ∨ h.type = none) : h.pack = .abort := by
  obtain ⟨v, s, t⟩ := h
  simp only at hn
  rcases hn with rfl | rfl | rfl
  · rfl
  · cases v <;> rfl
  · cases v <;> cases s <;> rfl

/-- C03: every received octet is either refused, or has version 0 and a known type other than
escape, and repacks to itself. -/
theorem C03_header_type_sound (b : Nat) (rest : List Nat) (hb : b < 256) (h : HeaderType)
    (hu : HeaderType.unpack (b :: rest) = .ok (h, true)) :
    h.version = some 0 ∧ (∃ s ≤ 3, h.security = some s) ∧
      (∃ t, t ≠ .escape ∧ h.type = some t) ∧ h.pack = .ok [b] := by
  simp only [HeaderType.unpack, rd_zero, Res.ok_bind, Res.pure_eq, Res.ok.injEq,
    Prod.mk.injEq] at hu
  obtain ⟨rfl, hv⟩ := hu
  simp only [HeaderType.isValid, Bool.and_eq_true] at hv
  have e1 : b >>> 6 &&& 3 = b / 64 := by bits; omega
  have e2 : b >>> 4 &&& 3 = b / 16 % 4 := by bits
  have e3 : b &&& 15 = b % 16 := by bits
  rw [e1, e2, e3] at hv
  simp only [e1, e2, e3]
  have h0 : b / 64 = 0 := by
    by_contra hc; simp [hc] at hv
  have hs3 : b / 16 % 4 ≤ 3 := by omega
  have h4 : b % 16 ≤ 4 := by
    by_contra hc
    have : HType.of (b % 16) = none := by
      generalize b % 16 = x at hc
      unfold HType.of; split <;> first | omega | rfl
    simp [this] at hv
  have hcase : ∃ t, t ≠ .escape ∧ HType.of (b % 16) = some t ∧ t.val = b % 16 := by
    generalize b % 16 = x at h4
    have : x = 0 ∨ x = 1 ∨ x = 2 ∨ x = 3 ∨ x = 4 := by omega
    rcases this with rfl | rfl | rfl | rfl | rfl
    exacts [⟨.data, by decide, rfl, rfl⟩, ⟨.beacon, by decide, rfl, rfl⟩,
      ⟨.unicast, by decide, rfl, rfl⟩, ⟨.rdBroadcasting, by decide, rfl, rfl⟩,
      ⟨.empty, by decide, rfl, rfl⟩]
  obtain ⟨t, hte, hto, htv⟩ := hcase
  refine ⟨by simp [h0], ⟨_, hs3, by simp [hs3]⟩, ⟨t, hte, hto⟩, ?_⟩
  simp only [h0, hs3, hto, if_true, HeaderType.pack, Nat.zero_shiftLeft, htv]
  clear hv
  bits
  simp; omega

/-- C03, finding: the escape type is packed but never accepted by a receiver. -/
theorem C03_escape_refused (s : Nat) (hs : s ≤ 3) :
    ∃ b, HeaderType.pack ⟨some 0, some s, some .escape⟩ = .ok [b] ∧
      ∀ rest, ∃ h, HeaderType.unpack (b :: rest) = .ok (h, false) := by
  refine ⟨s * 16 + 15, ?_, ?_⟩
  · simp only [HeaderType.pack, Nat.zero_shiftLeft, HType.val]
    bits
    simp; omega
  · intro rest
    have e3 : (s * 16 + 15) &&& 15 = 15 := by bits; omega
    simp only [HeaderType.unpack, rd_zero, Res.ok_bind, e3, Res.pure_eq, HType.of,
      HeaderType.isValid]
    exact ⟨_, by simp; rfl⟩

/-- Field ranges of a common header. Addresses are nonzero 32-bit numbers. -/
def MchOk : Mch → Prop
  | .data r z s => r = 0 ∧ z ≤ 1 ∧ s ≤ 4095
  | .beacon n t => n < 2 ^ 24 ∧ t ≠ 0 ∧ t < 2 ^ 32
  | .unicast r z s rx tx =>
    (r = 0 ∧ z ≤ 1 ∧ s ≤ 4095) ∧ (rx ≠ 0 ∧ rx < 2 ^ 32) ∧ tx ≠ 0 ∧ tx < 2 ^ 32
  | .rdBroadcasting r z s tx => (r = 0 ∧ z ≤ 1 ∧ s ≤ 4095) ∧ tx ≠ 0 ∧ tx < 2 ^ 32
  | .empty => True

/-- What is recovered: the header itself, but for beacons the network ID without its low byte. -/
def mchRecovered : Mch → Mch
  | .beacon n t => .beacon (n - n % 256) t
  | m => m

/-- C03, common headers (partial because of the beacon header): the packed size is the announced
one, and unpacking recovers the header, except that a beacon loses the low byte of the network ID. -/
theorem C03_mch_roundtrip_partial (m : Mch) (h : MchOk m) :
    ∃ l, m.pack = .ok l ∧ l.length = m.htype.mchSize ∧ Bytes l ∧
      ∀ rest, Mch.unpack m.htype (l ++ rest) = .ok (mchRecovered m, true) := by
  cases m with
  | data r z s =>
    simp only [MchOk] at h
    refine ⟨[z * 16 + s / 256, s % 256], ?_, rfl, ?_, ?_⟩
    · simp [Mch.pack, Mch.isValid, (validSn_iff r z s).2 h, packSn_eq r z s h]
    · simp only [Bytes, List.mem_cons, List.not_mem_nil, or_false]
      rintro b (rfl | rfl) <;> omega
    · intro rest
      have e1 : (z * 16 + s / 256) >>> 5 &&& 7 = r := by bits; omega
      have e2 : (z * 16 + s / 256) >>> 4 &&& 1 = z := by bits; omega
      simp only [Mch.unpack, Mch.htype, List.cons_append, List.nil_append, rd_zero, rd_succ,
        Res.ok_bind, Res.pure_eq, mchRecovered, e1, e2, unpackSn_eq z s h.2.1 h.2.2, Mch.isValid,
        (validSn_iff r z s).2 h]
  | beacon n t =>
    simp only [MchOk] at h
    have hv : (Mch.beacon n t).isValid = true := by
      simp [Mch.isValid, mask24, validLongRdId_iff, h.2.1]; omega
    refine ⟨[0, n / 65536, n / 256 % 256, t / 256 / 256 / 256 % 256, t / 256 / 256 % 256,
      t / 256 % 256, t % 256], ?_, rfl, ?_, ?_⟩
    · simp [Mch.pack, hv, l2bUpper3, l2bLower4]; omega
    · simp only [Bytes, List.mem_cons, List.not_mem_nil, or_false]
      rintro b (rfl | rfl | rfl | rfl | rfl | rfl | rfl) <;> omega
    · intro rest
      simp only [Mch.unpack, Mch.htype, List.cons_append, List.nil_append, b2lUpper3, Res.ok_bind,
        List.drop_succ_cons, List.drop_zero, b2lLower4, Res.pure_eq, mchRecovered]
      have e1 : ((0 * 256 + n / 65536) * 256 + n / 256 % 256) * 256 = n - n % 256 := by omega
      have e2 : ((t / 256 / 256 / 256 % 256 * 256 + t / 256 / 256 % 256) * 256 + t / 256 % 256) * 256
        + t % 256 = t := word4 h.2.2
      rw [e1, e2]
      have hv' : (Mch.beacon (n - n % 256) t).isValid = true := by
        simp [Mch.isValid, mask24, validLongRdId_iff, h.2.1]; omega
      rw [hv']
  | unicast r z s rx tx =>
    simp only [MchOk] at h
    obtain ⟨h, ⟨hr, hr'⟩, ht, ht'⟩ := h
    have hv : (Mch.unicast r z s rx tx).isValid = true := by
      simp [Mch.isValid, (validSn_iff r z s).2 h, validLongRdId_iff, hr, ht]
    refine ⟨[z * 16 + s / 256, s % 256, rx / 256 / 256 / 256 % 256, rx / 256 / 256 % 256,
      rx / 256 % 256, rx % 256, tx / 256 / 256 / 256 % 256, tx / 256 / 256 % 256,
      tx / 256 % 256, tx % 256], ?_, rfl, ?_, ?_⟩
    · simp [Mch.pack, hv, packSn_eq r z s h, l2bLower4]
    · simp only [Bytes, List.mem_cons, List.not_mem_nil, or_false]
      rintro b (rfl | rfl | rfl | rfl | rfl | rfl | rfl | rfl | rfl | rfl) <;> omega
    · intro rest
      simp only [Mch.unpack, Mch.htype, List.cons_append, List.nil_append, rd_zero, rd_succ,
        Res.ok_bind, List.drop_succ_cons, List.drop_zero, b2lLower4, Res.pure_eq, mchRecovered]
      have e1 : (z * 16 + s / 256) >>> 5 &&& 7 = r := by bits; omega
      have e2 : (z * 16 + s / 256) >>> 4 &&& 1 = z := by bits; omega
      have e3 : ((rx / 256 / 256 / 256 % 256 * 256 + rx / 256 / 256 % 256) * 256 + rx / 256 % 256)
        * 256 + rx % 256 = rx := word4 hr'
      have e4 : ((tx / 256 / 256 / 256 % 256 * 256 + tx / 256 / 256 % 256) * 256 + tx / 256 % 256)
        * 256 + tx % 256 = tx := word4 ht'
      rw [e1, e2, e3, e4, unpackSn_eq z s h.2.1 h.2.2, hv]
  | rdBroadcasting r z s tx =>
    simp only [MchOk] at h
    obtain ⟨h, ht, ht'⟩ := h
    have hv : (Mch.rdBroadcasting r z s tx).isValid = true := by
      simp [Mch.isValid, (validSn_iff r z s).2 h, validLongRdId_iff, ht]
    refine ⟨[z * 16 + s / 256, s % 256, tx / 256 / 256 / 256 % 256, tx / 256 / 256 % 256,
      tx / 256 % 256, tx % 256], ?_, rfl, ?_, ?_⟩
    · simp [Mch.pack, hv, packSn_eq r z s h, l2bLower4]
    · simp only [Bytes, List.mem_cons, List.not_mem_nil, or_false]
      rintro b (rfl | rfl | rfl | rfl | rfl | rfl) <;> omega
    · intro rest
      simp only [Mch.unpack, Mch.htype, List.cons_append, List.nil_append, rd_zero, rd_succ,
        Res.ok_bind, List.drop_succ_cons, List.drop_zero, b2lLower4, Res.pure_eq, mchRecovered]
      have e1 : (z * 16 + s / 256) >>> 5 &&& 7 = r := by bits; omega
      have e2 : (z * 16 + s / 256) >>> 4 &&& 1 = z := by bits; omega
      have e4 : ((tx / 256 / 256 / 256 % 256 * 256 + tx / 256 / 256 % 256) * 256 + tx / 256 % 256)
        * 256 + tx % 256 = tx := word4 ht'
      rw [e1, e2, e4, unpackSn_eq z s h.2.1 h.2.2, hv]
  | empty => exact ⟨[], rfl, rfl, by simp [Bytes], fun rest => rfl⟩

/-- C03: fields out of range abort (addresses and IDs are 32-bit variables). -/
theorem C03_mch_abort (m : Mch) (h : ¬ MchOk m)
    (h32 : match m with
      | .data .. => True | .beacon n t => n < 2 ^ 32 ∧ t < 2 ^ 32
      | .unicast _ _ _ rx tx => rx < 2 ^ 32 ∧ tx < 2 ^ 32
      | .rdBroadcasting _ _ _ tx => tx < 2 ^ 32 | .empty => True) : m.pack = .abort := by
  have : m.isValid = false := by
    rw [← Bool.not_eq_true]
    intro hv
    apply h
    cases m <;>
      simp only [Mch.isValid, Bool.and_eq_true, validSn_iff, validLongRdId_iff, mask24] at hv <;>
      simp at hv h32 <;> simp only [MchOk] <;> omega
  simp [Mch.pack, this]

/-- C03, negation: the beacon header of network ID 0x345678 decodes to 0x345600. -/
theorem C03_beacon_negation :
    ∃ m l, MchOk m ∧ m.pack = .ok l ∧ ∃ m', Mch.unpack m.htype l = .ok (m', true) ∧ m' ≠ m := by
  refine ⟨.beacon 0x345678 1, [0, 0x34, 0x56, 0, 0, 0, 1], by simp [MchOk], by decide,
    .beacon 0x345600 1, by decide, by decide⟩

/-- C03, negation, general form: two beacons whose network IDs differ only in the low byte are sent
as the same bytes. -/
theorem C03_beacon_collision (n n' t : Nat) (h : n / 256 = n' / 256) (hn : n < 2 ^ 24)
    (hn' : n' < 2 ^ 24) : (Mch.beacon n t).pack = (Mch.beacon n' t).pack := by
  have hv : (Mch.beacon n t).isValid = (Mch.beacon n' t).isValid := by
    simp only [Mch.isValid, mask24]
    rw [decide_eq_false (by omega : ¬ 16777215 < n), decide_eq_false (by omega : ¬ 16777215 < n')]
  simp only [Mch.pack, hv, l2bUpper3, h]

/-- C03: in a receiver, only complete common headers are read: with at least the announced number of
bytes unpacking is defined. -/
theorem C03_mch_total (t : HType) (p : List Nat) (ht : t ≠ .escape) (hp : t.mchSize ≤ p.length) :
    ∃ m b, Mch.unpack t p = .ok (m, b) ∧ m.htype = t := by
  cases t with
  | data =>
    match p, hp with
    | a :: b :: l, _ => exact ⟨_, _, rfl, rfl⟩
  | beacon =>
    match p, hp with
    | a :: b :: c :: d :: e :: f :: g :: l, _ =>
      simp only [Mch.unpack, b2lUpper3, List.drop_succ_cons, List.drop_zero, b2lLower4,
        Res.ok_bind, Res.pure_eq]
      exact ⟨_, _, rfl, rfl⟩
  | unicast =>
    match p, hp with
    | a :: b :: c :: d :: e :: f :: g :: h :: i :: j :: l, _ =>
      simp only [Mch.unpack, rd_zero, rd_succ, List.drop_succ_cons, List.drop_zero, b2lLower4,
        Res.ok_bind, Res.pure_eq]
      exact ⟨_, _, rfl, rfl⟩
  | rdBroadcasting =>
    match p, hp with
    | a :: b :: c :: d :: e :: f :: l, _ =>
      simp only [Mch.unpack, rd_zero, rd_succ, List.drop_succ_cons, List.drop_zero, b2lLower4,
        Res.ok_bind, Res.pure_eq]
      exact ⟨_, _, rfl, rfl⟩
  | empty => exact ⟨_, _, rfl, rfl⟩
  | escape => exact absurd rfl ht

/-- C03: a common header accepted by a receiver has its fields in range. -/
theorem C03_mch_sound (t : HType) (p : List Nat) (hp : Bytes p) (m : Mch)
    (hu : Mch.unpack t p = .ok (m, true)) : m.htype = t ∧ MchOk m := by
  have key : ∀ (q : List Nat) (x : Nat), Bytes q → b2lLower 4 q 4 = .ok x → x < 2 ^ 32 := by
    intro q x hq hx
    match q, hq, hx with
    | [], _, hx | [_], _, hx | [_, _], _, hx | [_, _, _], _, hx => simp [b2lLower, rd] at hx
    | a :: b :: c :: d :: l, hq, hx =>
      rw [b2lLower4] at hx
      simp only [Res.ok.injEq] at hx
      have h1 := hq a (by simp); have h2 := hq b (by simp)
      have h3 := hq c (by simp); have h4 := hq d (by simp)
      omega
  have hdrop : ∀ n, Bytes (p.drop n) := fun n b hb => hp b (List.mem_of_mem_drop hb)
  cases t with
  | data =>
    simp only [Mch.unpack, Res.bind_eq_ok, Res.pure_eq, Res.ok.injEq, Prod.mk.injEq] at hu
    obtain ⟨p0, -, p1, -, rfl, hv⟩ := hu
    simp only [Mch.isValid, validSn_iff] at hv
    exact ⟨rfl, hv⟩
  | beacon =>
    simp only [Mch.unpack, Res.bind_eq_ok, Res.pure_eq, Res.ok.injEq, Prod.mk.injEq] at hu
    obtain ⟨n, -, t, ht, rfl, hv⟩ := hu
    simp only [Mch.isValid, Bool.and_eq_true, validLongRdId_iff, mask24] at hv
    refine ⟨rfl, ?_, hv.2, key _ _ (hdrop 3) ht⟩
    have := hv.1
    simp at this; omega
  | unicast =>
    simp only [Mch.unpack, Res.bind_eq_ok, Res.pure_eq, Res.ok.injEq, Prod.mk.injEq] at hu
    obtain ⟨p0, -, p1, -, rx, hrx, tx, htx, rfl, hv⟩ := hu
    simp only [Mch.isValid, Bool.and_eq_true, validLongRdId_iff, validSn_iff] at hv
    exact ⟨rfl, hv.1.1, ⟨hv.2, key _ _ (hdrop 2) hrx⟩, hv.1.2, key _ _ (hdrop 6) htx⟩
  | rdBroadcasting =>
    simp only [Mch.unpack, Res.bind_eq_ok, Res.pure_eq, Res.ok.injEq, Prod.mk.injEq] at hu
    obtain ⟨p0, -, p1, -, tx, htx, rfl, hv⟩ := hu
    simp only [Mch.isValid, Bool.and_eq_true, validLongRdId_iff, validSn_iff] at hv
    exact ⟨rfl, hv.1, hv.2, key _ _ (hdrop 2) htx⟩
  | empty =>
    simp only [Mch.unpack, Res.pure_eq, Res.ok.injEq, Prod.mk.injEq] at hu
    obtain ⟨rfl, -⟩ := hu
    exact ⟨rfl, trivial⟩
  | escape => simp [Mch.unpack] at hu

example : MchOk (.unicast 0 1 0xABC 0xFFFFFFFF 0x01020304) := by simp [MchOk]
example : (Mch.unicast 0 1 0xABC 0xFFFFFFFF 0x01020304).pack =
  .ok [0x1A, 0xBC, 0xFF, 0xFF, 0xFF, 0xFF, 1, 2, 3, 4] := by decide
example : ¬ MchOk (.data 0 2 0) := by simp [MchOk]

end Verif.Mac
