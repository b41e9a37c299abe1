import Verif.Lemma.Plcf
import Verif.Props.C01_Feedback

set_option linter.unusedSimpArgs false

/-!
# C02: physical layer control field (PLCF) round trip
-/

namespace Verif.Plcf
open Identity Feedback BitByte

/-- Fields of the first octet in range, for header format `hf`. -/
def BaseOk (hf : Nat) (b : Base) : Prop := b.hf = hf ∧ b.plt ≤ 1 ∧ b.plm1 ≤ 15

/-- Field ranges of a PLCF type 1, header format 0. -/
def Ok10 (f : P10) : Prop :=
  BaseOk 0 f.base ∧ (1 ≤ f.shortNetworkId ∧ f.shortNetworkId ≤ 255) ∧
  (1 ≤ f.transmitterId ∧ f.transmitterId ≤ 65535) ∧ f.power ≤ 15 ∧ f.reserved = 0 ∧ f.mcs ≤ 7

/-- Field ranges of a PLCF type 2, header format 0, without the feedback info. -/
def Hdr20 (f : P20) : Prop :=
  BaseOk 0 f.base ∧ (1 ≤ f.shortNetworkId ∧ f.shortNetworkId ≤ 255) ∧
  (1 ≤ f.transmitterId ∧ f.transmitterId ≤ 65535) ∧ f.power ≤ 15 ∧ f.mcs ≤ 11 ∧
  (1 ≤ f.receiverId ∧ f.receiverId ≤ 65535) ∧ f.nss ≤ 3 ∧ f.rv ≤ 3 ∧ f.ndi ≤ 1 ∧ f.harq ≤ 7

/-- Field ranges of a PLCF type 2, header format 0. The feedback format number is at most 6. -/
def Ok20 (f : P20) : Prop := Hdr20 f ∧ InRange f.pool f.fmt

/-- Field ranges of a PLCF type 2, header format 1, without the feedback info. -/
def Hdr21 (f : P21) : Prop :=
  BaseOk 1 f.base ∧ (1 ≤ f.shortNetworkId ∧ f.shortNetworkId ≤ 255) ∧
  (1 ≤ f.transmitterId ∧ f.transmitterId ≤ 65535) ∧ f.power ≤ 15 ∧ f.mcs ≤ 11 ∧
  (1 ≤ f.receiverId ∧ f.receiverId ≤ 65535) ∧ f.nss ≤ 3 ∧ f.reserved = 0

def Ok21 (f : P21) : Prop := Hdr21 f ∧ InRange f.pool f.fmt

theorem inRange_le {p : Pool} {fmt : Nat} (h : InRange p fmt) : fmt ≤ 6 := by
  unfold InRange at h; split at h <;> first | omega | exact h.elim

theorem P10.isValid_iff (f : P10) (hb : f.base.plt ≤ 1 ∧ f.base.plm1 ≤ 15) :
    f.isValid = true ↔ Ok10 f := by
  simp only [P10.isValid, Bool.and_eq_true, validShortNetworkId_iff, validShortRdId_iff, Ok10,
    BaseOk, mask4, mask3]
  simp; omega

theorem P20.isValid_iff (f : P20) (hb : f.base.plt ≤ 1 ∧ f.base.plm1 ≤ 15) :
    f.isValid = true ↔ Hdr20 f ∧ f.fmt ≤ 15 := by
  simp only [P20.isValid, Bool.and_eq_true, validShortNetworkId_iff, validShortRdId_iff, Hdr20,
    BaseOk, mask4, mask3, mask2]
  simp; omega

theorem P21.isValid_iff (f : P21) (hb : f.base.plt ≤ 1 ∧ f.base.plm1 ≤ 15) :
    f.isValid = true ↔ Hdr21 f ∧ f.fmt ≤ 15 := by
  simp only [P21.isValid, Bool.and_eq_true, validShortNetworkId_iff, validShortRdId_iff, Hdr21,
    BaseOk, mask4, mask3, mask2]
  simp; omega

/-- C02, type 1 header format 0: packing gives 5 bytes, the top three bits of the first are the
header format, and unpacking (whatever the receiver's object held and whatever follows in memory)
gives back all fields. -/
theorem C02_p10_roundtrip (f : P10) (h : Ok10 f) :
    ∃ l, f.pack = .ok l ∧ l.length = 5 ∧ Bytes l ∧ l.head? = some (f.base.plt * 16 + f.base.plm1) ∧
      ∀ old rest, P10.unpack old (l ++ rest) = .ok (f, true) := by
  have hb : f.base.plt ≤ 1 ∧ f.base.plm1 ≤ 15 := h.1.2
  have hv := (P10.isValid_iff f hb).2 h
  have hbv : f.base.hf ≤ 1 ∧ f.base.plt ≤ 1 ∧ f.base.plm1 ≤ 15 := ⟨by rw [h.1.1]; omega, hb⟩
  have hp := Base.pack_eq f.base hbv
  have hu := Base.unpack_eq f.base hbv
  obtain ⟨⟨h0, _⟩, h1, h2, h3, h4, h5⟩ := h
  refine ⟨[f.base.hf * 32 + f.base.plt * 16 + f.base.plm1, f.shortNetworkId,
    f.transmitterId / 256, f.transmitterId % 256, f.power * 16 + f.mcs], ?_, rfl, ?_, ?_, ?_⟩
  · simp only [P10.pack, hp, hv, l2bLower2, Res.ok_bind, Res.assert_true, Res.pure_eq, h4]
    bits
    simp; omega
  · simp only [Bytes, List.mem_cons, List.not_mem_nil, or_false]
    rintro b (rfl | rfl | rfl | rfl | rfl) <;> omega
  · simp [h0]
  · intro old rest
    simp only [P10.unpack, List.cons_append, List.nil_append, rd_zero, Res.ok_bind, hu, rd_succ,
      List.drop_succ_cons, List.drop_zero, b2lLower2, Bool.not_true, Bool.false_eq_true, if_false,
      Res.pure_eq]
    have e : (⟨f.base, f.shortNetworkId, f.transmitterId / 256 * 256 + f.transmitterId % 256,
      ((f.power * 16 + f.mcs) >>> 4) &&& 15, ((f.power * 16 + f.mcs) >>> 3) &&& 1,
      (f.power * 16 + f.mcs) &&& 7⟩ : P10) = f := by
      obtain ⟨b, s, t, p, r, m⟩ := f
      simp only [P10.mk.injEq] at *
      bits
      exact ⟨trivial, trivial, by omega, by omega, by omega, by omega⟩
    rw [e, hv]

/-- C02: out of range type 1 fields abort. -/
theorem C02_p10_abort (f : P10) (h : ¬ Ok10 f) : f.pack = .abort := by
  by_cases hb : f.base.hf ≤ 1 ∧ f.base.plt ≤ 1 ∧ f.base.plm1 ≤ 15
  · have : f.isValid = false := by
      rw [← Bool.not_eq_true, P10.isValid_iff f hb.2]; exact h
    simp [P10.pack, Base.pack_eq _ hb, this]
  · simp [P10.pack, Base.pack_abort _ hb]

/-- C02: if unpacking type 1 succeeds, the fields are in range, and packing them again gives the
received five bytes. -/
theorem C02_p10_sound (old f : P10) (p : List Nat) (hp : Bytes p)
    (h : P10.unpack old p = .ok (f, true)) :
    Ok10 f ∧ f.pack = .ok (p.take 5) := by
  match p, hp, h with
  | [], _, h => simp [P10.unpack, rd] at h
  | [a], _, h =>
    simp only [P10.unpack, rd_zero, Res.ok_bind] at h
    split at h <;> simp [rd] at h
  | [a, b], _, h =>
    simp only [P10.unpack, rd_zero, Res.ok_bind] at h
    split at h <;> simp [rd] at h
  | [a, b, c], _, h =>
    simp only [P10.unpack, rd_zero, Res.ok_bind] at h
    split at h <;> simp [rd] at h
  | [a, b, c, d], _, h =>
    simp only [P10.unpack, rd_zero, Res.ok_bind] at h
    split at h <;> simp [rd] at h
  | a :: b :: c :: d :: e :: l, hp, h =>
    have ha : a < 256 := hp a (by simp)
    have hb : b < 256 := hp b (by simp)
    have hc : c < 256 := hp c (by simp)
    have hd : d < 256 := hp d (by simp)
    have he : e < 256 := hp e (by simp)
    simp only [P10.unpack, rd_zero, Res.ok_bind, rd_succ, List.drop_succ_cons, List.drop_zero,
      b2lLower2, Res.pure_eq] at h
    split at h
    · simp at h
    · rename_i hbv
      simp only [Base.unpack, Bool.not_eq_true', Bool.not_eq_false] at hbv
      simp only [Res.ok.injEq, Prod.mk.injEq] at h
      obtain ⟨rfl, hv⟩ := h
      have hbv' := (Base.isValid_iff _).1 hbv
      have hok := (P10.isValid_iff _ hbv'.2).1 hv
      refine ⟨hok, ?_⟩
      simp only [P10.pack, Base.unpack, Base.pack_eq _ hbv', l2bLower2, Res.ok_bind,
        Res.pure_eq]
      obtain ⟨⟨h0, _⟩, h1, h2, h3, h4, h5⟩ := hok
      simp only [Base.unpack] at *
      bits
      simp only [hv, Res.assert_true, Res.ok_bind]
      show _ = Res.ok [a, b, c, d, e]
      simp only [List.cons_append, List.nil_append,
        Res.ok.injEq, List.cons.injEq, and_true]
      refine ⟨by omega, by omega, by omega, by omega, by omega⟩

/-- What the receiver of a PLCF with feedback must hold: all header fields, and the feedback info of
the announced format (buffer size up to its class); other formats in the receiver's pool stay. -/
def Got20 (f old r : P20) : Prop :=
  ∃ q, Received f.pool old.pool q f.fmt ∧ r = { f with pool := q }

def Got21 (f old r : P21) : Prop :=
  ∃ q, Received f.pool old.pool q f.fmt ∧ r = { f with pool := q }

/-- C02, type 2 header format 0. -/
theorem C02_p20_roundtrip (f : P20) (h : Ok20 f) :
    ∃ l, f.pack = .ok l ∧ l.length = 10 ∧ Bytes l ∧
      l.head? = some (f.base.plt * 16 + f.base.plm1) ∧
      ∀ old rest, ∃ r, P20.unpack old (l ++ rest) = .ok (r, true) ∧ Got20 f old r := by
  obtain ⟨h, hin⟩ := h
  have hfmt := inRange_le hin
  have hb : f.base.plt ≤ 1 ∧ f.base.plm1 ≤ 15 := h.1.2
  have hv := (P20.isValid_iff f hb).2 ⟨h, by omega⟩
  have hbv : f.base.hf ≤ 1 ∧ f.base.plt ≤ 1 ∧ f.base.plm1 ≤ 15 := ⟨by rw [h.1.1]; omega, hb⟩
  have hp := Base.pack_eq f.base hbv
  have hu := Base.unpack_eq f.base hbv
  have h16 : u8 (f.fmt <<< 4) = f.fmt * 16 := by bits; omega
  obtain ⟨b8, b9, r', e1, e2, e3, e4, -⟩ :=
    C01_pool_roundtrip f.pool f.pool f.fmt (f.fmt * 16) 0 (by omega) hin
  have hkey : ∀ q : Pool, ∃ r, q.unpack f.fmt b8 b9 = (r, true) ∧ Received f.pool q r f.fmt := by
    intro q
    obtain ⟨c8, c9, r, g1, -, -, -, g5, g6⟩ :=
      C01_pool_roundtrip f.pool q f.fmt (f.fmt * 16) 0 (by omega) hin
    rw [e1] at g1; cases g1
    exact ⟨r, g5, g6⟩
  obtain ⟨⟨h0, _⟩, h1, h2, h3, h4, h5, h6, h7, h8, h9⟩ := h
  refine ⟨[f.base.hf * 32 + f.base.plt * 16 + f.base.plm1, f.shortNetworkId,
    f.transmitterId / 256, f.transmitterId % 256, f.power * 16 + f.mcs,
    f.receiverId / 256, f.receiverId % 256,
    f.nss * 64 + f.rv * 16 + f.ndi * 8 + f.harq, b8, b9], ?_, rfl, ?_, ?_, ?_⟩
  · simp only [P20.pack, hp, hv, l2bLower2, Res.ok_bind, Res.assert_true, Res.pure_eq, h16, e1]
    clear e1 hkey h16
    bits
    simp; omega
  · simp only [Bytes, List.mem_cons, List.not_mem_nil, or_false]
    rintro b (rfl | rfl | rfl | rfl | rfl | rfl | rfl | rfl | rfl | rfl) <;> omega
  · simp [h0]
  · intro old rest
    have hf8 : (b8 >>> 4) &&& 15 = f.fmt := by clear e1 hkey h16; bits; omega
    obtain ⟨r, g1, g2⟩ := hkey old.pool
    refine ⟨{ f with pool := r }, ?_, r, g2, rfl⟩
    simp only [P20.unpack, List.cons_append, List.nil_append, rd_zero, Res.ok_bind, hu, rd_succ,
      List.drop_succ_cons, List.drop_zero, b2lLower2, Bool.not_true, Bool.false_eq_true, if_false,
      Res.pure_eq, hf8, g1]
    have e : (⟨f.base, f.shortNetworkId, f.transmitterId / 256 * 256 + f.transmitterId % 256,
      ((f.power * 16 + f.mcs) >>> 4) &&& 15, (f.power * 16 + f.mcs) &&& 15,
      f.receiverId / 256 * 256 + f.receiverId % 256,
      ((f.nss * 64 + f.rv * 16 + f.ndi * 8 + f.harq) >>> 6) &&& 3,
      ((f.nss * 64 + f.rv * 16 + f.ndi * 8 + f.harq) >>> 4) &&& 3,
      ((f.nss * 64 + f.rv * 16 + f.ndi * 8 + f.harq) >>> 3) &&& 1,
      (f.nss * 64 + f.rv * 16 + f.ndi * 8 + f.harq) &&& 7, f.fmt, r⟩ : P20)
        = { f with pool := r } := by
      simp only [P20.mk.injEq]
      clear e1 hkey h16 hf8
      bits
      exact ⟨trivial, trivial, by omega, by omega, by omega, by omega, by omega, by omega,
        by omega, by omega, trivial, trivial⟩
    rw [e]
    have hv' : P20.isValid { f with pool := r } = true := hv
    rw [hv']; rfl

/-- C02: out of range type 2 header format 0 fields abort, including feedback formats above 6. -/
theorem C02_p20_abort (f : P20) (h : ¬ Ok20 f) : f.pack = .abort := by
  by_cases hb : f.base.hf ≤ 1 ∧ f.base.plt ≤ 1 ∧ f.base.plm1 ≤ 15
  · by_cases hv : f.isValid = true
    · have hin : ¬ InRange f.pool f.fmt := fun hin => h ⟨((P20.isValid_iff f hb.2).1 hv).1, hin⟩
      simp [P20.pack, Base.pack_eq _ hb, hv, l2bLower2, C01_pool_pack_abort _ _ _ _ hin]
    · simp [P20.pack, Base.pack_eq _ hb, hv]
  · simp [P20.pack, Base.pack_abort _ hb]

/-- C02: for every received bytes, success of type 2 header format 0 implies fields in range. -/
theorem C02_p20_sound (old f : P20) (p : List Nat) (hl : 10 ≤ p.length)
    (h : P20.unpack old p = .ok (f, true)) : Ok20 f := by
  obtain ⟨a0, a1, a2, a3, a4, a5, a6, a7, a8, a9, l, rfl⟩ :
      ∃ a0 a1 a2 a3 a4 a5 a6 a7 a8 a9 l, p = a0 :: a1 :: a2 :: a3 :: a4 :: a5 :: a6 :: a7 :: a8 ::
        a9 :: l := by
    match p, hl with
    | a0 :: a1 :: a2 :: a3 :: a4 :: a5 :: a6 :: a7 :: a8 :: a9 :: l, _ =>
      exact ⟨_, _, _, _, _, _, _, _, _, _, _, rfl⟩
  simp only [P20.unpack, rd_zero, Res.ok_bind, rd_succ, List.drop_succ_cons, List.drop_zero,
    b2lLower2, Res.pure_eq] at h
  split at h
  · simp at h
  · rename_i hbv
    simp only [Bool.not_eq_true', Bool.not_eq_false] at hbv
    have hbv' := (Base.isValid_iff _).1 hbv
    simp only [Res.ok.injEq, Prod.mk.injEq, Bool.and_eq_true] at h
    obtain ⟨rfl, hp, hv⟩ := h
    refine ⟨((P20.isValid_iff _ hbv'.2).1 hv).1, ?_⟩
    exact C01_pool_unpack_sound old.pool _ _ _ _ (Prod.ext rfl hp)

/-- C02, type 2 header format 1. -/
theorem C02_p21_roundtrip (f : P21) (h : Ok21 f) :
    ∃ l, f.pack = .ok l ∧ l.length = 10 ∧ Bytes l ∧
      l.head? = some (32 + f.base.plt * 16 + f.base.plm1) ∧
      ∀ old rest, ∃ r, P21.unpack old (l ++ rest) = .ok (r, true) ∧ Got21 f old r := by
  obtain ⟨h, hin⟩ := h
  have hfmt := inRange_le hin
  have hb : f.base.plt ≤ 1 ∧ f.base.plm1 ≤ 15 := h.1.2
  have hv := (P21.isValid_iff f hb).2 ⟨h, by omega⟩
  have hbv : f.base.hf ≤ 1 ∧ f.base.plt ≤ 1 ∧ f.base.plm1 ≤ 15 := ⟨by rw [h.1.1], hb⟩
  have hp := Base.pack_eq f.base hbv
  have hu := Base.unpack_eq f.base hbv
  have h16 : u8 (f.fmt <<< 4) = f.fmt * 16 := by bits; omega
  obtain ⟨b8, b9, r', e1, e2, e3, e4, -⟩ :=
    C01_pool_roundtrip f.pool f.pool f.fmt (f.fmt * 16) 0 (by omega) hin
  have hkey : ∀ q : Pool, ∃ r, q.unpack f.fmt b8 b9 = (r, true) ∧ Received f.pool q r f.fmt := by
    intro q
    obtain ⟨c8, c9, r, g1, -, -, -, g5, g6⟩ :=
      C01_pool_roundtrip f.pool q f.fmt (f.fmt * 16) 0 (by omega) hin
    rw [e1] at g1; cases g1
    exact ⟨r, g5, g6⟩
  obtain ⟨⟨h0, _⟩, h1, h2, h3, h4, h5, h6, h7⟩ := h
  refine ⟨[f.base.hf * 32 + f.base.plt * 16 + f.base.plm1, f.shortNetworkId,
    f.transmitterId / 256, f.transmitterId % 256, f.power * 16 + f.mcs,
    f.receiverId / 256, f.receiverId % 256, f.nss * 64, b8, b9], ?_, rfl, ?_, ?_, ?_⟩
  · simp only [P21.pack, hp, hv, l2bLower2, Res.ok_bind, Res.assert_true, Res.pure_eq, h16, e1, h7]
    clear e1 hkey h16
    bits
    simp; omega
  · simp only [Bytes, List.mem_cons, List.not_mem_nil, or_false]
    rintro b (rfl | rfl | rfl | rfl | rfl | rfl | rfl | rfl | rfl | rfl) <;> omega
  · simp [h0]
  · intro old rest
    have hf8 : (b8 >>> 4) &&& 15 = f.fmt := by clear e1 hkey h16; bits; omega
    obtain ⟨r, g1, g2⟩ := hkey old.pool
    refine ⟨{ f with pool := r }, ?_, r, g2, rfl⟩
    simp only [P21.unpack, List.cons_append, List.nil_append, rd_zero, Res.ok_bind, hu, rd_succ,
      List.drop_succ_cons, List.drop_zero, b2lLower2, Bool.not_true, Bool.false_eq_true, if_false,
      Res.pure_eq, hf8, g1]
    have e : (⟨f.base, f.shortNetworkId, f.transmitterId / 256 * 256 + f.transmitterId % 256,
      ((f.power * 16 + f.mcs) >>> 4) &&& 15, (f.power * 16 + f.mcs) &&& 15,
      f.receiverId / 256 * 256 + f.receiverId % 256,
      ((f.nss * 64) >>> 6) &&& 3, (f.nss * 64) &&& 63, f.fmt, r⟩ : P21)
        = { f with pool := r } := by
      simp only [P21.mk.injEq]
      clear e1 hkey h16 hf8
      bits
      exact ⟨trivial, trivial, by omega, by omega, by omega, by omega, by omega, by omega,
        trivial, trivial⟩
    rw [e]
    have hv' : P21.isValid { f with pool := r } = true := hv
    rw [hv']; rfl

/-- C02: out of range type 2 header format 1 fields abort. -/
theorem C02_p21_abort (f : P21) (h : ¬ Ok21 f) : f.pack = .abort := by
  by_cases hb : f.base.hf ≤ 1 ∧ f.base.plt ≤ 1 ∧ f.base.plm1 ≤ 15
  · by_cases hv : f.isValid = true
    · have hin : ¬ InRange f.pool f.fmt := fun hin => h ⟨((P21.isValid_iff f hb.2).1 hv).1, hin⟩
      simp [P21.pack, Base.pack_eq _ hb, hv, l2bLower2, C01_pool_pack_abort _ _ _ _ hin]
    · simp [P21.pack, Base.pack_eq _ hb, hv]
  · simp [P21.pack, Base.pack_abort _ hb]

/-- C02: for every received bytes, success of type 2 header format 1 implies fields in range. -/
theorem C02_p21_sound (old f : P21) (p : List Nat) (hl : 10 ≤ p.length)
    (h : P21.unpack old p = .ok (f, true)) : Ok21 f := by
  obtain ⟨a0, a1, a2, a3, a4, a5, a6, a7, a8, a9, l, rfl⟩ :
      ∃ a0 a1 a2 a3 a4 a5 a6 a7 a8 a9 l, p = a0 :: a1 :: a2 :: a3 :: a4 :: a5 :: a6 :: a7 :: a8 ::
        a9 :: l := by
    match p, hl with
    | a0 :: a1 :: a2 :: a3 :: a4 :: a5 :: a6 :: a7 :: a8 :: a9 :: l, _ =>
      exact ⟨_, _, _, _, _, _, _, _, _, _, _, rfl⟩
  simp only [P21.unpack, rd_zero, Res.ok_bind, rd_succ, List.drop_succ_cons, List.drop_zero,
    b2lLower2, Res.pure_eq] at h
  split at h
  · simp at h
  · rename_i hbv
    simp only [Bool.not_eq_true', Bool.not_eq_false] at hbv
    have hbv' := (Base.isValid_iff _).1 hbv
    simp only [Res.ok.injEq, Prod.mk.injEq, Bool.and_eq_true] at h
    obtain ⟨rfl, hp, hv⟩ := h
    refine ⟨((P21.isValid_iff _ hbv'.2).1 hv).1, ?_⟩
    exact C01_pool_unpack_sound old.pool _ _ _ _ (Prod.ext rfl hp)

/-- C02: the three formats cannot be confused: the receiver's header format candidate (the top three
bits of the first byte) is 0 for formats 10 and 20 and 1 for format 21. -/
theorem C02_header_format (f10 : P10) (f20 : P20) (f21 : P21) (l10 l20 l21 : List Nat)
    (h10 : f10.pack = .ok l10) (h20 : f20.pack = .ok l20) (h21 : f21.pack = .ok l21) :
    (∃ b, l10.head? = some b ∧ b / 32 = 0) ∧ (∃ b, l20.head? = some b ∧ b / 32 = 0) ∧
      (∃ b, l21.head? = some b ∧ b / 32 = 1) := by
  refine ⟨?_, ?_, ?_⟩
  · have hok : Ok10 f10 := by
      by_contra h; rw [C02_p10_abort f10 h] at h10; cases h10
    obtain ⟨l, e, -, -, e', -⟩ := C02_p10_roundtrip f10 hok
    rw [e] at h10; cases h10
    have := hok.1; unfold BaseOk at this
    exact ⟨_, e', by omega⟩
  · have hok : Ok20 f20 := by
      by_contra h; rw [C02_p20_abort f20 h] at h20; cases h20
    obtain ⟨l, e, -, -, e', -⟩ := C02_p20_roundtrip f20 hok
    rw [e] at h20; cases h20
    have := hok.1.1; unfold BaseOk at this
    exact ⟨_, e', by omega⟩
  · have hok : Ok21 f21 := by
      by_contra h; rw [C02_p21_abort f21 h] at h21; cases h21
    obtain ⟨l, e, -, -, e', -⟩ := C02_p21_roundtrip f21 hok
    rw [e] at h21; cases h21
    have := hok.1.1; unfold BaseOk at this
    exact ⟨_, e', by omega⟩

def sample10 : P10 := ⟨⟨0, 1, 3⟩, 0x42, 0x1234, 9, 0, 5⟩
def sample20 : P20 := ⟨⟨0, 0, 15⟩, 0x42, 0x1234, 9, 11, 0xABCD, 3, 2, 1, 6, 3, samplePool⟩
def sample21 : P21 := ⟨⟨1, 1, 7⟩, 0x42, 0x1234, 0, 0, 0xABCD, 2, 0, 1, samplePool⟩

example : Ok10 sample10 := by simp [Ok10, BaseOk, sample10]
example : Ok20 sample20 := by simp [Ok20, Hdr20, BaseOk, sample20, InRange, samplePool]
example : Ok21 sample21 := by simp [Ok21, Hdr21, BaseOk, sample21, InRange, samplePool]
example : sample20.pack = .ok [0x0F, 0x42, 0x12, 0x34, 0x9B, 0xAB, 0xCD, 0xEE, 0x32, 0xD1] := by
  decide +kernel

end Verif.Plcf
