import Verif.Props.C02_Plcf

set_option linter.unusedSimpArgs false

/-!
# C43: the PLCF decoder respects radio device class limits
-/

namespace Verif.Plcf
open BitByte

theorem nSsOfCode_ok {c : Nat} (h : c ≤ 3) : nSsOfCode c = .ok (2 ^ c) := by
  have : c = 0 ∨ c = 1 ∨ c = 2 ∨ c = 3 := by omega
  rcases this with rfl | rfl | rfl | rfl <;> rfl

theorem ten_cons {p : List Nat} (hl : 10 ≤ p.length) :
    ∃ a0 a1 a2 a3 a4 a5 a6 a7 a8 a9 l, p = a0 :: a1 :: a2 :: a3 :: a4 :: a5 :: a6 :: a7 :: a8 ::
      a9 :: l := by
  match p, hl with
  | a0 :: a1 :: a2 :: a3 :: a4 :: a5 :: a6 :: a7 :: a8 :: a9 :: l, _ =>
    exact ⟨_, _, _, _, _, _, _, _, _, _, _, rfl⟩

theorem five_cons {p : List Nat} (hl : 5 ≤ p.length) :
    ∃ a0 a1 a2 a3 a4 l, p = a0 :: a1 :: a2 :: a3 :: a4 :: l := by
  match p, hl with
  | a0 :: a1 :: a2 :: a3 :: a4 :: l, _ => exact ⟨_, _, _, _, _, _, rfl⟩

theorem P10.unpack_total (old : P10) (p : List Nat) (hl : 5 ≤ p.length) :
    ∃ r b, P10.unpack old p = .ok (r, b) := by
  obtain ⟨a0, a1, a2, a3, a4, l, rfl⟩ := five_cons hl
  simp only [P10.unpack, rd_zero, Res.ok_bind, rd_succ, List.drop_succ_cons, List.drop_zero,
    b2lLower2, Res.pure_eq]
  split <;> exact ⟨_, _, rfl⟩

theorem P20.unpack_total (old : P20) (p : List Nat) (hl : 10 ≤ p.length) :
    ∃ r b, P20.unpack old p = .ok (r, b) := by
  obtain ⟨a0, a1, a2, a3, a4, a5, a6, a7, a8, a9, l, rfl⟩ := ten_cons hl
  simp only [P20.unpack, rd_zero, Res.ok_bind, rd_succ, List.drop_succ_cons, List.drop_zero,
    b2lLower2, Res.pure_eq]
  split <;> exact ⟨_, _, rfl⟩

theorem P21.unpack_total (old : P21) (p : List Nat) (hl : 10 ≤ p.length) :
    ∃ r b, P21.unpack old p = .ok (r, b) := by
  obtain ⟨a0, a1, a2, a3, a4, a5, a6, a7, a8, a9, l, rfl⟩ := ten_cons hl
  simp only [P21.unpack, rd_zero, Res.ok_bind, rd_succ, List.drop_succ_cons, List.drop_zero,
    b2lLower2, Res.pure_eq]
  split <;> exact ⟨_, _, rfl⟩

theorem Decoder.checkRdc_iff (d : Decoder) (pl mcs nss : Nat) :
    d.checkRdc pl mcs nss = true ↔ pl ≤ d.plMax ∧ mcs ≤ d.mcsMax ∧ nss ≤ d.nssMax := by
  simp [Decoder.checkRdc, and_assoc]

/-- What the receiver may rely on when the decoder reports header format `h` for type 1. -/
def Accepted1 (d : Decoder) (h : Nat) (p : List Nat) : Prop :=
  h = 0 ∧ Ok10 d.p10 ∧ (∃ old, P10.unpack old p = .ok (d.p10, true)) ∧
    d.p10.base.plm1 + 1 ≤ d.plMax ∧ d.p10.mcs ≤ d.mcsMax ∧ 1 ≤ d.nssMax

/-- ... and for type 2. The number of spatial streams of code `c` is `2^c`. -/
def Accepted2 (d : Decoder) (h : Nat) (p : List Nat) : Prop :=
  (h = 0 ∧ Ok20 d.p20 ∧ (∃ old, P20.unpack old p = .ok (d.p20, true)) ∧
    d.p20.base.plm1 + 1 ≤ d.plMax ∧ d.p20.mcs ≤ d.mcsMax ∧ 2 ^ d.p20.nss ≤ d.nssMax) ∨
  (h = 1 ∧ Ok21 d.p21 ∧ (∃ old, P21.unpack old p = .ok (d.p21, true)) ∧
    d.p21.base.plm1 + 1 ≤ d.plMax ∧ d.p21.mcs ≤ d.mcsMax ∧ 2 ^ d.p21.nss ≤ d.nssMax)

/-- C43, type 1: for every received bytes the decoder finishes; a header format is reported only if
the PLCF is valid and within the limits; it is reported for every PLCF that is; type 2 results and
the limits are untouched. -/
theorem C43_type1 (d : Decoder) (p : List Nat) (hp : Bytes p) (hl : 5 ≤ p.length)
    (h1 : d.hf1 = none) :
    ∃ d', d.decode 1 p = .ok d' ∧
      d'.hf2 = d.hf2 ∧ d'.p20 = d.p20 ∧ d'.p21 = d.p21 ∧
      (d'.plMax, d'.mcsMax, d'.nssMax) = (d.plMax, d.mcsMax, d.nssMax) ∧
      (∀ h, d'.hf1 = some h → Accepted1 d' h p) ∧
      (∀ f, P10.unpack d.p10 p = .ok (f, true) → f.base.plm1 + 1 ≤ d.plMax → f.mcs ≤ d.mcsMax →
        1 ≤ d.nssMax → d'.hf1 = some 0 ∧ d'.p10 = f) := by
  obtain ⟨r, b, hr⟩ := P10.unpack_total d.p10 p hl
  obtain ⟨a0, a1, a2, a3, a4, l, rfl⟩ := five_cons hl
  simp only [Decoder.decode, rd_zero, Res.ok_bind, h1, decide_true, Bool.true_or,
    Res.assert_true, if_true]
  have h0 : a0 < 256 := hp a0 (by simp)
  have hhf : (a0 >>> 5) &&& 7 = a0 / 32 := by bits; omega
  have hrhf : b = true → a0 / 32 = 0 := by
    rintro rfl
    have := (C02_p10_sound d.p10 r _ hp hr)
    have hb := this.1.1.1
    simp only [P10.unpack, rd_zero, Res.ok_bind, rd_succ, List.drop_succ_cons, List.drop_zero,
      b2lLower2, Res.pure_eq] at hr
    split at hr
    · simp at hr
    · simp only [Res.ok.injEq, Prod.mk.injEq] at hr
      rw [← hr.1] at hb
      simpa [Base.unpack, shr5] using hb
  rw [hhf]
  by_cases hc : 1 ≤ a0 / 32
  · rw [if_pos hc]
    refine ⟨d, rfl, rfl, rfl, rfl, rfl, by simp [h1], ?_⟩
    intro f hf
    rw [hr] at hf; cases hf
    have := hrhf rfl; omega
  · rw [if_neg hc, hr]
    simp only [Res.ok_bind]
    have hz : a0 / 32 = 0 := by omega
    by_cases hb : b = true
    · subst hb
      simp only [Bool.not_true, Bool.false_eq_true, if_false]
      by_cases hck : Decoder.checkRdc { d with hf1 := none, p10 := r } r.base.packetLength r.mcs 1 = true
      · have hlim := (Decoder.checkRdc_iff _ _ _ _).1 hck
        simp only [hck, Bool.not_true, Bool.false_eq_true, if_false]
        refine ⟨_, rfl, rfl, rfl, rfl, rfl, ?_, ?_⟩
        · intro h hh
          simp only [Option.some.injEq] at hh
          exact ⟨by omega, (C02_p10_sound d.p10 r _ hp hr).1, ⟨d.p10, hr⟩, hlim⟩
        · intro f hf _ _ _
          cases hf
          simp [hz]
      · simp only [Bool.not_eq_true] at hck
        simp only [hck, Bool.not_false, if_true]
        refine ⟨_, rfl, rfl, rfl, rfl, rfl, by simp [h1], ?_⟩
        intro f hf g1 g2 g3
        cases hf
        exact absurd (hck.symm.trans ((Decoder.checkRdc_iff _ _ _ _).2 ⟨g1, g2, g3⟩)) (by simp)
    · have hb' : b = false := by simpa using hb
      subst hb'
      simp only [Bool.not_false, if_true]
      refine ⟨_, rfl, rfl, rfl, rfl, rfl, by simp [h1], ?_⟩
      intro f hf; cases hf

/-- C43, type 2. -/
theorem C43_type2 (d : Decoder) (p : List Nat) (hp : Bytes p) (hl : 10 ≤ p.length)
    (h2 : d.hf2 = none) :
    ∃ d', d.decode 2 p = .ok d' ∧
      d'.hf1 = d.hf1 ∧ d'.p10 = d.p10 ∧
      (d'.plMax, d'.mcsMax, d'.nssMax) = (d.plMax, d.mcsMax, d.nssMax) ∧
      (∀ h, d'.hf2 = some h → Accepted2 d' h p) ∧
      (∀ f, p.head?.map (· / 32) = some 0 → P20.unpack d.p20 p = .ok (f, true) →
        f.base.plm1 + 1 ≤ d.plMax → f.mcs ≤ d.mcsMax →
        2 ^ f.nss ≤ d.nssMax → d'.hf2 = some 0 ∧ d'.p20 = f) ∧
      (∀ f, p.head?.map (· / 32) = some 1 → P21.unpack d.p21 p = .ok (f, true) →
        f.base.plm1 + 1 ≤ d.plMax → f.mcs ≤ d.mcsMax →
        2 ^ f.nss ≤ d.nssMax → d'.hf2 = some 1 ∧ d'.p21 = f) := by
  obtain ⟨r, b, hr⟩ := P20.unpack_total d.p20 p hl
  obtain ⟨s, c, hs⟩ := P21.unpack_total d.p21 p hl
  have hr20 : b = true → Ok20 r := by rintro rfl; exact C02_p20_sound _ _ _ hl hr
  have hs21 : c = true → Ok21 s := by rintro rfl; exact C02_p21_sound _ _ _ hl hs
  obtain ⟨a0, a1, a2, a3, a4, a5, a6, a7, a8, a9, l, rfl⟩ := ten_cons hl
  have h0 : a0 < 256 := hp a0 (by simp)
  have hhf : (a0 >>> 5) &&& 7 = a0 / 32 := by bits; omega
  simp only [Decoder.decode, rd_zero, Res.ok_bind, h2, decide_true, Bool.or_true,
    Res.assert_true, if_false, hhf, List.head?_cons, Option.map_some, Option.some.injEq,
    OfNat.ofNat_ne_one]
  by_cases hc : 2 ≤ a0 / 32
  · rw [if_pos hc]
    refine ⟨d, rfl, rfl, rfl, rfl, by simp [h2], ?_, ?_⟩
    · intro f hf; omega
    · intro f hf; omega
  · rw [if_neg hc]
    by_cases hz : a0 / 32 = 0
    · rw [if_pos hz, hr]
      simp only [Res.ok_bind]
      by_cases hb : b = true
      · subst hb
        have hn := nSsOfCode_ok (hr20 rfl).1.2.2.2.2.2.2.1
        simp only [Bool.not_true, Bool.false_eq_true, if_false, hn, Res.ok_bind]
        by_cases hck : Decoder.checkRdc { d with hf2 := none, p20 := r } r.base.packetLength r.mcs
            (2 ^ r.nss) = true
        · have hlim := (Decoder.checkRdc_iff _ _ _ _).1 hck
          simp only [hck, Bool.not_true, Bool.false_eq_true, if_false]
          refine ⟨_, rfl, rfl, rfl, rfl, ?_, ?_, ?_⟩
          · intro h hh
            simp only [Option.some.injEq] at hh
            exact .inl ⟨by omega, hr20 rfl, ⟨d.p20, hr⟩, hlim⟩
          · intro f _ hf _ _ _; cases hf; simp [hz]
          · intro f hf; omega
        · simp only [Bool.not_eq_true] at hck
          simp only [hck, Bool.not_false, if_true]
          refine ⟨_, rfl, rfl, rfl, rfl, by simp [h2], ?_, ?_⟩
          · intro f _ hf g1 g2 g3; 
            cases hf
            exact absurd (hck.symm.trans ((Decoder.checkRdc_iff _ _ _ _).2 ⟨g1, g2, g3⟩)) (by simp)
          · intro f hf; omega
      · have hb' : b = false := by simpa using hb
        subst hb'
        simp only [Bool.not_false, if_true]
        refine ⟨_, rfl, rfl, rfl, rfl, by simp [h2], ?_, ?_⟩
        · intro f _ hf; cases hf
        · intro f hf; omega
    · rw [if_neg hz, hs]
      simp only [Res.ok_bind]
      by_cases hb : c = true
      · subst hb
        have hn := nSsOfCode_ok (hs21 rfl).1.2.2.2.2.2.2.1
        simp only [Bool.not_true, Bool.false_eq_true, if_false, hn, Res.ok_bind]
        by_cases hck : Decoder.checkRdc { d with hf2 := none, p21 := s } s.base.packetLength s.mcs
            (2 ^ s.nss) = true
        · have hlim := (Decoder.checkRdc_iff _ _ _ _).1 hck
          simp only [hck, Bool.not_true, Bool.false_eq_true, if_false]
          refine ⟨_, rfl, rfl, rfl, rfl, ?_, ?_, ?_⟩
          · intro h hh
            simp only [Option.some.injEq] at hh
            exact .inr ⟨by omega, hs21 rfl, ⟨d.p21, hs⟩, hlim⟩
          · intro f hf; omega
          · intro f _ hf _ _ _; cases hf; simp; omega
        · simp only [Bool.not_eq_true] at hck
          simp only [hck, Bool.not_false, if_true]
          refine ⟨_, rfl, rfl, rfl, rfl, by simp [h2], ?_, ?_⟩
          · intro f hf; omega
          · intro f _ hf g1 g2 g3; 
            cases hf
            exact absurd (hck.symm.trans ((Decoder.checkRdc_iff _ _ _ _).2 ⟨g1, g2, g3⟩)) (by simp)
      · have hb' : c = false := by simpa using hb
        subst hb'
        simp only [Bool.not_false, if_true]
        refine ⟨_, rfl, rfl, rfl, rfl, by simp [h2], ?_, ?_⟩
        · intro f hf; omega
        · intro f _ hf; cases hf

/-- C43: decoding the same type twice without resetting the decoder aborts, as does any type number
other than 1 and 2. -/
theorem C43_abort (d : Decoder) (t : Nat) (p : List Nat) (hl : 1 ≤ p.length)
    (h : (t ≠ 1 ∧ t ≠ 2) ∨ (t = 1 ∧ d.hf1 ≠ none) ∨ (t = 2 ∧ d.hf2 ≠ none)) :
    d.decode t p = .abort := by
  match p, hl with
  | a :: l, _ =>
    rcases h with ⟨h1, h2⟩ | ⟨rfl, h⟩ | ⟨rfl, h⟩
    · simp [Decoder.decode, h1, h2]
    · simp [Decoder.decode, h]
    · simp [Decoder.decode, h]

/-- C43: `has_any_plcf` reports exactly the types with a reported header format; nothing after a
reset. -/
theorem C43_has_any (d : Decoder) :
    d.hasAny ≤ 3 ∧ (d.hasAny % 2 = 1 ↔ d.hf1 ≠ none) ∧ (2 ≤ d.hasAny ↔ d.hf2 ≠ none) ∧
      d.setConfiguration.hasAny = 0 := by
  unfold Decoder.hasAny Decoder.setConfiguration
  by_cases h1 : d.hf1 = none <;> by_cases h2 : d.hf2 = none <;> simp [h1, h2]

def sampleDecoder : Decoder := ⟨16, 11, 8, none, none, sample10, sample20, sample21⟩

/-- The sample PLCF of C02 is reported, and is refused by a class with fewer streams. -/
example : ∀ l, sample20.pack = .ok l → (sampleDecoder.decode 2 l).isOk = true := by
  have : sample20.pack = .ok [0x0F, 0x42, 0x12, 0x34, 0x9B, 0xAB, 0xCD, 0xEE, 0x32, 0xD1] := by
    decide +kernel
  rintro l h; rw [this] at h; cases h; decide +kernel

end Verif.Plcf
