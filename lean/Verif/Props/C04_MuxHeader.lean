import Verif.Lemma.Mmh

set_option linter.unusedSimpArgs false

/-!
# C04: MAC multiplexing header
-/

namespace Verif.Mac
open BitByte Mmh

/-- First octet of a packed header. -/
def firstOctet (e : MacExt) (ie len : Nat) : Nat :=
  match e with
  | .noLength => ie
  | .len8 => 64 + ie
  | .len16 => 128 + ie
  | .len1 => 192 + len * 32 + ie

/-- Length octets of a packed header. -/
def lengthOctets : MacExt → Nat → List Nat
  | .len8, len => [len]
  | .len16, len => [len / 256, len % 256]
  | _, _ => []

/-- C04: every header with an assigned type and a length that fits is packed into the announced
number of bytes in the layout of Figure 6.3.4-1. -/
theorem C04_pack (e : MacExt) (ie len : Nat) (t : Option Kind) (ha : Assigned e len ie)
    (hl : LengthFits e len) :
    ∃ l, (Mmh.mk (some e) ie len t).pack = .ok l ∧ l.length = headerSize e ∧ Bytes l ∧
      (Mmh.mk (some e) ie len t).packedSize = .ok (headerSize e) ∧
      l = firstOctet e ie len :: lengthOctets e len := by
  have hie := ie_of_assigned ha
  have hv := isValid_of (t := t) ha hl
  cases e with
  | noLength =>
    refine ⟨[ie], ?_, rfl, ?_, rfl, rfl⟩
    · simp only [Mmh.pack, hv, Res.assert_true, Res.ok_bind, MacExt.val, Res.pure_eq]
      bits; simp; omega
    · simp only [Bytes, List.mem_cons, List.not_mem_nil, or_false]; rintro b rfl; omega
  | len8 =>
    simp only [LengthFits] at hl
    refine ⟨[64 + ie, len], ?_, rfl, ?_, rfl, rfl⟩
    · simp only [Mmh.pack, hv, Res.assert_true, Res.ok_bind, MacExt.val, Res.pure_eq, mask8']
      bits; simp; omega
    · simp only [Bytes, List.mem_cons, List.not_mem_nil, or_false]; rintro b (rfl | rfl) <;> omega
  | len16 =>
    simp only [LengthFits] at hl
    refine ⟨[128 + ie, len / 256, len % 256], ?_, rfl, ?_, rfl, rfl⟩
    · simp only [Mmh.pack, hv, Res.assert_true, Res.ok_bind, MacExt.val, Res.pure_eq, l2bLower2]
      bits; simp; omega
    · simp only [Bytes, List.mem_cons, List.not_mem_nil, or_false]
      rintro b (rfl | rfl | rfl) <;> omega
  | len1 =>
    simp only [LengthFits] at hl
    have hie5 : ie < 32 := by simp only [Assigned] at ha; omega
    refine ⟨[192 + len * 32 + ie], ?_, rfl, ?_, rfl, rfl⟩
    · simp only [Mmh.pack, hv, Res.assert_true, Res.ok_bind, MacExt.val, Res.pure_eq]
      bits; simp; omega
    · simp only [Bytes, List.mem_cons, List.not_mem_nil, or_false]; rintro b rfl; omega

/-- C04: a header without extension, without type, or with a length that does not fit aborts. -/
theorem C04_abort (h : Mmh)
    (hn : h.ext = none ∨ h.ie = undef32 ∨ ∃ e, h.ext = some e ∧ ¬ LengthFits e h.length) :
    h.pack = .abort := by
  have : h.isValid = false := by
    obtain ⟨ext, ie, len, t⟩ := h
    simp only at hn
    rcases hn with rfl | rfl | ⟨e, rfl, hn⟩
    · rfl
    · cases ext with
      | none => rfl
      | some e => cases e <;> simp [isValid, ieValid]
    · cases e <;> simp only [LengthFits] at hn <;> simp only [isValid, mask8', mask16]
      · exact absurd trivial hn
      · rw [if_pos (by omega)]
      · rw [if_pos (by omega)]
      · rw [if_neg (by omega), if_neg (by omega)]
  simp [Mmh.pack, this]

/-- C04: what the first octet tells the receiver: the extension, the type, and the kind of message;
accepted exactly for the combinations in the table `announced`. Only one byte is read. -/
theorem C04_unpack_first (e : MacExt) (ie len : Nat) (ha : Assigned e len ie)
    (hl : LengthFits e len) (rest : List Nat) :
    unpackExtIe zero (firstOctet e ie len :: rest) =
      .ok (⟨some e, ie, undef32, announced e ie⟩, (announced e ie).isSome) := by
  rw [unpackExtIe_cons]
  have hie := ie_of_assigned ha
  have h0 : ∀ ie < 64, Assigned .noLength 0 ie → unpackExtIe zero [firstOctet .noLength ie 0] =
      .ok (⟨some .noLength, ie, undef32, announced .noLength ie⟩,
        (announced .noLength ie).isSome) := by decide +kernel
  have h1 : ∀ ie < 64, Assigned .len8 0 ie → unpackExtIe zero [firstOctet .len8 ie 0] =
      .ok (⟨some .len8, ie, undef32, announced .len8 ie⟩,
        (announced .len8 ie).isSome) := by decide +kernel
  have h2 : ∀ ie < 64, Assigned .len16 0 ie → unpackExtIe zero [firstOctet .len16 ie 0] =
      .ok (⟨some .len16, ie, undef32, announced .len16 ie⟩,
        (announced .len16 ie).isSome) := by decide +kernel
  have h3 : ∀ ie < 64, ∀ len < 2, Assigned .len1 len ie →
      unpackExtIe zero [firstOctet .len1 ie len] =
      .ok (⟨some .len1, ie, undef32, announced .len1 ie⟩,
        (announced .len1 ie).isSome) := by decide +kernel
  cases e with
  | noLength => exact h0 ie (by omega) ha
  | len8 => exact h1 ie (by omega) ha
  | len16 => exact h2 ie (by omega) ha
  | len1 => exact h3 ie (by omega) len (by simp only [LengthFits] at hl; omega) ha

/-- C04: a first octet with an unassigned type, for every extension and every code the field can hold,
is read as undefined type and refused. -/
theorem C04_unassigned (e : MacExt) (ie len : Nat) (ha : ¬ Assigned e len ie)
    (hi : ie < 64) (h1 : e = .len1 → ie < 32 ∧ len < 2) (rest : List Nat) :
    unpackExtIe zero (firstOctet e ie len :: rest) =
      .ok (⟨some e, undef32, undef32, none⟩, false) := by
  rw [unpackExtIe_cons]
  have k0 : ∀ ie < 64, ¬ Assigned .noLength 0 ie → unpackExtIe zero [firstOctet .noLength ie 0] =
      .ok (⟨some .noLength, undef32, undef32, none⟩, false) := by decide +kernel
  have k1 : ∀ ie < 64, ¬ Assigned .len8 0 ie → unpackExtIe zero [firstOctet .len8 ie 0] =
      .ok (⟨some .len8, undef32, undef32, none⟩, false) := by decide +kernel
  have k2 : ∀ ie < 64, ¬ Assigned .len16 0 ie → unpackExtIe zero [firstOctet .len16 ie 0] =
      .ok (⟨some .len16, undef32, undef32, none⟩, false) := by decide +kernel
  have k3 : ∀ ie < 32, ∀ len < 2, ¬ Assigned .len1 len ie →
      unpackExtIe zero [firstOctet .len1 ie len] =
      .ok (⟨some .len1, undef32, undef32, none⟩, false) := by decide +kernel
  cases e with
  | noLength => exact k0 ie hi ha
  | len8 => exact k1 ie hi ha
  | len16 => exact k2 ie hi ha
  | len1 => exact k3 ie (h1 rfl).1 len (h1 rfl).2 ha

example : ¬ Assigned .len1 1 16 ∧ ¬ Assigned .len8 0 31 := by decide

/-- C04: round trip. Packing followed by the two unpacking functions recovers extension, type and
length; a header without length field yields no length. -/
theorem C04_roundtrip (e : MacExt) (ie len : Nat) (t : Option Kind) (ha : Assigned e len ie)
    (hl : LengthFits e len) :
    ∃ l, (Mmh.mk (some e) ie len t).pack = .ok l ∧ l.length = headerSize e ∧
      ∀ rest, ∃ h, unpackExtIe zero (l ++ rest) = .ok (h, (announced e ie).isSome) ∧
        h.packedSize = .ok (headerSize e) ∧
        h.unpackLength (l ++ rest) =
          .ok ⟨some e, ie, if e = .noLength then undef32 else len, announced e ie⟩ := by
  obtain ⟨l, hp, hlen, -, -, rfl⟩ := C04_pack e ie len t ha hl
  refine ⟨_, hp, hlen, fun rest => ⟨_, C04_unpack_first e ie len ha hl _, ?_, ?_⟩⟩
  · cases e <;> rfl
  · have hie := ie_of_assigned ha
    cases e with
    | noLength => simp [unpackLength]
    | len8 => simp [unpackLength, rd, lengthOctets]
    | len16 =>
      simp only [LengthFits] at hl
      simp only [unpackLength, decide_true, Res.assert_true, Res.ok_bind, List.cons_append,
        lengthOctets, List.nil_append, List.drop_succ_cons, List.drop_zero, b2lLower2, Res.pure_eq]
      simp; omega
    | len1 =>
      simp only [LengthFits] at hl
      have hie5 : ie < 32 := by simp only [Assigned] at ha; omega
      have e1 : (192 + len * 32 + ie) >>> 5 &&& 1 = len := by bits; omega
      simp only [unpackLength, rd, firstOctet, List.cons_append, List.getElem?_cons_zero,
        decide_true, Res.assert_true, Res.ok_bind, e1]
      simp

/-- C04: every received octet is either refused, or is the first octet of a header of an accepted
combination with an assigned type. -/
theorem C04_sound (p0 : Nat) (rest : List Nat) (hp : p0 < 256) (h : Mmh) (b : Bool)
    (hu : unpackExtIe zero (p0 :: rest) = .ok (h, b)) :
    b = h.tinfo.isSome ∧ (b = true → ∃ e len, h.ext = some e ∧ LengthFits e len ∧
      Assigned e len h.ie ∧ h.tinfo = announced e h.ie ∧ h.length = undef32 ∧
      p0 = firstOctet e h.ie len) := by
  rw [unpackExtIe_cons, unpackExtIe_all p0 hp] at hu
  simp only [Res.ok.injEq, Prod.mk.injEq] at hu
  obtain ⟨rfl, rfl⟩ := hu
  refine ⟨rfl, fun hb => ?_⟩
  have key : ∀ p0 < 256, (peekOf p0).tinfo.isSome = true →
      (peekOf p0).ext = some ((peekOf p0).ext.getD .noLength) ∧
      Assigned ((peekOf p0).ext.getD .noLength) (p0 / 32 % 2) (peekOf p0).ie ∧
      (peekOf p0).tinfo = announced ((peekOf p0).ext.getD .noLength) (peekOf p0).ie ∧
      (peekOf p0).length = undef32 ∧
      p0 = firstOctet ((peekOf p0).ext.getD .noLength) (peekOf p0).ie (p0 / 32 % 2) := by
    decide +kernel
  obtain ⟨h1, h2, h3, h4, h5⟩ := key p0 hp hb
  refine ⟨(peekOf p0).ext.getD .noLength, p0 / 32 % 2, h1, ?_, h2, h3, h4, h5⟩
  cases (peekOf p0).ext.getD .noLength <;> simp only [LengthFits] <;> omega

/-- C04: with one byte the first part is defined, with the announced number of bytes the length can
be unpacked: nothing beyond the header is read. -/
theorem C04_reads (p0 : Nat) (rest : List Nat) (hp : p0 < 256) :
    ∃ h b, unpackExtIe zero (p0 :: rest) = .ok (h, b) ∧
      ∃ n, h.packedSize = .ok n ∧ 1 ≤ n ∧ n ≤ 3 ∧
        (n ≤ 1 + rest.length → ∃ h', h.unpackLength (p0 :: rest) = .ok h' ∧
          ∀ rest', h.unpackLength (p0 :: rest.take (n - 1) ++ rest') = .ok h') := by
  refine ⟨peekOf p0, (peekOf p0).tinfo.isSome, ?_, ?_⟩
  · rw [unpackExtIe_cons]; exact unpackExtIe_all p0 hp
  · have key : ∀ p0 < 256, (peekOf p0).length = undef32 ∧
        (peekOf p0).ext.isSome = true := by
      decide +kernel
    obtain ⟨hl, he⟩ := key p0 hp
    obtain ⟨e, he⟩ := Option.isSome_iff_exists.1 he
    cases e with
    | noLength => exact ⟨1, by simp [packedSize, he], by omega, by omega, fun _ =>
        ⟨_, by simp [unpackLength, hl, he]; rfl, by simp [unpackLength, hl, he]⟩⟩
    | len8 =>
      refine ⟨2, by simp [packedSize, he], by omega, by omega, fun hn => ?_⟩
      match rest, hn with
      | a :: r, _ => exact ⟨_, by simp [unpackLength, hl, he, rd]; rfl, by
          simp [unpackLength, hl, he, rd]⟩
    | len16 =>
      refine ⟨3, by simp [packedSize, he], by omega, by omega, fun hn => ?_⟩
      match rest, hn with
      | a :: b :: r, _ => exact ⟨_, by simp [unpackLength, hl, he, b2lLower2]; rfl, by
          simp [unpackLength, hl, he, b2lLower2]⟩
      | [a], hn => simp at hn
      | [], hn => simp at hn
    | len1 => exact ⟨1, by simp [packedSize, he], by omega, by omega, fun _ =>
        ⟨_, by simp [unpackLength, hl, he, rd]; rfl, by simp [unpackLength, hl, he, rd]⟩⟩

/-- Non-vacuity: 300 bytes of user plane data on flow 2. -/
example : Assigned .len16 300 4 ∧ LengthFits .len16 300 := by simp [Assigned, LengthFits]
example : (Mmh.mk (some .len16) 4 300 none).pack = .ok [0x84, 0x01, 0x2C] := by decide +kernel
example : ¬ LengthFits .len8 256 := by simp [LengthFits]

end Verif.Mac
