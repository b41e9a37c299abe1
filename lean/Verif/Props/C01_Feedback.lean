import Verif.Lemma.Feedback

set_option linter.unusedSimpArgs false

/-!
# C01: PHY feedback formats survive packing

For every format: a feedback info with fields in range is packed without abort into the low nibble
of the first byte (the high nibble is preserved) and the second byte; unpacking those two bytes
reports success and returns the same fields, with the buffer size replaced by the lower limit of
its class. Field values out of range make `pack` abort.
-/

namespace Verif.Feedback
open Verif.Spec

theorem C01_f1_roundtrip (f : F1) (a0 a1 : Nat) (ha0 : a0 < 256)
    (h1 : f.harq ≤ 7) (h2 : f.tf ≠ .undef) (h3 : f.mcs ≤ 11) :
    ∃ b0 b1 d, f.pack a0 a1 = .ok (b0, b1) ∧ b0 < 256 ∧ b1 < 256 ∧ b0 / 16 = a0 / 16 ∧
      F1.unpack b0 b1 = ({ f with bufSize := d }, true) ∧ ClassFloor d f.bufSize := by
  obtain ⟨harq, tf, n, mcs⟩ := f
  simp only at h1 h2 h3
  have hs := bufferStatus_le n
  have hf := bufferLower_classFloor n
  obtain ⟨ht, ht'⟩ := Tf.val_of_ne h2
  refine ⟨a0 / 16 * 16 + harq * 2 + tf.val, bufferStatus n * 16 + (mcs + 1), bufferLower (bufferStatus n), ?_, ?_, ?_, ?_, ?_, hf⟩
  · have hv := (F1.isValid_iff ⟨harq, tf, n, mcs⟩).2 ⟨h1, h2, h3⟩
    simp [F1.pack, hv, mcs2cqi, h3]
    constructor <;> bits <;> omega
  · omega
  · omega
  · omega
  · rw [Prod.ext_iff]
    simp only [F1.unpack, F1.isValid_iff]
    bits
    have e1 : (a0 / 16 * 16 + harq * 2 + tf.val) / 2 % 8 = harq := by omega
    have e2 : (a0 / 16 * 16 + harq * 2 + tf.val) % 2 = tf.val := by omega
    have e3 : (bufferStatus n * 16 + (mcs + 1)) / 16 % 16 = bufferStatus n := by omega
    have e4 : (bufferStatus n * 16 + (mcs + 1)) % 16 = mcs + 1 := by omega
    have := bufferStatus_le (bufferLower (bufferStatus n))
    simp [e1, e2, e3, e4, ht', cqi2mcs_succ h3, h1, h2, h3, this]

theorem C01_f2_roundtrip (f : F2) (a0 a1 : Nat) (ha0 : a0 < 256)
    (h1 : f.codebook ≤ 7) (h2 : f.mimo = .single ∨ f.mimo = .dual) (h3 : f.mcs ≤ 11) :
    ∃ b0 b1 d, f.pack a0 a1 = .ok (b0, b1) ∧ b0 < 256 ∧ b1 < 256 ∧ b0 / 16 = a0 / 16 ∧
      F2.unpack b0 b1 = ({ f with bufSize := d }, true) ∧ ClassFloor d f.bufSize := by
  obtain ⟨harq, tf, n, mcs⟩ := f
  simp only at h1 h2 h3
  have hs := bufferStatus_le n
  have hf := bufferLower_classFloor n
  have ht : tf.val < 2 := by rcases h2 with rfl | rfl <;> decide
  have ht' : Mimo.ofBits tf.val = tf := by rcases h2 with rfl | rfl <;> decide
  refine ⟨a0 / 16 * 16 + harq * 2 + tf.val, bufferStatus n * 16 + (mcs + 1), bufferLower (bufferStatus n), ?_, ?_, ?_, ?_, ?_, hf⟩
  · have hv := (F2.isValid_iff ⟨harq, tf, n, mcs⟩).2 ⟨h1, h2, h3⟩
    simp [F2.pack, hv, mcs2cqi, h3]
    constructor <;> bits <;> omega
  · omega
  · omega
  · omega
  · rw [Prod.ext_iff]
    simp only [F2.unpack, F2.isValid_iff]
    bits
    have e1 : (a0 / 16 * 16 + harq * 2 + tf.val) / 2 % 8 = harq := by omega
    have e2 : (a0 / 16 * 16 + harq * 2 + tf.val) % 2 = tf.val := by omega
    have e3 : (bufferStatus n * 16 + (mcs + 1)) / 16 % 16 = bufferStatus n := by omega
    have e4 : (bufferStatus n * 16 + (mcs + 1)) % 16 = mcs + 1 := by omega
    have := bufferStatus_le (bufferLower (bufferStatus n))
    simp [e1, e2, e3, e4, ht', cqi2mcs_succ h3, h1, h2, h3, this]

theorem C01_f3_roundtrip (f : F3) (a0 a1 : Nat) (ha0 : a0 < 256)
    (h1 : f.harq0 ≤ 7) (h2 : f.tf0 ≠ .undef) (h3 : f.harq1 ≤ 7) (h4 : f.tf1 ≠ .undef)
    (h5 : f.mcs ≤ 11) :
    ∃ b0 b1, f.pack a0 a1 = .ok (b0, b1) ∧ b0 < 256 ∧ b1 < 256 ∧ b0 / 16 = a0 / 16 ∧
      F3.unpack b0 b1 = (f, true) := by
  obtain ⟨q0, t0, q1, t1, mcs⟩ := f
  simp only at h1 h2 h3 h4 h5
  obtain ⟨ht, ht'⟩ := Tf.val_of_ne h2
  obtain ⟨hu, hu'⟩ := Tf.val_of_ne h4
  refine ⟨a0 / 16 * 16 + q0 * 2 + t0.val, q1 * 32 + t1.val * 16 + (mcs + 1), ?_, ?_, ?_, ?_, ?_⟩
  · have hv := (F3.isValid_iff ⟨q0, t0, q1, t1, mcs⟩).2 ⟨h1, h2, h3, h4, h5⟩
    simp [F3.pack, hv, mcs2cqi, h5]
    constructor <;> bits <;> omega
  · omega
  · omega
  · omega
  · rw [Prod.ext_iff]
    simp only [F3.unpack, F3.isValid_iff]
    bits
    have e1 : (a0 / 16 * 16 + q0 * 2 + t0.val) / 2 % 8 = q0 := by omega
    have e2 : (a0 / 16 * 16 + q0 * 2 + t0.val) % 2 = t0.val := by omega
    have e3 : (q1 * 32 + t1.val * 16 + (mcs + 1)) / 32 % 8 = q1 := by omega
    have e5 : (q1 * 32 + t1.val * 16 + (mcs + 1)) / 16 % 2 = t1.val := by omega
    have e4 : (q1 * 32 + t1.val * 16 + (mcs + 1)) % 16 = mcs + 1 := by omega
    simp [e1, e2, e3, e4, e5, ht', hu', cqi2mcs_succ h5, h1, h2, h3, h4, h5]

theorem C01_f4_roundtrip (f : F4) (a0 a1 : Nat) (ha0 : a0 < 256)
    (h1 : f.bitmap ≤ 255) (h2 : f.mcs ≤ 11) :
    ∃ b0 b1, f.pack a0 a1 = .ok (b0, b1) ∧ b0 < 256 ∧ b1 < 256 ∧ b0 / 16 = a0 / 16 ∧
      F4.unpack b0 b1 = (f, true) := by
  obtain ⟨m, mcs⟩ := f
  simp only at h1 h2
  refine ⟨a0 / 16 * 16 + m / 16, m % 16 * 16 + (mcs + 1), ?_, ?_, ?_, ?_, ?_⟩
  · have hv := (F4.isValid_iff ⟨m, mcs⟩).2 ⟨h1, h2⟩
    simp [F4.pack, hv, mcs2cqi, h2]
    constructor <;> bits <;> omega
  · omega
  · omega
  · omega
  · rw [Prod.ext_iff]
    simp only [F4.unpack, F4.isValid_iff]
    bits
    have e1 : (a0 / 16 * 16 + m / 16) % 16 * 16 +
      (m % 16 * 16 + (mcs + 1)) / 16 % 16 = m := by omega
    have e4 : (m % 16 * 16 + (mcs + 1)) % 16 = mcs + 1 := by omega
    simp [e4, cqi2mcs_succ h2, h1, h2]
    omega

theorem C01_f5_roundtrip (f : F5) (a0 a1 : Nat) (ha0 : a0 < 256)
    (h1 : f.harq ≤ 7) (h2 : f.tf ≠ .undef) (h3 : f.mimo ≠ .undef) (h4 : f.codebook ≤ 63) :
    ∃ b0 b1, f.pack a0 a1 = .ok (b0, b1) ∧ b0 < 256 ∧ b1 < 256 ∧ b0 / 16 = a0 / 16 ∧
      F5.unpack b0 b1 = (f, true) := by
  obtain ⟨q, t, m, c⟩ := f
  simp only at h1 h2 h3 h4
  obtain ⟨ht, ht'⟩ := Tf.val_of_ne h2
  obtain ⟨hm, hm'⟩ := Mimo.val_of_ne h3
  refine ⟨a0 / 16 * 16 + q * 2 + t.val, m.val * 64 + c, ?_, ?_, ?_, ?_, ?_⟩
  · have hv := (F5.isValid_iff ⟨q, t, m, c⟩).2 ⟨h1, h2, h3, h4⟩
    simp [F5.pack, hv]
    constructor <;> bits <;> omega
  · omega
  · omega
  · omega
  · rw [Prod.ext_iff]
    simp only [F5.unpack, F5.isValid_iff]
    bits
    have e1 : (a0 / 16 * 16 + q * 2 + t.val) / 2 % 8 = q := by omega
    have e2 : (a0 / 16 * 16 + q * 2 + t.val) % 2 = t.val := by omega
    have e3 : (m.val * 64 + c) / 64 % 4 = m.val := by omega
    have e4 : (m.val * 64 + c) % 64 = c := by omega
    simp [e1, e2, e3, e4, ht', hm', h1, h2, h3, h4]

theorem C01_f6_roundtrip (f : F6) (a0 a1 : Nat) (ha0 : a0 < 256)
    (h1 : f.harq ≤ 7) (h2 : f.reserved = 0) (h3 : f.mcs ≤ 11) :
    ∃ b0 b1 d, f.pack a0 a1 = .ok (b0, b1) ∧ b0 < 256 ∧ b1 < 256 ∧ b0 / 16 = a0 / 16 ∧
      F6.unpack b0 b1 = ({ f with bufSize := d }, true) ∧ ClassFloor d f.bufSize := by
  obtain ⟨harq, r, n, mcs⟩ := f
  simp only at h1 h2 h3
  subst h2
  have hs := bufferStatus_le n
  have hf := bufferLower_classFloor n
  refine ⟨a0 / 16 * 16 + harq * 2, bufferStatus n * 16 + (mcs + 1), bufferLower (bufferStatus n), ?_, ?_, ?_, ?_, ?_, hf⟩
  · have hv := (F6.isValid_iff ⟨harq, 0, n, mcs⟩).2 ⟨h1, rfl, h3⟩
    simp [F6.pack, hv, mcs2cqi, h3]
    constructor <;> bits <;> omega
  · omega
  · omega
  · omega
  · rw [Prod.ext_iff]
    simp only [F6.unpack, F6.isValid_iff]
    bits
    have e1 : (a0 / 16 * 16 + harq * 2) / 2 % 8 = harq := by omega
    have e2 : (a0 / 16 * 16 + harq * 2) % 2 = 0 := by omega
    have e3 : (bufferStatus n * 16 + (mcs + 1)) / 16 % 16 = bufferStatus n := by omega
    have e4 : (bufferStatus n * 16 + (mcs + 1)) % 16 = mcs + 1 := by omega
    have := bufferStatus_le (bufferLower (bufferStatus n))
    simp [e1, e2, e3, e4, cqi2mcs_succ h3, h1, h3, this]

/-- Fields in range, for the format selected by `fmt`. -/
def InRange (p : Pool) : Nat → Prop
  | 0 => True
  | 1 => p.f1.harq ≤ 7 ∧ p.f1.tf ≠ .undef ∧ p.f1.mcs ≤ 11
  | 2 => p.f2.codebook ≤ 7 ∧ (p.f2.mimo = .single ∨ p.f2.mimo = .dual) ∧ p.f2.mcs ≤ 11
  | 3 => p.f3.harq0 ≤ 7 ∧ p.f3.tf0 ≠ .undef ∧ p.f3.harq1 ≤ 7 ∧ p.f3.tf1 ≠ .undef ∧ p.f3.mcs ≤ 11
  | 4 => p.f4.bitmap ≤ 255 ∧ p.f4.mcs ≤ 11
  | 5 => p.f5.harq ≤ 7 ∧ p.f5.tf ≠ .undef ∧ p.f5.mimo ≠ .undef ∧ p.f5.codebook ≤ 63
  | 6 => p.f6.harq ≤ 7 ∧ p.f6.reserved = 0 ∧ p.f6.mcs ≤ 11
  | _ => False

/-- What a receiver whose pool was `q` must hold after unpacking format `fmt` sent from `p`: the
selected format is the sender's (up to the buffer size class), all others are unchanged. -/
def Received (p q r : Pool) : Nat → Prop
  | 0 => r = q
  | 1 => ∃ d, ClassFloor d p.f1.bufSize ∧ r = { q with f1 := { p.f1 with bufSize := d } }
  | 2 => ∃ d, ClassFloor d p.f2.bufSize ∧ r = { q with f2 := { p.f2 with bufSize := d } }
  | 3 => r = { q with f3 := p.f3 }
  | 4 => r = { q with f4 := p.f4 }
  | 5 => r = { q with f5 := p.f5 }
  | 6 => ∃ d, ClassFloor d p.f6.bufSize ∧ r = { q with f6 := { p.f6 with bufSize := d } }
  | _ => False

/-- C01: the feedback info pool round trip, for every format, every pool and every previous content
of the two bytes and of the receiver's pool. -/
theorem C01_pool_roundtrip (p q : Pool) (fmt a0 a1 : Nat) (ha0 : a0 < 256) (h : InRange p fmt) :
    ∃ b0 b1 r, p.pack fmt a0 a1 = .ok (b0, b1) ∧ b0 < 256 ∧ b1 < 256 ∧ b0 / 16 = a0 / 16 ∧
      q.unpack fmt b0 b1 = (r, true) ∧ Received p q r fmt := by
  match fmt, h with
  | 0, _ =>
    refine ⟨_, _, q, rfl, ?_, ?_, ?_, ?_, rfl⟩
    · bits; omega
    · omega
    · bits; omega
    · simp only [Pool.unpack]; bits
      have : a0 / 16 * 16 % 256 % 16 = 0 := by omega
      simp [this]
  | 1, h =>
    obtain ⟨h1, h2, h3⟩ := h
    obtain ⟨b0, b1, d, e1, e2, e3, e4, e5, e6⟩ := C01_f1_roundtrip p.f1 a0 a1 ha0 h1 h2 h3
    exact ⟨b0, b1, _, e1, e2, e3, e4, by simp [Pool.unpack, e5], d, e6, rfl⟩
  | 2, h =>
    obtain ⟨h1, h2, h3⟩ := h
    obtain ⟨b0, b1, d, e1, e2, e3, e4, e5, e6⟩ := C01_f2_roundtrip p.f2 a0 a1 ha0 h1 h2 h3
    exact ⟨b0, b1, _, e1, e2, e3, e4, by simp [Pool.unpack, e5], d, e6, rfl⟩
  | 3, h =>
    obtain ⟨h1, h2, h3, h4, h5⟩ := h
    obtain ⟨b0, b1, e1, e2, e3, e4, e5⟩ := C01_f3_roundtrip p.f3 a0 a1 ha0 h1 h2 h3 h4 h5
    exact ⟨b0, b1, _, e1, e2, e3, e4, by simp [Pool.unpack, e5], rfl⟩
  | 4, h =>
    obtain ⟨h1, h2⟩ := h
    obtain ⟨b0, b1, e1, e2, e3, e4, e5⟩ := C01_f4_roundtrip p.f4 a0 a1 ha0 h1 h2
    exact ⟨b0, b1, _, e1, e2, e3, e4, by simp [Pool.unpack, e5], rfl⟩
  | 5, h =>
    obtain ⟨h1, h2, h3, h4⟩ := h
    obtain ⟨b0, b1, e1, e2, e3, e4, e5⟩ := C01_f5_roundtrip p.f5 a0 a1 ha0 h1 h2 h3 h4
    exact ⟨b0, b1, _, e1, e2, e3, e4, by simp [Pool.unpack, e5], rfl⟩
  | 6, h =>
    obtain ⟨h1, h2, h3⟩ := h
    obtain ⟨b0, b1, d, e1, e2, e3, e4, e5, e6⟩ := C01_f6_roundtrip p.f6 a0 a1 ha0 h1 h2 h3
    exact ⟨b0, b1, _, e1, e2, e3, e4, by simp [Pool.unpack, e5], d, e6, rfl⟩
  | n + 7, h => simp [InRange] at h

/-- C01: values out of range are never put on air: `pack` aborts, for every format number. -/
theorem C01_pool_pack_abort (p : Pool) (fmt a0 a1 : Nat) (h : ¬ InRange p fmt) :
    p.pack fmt a0 a1 = .abort := by
  match fmt, h with
  | 0, h => exact absurd trivial h
  | 1, h =>
    have : p.f1.isValid = false := by
      simpa [← Bool.not_eq_true, InRange, F1.isValid_iff] using h
    simp [Pool.pack, F1.pack, this]
  | 2, h =>
    have : p.f2.isValid = false := by
      simpa [← Bool.not_eq_true, InRange, F2.isValid_iff] using h
    simp [Pool.pack, F2.pack, this]
  | 3, h =>
    have : p.f3.isValid = false := by
      simpa [← Bool.not_eq_true, InRange, F3.isValid_iff] using h
    simp [Pool.pack, F3.pack, this]
  | 4, h =>
    have : p.f4.isValid = false := by
      simpa [← Bool.not_eq_true, InRange, F4.isValid_iff] using h
    simp [Pool.pack, F4.pack, this]
  | 5, h =>
    have : p.f5.isValid = false := by
      simpa [← Bool.not_eq_true, InRange, F5.isValid_iff] using h
    simp [Pool.pack, F5.pack, this]
  | 6, h =>
    have : p.f6.isValid = false := by
      simpa [← Bool.not_eq_true, InRange, F6.isValid_iff] using h
    simp [Pool.pack, F6.pack, this]
  | n + 7, _ => rfl

/-- C01: whatever two bytes arrive, a report of success comes with fields in range, and a format
number above 6 is always refused. -/
theorem C01_pool_unpack_sound (q r : Pool) (fmt b0 b1 : Nat)
    (h : q.unpack fmt b0 b1 = (r, true)) : InRange r fmt := by
  match fmt, h with
  | 0, _ => trivial
  | 1, h =>
    simp only [Pool.unpack, Prod.mk.injEq] at h
    obtain ⟨rfl, hu⟩ := h
    exact (F1.isValid_iff _).1 hu
  | 2, h =>
    simp only [Pool.unpack, Prod.mk.injEq] at h
    obtain ⟨rfl, hu⟩ := h
    exact (F2.isValid_iff _).1 hu
  | 3, h =>
    simp only [Pool.unpack, Prod.mk.injEq] at h
    obtain ⟨rfl, hu⟩ := h
    exact (F3.isValid_iff _).1 hu
  | 4, h =>
    simp only [Pool.unpack, Prod.mk.injEq] at h
    obtain ⟨rfl, hu⟩ := h
    exact (F4.isValid_iff _).1 hu
  | 5, h =>
    simp only [Pool.unpack, Prod.mk.injEq] at h
    obtain ⟨rfl, hu⟩ := h
    exact (F5.isValid_iff _).1 hu
  | 6, h =>
    simp only [Pool.unpack, Prod.mk.injEq] at h
    obtain ⟨rfl, hu⟩ := h
    exact (F6.isValid_iff _).1 hu
  | n + 7, h => simp [Pool.unpack] at h

/-- A pool in which every format is in range. -/
def samplePool : Pool where
  f1 := ⟨5, .ack, 100, 7⟩
  f2 := ⟨3, .dual, 20000, 11⟩
  f3 := ⟨1, .nack, 6, .ack, 0⟩
  f4 := ⟨0xA5, 4⟩
  f5 := ⟨2, .ack, .four, 33⟩
  f6 := ⟨7, 0, 0, 3⟩

example : ∀ fmt ≤ 6, InRange samplePool fmt := by
  intro fmt h
  match fmt, h with
  | 0, _ | 1, _ | 2, _ | 3, _ | 4, _ | 5, _ | 6, _ => simp [InRange, samplePool]
  | n + 7, h => omega

example : samplePool.pack 1 0x30 0 = .ok (0x3B, 0x48) := by decide
example : ClassFloor 64 100 := .inr ⟨6, by decide⟩
example : ¬ InRange { samplePool with f4 := ⟨256, 4⟩ } 4 := by simp [InRange]

end Verif.Feedback
