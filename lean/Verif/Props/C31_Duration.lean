import Verif.Spec.Duration
import Verif.Props.C26_MaxPacketSizes
import Mathlib.Tactic.FieldSimp
import Mathlib.Tactic.Linarith
import Mathlib.Tactic.NormNum

set_option linter.unusedSimpArgs false

/-!
# C31: Durations convert without overflow or rounding
-/

namespace Verif.Sp3.Duration

theorem seconds_divisor (k : Kind) : k.seconds * k.divisor = 1 ∧ 0 < k.divisor := by
  cases k <;> refine ⟨?_, by decide⟩ <;> norm_num [Kind.seconds, Kind.divisor]

theorem seconds_eq (k : Kind) : k.seconds = 1 / k.divisor := by
  have h := seconds_divisor k
  have : (k.divisor : ℚ) ≠ 0 := by
    have := h.2
    exact_mod_cast (by omega : k.divisor ≠ 0)
  field_simp
  exact h.1

theorem samples_eq {rate : Nat} {k : Kind} {m n : Nat} : samples rate k m = .ok n ↔
    0 < rate ∧ 0 < m ∧ rate % k.divisor = 0 ∧ n = rate / k.divisor * m ∧ n < 2147483648 := by
  have hd := (seconds_divisor k).2
  unfold samples
  simp only [Res.bind_eq_ok, Res.assert_eq_ok, decide_eq_true_eq]
  constructor
  · rintro ⟨-, h1, -, h2, -, h3, -, h4, -, h5, h6⟩
    cases h6
    exact ⟨h1, h2, h3, rfl, by omega⟩
  · rintro ⟨h1, h2, h3, rfl, h5⟩
    refine ⟨(), h1, (), h2, (), h3, (), ?_, (), by omega, rfl⟩
    exact Nat.div_pos (Nat.le_of_dvd h1 (Nat.dvd_of_mod_eq_zero h3)) hd

/-- A duration can be constructed exactly if one unit of it is a whole positive number of samples and all of it is less than
2^31 samples. Then its number of samples is the sample rate times its length in seconds. Otherwise the program is aborted. -/
theorem C31_duration {rate : Nat} {k : Kind} {m : Nat} :
    (∀ n, samples rate k m = .ok n ↔ 0 < rate ∧ 0 < m ∧ (∃ z : ℕ, (z : ℚ) = rate * k.seconds) ∧ (n : ℚ) = rate * (m * k.seconds) ∧ n < 2147483648) ∧
      samples rate k m ≠ .ub := by
  have hd := (seconds_divisor k).2
  have hdq : (k.divisor : ℚ) ≠ 0 := by exact_mod_cast (by omega : k.divisor ≠ 0)
  have hdiv : rate % k.divisor = 0 ↔ ∃ z : ℕ, (z : ℚ) = rate * k.seconds := by
    rw [seconds_eq]
    constructor
    · intro h
      refine ⟨rate / k.divisor, ?_⟩
      have := Nat.div_mul_cancel (Nat.dvd_of_mod_eq_zero h)
      rw [mul_one_div, eq_div_iff hdq]
      exact_mod_cast this
    · rintro ⟨z, hz⟩
      rw [mul_one_div, eq_div_iff hdq] at hz
      have : z * k.divisor = rate := by exact_mod_cast hz
      rw [← this]
      exact Nat.mul_mod_left _ _
  have hval : ∀ n : ℕ, rate % k.divisor = 0 → (n = rate / k.divisor * m ↔ (n : ℚ) = rate * (m * k.seconds)) := by
    intro n h
    have e : ((rate / k.divisor * m : ℕ) : ℚ) = rate * (m * k.seconds) := by
      have := Nat.div_mul_cancel (Nat.dvd_of_mod_eq_zero h)
      have e2 : ((rate / k.divisor : ℕ) : ℚ) * k.divisor = rate := by exact_mod_cast this
      rw [seconds_eq, Nat.cast_mul, ← e2]
      field_simp
    rw [← e]
    exact Nat.cast_inj.symm
  constructor
  · intro n
    rw [samples_eq, ← hdiv]
    constructor
    · rintro ⟨h1, h2, h3, h4, h5⟩
      exact ⟨h1, h2, h3, (hval n h3).mp h4, h5⟩
    · rintro ⟨h1, h2, h3, h4, h5⟩
      exact ⟨h1, h2, h3, (hval n h3).mpr h4, h5⟩
  · unfold samples Res.assert
    simp only
    split <;> [skip; simp] <;> split <;> [skip; simp] <;> split <;> [skip; simp] <;> split <;> [skip; simp] <;> split <;> simp

/-- The lookup table exists for exactly the sample rates of which every duration is a whole number of samples. -/
theorem C31_lut {rate : Nat} {l : Lut} (h : Lut.make rate = .ok l) : l.rate = rate ∧ 0 < rate ∧ rate < 2147483648 ∧
    ∀ k, (l.vec k : ℚ) = rate * k.seconds ∧ l.vec k < 2147483648 := by
  unfold Lut.make at h
  simp only [Res.bind_eq_ok] at h
  obtain ⟨a, ha, b, hb, c, hc, d, hd, e, he, f, hf, g, hg, h⟩ := h
  cases h
  have h1 := fun k n (hx : samples rate k 1 = .ok n) => (C31_duration.1 n).mp hx
  obtain ⟨r1, -, -, -, -⟩ := h1 _ _ hb
  have r2 := (h1 _ _ hb).2.2.2
  refine ⟨rfl, r1, ?_, ?_⟩
  · have : (b : ℚ) = rate := by
      have := r2.1
      simp only [Kind.seconds] at this
      push_cast at this
      linarith
    have : b = rate := by exact_mod_cast this
    have := r2.2
    omega
  · intro k
    have key : ∀ (k : Kind) (n : ℕ), samples rate k 1 = .ok n → (n : ℚ) = rate * k.seconds ∧ n < 2147483648 := by
      intro k n hn
      obtain ⟨-, -, -, h4, h5⟩ := h1 k n hn
      refine ⟨?_, h5⟩
      rw [h4]; push_cast; ring
    cases k
    · exact key _ _ ha
    · exact key _ _ hb
    · exact key _ _ hc
    · exact key _ _ hd
    · exact key _ _ he
    · exact key _ _ hf
    · exact key _ _ hg

theorem C31_lut_exists {rate : Nat} : (∃ l, Lut.make rate = .ok l) ↔ 0 < rate ∧ rate < 2147483648 ∧ rate % 192000 = 0 := by
  constructor
  · rintro ⟨l, h⟩
    have h' := C31_lut h
    unfold Lut.make at h
    simp only [Res.bind_eq_ok] at h
    obtain ⟨a, ha, b, hb, c, hc, d, hd, e, he, f, hf, g, hg, -⟩ := h
    have h1 := (samples_eq.mp ha).2.2.1
    have h2 := (samples_eq.mp hg).2.2.1
    simp only [Kind.divisor] at h1 h2
    exact ⟨h'.2.1, h'.2.2.1, by omega⟩
  · rintro ⟨h1, h2, h3⟩
    have key : ∀ k : Kind, ∃ n, samples rate k 1 = .ok n := by
      intro k
      refine ⟨rate / k.divisor * 1, samples_eq.mpr ⟨h1, by decide, ?_, rfl, ?_⟩⟩
      · cases k <;> simp only [Kind.divisor] <;> omega
      · have := Nat.div_le_self rate k.divisor
        omega
    obtain ⟨a, ha⟩ := key .ms001
    obtain ⟨b, hb⟩ := key .s001
    obtain ⟨c, hc⟩ := key .slot001
    obtain ⟨d, hd⟩ := key .subslotU1
    obtain ⟨e, he⟩ := key .subslotU2
    obtain ⟨f, hf⟩ := key .subslotU4
    obtain ⟨g, hg⟩ := key .subslotU8
    unfold Lut.make
    rw [ha, hb, hc, hd, he, hf, hg]
    exact ⟨_, rfl⟩

/-- Multiples are exact and never overflow. -/
theorem C31_from_duration {rate : Nat} {l : Lut} (h : Lut.make rate = .ok l) (k : Kind) {m : Nat} (hm : m < 4294967296) :
    ∃ n, l.fromDuration k m = .ok n ∧ (n : ℚ) = rate * (m * k.seconds) := by
  obtain ⟨-, -, -, hv⟩ := C31_lut h
  obtain ⟨h1, h2⟩ := hv k
  refine ⟨(l.vec k * m : ℕ), ?_, ?_⟩
  · have : l.vec k * m < 2147483648 * 4294967296 := Nat.mul_lt_mul'' h2 hm
    unfold Lut.fromDuration i64
    rw [if_pos]
    · push_cast; rfl
    · have e : ((l.vec k * m : ℕ) : Int) = (l.vec k : Int) * m := by push_cast; rfl
      rw [← e]
      omega
  · push_cast
    rw [h1]; ring

theorem from_subslots {l : Lut} {u : Nat} {k : Kind} (h : kindOfMu u = .ok k) (m : Nat) : l.fromSubslots u m = l.fromDuration k m := by
  unfold Lut.fromSubslots
  rw [h, Res.ok_bind]

theorem seconds_u1 : Kind.seconds .subslotU1 = 1 / 100 / 24 / (2 * (1 : ℕ)) := by norm_num [Kind.seconds]
theorem seconds_u2 : Kind.seconds .subslotU2 = 1 / 100 / 24 / (2 * (2 : ℕ)) := by norm_num [Kind.seconds]
theorem seconds_u4 : Kind.seconds .subslotU4 = 1 / 100 / 24 / (2 * (4 : ℕ)) := by norm_num [Kind.seconds]
theorem seconds_u8 : Kind.seconds .subslotU8 = 1 / 100 / 24 / (2 * (8 : ℕ)) := by norm_num [Kind.seconds]

theorem C31_from_subslots {rate : Nat} {l : Lut} (h : Lut.make rate = .ok l) {u m : Nat} (hu : u = 1 ∨ u = 2 ∨ u = 4 ∨ u = 8)
    (hm : m < 4294967296) : ∃ n, l.fromSubslots u m = .ok n ∧ (n : ℚ) = rate * (m * (1 / 100 / 24 / (2 * u))) := by
  rcases hu with rfl | rfl | rfl | rfl
  · obtain ⟨n, h1, h2⟩ := C31_from_duration h .subslotU1 hm
    exact ⟨n, by rw [from_subslots (k := .subslotU1) rfl]; exact h1, by rw [h2, seconds_u1]⟩
  · obtain ⟨n, h1, h2⟩ := C31_from_duration h .subslotU2 hm
    exact ⟨n, by rw [from_subslots (k := .subslotU2) rfl]; exact h1, by rw [h2, seconds_u2]⟩
  · obtain ⟨n, h1, h2⟩ := C31_from_duration h .subslotU4 hm
    exact ⟨n, by rw [from_subslots (k := .subslotU4) rfl]; exact h1, by rw [h2, seconds_u4]⟩
  · obtain ⟨n, h1, h2⟩ := C31_from_duration h .subslotU8 hm
    exact ⟨n, by rw [from_subslots (k := .subslotU8) rfl]; exact h1, by rw [h2, seconds_u8]⟩

theorem i64_ok {x : Int} (h : -9223372036854775808 ≤ x ∧ x < 9223372036854775808) : i64 x = .ok x := if_pos h

theorem ns_div {n r : Int} (hn : 0 ≤ n) (hr : 0 < r) : n / r * 1000000000 + n % r * 1000000000 / r = n * 1000000000 / r := by
  have e : n * 1000000000 = n / r * 1000000000 * r + n % r * 1000000000 := by
    have := Int.mul_ediv_add_emod n r
    calc n * 1000000000 = (r * (n / r) + n % r) * 1000000000 := by rw [this]
      _ = _ := by ring
  rw [e, Int.add_comm (n / r * 1000000000 * r), Int.add_mul_ediv_right _ _ (by omega), Int.add_comm]

/-- Nanoseconds are rounded down, and computed without overflow whenever the result can be represented, which is the case for
292 years of sample time; otherwise the behaviour is undefined. -/
theorem C31_ns {rate : Nat} {l : Lut} (h : Lut.make rate = .ok l) {n : Int} (h0 : 0 ≤ n) :
    l.ns n = if ⌊(n : ℚ) / rate * 1000000000⌋ < 9223372036854775808 then .ok ⌊(n : ℚ) / rate * 1000000000⌋ else .ub := by
  obtain ⟨hr, hr0, hr1, -⟩ := C31_lut h
  have hrq : (rate : ℚ) ≠ 0 := by exact_mod_cast (by omega : rate ≠ 0)
  have hfl : ⌊(n : ℚ) / rate * 1000000000⌋ = n * 1000000000 / (rate : Int) := by
    have : (n : ℚ) / rate * 1000000000 = ((n * 1000000000 : Int) : ℚ) / (rate : ℚ) := by
      push_cast; field_simp
    rw [this, Rat.floor_intCast_div_natCast (n * 1000000000) rate]
  rw [hfl]
  unfold Lut.ns
  rw [hr]
  simp only
  have hR : (0 : Int) < rate := by exact_mod_cast hr0
  rw [Int.tdiv_eq_ediv_of_nonneg h0, Int.tmod_eq_emod_of_nonneg h0, ← ns_div h0 hR]
  have hb0 := Int.emod_nonneg n (by omega : (rate : Int) ≠ 0)
  have hb1 := Int.emod_lt_of_pos n hR
  have ha0 : 0 ≤ n / (rate : Int) := Int.ediv_nonneg h0 (by omega)
  have hy0 : 0 ≤ n % (rate : Int) * 1000000000 / (rate : Int) := Int.ediv_nonneg (by omega) (by omega)
  rw [i64_ok (x := n % (rate : Int) * 1000000000) (by omega)]
  simp only [Res.ok_bind]
  rw [Int.tdiv_eq_ediv_of_nonneg (by omega : 0 ≤ n % (rate : Int) * 1000000000)]
  generalize n % (rate : Int) * 1000000000 / (rate : Int) = y at hy0
  generalize n / (rate : Int) = a at ha0
  split
  · rename_i hlt
    rw [i64_ok (x := a * 1000000000) (by omega), Res.ok_bind, i64_ok (by omega)]
  · rename_i hlt
    unfold i64
    split
    · rw [Res.ok_bind, if_neg (by omega)]
    · rfl

/-- Microseconds likewise -/
theorem C31_us {rate : Nat} {l : Lut} (h : Lut.make rate = .ok l) {n : Int} (h0 : 0 ≤ n)
    (hfit : ⌊(n : ℚ) / rate * 1000000000⌋ < 9223372036854775808) : l.us n = .ok ⌊(n : ℚ) / rate * 1000000⌋ := by
  obtain ⟨hr, hr0, hr1, -⟩ := C31_lut h
  unfold Lut.us
  rw [C31_ns h h0, if_pos hfit, Res.ok_bind]
  have hrq : (rate : ℚ) ≠ 0 := by exact_mod_cast (by omega : rate ≠ 0)
  have e1 : (n : ℚ) / rate * 1000000000 = ((n * 1000000000 : Int) : ℚ) / (rate : ℚ) := by
    push_cast; field_simp
  have e2 : (n : ℚ) / rate * 1000000 = ((n * 1000000 : Int) : ℚ) / (rate : ℚ) := by
    push_cast; field_simp
  rw [e1, e2, Rat.floor_intCast_div_natCast (n * 1000000000) rate, Rat.floor_intCast_div_natCast (n * 1000000) rate]
  rw [Int.tdiv_eq_ediv_of_nonneg (Int.ediv_nonneg (by omega) (by omega)), Int.ediv_ediv_of_nonneg (by omega)]
  congr 1
  rw [show n * 1000000000 = n * 1000000 * 1000 by ring, Int.mul_ediv_mul_of_pos_left _ _ (by omega)]

/-- The last and the next full second of a time from zero on: multiples of the sample rate less than one second away. The next
one has to be in the range of 64 bits. -/
theorem C31_full_seconds {rate : Nat} {l : Lut} (h : Lut.make rate = .ok l) {t : Int} (h0 : 0 ≤ t) (h1 : t < 9223372036854775808) :
    (∃ v, l.lastSecond t = .ok v ∧ (rate : Int) ∣ v ∧ v ≤ t ∧ t < v + rate) ∧
    ∃ v, (rate : Int) ∣ v ∧ t ≤ v ∧ v < t + rate ∧ l.nextSecond t = if v < 9223372036854775808 then .ok v else .ub := by
  obtain ⟨hr, hr0, hr1, -⟩ := C31_lut h
  have hR : (0 : Int) < rate := by exact_mod_cast hr0
  have e1 := Int.mul_ediv_add_emod t rate
  have e2 := Int.emod_nonneg t (by omega : (rate : Int) ≠ 0)
  have e3 := Int.emod_lt_of_pos t hR
  rw [Int.mul_comm] at e1
  have hle : multipleLeq t rate = .ok (t / rate * rate) := by
    unfold multipleLeq
    rw [decide_eq_true (by omega), Res.assert_true, Res.ok_bind, Int.tdiv_eq_ediv_of_nonneg h0, i64_ok]
    have : 0 ≤ t / (rate : Int) := Int.ediv_nonneg h0 (by omega)
    have : 0 ≤ t / (rate : Int) * rate := Int.mul_nonneg this (by omega)
    omega
  have hdv : (rate : Int) ∣ t / rate * rate := Int.dvd_mul_left _ _
  constructor
  · refine ⟨t / rate * rate, ?_, hdv, by omega, by omega⟩
    unfold Lut.lastSecond
    rw [hr, hle]
  · unfold Lut.nextSecond multipleGeq
    rw [hr, hle, Res.ok_bind]
    by_cases hc : t / (rate : Int) * rate < t
    · refine ⟨t / rate * rate + rate, Int.dvd_add hdv (Int.dvd_refl _), by omega, by omega, ?_⟩
      rw [if_pos hc]
      unfold i64
      by_cases hx : t / (rate : Int) * rate + rate < 9223372036854775808
      · rw [if_pos hx, if_pos (by omega)]
      · rw [if_neg hx, if_neg (by omega)]
    · refine ⟨t / rate * rate, hdv, by omega, by omega, ?_⟩
      rw [if_neg hc, if_pos (by omega)]

/-- Before time zero, which is where system time begins, the last full second is not rounded down: it lies in the future. -/
theorem C31_negation_negative_time : ∃ l, Lut.make 1920000 = .ok l ∧ l.lastSecond (-1) = .ok 0 :=
  ⟨_, rfl, rfl⟩

/-- A duration made of `m` units fits into one second a whole number of times, which is returned, or the program is aborted. -/
theorem C31_in_second {rate : Nat} {l : Lut} (h : Lut.make rate = .ok l) {k : Kind} {m d : Nat} (hd : samples rate k m = .ok d) :
    (∀ v, l.inSecond d = .ok v ↔ (v : ℚ) * (m * k.seconds) = 1) ∧ l.inSecond d ≠ .ub := by
  obtain ⟨hr, hr0, hr1, -⟩ := C31_lut h
  obtain ⟨-, h2, -, h4, h5⟩ := (C31_duration.1 d).mp hd
  have hs : 0 < k.seconds := by cases k <;> norm_num [Kind.seconds]
  have hdq : (0 : ℚ) < d := by
    rw [h4]
    have : (0 : ℚ) < rate := by exact_mod_cast hr0
    have : (0 : ℚ) < m := by exact_mod_cast h2
    positivity
  have hd0 : 0 < d := by exact_mod_cast hdq
  have hrq : (rate : ℚ) ≠ 0 := by exact_mod_cast (by omega : rate ≠ 0)
  unfold Lut.inSecond
  rw [if_neg (by omega), hr]
  constructor
  · intro v
    have e : (v : ℚ) * (m * k.seconds) = 1 ↔ v * d = rate := by
      have : (v : ℚ) * (m * k.seconds) = (v * d : ℕ) / rate := by
        push_cast; rw [h4]; field_simp
      rw [this, div_eq_one_iff_eq hrq]
      exact Nat.cast_inj
    rw [e]
    simp only [Res.bind_eq_ok, Res.assert_eq_ok, decide_eq_true_eq]
    constructor
    · rintro ⟨-, h1, h3⟩
      cases h3
      exact Nat.div_mul_cancel (Nat.dvd_of_mod_eq_zero h1)
    · intro hv
      refine ⟨(), ?_, ?_⟩
      · rw [← hv]; exact Nat.mul_mod_left _ _
      · rw [← hv, Nat.mul_div_cancel _ hd0]
  · unfold Res.assert
    split <;> simp

/-! ## Packet length -/

theorem packet_samples {q : PsDef} {r : PacketSizes} (h : getPacketSizes q = .ok (some r)) :
    r.psdef = q ∧ ((r.nSamplesPacket : ℚ) = (q.u * q.b * 1728000 : ℕ) * packetSeconds q) ∧ 0 < q.u * q.b * 1728000 ∧
      q.u * q.b * 1728000 ≤ 221184000 ∧ r.nSamplesPacket ≤ 1474560 ∧ q.pl ≤ 16 ∧
      r.nSamplesPacket ≤ q.u * q.b * 1728000 := by
  obtain ⟨hv, tm, mcs, ht, hm, -, rfl⟩ := getPacketSizes_some h
  obtain ⟨hu, hb, hp, hpl, -⟩ := valid_cases hv
  obtain ⟨hn5, hn, -⟩ := nPacketSymb_range hv
  have e : (sizesOf q tm mcs).nSamplesPacket = 72 * q.b * nPacketSymb q.u q.plt q.pl := rfl
  have hu8 : q.u ≤ 8 := by omega
  have hb16 : q.b ≤ 16 := by omega
  refine ⟨rfl, ?_, ?_, ?_, ?_, hpl.2, ?_⟩
  · rw [e, nPacketSymb_eq hu hp]
    unfold packetSeconds
    have huq : (q.u : ℚ) ≠ 0 := by exact_mod_cast (by omega : q.u ≠ 0)
    split <;> push_cast <;> field_simp <;> ring
  · have : 0 < q.u * q.b := Nat.mul_pos (by omega) (by omega)
    omega
  · have : q.u * q.b ≤ 8 * 16 := Nat.mul_le_mul hu8 hb16
    omega
  · rw [e]
    have : 72 * q.b * nPacketSymb q.u q.plt q.pl ≤ 72 * 16 * 1280 := Nat.mul_le_mul (by omega) hn
    omega
  · rw [e]
    have h1 : 72 * q.b * nPacketSymb q.u q.plt q.pl ≤ 72 * q.b * 1280 := Nat.mul_le_mul_left _ hn
    have h2 : 1 * q.b ≤ q.u * q.b := Nat.mul_le_mul_right _ (by omega)
    rw [Nat.one_mul] at h2
    calc 72 * q.b * nPacketSymb q.u q.plt q.pl ≤ 72 * q.b * 1280 := h1
      _ = q.b * 92160 := by ring
      _ ≤ q.u * q.b * 92160 := Nat.mul_le_mul_right _ h2
      _ ≤ q.u * q.b * 1728000 := Nat.mul_le_mul_left _ (by norm_num)

/-- At a hardware sample rate of at least the rate of the packet, the packet length is rounded up to whole samples. -/
theorem C31_packet_length {q : PsDef} {r : PacketSizes} (h : getPacketSizes q = .ok (some r)) {rate : Nat}
    (h1 : q.u * q.b * 1728000 ≤ rate) (h2 : rate < 4294967296) :
    ∃ n, packetLength r rate = .ok n ∧ (n : Int) = ⌈(rate : ℚ) * packetSeconds q⌉ := by
  obtain ⟨e1, e2, e3, e4, e5, e6, e7⟩ := packet_samples h
  have hBq : ((q.u * q.b * 1728000 : ℕ) : ℚ) ≠ 0 := by exact_mod_cast (by omega : q.u * q.b * 1728000 ≠ 0)
  have hsec : packetSeconds q = r.nSamplesPacket / ((q.u * q.b * 1728000 : ℕ) : ℚ) := by
    rw [e2, mul_comm]
    exact (mul_div_cancel_right₀ _ hBq).symm
  rw [hsec]
  clear e2 hsec
  unfold packetLength
  rw [e1]
  simp only
  generalize q.u * q.b * 1728000 = B at *
  generalize r.nSamplesPacket = A at *
  rw [Nat.mod_eq_of_lt (by omega : B < 4294967296), if_neg (by omega)]
  have hlow : A ≤ (A * rate + B - 1) / B := by
    rw [Nat.le_div_iff_mul_le e3]
    have := Nat.mul_le_mul_left A h1
    omega
  have hsmall : (A * rate + B - 1) / B < 4294967296 := by
    refine lt_of_lt_of_le (b := rate + 1) ?_ (by omega)
    rw [Nat.div_lt_iff_lt_mul e3, Nat.add_mul, Nat.one_mul]
    have := Nat.mul_le_mul_right rate e7
    rw [Nat.mul_comm B rate] at this
    omega
  rw [Nat.mod_eq_of_lt hsmall, decide_eq_true hlow, Res.assert_true, Res.ok_bind]
  refine ⟨_, rfl, ?_⟩
  have d1 := Nat.div_add_mod (A * rate + B - 1) B
  have d2 := Nat.mod_lt (A * rate + B - 1) e3
  generalize (A * rate + B - 1) / B = N at d1
  generalize (A * rate + B - 1) % B = R at d1 d2
  have c1 : B * N < A * rate + B := by omega
  have c2 : A * rate ≤ B * N := by omega
  have c1q : (B : ℚ) * N < A * rate + B := by exact_mod_cast c1
  have c2q : (A : ℚ) * rate ≤ B * N := by exact_mod_cast c2
  have hB0 : (0 : ℚ) < B := by exact_mod_cast e3
  symm
  rw [Int.ceil_eq_iff]
  constructor
  · push_cast
    rw [← mul_div_assoc, lt_div_iff₀ hB0]
    nlinarith
  · push_cast
    rw [← mul_div_assoc, div_le_iff₀ hB0]
    nlinarith

/-- The length of a TX buffer, `PacketLength` slots, suffices for every packet of at most as many slots or subslots. -/
theorem C31_packet_length_max {q q' : PsDef} {r r' : PacketSizes} (h : getPacketSizes q = .ok (some r)) (h' : getPacketSizes q' = .ok (some r'))
    (hpl : q'.pl ≤ q.pl) {rate n n' : Nat} (hn : packetLengthMax r rate = .ok n) (h1 : q'.u * q'.b * 1728000 ≤ rate)
    (h2 : rate < 4294967296) (hn' : packetLength r' rate = .ok n') : n' ≤ n := by
  obtain ⟨e1, -, -, -, -, e6, -⟩ := packet_samples h
  obtain ⟨m, hm1, hm2⟩ := C31_packet_length h' h1 h2
  rw [hn'] at hm1
  cases hm1
  unfold packetLengthMax at hn
  rw [Res.bind_eq_ok] at hn
  obtain ⟨d, hd, hn⟩ := hn
  cases hn
  obtain ⟨-, -, -, h4, h5⟩ := (C31_duration.1 d).mp hd
  rw [e1]
  obtain ⟨-, -, -, hd5⟩ := samples_eq.mp hd
  simp only [Kind.divisor] at hd5
  have hsm : q.pl * d < 4294967296 := by
    have : q.pl * d ≤ 16 * d := Nat.mul_le_mul_right _ e6
    omega
  rw [Nat.mod_eq_of_lt hsm]
  have : (n' : Int) ≤ (q.pl * d : ℕ) := by
    rw [hm2, Int.ceil_le]
    push_cast
    rw [h4]
    simp only [Kind.seconds]
    push_cast
    have hr : (0 : ℚ) ≤ rate := Nat.cast_nonneg _
    have hp : (q'.pl : ℚ) ≤ q.pl := by exact_mod_cast hpl
    have hp0 : (0 : ℚ) ≤ q'.pl := Nat.cast_nonneg _
    have hs : packetSeconds q' ≤ q.pl * (1 / 100 / 24) := by
      obtain ⟨hv, -⟩ := getPacketSizes_some h'
      obtain ⟨hu, -⟩ := valid_cases hv
      have hu1 : (1 : ℚ) ≤ q'.u := by exact_mod_cast (by omega : 1 ≤ q'.u)
      unfold packetSeconds
      split
      · refine mul_le_mul hp ?_ (by positivity) (by positivity)
        rw [div_le_iff₀ (by positivity)]
        linarith
      · exact mul_le_mul_of_nonneg_right hp (by norm_num)
    have := mul_le_mul_of_nonneg_left hs hr
    linarith
  exact_mod_cast this

/-- A subslot at 30.72 MHz, an uneven number of nanoseconds, and a packet of 7 subslots at 7.68 MHz, rounded up -/
theorem C31_example : samples 30720000 .subslotU8 3 = .ok 2400 ∧ samples 1000000 .slot001 1 = .abort ∧
    (Lut.make 1920000 >>= fun l => l.ns 7) = .ok 3645 ∧ (Lut.make 1920000 >>= fun l => l.lastSecond 1920001) = .ok 1920000 ∧
    (Lut.make 1920000 >>= fun l => l.nextSecond 1920001) = .ok 3840000 := by
  decide +kernel

theorem C31_example_packet : ∃ r, getPacketSizes ⟨4, 1, 0, 7, 0, 2, 2048⟩ = .ok (some r) ∧ packetLength r 7690000 = .ok 2804 := by
  refine ⟨⟨⟨4, 1, 0, 7, 0, 2, 2048⟩, ⟨2, 3, 4⟩, ⟨1, 1, false, 1, 1⟩, 35, 1596, 3192, 2394, 2296, 287, 2, 32, 98, 72, 144, 80, 2304, 72, 2448, 2520⟩, ?_⟩
  decide +kernel

end Verif.Sp3.Duration
