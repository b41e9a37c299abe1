import Verif.Model.FixedMessages
import Verif.Lemma.Enum
import Verif.Lemma.Plcf
import Mathlib.Tactic.Linarith

set_option linter.unusedSimpArgs false

/-!
# C11, C45: messages of fixed size

For each message: the bytes for every message with fields in range, the size, recovery with any
bytes behind it, abort out of range, and totality of the receiver: with the announced number of
bytes, whatever they are, unpacking ends, and it reports success exactly if the fields it found
are in range.
-/

namespace Verif.Mac
open BitByte

theorem b2lLower_append {w n x : Nat} (hn : n ≤ w) (hx : x < 256 ^ n) (r : List Nat) :
    b2lLower w (beBytes n x ++ r) n = .ok x := by
  rw [b2lLower_eq _ hn (by simp [beBytes_length])]
  rw [List.take_append_of_le_length (by simp [beBytes_length]),
    List.take_of_length_le (by simp [beBytes_length]), ofBE_beBytes, Nat.mod_eq_of_lt hx]

theorem b2lLower_lt {w n : Nat} (hn : n ≤ w) {p : List Nat} (hp : Bytes p) (h : n ≤ p.length) :
    ∃ x < 256 ^ n, ∀ q, b2lLower w (p ++ q) n = .ok x := by
  refine ⟨ofBE (p.take n), ?_, fun q => ?_⟩
  · have := ofBE_lt (p.take n) fun b hb => hp b (List.mem_of_mem_take hb)
    rwa [List.length_take, Nat.min_eq_left h] at this
  · rw [b2lLower_eq _ hn (by simp; omega), List.take_append_of_le_length h]

/-! ## Association release -/

/-- C45: association release, layout and round trip. -/
theorem C45_release (m : AssociationRelease) (h : m.cause ≤ 9) (rest : List Nat) :
    m.pack = .ok [m.cause * 16] ∧ m.packedSize = 1 ∧ m.cause * 16 < 256 ∧
      AssociationRelease.unpack ([m.cause * 16] ++ rest) = .ok (m, true) := by
  have hv : m.isValid = true := enumValid_of_lt (by omega) (by omega)
  refine ⟨?_, rfl, by omega, ?_⟩
  · simp only [AssociationRelease.pack, hv, Res.assert_true, Res.ok_bind, Res.pure_eq]
    congr 2
    bitsg; omega
  · have e : (m.cause * 16) >>> 4 = m.cause := by bitsg; omega
    simp only [AssociationRelease.unpack, List.cons_append, rd_zero, Res.ok_bind, Res.pure_eq, e,
      enumFrom_of_lt (show m.cause < 10 by omega)]
    rw [show (⟨m.cause⟩ : AssociationRelease) = m from rfl, hv]

theorem C45_release_abort (m : AssociationRelease) (ht : EnumVal 10 m.cause) (h : ¬ m.cause ≤ 9) :
    m.pack = .abort := by
  have : m.isValid = false := by
    rw [← Bool.not_eq_true, AssociationRelease.isValid, enumValid_iff ht (by omega)]; omega
  simp [AssociationRelease.pack, this]

theorem C45_release_total (b : Nat) (hb : b < 256) :
    ∃ m ok, (∀ q, AssociationRelease.unpack (b :: q) = .ok (m, ok)) ∧
      (ok = true ↔ m.cause ≤ 9) ∧ (ok = true ↔ b / 16 ≤ 9) ∧ (ok = true → m.cause = b / 16) := by
  have e : b >>> 4 = b / 16 := by bitsg
  refine ⟨⟨enumFrom 10 (b >>> 4)⟩, _, fun q => rfl, ?_, ?_, ?_⟩
  · rw [AssociationRelease.isValid, enumValid_iff (enumVal_from _ _) (by omega)]
    exact Nat.lt_succ_iff
  · rw [AssociationRelease.isValid, enumValid_iff (enumVal_from _ _) (by omega), e]
    unfold enumFrom undef32; split <;> omega
  · rw [AssociationRelease.isValid, enumValid_iff (enumVal_from _ _) (by omega), e]
    unfold enumFrom undef32; split <;> simp <;> omega

/-! ## Radio device status -/

structure StatusOk (m : RadioDeviceStatus) : Prop where
  flag : 1 ≤ m.flag ∧ m.flag ≤ 2
  duration : m.duration ≤ 11

theorem RadioDeviceStatus.isValid_iff {m : RadioDeviceStatus} (h1 : EnumValL 0 3 m.flag)
    (h2 : EnumVal 12 m.duration) : m.isValid = true ↔ StatusOk m := by
  simp only [isValid, Bool.and_eq_true, enumValidL_iff h1 (by omega : 3 ≤ 1000),
    enumValid_iff h2 (by omega : 12 ≤ 1000)]
  exact ⟨fun h => ⟨by omega, by omega⟩, fun h => ⟨⟨by have := h.flag; omega, by have := h.flag; omega⟩,
    by have := h.duration; omega⟩⟩

/-- C45: radio device status, layout and round trip. -/
theorem C45_status (m : RadioDeviceStatus) (h : StatusOk m) (rest : List Nat) :
    m.pack = .ok [m.flag * 16 + m.duration] ∧ m.packedSize = 1 ∧ m.flag * 16 + m.duration < 256 ∧
      RadioDeviceStatus.unpack ([m.flag * 16 + m.duration] ++ rest) = .ok (m, true) := by
  have h1 := h.flag
  have h2 := h.duration
  have hv : m.isValid = true :=
    (RadioDeviceStatus.isValid_iff (Or.inl (by omega)) (Or.inl (by omega))).2 h
  refine ⟨?_, rfl, by omega, ?_⟩
  · simp only [RadioDeviceStatus.pack, hv, Res.assert_true, Res.ok_bind, Res.pure_eq]
    congr 2
    bitsg; omega
  · have e : (m.flag * 16 + m.duration) >>> 4 &&& 3 = m.flag := by bitsg; omega
    have e' : (m.flag * 16 + m.duration) &&& 15 = m.duration := by bitsg; omega
    simp only [RadioDeviceStatus.unpack, List.cons_append, rd_zero, Res.ok_bind, Res.pure_eq, e, e',
      enumFrom_of_lt (show m.duration < 12 by omega),
      enumFromL_of (show 0 < m.flag by omega) (show m.flag < 3 by omega)]
    rw [show (⟨m.flag, m.duration⟩ : RadioDeviceStatus) = m from rfl, hv]

theorem C45_status_abort (m : RadioDeviceStatus) (h1 : EnumValL 0 3 m.flag)
    (h2 : EnumVal 12 m.duration) (h : ¬ StatusOk m) : m.pack = .abort := by
  have : m.isValid = false := by
    rw [← Bool.not_eq_true, RadioDeviceStatus.isValid_iff h1 h2]; exact h
  simp [RadioDeviceStatus.pack, this]

theorem C45_status_total (b : Nat) (hb : b < 256) :
    ∃ m ok, (∀ q, RadioDeviceStatus.unpack (b :: q) = .ok (m, ok)) ∧ (ok = true ↔ StatusOk m) ∧
      (ok = true ↔ 1 ≤ b / 16 % 4 ∧ b / 16 % 4 ≤ 2 ∧ b % 16 ≤ 11) ∧
      (ok = true → m.flag = b / 16 % 4 ∧ m.duration = b % 16) := by
  have e : b >>> 4 &&& 3 = b / 16 % 4 := by bitsg
  have e' : b &&& 15 = b % 16 := by bitsg
  have key := RadioDeviceStatus.isValid_iff
    (m := ⟨enumFromL 0 3 (b >>> 4 &&& 3), enumFrom 12 (b &&& 15)⟩) (enumValL_from _ _ _)
    (enumVal_from _ _)
  refine ⟨_, _, fun q => rfl, key, ?_, ?_⟩
  · rw [key, e, e']
    constructor
    · rintro ⟨⟨h1, h2⟩, h3⟩
      revert h1 h2 h3
      unfold enumFrom enumFromL undef32; simp only; split <;> split <;> omega
    · intro h
      rw [enumFrom_of_lt (by omega), enumFromL_of (by omega) (by omega)]
      exact ⟨by simp only; omega, by simp only; omega⟩
  · rw [key, e, e']
    rintro ⟨⟨h1, h2⟩, h3⟩
    revert h1 h2 h3
    unfold enumFrom enumFromL undef32; simp only; split <;> split <;> omega

/-! ## Route info -/

structure RouteOk (m : RouteInfo) : Prop where
  sink : m.sink < 2 ^ 32
  cost : m.cost < 256
  seq : m.seq < 256

/-- C45: route info, layout and round trip. -/
theorem C45_route (m : RouteInfo) (h : RouteOk m) :
    m.pack = .ok (beBytes 4 m.sink ++ [m.cost, m.seq]) ∧ m.packedSize = 6 ∧
      Bytes (beBytes 4 m.sink ++ [m.cost, m.seq]) ∧
      ∀ rest, RouteInfo.unpack ((beBytes 4 m.sink ++ [m.cost, m.seq]) ++ rest) = .ok (m, true) := by
  obtain ⟨h1, h2, h3⟩ := h
  have hv : m.isValid = true := by simp [RouteInfo.isValid]; omega
  refine ⟨?_, rfl, ?_, fun rest => ?_⟩
  · simp only [RouteInfo.pack, hv, Res.assert_true, Res.ok_bind, Res.pure_eq,
      l2bLower_eq _ (Nat.le_refl 4)]
    rw [u8, u8, Nat.mod_eq_of_lt h2, Nat.mod_eq_of_lt h3]
  · intro b hb
    simp only [List.mem_append, List.mem_cons, List.not_mem_nil, or_false] at hb
    rcases hb with hb | rfl | rfl
    · exact beBytes_bytes _ _ _ hb
    · exact h2
    · exact h3
  · unfold RouteInfo.unpack
    rw [List.append_assoc, b2lLower_append (Nat.le_refl 4) (by omega)]
    simp only [Res.ok_bind]
    have e1 : rd (beBytes 4 m.sink ++ ([m.cost, m.seq] ++ rest)) 4 = .ok m.cost := by
      rw [rd, List.getElem?_append_right (by simp [beBytes_length])]; simp [beBytes_length]
    have e2 : rd (beBytes 4 m.sink ++ ([m.cost, m.seq] ++ rest)) 5 = .ok m.seq := by
      rw [rd, List.getElem?_append_right (by simp [beBytes_length])]; simp [beBytes_length]
    rw [e1, e2]
    rfl

theorem C45_route_abort (m : RouteInfo) (h : 256 ≤ m.cost ∨ 256 ≤ m.seq) : m.pack = .abort := by
  have : m.isValid = false := by
    simp only [RouteInfo.isValid, Bool.and_eq_false_iff, decide_eq_false_iff_not]; omega
  simp [RouteInfo.pack, this]

/-- Every six bytes are a valid route info. -/
theorem C45_route_total (p : List Nat) (hp : Bytes p) (h : p.length = 6) :
    ∃ m, (∀ q, RouteInfo.unpack (p ++ q) = .ok (m, true)) ∧ RouteOk m := by
  obtain ⟨x, hx, e⟩ := b2lLower_lt (Nat.le_refl 4) hp (by omega)
  match p, h with
  | [a, b, c, d, f, g], _ =>
    refine ⟨⟨x, f, g⟩, fun q => ?_, by simpa using hx, hp f (by simp), hp g (by simp)⟩
    rw [RouteInfo.unpack, e]
    rfl

/-! ## MAC security info -/

structure SecurityOk (m : SecurityInfo) : Prop where
  key : m.key ≤ 3
  iv : m.iv ≤ 2
  hpc : m.hpc < 2 ^ 32

/-- C45: MAC security info, layout and round trip. -/
theorem C45_security (m : SecurityInfo) (h : SecurityOk m) :
    m.pack = .ok ((m.key * 16 + m.iv) :: beBytes 4 m.hpc) ∧ m.packedSize = 5 ∧
      Bytes ((m.key * 16 + m.iv) :: beBytes 4 m.hpc) ∧
      ∀ rest, SecurityInfo.unpack (((m.key * 16 + m.iv) :: beBytes 4 m.hpc) ++ rest) =
        .ok (m, true) := by
  obtain ⟨h1, h2, h3⟩ := h
  have hv : m.isValid = true := by
    simp [SecurityInfo.isValid, enumValid_of_lt (show m.iv < 3 by omega)]; omega
  refine ⟨?_, rfl, ?_, fun rest => ?_⟩
  · have e : u8 (u8 (u8 (0 <<< 6) ||| m.key <<< 4) ||| m.iv) = m.key * 16 + m.iv := by
      bitsg; omega
    simp only [SecurityInfo.pack, hv, Res.assert_true, Res.ok_bind, Res.pure_eq,
      l2bLower_eq _ (Nat.le_refl 4), e]
  · intro b hb
    rcases List.mem_cons.1 hb with rfl | hb
    · omega
    · exact beBytes_bytes _ _ _ hb
  · have e1 : (m.key * 16 + m.iv) >>> 6 = 0 := by bitsg; omega
    have e2 : (m.key * 16 + m.iv) >>> 4 &&& 3 = m.key := by bitsg; omega
    have e3 : (m.key * 16 + m.iv) &&& 15 = m.iv := by bitsg; omega
    simp only [SecurityInfo.unpack, List.cons_append, rd_zero, Res.ok_bind, e1, e2, e3,
      List.drop_succ_cons, List.drop_zero, ne_eq, not_true_eq_false, if_false]
    rw [b2lLower_append (Nat.le_refl 4) (by omega)]
    simp only [Res.ok_bind, enumFrom_of_lt (show m.iv < 3 by omega), Res.pure_eq]
    rw [show (⟨m.key, m.iv, m.hpc⟩ : SecurityInfo) = m from rfl, hv]

theorem C45_security_abort (m : SecurityInfo) (ht : EnumVal 3 m.iv) (h : 4 ≤ m.key ∨ 3 ≤ m.iv) :
    m.pack = .abort := by
  have : m.isValid = false := by
    rw [← Bool.not_eq_true, SecurityInfo.isValid, Bool.and_eq_true, enumValid_iff ht (by omega),
      decide_eq_true_iff]
    omega
  simp [SecurityInfo.pack, this]

/-- Any five bytes: accepted exactly if the version is mode 1 and the IV type is assigned. -/
theorem C45_security_total (p : List Nat) (hp : Bytes p) (h : p.length = 5) :
    ∃ m ok, (∀ q, SecurityInfo.unpack (p ++ q) = .ok (m, ok)) ∧ (ok = true ↔ SecurityOk m) ∧
      (ok = true ↔ p[0]! / 64 = 0 ∧ p[0]! % 16 ≤ 2) ∧
      (ok = true → m.key = p[0]! / 16 % 4 ∧ m.iv = p[0]! % 16 ∧ m.hpc = ofBE (p.drop 1)) := by
  match p, h with
  | b :: l, h =>
    simp only [List.length_cons] at h
    have hl : Bytes l := fun c hc => hp c (by simp [hc])
    have hb : b < 256 := hp b (by simp)
    have e1 : b >>> 6 = b / 64 := by bitsg
    have e2 : b >>> 4 &&& 3 = b / 16 % 4 := by bitsg
    have e3 : b &&& 15 = b % 16 := by bitsg
    have e4 : ∀ q, b2lLower 4 (l ++ q) 4 = .ok (ofBE l) := by
      intro q
      rw [b2lLower_eq _ (Nat.le_refl 4) (by simp; omega), List.take_append_of_le_length (by omega),
        List.take_of_length_le (by omega)]
    have hx : ofBE l < 2 ^ 32 := by
      have := ofBE_lt l hl
      rw [show l.length = 4 by omega] at this
      simpa using this
    by_cases hb6 : b / 64 = 0
    · refine ⟨⟨b / 16 % 4, enumFrom 3 (b % 16), ofBE l⟩, _, fun q => by
        simp only [SecurityInfo.unpack, List.cons_append, rd_zero, Res.ok_bind, e1, e2, e3, hb6,
          List.drop_succ_cons, List.drop_zero, ne_eq, not_true_eq_false, if_false, e4, Res.pure_eq]
        rfl, ?_, ?_, ?_⟩
      all_goals
        simp only [SecurityInfo.isValid, Bool.and_eq_true, decide_eq_true_iff,
          enumValid_iff (enumVal_from 3 (b % 16)) (by omega : 3 ≤ 1000)]
      · constructor
        · rintro ⟨h1, h2⟩
          exact ⟨h1, by simp only; omega, hx⟩
        · rintro ⟨h1, h2, -⟩
          simp only at h1 h2
          omega
      · simp only [List.getElem!_cons_zero]
        unfold enumFrom undef32; split <;> omega
      · simp only [List.getElem!_cons_zero, List.drop_succ_cons, List.drop_zero]
        unfold enumFrom undef32; split
        · intro _; simp
        · intro hc; omega
    · refine ⟨SecurityInfo.zero, false, fun q => by
        simp only [SecurityInfo.unpack, List.cons_append, rd_zero, Res.ok_bind, e1, ne_eq, hb6,
          not_false_eq_true, if_true, Res.pure_eq], ?_, ?_, by simp⟩
      · simp only [Bool.false_eq_true, false_iff]
        rintro ⟨h1, -, -⟩
        simp [SecurityInfo.zero, undef32] at h1
      · simp only [List.getElem!_cons_zero]
        constructor
        · intro h; cases h
        · intro h; omega

/-! ## Power target -/

/-- C11: power target, layout and round trip. -/
theorem C11_power (m : PowerTarget) (h : 45 ≤ m.coded ∧ m.coded ≤ 60) (rest : List Nat) :
    m.pack = .ok [m.coded] ∧ m.packedSize = 1 ∧
      PowerTarget.unpack ([m.coded] ++ rest) = .ok (m, true) := by
  have hv : m.isValid = true := by simp [PowerTarget.isValid]; omega
  refine ⟨?_, rfl, ?_⟩
  · simp only [PowerTarget.pack, hv, Res.assert_true, Res.ok_bind, Res.pure_eq]
    congr 2
    bitsg; omega
  · simp only [PowerTarget.unpack, List.cons_append, rd_zero, Res.ok_bind, Res.pure_eq]
    rw [show (⟨m.coded⟩ : PowerTarget) = m from rfl, hv]

theorem C11_power_abort (m : PowerTarget) (h : ¬ (45 ≤ m.coded ∧ m.coded ≤ 60)) :
    m.pack = .abort := by
  have : m.isValid = false := by
    rw [← Bool.not_eq_true]; simpa [PowerTarget.isValid] using h
  simp [PowerTarget.pack, this]

theorem C11_power_total (b : Nat) :
    ∃ ok, (∀ q, PowerTarget.unpack (b :: q) = .ok (⟨b⟩, ok)) ∧ (ok = true ↔ 45 ≤ b ∧ b ≤ 60) := by
  refine ⟨_, fun q => rfl, ?_⟩
  simp [PowerTarget.isValid]

/-- C11: a requested power below zero, in the supported range, is transferred with an error of at
most half a dB. -/
theorem C11_power_dbm (x : ℚ) (h1 : -121 / 2 < x) (h2 : x ≤ -89 / 2) (rest : List Nat) :
    ∃ l m, (PowerTarget.setDbm x).pack = .ok l ∧ PowerTarget.unpack (l ++ rest) = .ok (m, true) ∧
      |m.getDbm - x| ≤ 1 / 2 := by
  have hx : |x| = -x := abs_of_neg (by linarith)
  obtain ⟨f1, f2⟩ := Int.floor_eq_iff.1 (rfl : ⌊|x| + 1 / 2⌋ = ⌊|x| + 1 / 2⌋)
  have g1 : (45 : ℤ) ≤ ⌊|x| + 1 / 2⌋ := Int.le_floor.2 (by push_cast; rw [hx]; linarith)
  have g2 : ⌊|x| + 1 / 2⌋ < 61 := Int.floor_lt.2 (by push_cast; rw [hx]; linarith)
  have hc : (PowerTarget.setDbm x).coded = ⌊|x| + 1 / 2⌋.toNat := rfl
  have hok : 45 ≤ (PowerTarget.setDbm x).coded ∧ (PowerTarget.setDbm x).coded ≤ 60 := by omega
  obtain ⟨e1, -, e2⟩ := C11_power _ hok rest
  refine ⟨_, _, e1, e2, ?_⟩
  have : ((PowerTarget.setDbm x).coded : ℚ) = (⌊|x| + 1 / 2⌋ : ℚ) := by
    rw [hc]
    have : ((⌊|x| + 1 / 2⌋.toNat : ℤ)) = ⌊|x| + 1 / 2⌋ := Int.toNat_of_nonneg (by omega)
    exact_mod_cast this
  unfold PowerTarget.getDbm
  rw [this, abs_le]
  rw [hx] at f1 f2 ⊢
  constructor <;> linarith

/-- C11, finding: the sign of the requested power is ignored: +50 dBm is accepted and read back as
-50 dBm. -/
theorem C11_power_sign : (PowerTarget.setDbm 50).pack = .ok [50] ∧
    PowerTarget.unpack [50] = .ok (⟨50⟩, true) ∧ (⟨50⟩ : PowerTarget).getDbm = -50 := by
  refine ⟨?_, by decide, by simp [PowerTarget.getDbm]⟩
  have : PowerTarget.setDbm 50 = ⟨50⟩ := by
    unfold PowerTarget.setDbm
    congr 1
    have : ⌊|(50 : ℚ)| + 1 / 2⌋ = 50 := by
      rw [Int.floor_eq_iff, abs_of_pos (by norm_num)]; norm_num
    rw [this]; rfl
  rw [this]
  decide

/-! ## Time announce -/

structure TimeOk (m : TimeAnnounce) : Prop where
  type : m.type ≤ 2
  frames : m.frames < 256
  sec : 0 ≤ m.fullSec ∧ m.fullSec < 2 ^ 63
  tai : m.taiMinusUtc < 256

theorem TimeAnnounce.isValid_iff {m : TimeAnnounce} (ht : EnumVal 3 m.type)
    (hs : m.fullSec < 2 ^ 63) : m.isValid = true ↔ TimeOk m := by
  have e := enumValid_iff ht (by omega : 3 ≤ 1000)
  unfold isValid
  by_cases h1 : m.type < 3
  · rw [e.2 h1]
    by_cases h2 : 255 < m.frames
    · simp only [Bool.not_true, Bool.false_eq_true, if_false, h2, if_true, false_iff]
      intro h; have := h.frames; omega
    · by_cases h3 : m.fullSec < 0
      · simp only [Bool.not_true, Bool.false_eq_true, if_false, h2, h3, if_true, false_iff]
        intro h; have := h.sec; omega
      · by_cases h4 : 255 < m.taiMinusUtc
        · simp only [Bool.not_true, Bool.false_eq_true, if_false, h2, h3, h4, if_true, false_iff]
          intro h; have := h.tai; omega
        · simp only [Bool.not_true, Bool.false_eq_true, if_false, h2, h3, h4, true_iff]
          exact ⟨by omega, by omega, by omega, by omega⟩
  · have : enumValid 3 m.type = false := by rw [← Bool.not_eq_true, e]; exact h1
    rw [this]
    simp only [Bool.not_false, if_true, Bool.false_eq_true, false_iff]
    intro h; have := h.type; omega

def timeBytes (m : TimeAnnounce) : List Nat :=
  [m.type, m.frames] ++ beBytes 8 m.fullSec.toNat ++ [m.taiMinusUtc]

/-- C11: time announce, layout and round trip. -/
theorem C11_time (m : TimeAnnounce) (h : TimeOk m) :
    m.pack = .ok (timeBytes m) ∧ (timeBytes m).length = m.packedSize ∧ Bytes (timeBytes m) ∧
      ∀ rest, TimeAnnounce.unpack (timeBytes m ++ rest) = .ok (m, true) := by
  have hv : m.isValid = true :=
    (TimeAnnounce.isValid_iff (Or.inl (by have := h.type; omega)) h.sec.2).2 h
  obtain ⟨h1, h2, h3, h4⟩ := h
  have hs : (m.fullSec % 2 ^ 64).toNat = m.fullSec.toNat := by omega
  have hlen : (timeBytes m).length = 11 := by simp [timeBytes, beBytes_length]
  refine ⟨?_, hlen, ?_, fun rest => ?_⟩
  · simp only [TimeAnnounce.pack, hv, Res.assert_true, Res.ok_bind, Res.pure_eq, hs,
      l2bLower_eq _ (Nat.le_refl 8), timeBytes]
    rw [u8, u8, u8, Nat.mod_eq_of_lt h2, Nat.mod_eq_of_lt h4, Nat.mod_eq_of_lt (by omega)]
  · intro b hb
    simp only [timeBytes, List.mem_append, List.mem_cons, List.not_mem_nil, or_false] at hb
    rcases hb with ((rfl | rfl) | hb) | rfl
    · omega
    · exact h2
    · exact beBytes_bytes _ _ _ hb
    · exact h4
  · have e1 : b2lLower 8 ((timeBytes m ++ rest).drop 2) 8 = .ok m.fullSec.toNat := by
      have := b2lLower_append (Nat.le_refl 8) (show m.fullSec.toNat < 256 ^ 8 by omega)
        ([m.taiMinusUtc] ++ rest)
      simpa [timeBytes] using this
    have e2 : rd (timeBytes m ++ rest) 10 = .ok m.taiMinusUtc := by
      simp only [rd, timeBytes, List.append_assoc]
      rw [List.getElem?_append_right (by simp), List.getElem?_append_right (by simp [beBytes_length])]
      simp [beBytes_length]
    have e3 : toI64 m.fullSec.toNat = m.fullSec := by
      unfold toI64
      rw [Nat.mod_eq_of_lt (by omega), if_pos (by omega)]
      omega
    unfold TimeAnnounce.unpack
    rw [e1, e2]
    simp only [timeBytes, List.cons_append, List.nil_append, rd_zero, rd_succ, Res.ok_bind, e3,
      Res.pure_eq, enumFrom_of_lt (show m.type < 3 by omega)]
    rw [show (⟨m.type, m.frames, m.fullSec, m.taiMinusUtc⟩ : TimeAnnounce) = m from rfl, hv]

theorem C11_time_abort (m : TimeAnnounce) (ht : EnumVal 3 m.type) (hs : m.fullSec < 2 ^ 63)
    (h : ¬ TimeOk m) : m.pack = .abort := by
  have : m.isValid = false := by
    rw [← Bool.not_eq_true, TimeAnnounce.isValid_iff ht hs]; exact h
  simp [TimeAnnounce.pack, this]

/-- Any eleven bytes: the receiver ends; success exactly if the fields are in range; the sign bit of
the seconds makes the message invalid. -/
theorem C11_time_total (p : List Nat) (hp : Bytes p) (h : p.length = 11) :
    ∃ m ok, (∀ q, TimeAnnounce.unpack (p ++ q) = .ok (m, ok)) ∧ (ok = true ↔ TimeOk m) ∧
      (ok = true ↔ p[0]! ≤ 2 ∧ p[2]! < 128) := by
  match p, h with
  | [t, n, a, b, c, d, e, f, g, i, u], _ =>
    have hb : ∀ x ∈ [t, n, a, b, c, d, e, f, g, i, u], x < 256 := hp
    simp only [List.mem_cons, List.not_mem_nil, or_false, forall_eq_or_imp, forall_eq] at hb
    obtain ⟨h1, h2, h3, h4, h5, h6, h7, h8, h9, h10, h11⟩ := hb
    have hx : ∀ q, b2lLower 8 (a :: b :: c :: d :: e :: f :: g :: i :: u :: q) 8 =
        .ok (ofBE [a, b, c, d, e, f, g, i]) := by
      intro q
      rw [b2lLower_eq _ (Nat.le_refl 8) (by simp)]
      rfl
    have hv : ofBE [a, b, c, d, e, f, g, i] = a * 2 ^ 56 + (b * 2 ^ 48 + c * 2 ^ 40 + d * 2 ^ 32 +
        e * 2 ^ 24 + f * 2 ^ 16 + g * 2 ^ 8 + i) := by
      simp [ofBE]; omega
    have hi : toI64 (ofBE [a, b, c, d, e, f, g, i]) < 2 ^ 63 := by unfold toI64; split <;> omega
    have hi' : 0 ≤ toI64 (ofBE [a, b, c, d, e, f, g, i]) ↔ a < 128 := by
      rw [hv]; unfold toI64; split <;> omega
    have key := TimeAnnounce.isValid_iff
      (m := ⟨enumFrom 3 t, n, toI64 (ofBE [a, b, c, d, e, f, g, i]), u⟩) (enumVal_from _ _) hi
    refine ⟨⟨enumFrom 3 t, n, toI64 (ofBE [a, b, c, d, e, f, g, i]), u⟩, _, fun q => ?_, key, ?_⟩
    · simp only [TimeAnnounce.unpack, List.cons_append, List.nil_append, rd_zero, rd_succ,
        Res.ok_bind, List.drop_succ_cons, List.drop_zero, hx, Res.pure_eq]
    · rw [key]
      simp only [List.getElem!_cons_zero, List.getElem!_cons_succ]
      constructor
      · rintro ⟨k1, k2, k3, k4⟩
        simp only at k1 k2 k3 k4
        refine ⟨?_, hi'.1 k3.1⟩
        revert k1
        unfold enumFrom undef32; split <;> omega
      · rintro ⟨k1, k2⟩
        exact ⟨by simp only [enumFrom_of_lt (show t < 3 by omega)]; omega, h2,
          ⟨hi'.2 k2, hi⟩, h11⟩

/-- C11: `set_time` with a number of frames from 0 to 255 and a nonnegative time gives a message that
can be packed; a negative number of frames is not silently wrapped: packing aborts. -/
theorem C11_set_time (t : Nat) (n s : Int) (ht : t ≤ 2) (hn : -2 ^ 31 ≤ n ∧ n < 2 ^ 31)
    (hs : s < 2 ^ 63) :
    (0 ≤ n ∧ n ≤ 255 ∧ 0 ≤ s →
      (TimeAnnounce.setTime t n s).pack = .ok (t :: n.toNat :: (beBytes 8 s.toNat ++ [0]))) ∧
    (¬ (0 ≤ n ∧ n ≤ 255 ∧ 0 ≤ s) → (TimeAnnounce.setTime t n s).pack = .abort) := by
  constructor
  · rintro ⟨h1, h2, h3⟩
    have e : TimeAnnounce.setTime t n s = ⟨t, n.toNat, s, 0⟩ := by
      unfold TimeAnnounce.setTime
      congr 1
      omega
    rw [e, (C11_time ⟨t, n.toNat, s, 0⟩ ⟨ht, by simp only; omega, ⟨h3, hs⟩, by simp⟩).1]
    simp [timeBytes]
  · intro h
    refine C11_time_abort _ (Or.inl (by simp only [TimeAnnounce.setTime]; omega)) hs ?_
    rintro ⟨k1, k2, k3, k4⟩
    simp only [TimeAnnounce.setTime] at k1 k2 k3 k4
    omega

example : TimeOk ⟨2, 99, 2 ^ 62 + 12345, 37⟩ := ⟨by decide, by decide, by decide, by decide⟩
example : SecurityOk ⟨3, 2, 0xFFFFFFFF⟩ := ⟨by decide, by decide, by decide⟩
example : RouteOk ⟨0xDEADBEEF, 255, 0⟩ := ⟨by decide, by decide, by decide⟩
example : StatusOk ⟨2, 11⟩ := ⟨by decide, by decide⟩

end Verif.Mac
