import Verif.Lemma.TimeBase
import Verif.Spec.Allocation

/-!
# C34: Beacon and pulse time bases stay on their raster -/

namespace Verif.Props.C34

open Verif.Mac.Allocation Verif.Mac.TimeBase Verif.Spec.Allocation
open Verif.Sp3.Duration (i64)

set_option linter.unusedSimpArgs false

/-- `n` beacons in a row -/
def beacons : Nat → Ft → Res Ft
  | 0, f => .ok f
  | n + 1, f => do
    let f' ← beacons n f
    f'.setNext

/-- Beacons are exactly one period apart: after `n` beacons the next one is scheduled `n` periods after the first, the
last one was transmitted one period before that, and the counter is `n`; as long as times can be represented. -/
theorem C34_beacons (period prepare : Nat) (first : Int) (n : Nat) (hf : -9223372036854775808 ≤ first)
    (hn : n < 18446744073709551616) (ht : first + n * period < 9223372036854775808) :
    ∃ f, beacons n ((Ft.make period prepare).setScheduled first) = .ok f ∧ f.scheduled = first + n * period ∧
      (1 ≤ n → f.transmitted = first + (n - 1) * period) ∧ f.cnt = n ∧ f.period = period ∧
      (-9223372036854775808 ≤ f.scheduled - prepare → f.prepareTime = .ok (first + n * period - prepare)) := by
  have key : ∃ f, beacons n ((Ft.make period prepare).setScheduled first) = .ok f ∧ f.scheduled = first + n * period ∧
      (1 ≤ n → f.transmitted = first + (n - 1) * period) ∧ f.cnt = n ∧ f.period = period ∧ f.prepare = prepare := by
    induction n with
    | zero => exact ⟨_, rfl, by simp [Ft.setScheduled], by simp, rfl, rfl, rfl⟩
    | succ n ih =>
      have hp : ((n + 1 : Nat) : Int) * period = n * period + period := by push_cast; ring
      rw [hp] at ht
      obtain ⟨f, h1, h2, -, h4, h5, h6⟩ := ih (by omega) (by omega)
      have hnn : (0 : Int) ≤ n * period := by positivity
      refine ⟨{ f with transmitted := f.scheduled, scheduled := f.scheduled + f.period, cnt := (f.cnt + 1) % 18446744073709551616 },
        ?_, ?_, ?_, ?_, h5, h6⟩
      · rw [beacons, h1, Res.ok_bind, Ft.setNext, i64_ok (by rw [h2, h5]; omega) (by rw [h2, h5]; omega), Res.ok_bind]
      · show f.scheduled + f.period = _
        rw [h2, h5, hp, Int.add_assoc]
      · intro _
        show f.scheduled = _
        rw [h2]
        push_cast
        ring
      · show (f.cnt + 1) % _ = _
        rw [h4]
        exact Nat.mod_eq_of_lt hn
  obtain ⟨f, h1, h2, h3, h4, h5, h6⟩ := key
  have hnn : (0 : Int) ≤ n * period := by positivity
  refine ⟨f, h1, h2, h3, h4, h5, fun h => ?_⟩
  rw [h2] at h
  rw [Ft.prepareTime, h2, h6]
  exact i64_ok (by omega) (by omega)

/-- Exactly half way between two points of the raster -/
def Midway (ref raster t : Int) : Prop := ∃ k : Int, 2 * (t - (ref + k * raster)) = raster

theorem mul_cases (m y : Int) (hy : 0 < y) : m * y = 0 ∨ y ≤ m * y ∨ m * y ≤ -y := by
  rcases Int.lt_trichotomy m 0 with h | h | h
  · right; right; nlinarith
  · left; rw [h, Int.zero_mul]
  · right; left; nlinarith

theorem offset_ok {ref raster t n r : Int} (he : raster % 2 = 0) (h0 : 0 < raster) (h1 : raster < 1152921504606846976)
    (hr : -1152921504606846976 ≤ ref ∧ ref ≤ 1152921504606846976) (ht : -1152921504606846976 ≤ t ∧ t ≤ 1152921504606846976)
    (h : t - ref = n * raster + r) (hrr : 2 * r < raster ∧ -raster < 2 * r) : determineOffset ref raster t = .ok r := by
  have hround := roundInteger_pos h0 (by omega) (by omega) h (Or.inl hrr)
  rw [if_neg (by omega), if_neg (by omega)] at hround
  unfold determineOffset
  have hm : decide (raster.tmod 2 = 0) = true := by
    rw [decide_eq_true_eq, Int.tmod_eq_emod_of_nonneg (by omega), he]
  rw [hm, Res.assert_true, Res.ok_bind, i64_ok (x := t - ref) (by omega) (by omega), Res.ok_bind, hround, Res.ok_bind,
    i64_ok (x := n * raster) (by omega) (by omega), Res.ok_bind, i64_ok (x := ref + n * raster) (by omega) (by omega),
    Res.ok_bind, i64_ok (x := t - (ref + n * raster)) (by omega) (by omega), Res.ok_bind]
  have e : t - (ref + n * raster) = r := by omega
  have : decide (((t - (ref + n * raster)).natAbs : Int) < raster.tdiv 2) = true := by
    rw [decide_eq_true_eq, e, Int.tdiv_eq_ediv_of_nonneg (by omega)]
    omega
  rw [this, Res.assert_true, Res.ok_bind, e]

/-- The deviation from a raster: for an even raster it is the smallest one, and less than half of the raster; a time
exactly half way between two points of the raster is rejected. -/
theorem C34_deviation (ref raster t : Int) (he : raster % 2 = 0) (h0 : 0 < raster) (h1 : raster < 1152921504606846976)
    (hr : -1152921504606846976 ≤ ref ∧ ref ≤ 1152921504606846976) (ht : -1152921504606846976 ≤ t ∧ t ≤ 1152921504606846976) :
    (¬ Midway ref raster t → ∃ d, determineOffset ref raster t = .ok d ∧ ClosestDeviation ref raster t d ∧
      2 * d.natAbs < raster.natAbs) ∧
    (Midway ref raster t → determineOffset ref raster t = .abort) := by
  constructor
  · intro hmid
    obtain ⟨n, r, h, hrr⟩ := exists_near (t - ref) h0
    have hlt : 2 * r < raster ∧ -raster < 2 * r := by
      rcases hrr with h' | ⟨h', -⟩ | ⟨h', -⟩
      · exact h'
      · exact absurd ⟨n, by omega⟩ hmid
      · refine absurd ⟨n - 1, ?_⟩ hmid
        rw [Int.sub_mul, Int.one_mul]
        omega
    refine ⟨r, offset_ok he h0 h1 hr ht h hlt, ⟨⟨n, by omega⟩, fun k => ?_⟩, by omega⟩
    have e : t - (ref + k * raster) = (n - k) * raster + r := by
      rw [Int.sub_mul]; omega
    rw [e]
    have := mul_cases (n - k) raster h0
    omega
  · rintro ⟨k, hk⟩
    -- the time difference is k rasters and a half
    have hm : decide (raster.tmod 2 = 0) = true := by
      rw [decide_eq_true_eq, Int.tmod_eq_emod_of_nonneg (by omega), he]
    unfold determineOffset
    rw [hm, Res.assert_true, Res.ok_bind, i64_ok (x := t - ref) (by omega) (by omega), Res.ok_bind]
    have h2 : raster.tdiv 2 = raster / 2 := Int.tdiv_eq_ediv_of_nonneg (by omega)
    by_cases hpos : 0 < t - ref
    · have hround := roundInteger_pos h0 (by omega) (by omega) (x := t - ref) (n := k) (r := raster / 2) (by omega)
        (Or.inr (Or.inl ⟨by omega, hpos⟩))
      rw [if_pos ⟨by omega, hpos⟩] at hround
      have e : (k + 1) * raster = k * raster + raster := by ring
      rw [hround, Res.ok_bind, e, i64_ok (x := k * raster + raster) (by omega) (by omega), Res.ok_bind,
        i64_ok (x := ref + (k * raster + raster)) (by omega) (by omega), Res.ok_bind,
        i64_ok (x := t - (ref + (k * raster + raster))) (by omega) (by omega), Res.ok_bind, h2]
      have : decide (((t - (ref + (k * raster + raster))).natAbs : Int) < raster / 2) = false := by
        rw [decide_eq_false_iff_not]; omega
      rw [this]
      rfl
    · have hneg : t - ref < 0 := by
        by_contra hc
        have hz : t - ref = 0 := by omega
        have := mul_cases k raster h0
        omega
      have e : (k + 1) * raster = k * raster + raster := by ring
      have e' : (k + 1 - 1) * raster = k * raster := by ring
      have hround := roundInteger_pos h0 (by omega) (by omega) (x := t - ref) (n := k + 1) (r := -(raster / 2)) (by rw [e]; omega)
        (Or.inr (Or.inr ⟨by omega, hneg⟩))
      rw [if_neg (by omega), if_pos ⟨by omega, hneg⟩] at hround
      rw [hround, Res.ok_bind, e', i64_ok (x := k * raster) (by omega) (by omega), Res.ok_bind,
        i64_ok (x := ref + k * raster) (by omega) (by omega), Res.ok_bind,
        i64_ok (x := t - (ref + k * raster)) (by omega) (by omega), Res.ok_bind, h2]
      have : decide (((t - (ref + k * raster)).natAbs : Int) < raster / 2) = false := by
        rw [decide_eq_false_iff_not]; omega
      rw [this]
      rfl

/-- An odd raster is rejected. -/
theorem C34_odd_raster (ref raster t : Int) (h0 : 0 < raster) (he : raster % 2 = 1) : determineOffset ref raster t = .abort := by
  unfold determineOffset
  have hm : decide (raster.tmod 2 = 0) = false := by
    rw [decide_eq_false_iff_not, Int.tmod_eq_emod_of_nonneg (by omega), he]
    decide
  rw [hm]
  rfl

/-- After a beacon the estimate of the pulse lies on the raster of this beacon; it moved by the smallest possible
deviation, and by no more than the maximum. If this is not possible, because the deviation is larger or the beacon is
half way between two points of the raster, synchronisation is lost, which is fatal. Nothing but the estimate changes. -/
theorem C34_pulse (p : Ppx) (beacon : Int) (he : p.beaconPeriod % 2 = 0) (h0 : 0 < p.beaconPeriod) (h1 : p.beaconPeriod < 2147483648)
    (hr : 0 ≤ p.edge ∧ p.edge ≤ 1152921504606846976) (ht : 0 ≤ beacon ∧ beacon ≤ 1152921504606846976) :
    (∃ d, ClosestDeviation p.edge p.beaconPeriod beacon d ∧ d.natAbs ≤ p.devMax ∧ ¬ Midway p.edge p.beaconPeriod beacon ∧
        p.provide beacon = .ok { p with edge := p.edge + d } ∧ ∃ k : Int, beacon = (p.edge + d) + k * p.beaconPeriod) ∨
      ((Midway p.edge p.beaconPeriod beacon ∨ ∀ d, ClosestDeviation p.edge p.beaconPeriod beacon d → p.devMax < d.natAbs) ∧
        p.provide beacon = .abort) := by
  have hd := C34_deviation p.edge p.beaconPeriod beacon (by omega) (by omega) (by omega) (by omega) (by omega)
  have ha : decide (0 ≤ p.edge) = true := by rw [decide_eq_true_eq]; exact hr.1
  by_cases hm : Midway p.edge p.beaconPeriod beacon
  · right
    refine ⟨Or.inl hm, ?_⟩
    unfold Ppx.provide Ppx.provideRaster
    rw [ha, hd.2 hm]
    rfl
  · obtain ⟨d, hok, hc, hlt⟩ := hd.1 hm
    by_cases hdm : d.natAbs ≤ p.devMax
    · left
      refine ⟨d, hc, hdm, hm, ?_, ?_⟩
      · unfold Ppx.provide Ppx.provideRaster
        have hb : decide (d.natAbs ≤ p.devMax) = true := by rw [decide_eq_true_eq]; exact hdm
        rw [ha, hok, Res.assert_true, Res.ok_bind, Res.ok_bind, hb, Res.assert_true, Res.ok_bind,
          i64_ok (by omega) (by omega), Res.ok_bind]
      · obtain ⟨⟨k, hk⟩, -⟩ := hc
        exact ⟨k, by omega⟩
    · right
      refine ⟨Or.inr fun d' hc' => ?_, ?_⟩
      · obtain ⟨⟨k, hk⟩, hmin⟩ := hc
        obtain ⟨⟨k', hk'⟩, hmin'⟩ := hc'
        have := hmin k'
        have e : beacon - (p.edge + k' * p.beaconPeriod) = d' := by omega
        rw [e] at this
        omega
      · unfold Ppx.provide Ppx.provideRaster
        have hb : decide (d.natAbs ≤ p.devMax) = false := by rw [decide_eq_false_iff_not]; exact hdm
        rw [ha, hok, Res.assert_true, Res.ok_bind, Res.ok_bind, hb]
        rfl

/-- The first edge is set once, to a positive time; a second attempt aborts. After it the estimate is known. -/
theorem C34_first_edge (p : Ppx) (t : Int) :
    (p.edge < 0 ∧ 0 < t → p.setEdge t = .ok { p with edge := t } ∧ ({ p with edge := t } : Ppx).hasEdge = true) ∧
    (¬ (p.edge < 0 ∧ 0 < t) → p.setEdge t = .abort) := by
  unfold Ppx.setEdge Ppx.hasEdge
  by_cases h1 : p.edge < 0 <;> by_cases h2 : 0 < t <;> simp [h1, h2]
  omega

/-- A constructed time base has no edge yet. -/
theorem C34_constructor_edge {period length advance beaconPeriod devMax : Nat} {p : Ppx}
    (h : Ppx.make period length advance beaconPeriod devMax = .ok p) : p.hasEdge = false ∧ p.warped = period := by
  unfold Ppx.make at h
  simp only [Res.bind_eq_ok, Res.assert_eq_ok, decide_eq_true_eq, exists_and_left, exists_const] at h
  obtain ⟨-, -, -, h⟩ := h
  split at h
  · cases h
  · simp only [Res.bind_eq_ok, Res.assert_eq_ok, decide_eq_true_eq, exists_and_left, exists_const, Res.ok.injEq] at h
    obtain ⟨-, rfl⟩ := h
    exact ⟨rfl, rfl⟩

/-- The next pulse is one observed period after the estimate, and has the configured length. -/
theorem C34_imminent (p : Ppx) (hw : 0 ≤ p.warped ∧ p.warped < 4294967296) (hl : p.length < 2147483648)
    (hr : 0 ≤ p.edge ∧ p.edge ≤ 1152921504606846976) :
    p.imminent = .ok (p.edge + p.warped, p.edge + p.warped + p.length) ∧
      p.extrapolate = .ok { p with edge := p.edge + p.warped } := by
  constructor
  · unfold Ppx.imminent
    rw [i64_ok (x := p.edge + p.warped) (by omega) (by omega), Res.ok_bind,
      i64_ok (x := p.edge + p.warped + p.length) (by omega) (by omega), Res.ok_bind]
  · unfold Ppx.extrapolate
    rw [i64_ok (x := p.edge + p.warped) (by omega) (by omega), Res.ok_bind]

/-- Non-vacuity: raster of 10 ms at 1.92 MS/s, beacons late, early, and out of reach -/
theorem C34_example :
    determineOffset 1000000 19200 1038403 = .ok 3 ∧ determineOffset 1000000 19200 961598 = .ok (-2) ∧
      determineOffset 1000000 19200 1009600 = .abort ∧
      Ppx.provide ⟨1920000, 480000, 57600, 19200, 9600, 1920000, 1000000⟩ 980793 =
        .ok ⟨1920000, 480000, 57600, 19200, 9600, 1920000, 999993⟩ ∧
      Ppx.provide ⟨1920000, 480000, 57600, 19200, 100, 1920000, 1000000⟩ 1000101 = .abort := by
  decide +kernel

end Verif.Props.C34
