import Verif.Lemma.TimeBase
import Mathlib.Tactic.Ring
import Mathlib.Tactic.Linarith
import Mathlib.Algebra.Order.Field.Basic

/-!
# C34: ratio of the clocks, measured with beacons -/

namespace Verif.Props.C34

open Verif.Mac.Allocation Verif.Mac.TimeBase
open Verif.Sp3.Duration (i64)

set_option linter.unusedSimpArgs false

/-- Which beacon periods are accepted: those that are long enough compared with the drift of the clocks over the longest
distance that is measured. -/
theorem C34_pll_constructor (rate period : Nat) (hr : 1 ≤ rate) (hp : 1 ≤ period) :
    Pll.make rate period =
      if ((5 * rate + 8 * period) * 15 / 1000000 : Nat) < period / 8 then
        .ok ⟨period, rate, 5 * rate + 8 * period,
          [-1152921504606846976, -1152921504606846976, -1152921504606846976, -1152921504606846976, -1152921504606846976], 0, 1⟩
      else .abort := by
  unfold Pll.make
  have e1 : (rate : Int) * 1000 / 1000 = rate := by omega
  have e2 : (rate : Int) * 5000 / 1000 = 5 * rate := by omega
  have e3 : (5 * (rate : Int)) % rate = 0 := by rw [Int.mul_comm]; exact Int.mul_emod_right _ _
  have e4 : (5 * (rate : Int)) / rate = 5 := Int.mul_ediv_cancel _ (by omega)
  simp only [e1, e2, e3, e4]
  have d1 : decide ((rate : Int) < 5 * rate) = true := by rw [decide_eq_true_eq]; omega
  have d2 : decide (5 * (rate : Int) < 5 * rate + period * 8) = true := by rw [decide_eq_true_eq]; omega
  rw [d1, Res.assert_true, Res.ok_bind, if_neg (by omega), decide_true, Res.assert_true, Res.ok_bind, d2,
    Res.assert_true, Res.ok_bind]
  by_cases h : ((5 * rate + 8 * period) * 15 / 1000000 : Nat) < period / 8
  · rw [if_pos h]
    have : decide ((5 * (rate : Int) + period * 8) * 15 / 1000000 < (period : Int) / 8) = true := by
      rw [decide_eq_true_eq]; omega
    rw [this, Res.assert_true, Res.ok_bind, show 5 * (rate : Int) + period * 8 = 5 * rate + 8 * period by ring]
    rfl
  · rw [if_neg h]
    have : decide ((5 * (rate : Int) + period * 8) * 15 / 1000000 < (period : Int) / 8) = false := by
      rw [decide_eq_false_iff_not]; omega
    rw [this]
    rfl

/-- For instance, every whole number of milliseconds from 1 ms to 1 s is accepted, at every sample rate that is a
multiple of 8000 samples per second. -/
theorem C34_pll_periods (rate ms : Nat) (hr : rate % 8000 = 0) (hr1 : 1 ≤ rate) (h1 : 1 ≤ ms) (h2 : ms ≤ 1000) :
    ∃ p, Pll.make rate (rate / 1000 * ms) = .ok p := by
  obtain ⟨k, rfl⟩ : ∃ k, rate = 8000 * k := ⟨rate / 8000, by omega⟩
  have e : 8000 * k / 1000 * ms = 8 * (k * ms) := by
    rw [show 8000 * k / 1000 = 8 * k by omega, Nat.mul_assoc]
  have hk : k ≤ k * ms := Nat.le_mul_of_pos_right _ h1
  rw [e, C34_pll_constructor _ _ hr1 (by omega), if_pos]
  · exact ⟨_, rfl⟩
  · omega

/-- Beacon times: any two of them that are no more than the longest measured distance apart differ by a number of beacon
periods, up to a deviation of less than 150 ppm and less than half of a beacon period. -/
def OnRaster (period : Nat) (distMax : Int) (ts : List Int) : Prop :=
  ∀ t ∈ ts, ∀ t' ∈ ts, t < t' → t' - t ≤ distMax →
    ∃ n : Nat, 2 * (t' - t - n * period).natAbs < period ∧ (t' - t - n * period).natAbs * 1000000 < 150 * (n * period)

/-- All beacons are provided, one after the other. -/
def provideAll : Pll → List Int → Res Pll
  | p, [] => .ok p
  | p, t :: ts => do
    let p' ← p.provide t
    provideAll p' ts

/-- Times in the order of their arrival, starting with the oldest one -/
def ring (v : List Int) (i : Nat) : List Int := v.drop i ++ v.take i

/-- Invariant; `ts` are the beacon times provided so far. -/
structure Inv (period : Nat) (accept distMax : Int) (ts : List Int) (p : Pll) : Prop where
  period : p.period = period
  accept : p.accept = accept
  distMax : p.distMax = distMax
  len : p.vec.length = 5
  idx : p.idx < 5
  mem : ∀ x ∈ p.vec, x = -1152921504606846976 ∨ x ∈ ts
  order : (ring p.vec p.idx).Pairwise fun x y => x = -1152921504606846976 ∨ x < y
  warp : 1 - 150 / 1000000 < p.warp ∧ p.warp < 1 + 150 / 1000000

theorem measure_ok (p : Pll) (dist : Int) (n : Nat) (hp : 1 ≤ p.period) (hp' : p.period < 2147483648)
    (hd : 0 < dist ∧ dist < 4611686018427387904)
    (h1 : 2 * (dist - n * p.period).natAbs < p.period) (h2 : (dist - n * p.period).natAbs * 1000000 < 150 * (n * p.period))
    (hw : 1 - 150 / 1000000 < p.warp ∧ p.warp < 1 + 150 / 1000000) :
    p.measure dist = .ok { p with warp := p.warp * (9 / 10) + (1 / 10) * ((dist : ℚ) / ((n * p.period : Nat) : ℚ)) } ∧
      1 - 150 / 1000000 < p.warp * (9 / 10) + (1 / 10) * ((dist : ℚ) / ((n * p.period : Nat) : ℚ)) ∧
      p.warp * (9 / 10) + (1 / 10) * ((dist : ℚ) / ((n * p.period : Nat) : ℚ)) < 1 + 150 / 1000000 := by
  obtain ⟨N, hN⟩ : ∃ N : Nat, N = n * p.period := ⟨_, rfl⟩
  have hNi : (n : Int) * p.period = (N : Int) := by rw [hN]; push_cast; rfl
  rw [hNi] at h1 h2
  rw [← hN] at h2
  have hround := roundInteger_pos (x := dist) (y := p.period) (n := n) (r := dist - N) (by omega) (by omega) (by omega)
    (by rw [hNi]; omega) (Or.inl (by omega))
  rw [if_neg (by omega), if_neg (by omega)] at hround
  have hNpos : 0 < N := by omega
  have hq : (0 : ℚ) < (N : ℚ) := by exact_mod_cast hNpos
  have hlo : (N : ℚ) * (1 - 150 / 1000000) < dist := by
    have : (N : Int) * 1000000 - 150 * N < dist * 1000000 := by omega
    have : ((N : Int) * 1000000 - 150 * N : ℚ) < (dist * 1000000 : ℚ) := by exact_mod_cast this
    push_cast at this
    linarith
  have hhi : (dist : ℚ) < N * (1 + 150 / 1000000) := by
    have : dist * 1000000 < (N : Int) * 1000000 + 150 * N := by omega
    have : (dist * 1000000 : ℚ) < ((N : Int) * 1000000 + 150 * N : ℚ) := by exact_mod_cast this
    push_cast at this
    linarith
  have hl : (1 - 150 / 1000000 : ℚ) < (dist : ℚ) / (N : ℚ) := by
    rw [lt_div_iff₀ hq]; linarith
  have hh : (dist : ℚ) / (N : ℚ) < 1 + 150 / 1000000 := by
    rw [div_lt_iff₀ hq]; linarith
  rw [← hN]
  refine ⟨?_, by linarith [hw.1], by linarith [hw.2]⟩
  unfold Pll.measure
  have e : ((1 : ℚ) - 9 / 10) = 1 / 10 := by norm_num
  rw [hround, Res.ok_bind, hNi, i64_ok (by omega) (by omega), Res.ok_bind]
  have hne : decide ((N : Int) ≠ 0) = true := by rw [decide_eq_true_eq]; omega
  rw [hne, Res.assert_true, Res.ok_bind, e]
  have c : ((N : Int) : ℚ) = (N : ℚ) := Int.cast_natCast N
  simp only [c]
  have d1 : decide (p.warp * (9 / 10) + 1 / 10 * ((dist : ℚ) / (N : ℚ)) < 1 + outOfSync) = true := by
    rw [decide_eq_true_eq]; unfold outOfSync; linarith [hw.2]
  have d2 : decide (1 - outOfSync < p.warp * (9 / 10) + 1 / 10 * ((dist : ℚ) / (N : ℚ))) = true := by
    rw [decide_eq_true_eq]; unfold outOfSync; linarith [hw.1]
  rw [d1, Res.assert_true, Res.ok_bind, d2, Res.assert_true, Res.ok_bind]

theorem five {v : List Int} (h : v.length = 5) : ∃ a b c d e, v = [a, b, c, d, e] := by
  match v, h with
  | [a, b, c, d, e], _ => exact ⟨a, b, c, d, e, rfl⟩

theorem five_idx {i : Nat} (h : i < 5) : i = 0 ∨ i = 1 ∨ i = 2 ∨ i = 3 ∨ i = 4 := by omega

/-- The vector after one more beacon time -/
theorem ring_step (v : List Int) (i : Nat) (hl : v.length = 5) (hi : i < 5) (t : Int) :
    ∃ a b c d e, ring v i = [a, b, c, d, e] ∧
      v.getD (if i = 0 then v.length - 1 else i - 1) 0 = e ∧
      (v.set i t).getD (if i = v.length - 1 then 0 else i + 1) 0 = b ∧
      ring (v.set i t) (if i = v.length - 1 then 0 else i + 1) = [b, c, d, e, t] := by
  obtain ⟨a, b, c, d, e, rfl⟩ := five hl
  rcases five_idx hi with rfl | rfl | rfl | rfl | rfl
  · exact ⟨a, b, c, d, e, rfl, rfl, rfl, rfl⟩
  · exact ⟨b, c, d, e, a, rfl, rfl, rfl, rfl⟩
  · exact ⟨c, d, e, a, b, rfl, rfl, rfl, rfl⟩
  · exact ⟨d, e, a, b, c, rfl, rfl, rfl, rfl⟩
  · exact ⟨e, a, b, c, d, rfl, rfl, rfl, rfl⟩

theorem mem_ring (v : List Int) (i : Nat) (x : Int) : x ∈ ring v i ↔ x ∈ v := by
  unfold ring
  rw [List.mem_append]
  constructor
  · rintro (h | h)
    · exact List.mem_of_mem_drop h
    · exact List.mem_of_mem_take h
  · intro h
    rw [← List.take_append_drop i v, List.mem_append] at h
    exact h.symm

/-- One more beacon time: nothing but the expected happens, and the ratio stays within 150 ppm. -/
theorem inv_step {period : Nat} {accept distMax : Int} {ts : List Int} {p : Pll} (h : Inv period accept distMax ts p) (t : Int)
    (ha : 1 ≤ accept) (hp : 1 ≤ period) (hp' : period < 2147483648) (hts : ∀ x ∈ ts, 0 ≤ x ∧ x ≤ 1152921504606846976)
    (ht : 0 ≤ t ∧ t ≤ 1152921504606846976) (hmem : t ∈ ts) (hr : OnRaster period distMax ts) :
    ∃ p', p.provide t = .ok p' ∧ Inv period accept distMax ts p' := by
  obtain ⟨a, b, c, d, e, hring, hlast, hold, hring'⟩ := ring_step p.vec p.idx h.len h.idx t
  have hmr : ∀ x ∈ [a, b, c, d, e], x = -1152921504606846976 ∨ x ∈ ts := fun x hx =>
    h.mem x ((mem_ring _ _ _).1 (hring ▸ hx))
  have hrange : ∀ x ∈ [a, b, c, d, e], -1152921504606846976 ≤ x ∧ x ≤ 1152921504606846976 := by
    intro x hx
    rcases hmr x hx with rfl | h'
    · omega
    · have := hts x h'; omega
  have ra := hrange a (by simp)
  have rb := hrange b (by simp)
  have re := hrange e (by simp)
  have hlk : p.lastKnown = e := hlast
  unfold Pll.provide
  rw [hlk, i64_ok (by omega) (by omega), Res.ok_bind]
  have hac := h.accept
  by_cases hacc : t - e < p.accept
  · rw [if_pos hacc]
    exact ⟨p, rfl, h⟩
  rw [if_neg hacc]
  have hnext : ({ p with vec := p.vec.set p.idx t } : Pll).nextIdx = if p.idx = p.vec.length - 1 then 0 else p.idx + 1 := by
    unfold Pll.nextIdx
    simp only [List.length_set]
  have hok : ({ p with vec := p.vec.set p.idx t } : Pll).oldestKnown = b := by
    unfold Pll.oldestKnown
    rw [hnext]
    exact hold
  have hpw := h.order
  rw [hring] at hpw
  have hpw' : ([b, c, d, e, t] : List Int).Pairwise fun x y => x = -1152921504606846976 ∨ x < y := by
    simp only [List.pairwise_cons, List.mem_cons, forall_eq_or_imp, List.not_mem_nil, IsEmpty.forall_iff, implies_true,
      List.Pairwise.nil, and_true] at hpw ⊢
    refine ⟨⟨?_, ?_, ?_, ?_⟩, ⟨?_, ?_, ?_⟩, ⟨?_, ?_⟩, ?_⟩ <;> omega
  have hInv : ∀ w, (1 - 150 / 1000000 < w ∧ w < (1 : ℚ) + 150 / 1000000) →
      Inv period accept distMax ts
        { p with vec := p.vec.set p.idx t, idx := if p.idx = p.vec.length - 1 then 0 else p.idx + 1, warp := w } := by
    intro w hw
    refine ⟨h.period, h.accept, h.distMax, ?_, ?_, ?_, ?_, hw⟩
    · show (p.vec.set p.idx t).length = 5
      rw [List.length_set]; exact h.len
    · show (if p.idx = p.vec.length - 1 then 0 else p.idx + 1) < 5
      have := h.len
      have := h.idx
      split <;> omega
    · intro x hx
      have hx' : x ∈ p.vec.set p.idx t := hx
      rcases List.mem_or_eq_of_mem_set hx' with h' | rfl
      · exact h.mem x h'
      · exact Or.inr hmem
    · show (ring (p.vec.set p.idx t) _).Pairwise _
      rw [hring']
      exact hpw'
  dsimp only
  rw [hok, hnext]
  by_cases hb0 : b < 0
  · rw [if_pos hb0]
    exact ⟨_, rfl, hInv p.warp h.warp⟩
  rw [if_neg hb0, i64_ok (by omega) (by omega), Res.ok_bind]
  have hdm := h.distMax
  by_cases hmax : p.distMax < t - b
  · rw [if_pos hmax]
    exact ⟨_, rfl, hInv p.warp h.warp⟩
  rw [if_neg hmax]
  have hbt : b < t := by
    simp only [List.pairwise_cons, List.mem_cons, forall_eq_or_imp] at hpw'
    have := hpw'.1.2.2.2.1
    omega
  have hbm : b ∈ ts := by
    rcases hmr b (by simp) with h' | h'
    · omega
    · exact h'
  obtain ⟨n, hn1, hn2⟩ := hr b hbm t hmem hbt (by omega)
  have hm := measure_ok { p with vec := p.vec.set p.idx t, idx := if p.idx = p.vec.length - 1 then 0 else p.idx + 1 } (t - b) n
    (by show 1 ≤ p.period; rw [h.period]; exact hp) (by show p.period < _; rw [h.period]; exact hp') (by omega)
    (by show 2 * (t - b - n * p.period).natAbs < p.period; rw [h.period]; exact hn1)
    (by show (t - b - n * p.period).natAbs * 1000000 < 150 * (n * p.period); rw [h.period]; exact hn2) h.warp
  exact ⟨_, hm.1, hInv _ hm.2⟩

theorem provideAll_ok {period : Nat} {accept distMax : Int} {ts : List Int} (ha : 1 ≤ accept) (hp : 1 ≤ period)
    (hp' : period < 2147483648) (hts : ∀ x ∈ ts, 0 ≤ x ∧ x ≤ 1152921504606846976) (hr : OnRaster period distMax ts) :
    ∀ (l : List Int) (p : Pll), (∀ x ∈ l, x ∈ ts) → Inv period accept distMax ts p →
      ∃ p', provideAll p l = .ok p' ∧ Inv period accept distMax ts p' := by
  intro l
  induction l with
  | nil => intro p _ h; exact ⟨p, rfl, h⟩
  | cons t l ih =>
    intro p hl h
    have htm := hl t (by simp)
    obtain ⟨p1, h1, hi⟩ := inv_step h t ha hp hp' hts (hts t htm) htm hr
    obtain ⟨p2, h2, hi2⟩ := ih p1 (fun x hx => hl x (List.mem_cons_of_mem _ hx)) hi
    exact ⟨p2, by rw [provideAll, h1, Res.ok_bind, h2], hi2⟩

/-- Whatever beacons arrive, in whatever order and number, as long as they lie on the raster of the beacon periods up to
150 ppm: the ratio of the clocks is measured without a failing assert, and stays within 150 ppm of one.
(The moving average is exact here; rounding of `double` is not modelled.) -/
theorem C34_pll (rate period : Nat) (hr : 1 ≤ rate) (hp : 1 ≤ period) (hp' : period < 2147483648) (p : Pll)
    (hmake : Pll.make rate period = .ok p) (ts : List Int) (hts : ∀ x ∈ ts, 0 ≤ x ∧ x ≤ 1152921504606846976)
    (hraster : OnRaster period (5 * rate + 8 * period) ts) :
    ∃ p', provideAll p ts = .ok p' ∧ 1 - 150 / 1000000 < p'.warp ∧ p'.warp < 1 + 150 / 1000000 := by
  rw [C34_pll_constructor rate period hr hp] at hmake
  split at hmake
  swap
  · exact Res.noConfusion rfl (heq_of_eq hmake)
  obtain rfl := Res.ok.inj hmake
  have h0 : Inv period rate (5 * rate + 8 * period) ts ⟨period, rate, 5 * rate + 8 * period,
      [-1152921504606846976, -1152921504606846976, -1152921504606846976, -1152921504606846976, -1152921504606846976], 0, 1⟩ := by
    refine ⟨rfl, rfl, rfl, rfl, (by show 0 < 5; decide), ?_, ?_, by norm_num⟩
    · intro x hx
      left
      simpa using hx
    · simp [ring]
  obtain ⟨p', h1, h2⟩ := provideAll_ok (by omega) hp hp' hts hraster ts _ (fun x hx => hx) h0
  exact ⟨p', h1, h2.warp⟩

/-- A measured distance enters as its exact ratio to the number of beacon periods sent in the meantime: the number of
periods is determined correctly as long as the drift is less than half of a period. -/
theorem C34_pll_measure (p : Pll) (dist : Int) (n : Nat) (hp : 1 ≤ p.period) (hp' : p.period < 2147483648)
    (hd : 0 < dist ∧ dist < 4611686018427387904) (h1 : 2 * (dist - n * p.period).natAbs < p.period)
    (h2 : (dist - n * p.period).natAbs * 1000000 < 150 * (n * p.period))
    (hw : 1 - 150 / 1000000 < p.warp ∧ p.warp < 1 + 150 / 1000000) :
    p.measure dist = .ok { p with warp := p.warp * (9 / 10) + (1 / 10) * ((dist : ℚ) / ((n * p.period : Nat) : ℚ)) } :=
  (measure_ok p dist n hp hp' hd h1 h2 hw).1

/-- After a reset the object is as after construction, whatever was provided before. -/
theorem C34_pll_reset (rate period : Nat) (p : Pll) (hmake : Pll.make rate period = .ok p) (ts : List Int) (p' : Pll)
    (h : provideAll p ts = .ok p') : p'.reset = p := by
  have key : ∀ (ts : List Int) (a : Pll), provideAll a ts = .ok p' →
      p'.period = a.period ∧ p'.accept = a.accept ∧ p'.distMax = a.distMax ∧ p'.vec.length = a.vec.length := by
    intro ts
    induction ts with
    | nil => intro a h; cases h; exact ⟨rfl, rfl, rfl, rfl⟩
    | cons t ts ih =>
      intro a h
      simp only [provideAll, Res.bind_eq_ok] at h
      obtain ⟨b, hb, h⟩ := h
      have := ih b h
      have hab : b.period = a.period ∧ b.accept = a.accept ∧ b.distMax = a.distMax ∧ b.vec.length = a.vec.length := by
        unfold Pll.provide at hb
        simp only [Res.bind_eq_ok] at hb
        obtain ⟨x, -, hb⟩ := hb
        split at hb
        · cases hb; exact ⟨rfl, rfl, rfl, rfl⟩
        split at hb
        · cases hb; exact ⟨rfl, rfl, rfl, by simp⟩
        simp only [Res.bind_eq_ok] at hb
        obtain ⟨y, -, hb⟩ := hb
        split at hb
        · cases hb; exact ⟨rfl, rfl, rfl, by simp⟩
        unfold Pll.measure at hb
        simp only [Res.bind_eq_ok, Res.ok.injEq, exists_and_left] at hb
        obtain ⟨_, _, _, _, _, _, _, _, _, _, rfl⟩ := hb
        exact ⟨rfl, rfl, rfl, by simp⟩
      exact ⟨this.1.trans hab.1, this.2.1.trans hab.2.1, this.2.2.1.trans hab.2.2.1, this.2.2.2.trans hab.2.2.2⟩
  obtain ⟨h1, h2, h3, h4⟩ := key ts p h
  unfold Pll.make at hmake
  simp only [Res.bind_eq_ok, Res.assert_eq_ok, decide_eq_true_eq, exists_and_left, exists_const] at hmake
  obtain ⟨-, hmake⟩ := hmake
  split at hmake
  · cases hmake
  simp only [Res.bind_eq_ok, Res.assert_eq_ok, decide_eq_true_eq, exists_and_left, exists_const, Res.ok.injEq] at hmake
  obtain ⟨-, -, -, rfl⟩ := hmake
  simp only [Pll.reset, h1, h2, h3]
  congr 1
  rw [List.map_const', h4, List.length_replicate]

/-- Non-vacuity: beacons every 10 ms at 1.92 MS/s, clocks that differ by 10 ppm; the fifth accepted beacon is the first
that is measured, with a distance of 4 s. Beacons less than a second after the last accepted one are ignored. -/
theorem C34_pll_example :
    (do
      let p ← Pll.make 1920000 19200
      let p ← provideAll p [1000000, 1019200, 2920020, 4840039, 6760058, 8680077]
      .ok p.warp) = .ok (1 * (9 / 10) + 1 / 10 * (7680077 / 7680000)) := by
  decide +kernel

end Verif.Props.C34
