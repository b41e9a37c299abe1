import Verif.Model.GainLut
import Verif.Spec.GainLut
import Mathlib.Tactic.Linarith
import Mathlib.Tactic.Ring
import Mathlib.Tactic.FieldSimp
import Mathlib.Algebra.Order.Field.Basic

/-!
# C44: Interpolated gains stay within the table -/

namespace Verif.Props.C44

open Verif.Radio.GainLut Verif.Spec.GainLut

set_option linter.unusedSimpArgs false

theorem rounding_id : Rounding id := ⟨fun _ _ h => h, rfl, rfl, fun _ => rfl⟩

theorem limited_spec (vec : List ℚ) (value : ℚ) (h : vec.headD 0 ≤ vec.getLastD 0) :
    Limited (vec.headD 0) (vec.getLastD 0) value (limited vec value) ∧
      vec.headD 0 ≤ limited vec value ∧ limited vec value ≤ vec.getLastD 0 := by
  unfold Limited limited
  generalize vec.headD 0 = a at *
  generalize vec.getLastD 0 = b at *
  refine ⟨⟨fun h1 => ?_, fun h1 => ?_, fun h1 => ?_⟩, ?_, min_le_left _ _⟩
  · rw [max_eq_left h1.le, min_eq_right h]
  · rw [max_eq_right h1.1, min_eq_right h1.2]
  · rw [max_eq_right (h.trans h1.le), min_eq_left h1.le]
  · exact le_min h (le_max_left _ _)

theorem headD_eq (vec : List ℚ) (h : 0 < vec.length) : vec.headD 0 = vec[0] := by
  cases vec with
  | nil => exact absurd h (by simp)
  | cons x l => rfl

theorem getLastD_eq (vec : List ℚ) (h : 0 < vec.length) : vec.getLastD 0 = vec[vec.length - 1] := by
  rw [List.getLastD_eq_getLast?, List.getLast?_eq_getElem?, List.getElem?_eq_getElem (by omega)]
  rfl

theorem idxRight_spec (vec : List ℚ) (v : ℚ) (h2 : 2 ≤ vec.length) (h0 : vec.headD 0 ≤ v) (h1 : v ≤ vec.getLastD 0) :
    ∃ i, idxRight vec v = i + 1 ∧ ∃ hi : i + 1 < vec.length, vec[i] ≤ v ∧ v ≤ vec[i + 1] := by
  rw [headD_eq vec (by omega)] at h0
  rw [getLastD_eq vec (by omega)] at h1
  unfold idxRight
  cases hf : vec.findIdx? (fun x => decide (v < x)) with
  | some j =>
    rw [List.findIdx?_eq_some_iff_getElem] at hf
    obtain ⟨hj, hlt, hbefore⟩ := hf
    rw [decide_eq_true_eq] at hlt
    have hj0 : j ≠ 0 := by
      intro e
      subst e
      exact absurd h0 (not_le.2 hlt)
    obtain ⟨i, rfl⟩ : ∃ i, j = i + 1 := ⟨j - 1, by omega⟩
    have := hbefore i (by omega)
    rw [decide_eq_true_eq, not_lt] at this
    exact ⟨i, rfl, hj, this, hlt.le⟩
  | none =>
    rw [List.findIdx?_eq_none_iff] at hf
    refine ⟨vec.length - 2, by dsimp only; omega, by omega, ?_, ?_⟩
    · have := hf _ (List.getElem_mem (l := vec) (n := vec.length - 2) (by omega))
      rwa [decide_eq_false_iff_not, not_lt] at this
    · have e : vec.length - 2 + 1 = vec.length - 1 := by omega
      simp only [e]
      exact h1

theorem at_nat (vec : List ℚ) (i : Nat) (h : i < vec.length) : at' vec (i : Int) = .ok vec[i] := by
  unfold at'
  have h' : (i : Int).toNat = i := by omega
  rw [if_pos ⟨by omega, by rw [h']; exact h⟩, h']
  simp [List.getD_eq_getElem?_getD, h]

/-- C44, first part. For every table with at least two entries whose first entry does not exceed the last one (in
particular, for every ascending one), every requested value and every way of rounding, the two interpolation points are
adjacent entries that enclose the limited value, and the weights lie between zero and one. -/
theorem C44_points (rnd : ℚ → ℚ) (hr : Rounding rnd) (vec : List ℚ) (ht : Table vec) (value : ℚ) :
    ∃ (lim : ℚ) (i : Nat) (p : Points), Limited (vec.headD 0) (vec.getLastD 0) value lim ∧ points rnd vec value = .ok p ∧
      p.left = i ∧ p.right = i + 1 ∧ (∃ _ : i + 1 < vec.length, vec[i] ≤ lim ∧ lim ≤ vec[i + 1]) ∧
      0 ≤ p.weightLeft ∧ p.weightLeft ≤ 1 ∧ 0 ≤ p.weightRight ∧ p.weightRight ≤ 1 ∧
      p.weightRight = rnd (1 - p.weightLeft) := by
  obtain ⟨h2, hfl⟩ := ht
  obtain ⟨hlim, hl0, hl1⟩ := limited_spec vec value hfl
  obtain ⟨i, hi, hlt, ha, hb⟩ := idxRight_spec vec (limited vec value) h2 hl0 hl1
  have hne : vec ≠ [] := by intro e; rw [e] at h2; simp at h2
  have e1 : at' vec (((i + 1 : Nat) : Int) - 1) = .ok vec[i] := by
    have : ((i + 1 : Nat) : Int) - 1 = (i : Int) := by omega
    rw [this]; exact at_nat vec i (by omega)
  have e2 : at' vec ((i + 1 : Nat) : Int) = .ok vec[i + 1] := at_nat vec (i + 1) hlt
  have nn : ∀ x, 0 ≤ x → 0 ≤ rnd x := fun x hx => by rw [← hr.zero]; exact hr.mono _ _ hx
  have le1 : ∀ x, x ≤ 1 → rnd x ≤ 1 := fun x hx => by rw [← hr.one]; exact hr.mono _ _ hx
  generalize hv : limited vec value = v at *
  have hdl := nn _ (sub_nonneg.2 ha)
  have hdr := nn _ (sub_nonneg.2 hb)
  have hdi : rnd (rnd (vec[i + 1] - v)) = rnd (vec[i + 1] - v) := hr.idem _
  generalize hA : rnd (v - vec[i]) = dl at *
  generalize hB : rnd (vec[i + 1] - v) = dr at *
  have hle : dr ≤ rnd (dl + dr) := by
    have := hr.mono dr (dl + dr) (by linarith)
    rwa [hdi] at this
  have hwl : 0 ≤ (if 0 < rnd (dl + dr) then rnd (dr / rnd (dl + dr)) else 0) ∧
      (if 0 < rnd (dl + dr) then rnd (dr / rnd (dl + dr)) else 0) ≤ 1 := by
    by_cases hp : 0 < rnd (dl + dr)
    · rw [if_pos hp]
      exact ⟨nn _ (div_nonneg hdr hp.le), le1 _ ((div_le_one hp).2 hle)⟩
    · rw [if_neg hp]
      exact ⟨le_refl _, zero_le_one⟩
  refine ⟨v, i, ⟨((i + 1 : Nat) : Int) - 1, ((i + 1 : Nat) : Int), (if 0 < rnd (dl + dr) then rnd (dr / rnd (dl + dr)) else 0),
    rnd (1 - (if 0 < rnd (dl + dr) then rnd (dr / rnd (dl + dr)) else 0))⟩, hlim, ?_, ?_, ?_, ⟨hlt, ha, hb⟩, hwl.1, hwl.2,
    nn _ (by linarith [hwl.2]), le1 _ (by linarith [hwl.1]), rfl⟩
  · unfold points
    rw [if_neg hne]
    dsimp only
    rw [hv, hi, e1, e2, Res.ok_bind, Res.ok_bind, hA, hB]
  · show ((i + 1 : Nat) : Int) - 1 = i
    omega
  · show ((i + 1 : Nat) : Int) = i + 1
    omega

/-- C44, second part. In exact arithmetic the weights sum to one, and the interpolated value is the limited value. -/
theorem C44_weights (vec : List ℚ) (ht : Table vec) (value : ℚ) :
    ∃ (lim : ℚ) (i : Nat) (p : Points), Limited (vec.headD 0) (vec.getLastD 0) value lim ∧ points id vec value = .ok p ∧
      p.left = i ∧ p.right = i + 1 ∧ i + 1 < vec.length ∧ 0 ≤ p.weightLeft ∧ 0 ≤ p.weightRight ∧
      p.weightLeft + p.weightRight = 1 ∧ interpolate vec p = .ok lim := by
  obtain ⟨lim, i, p, h1, h2, h3, h4, ⟨h5, h6, h7⟩, h8, h9, h10, h11, h12⟩ := C44_points id rounding_id vec ht value
  simp only [id] at h12
  refine ⟨lim, i, p, h1, h2, h3, h4, h5, h8, h10, by rw [h12]; ring, ?_⟩
  have e1 : at' vec p.left = .ok vec[i] := by rw [h3]; exact at_nat vec i (by omega)
  have e2 : at' vec p.right = .ok vec[i + 1] := by
    rw [h4]
    have : ((i : Int) + 1) = ((i + 1 : Nat) : Int) := by omega
    rw [this]
    exact at_nat vec (i + 1) h5
  unfold interpolate
  rw [e1, e2, Res.ok_bind, Res.ok_bind]
  -- the weight, from the definition
  have hv : lim = limited vec value := by
    obtain ⟨hs, -, -⟩ := limited_spec vec value ht.2
    rcases lt_or_ge value (vec.headD 0) with h | h
    · rw [h1.1 h, hs.1 h]
    · rcases lt_or_ge (vec.getLastD 0) value with h' | h'
      · rw [h1.2.2 h', hs.2.2 h']
      · rw [h1.2.1 ⟨h, h'⟩, hs.2.1 ⟨h, h'⟩]
  have hwl : p.weightLeft = if 0 < (lim - vec[i]) + (vec[i + 1] - lim) then (vec[i + 1] - lim) / ((lim - vec[i]) + (vec[i + 1] - lim)) else 0 := by
    have hne : vec ≠ [] := by intro e; have := ht.1; rw [e] at this; simp at this
    unfold points at h2
    rw [if_neg hne] at h2
    dsimp only [id] at h2
    rw [← hv] at h2
    have hidx : ((idxRight vec lim : Nat) : Int) = p.right := by
      cases ha : at' vec (((idxRight vec lim : Nat) : Int) - 1) with
      | ok a =>
        cases hb : at' vec ((idxRight vec lim : Nat) : Int) with
        | ok b =>
          rw [ha, hb] at h2
          exact congrArg Points.right (Res.ok.inj h2)
        | abort => rw [ha, hb] at h2; exact Res.noConfusion rfl (heq_of_eq h2)
        | ub => rw [ha, hb] at h2; exact Res.noConfusion rfl (heq_of_eq h2)
      | abort => rw [ha] at h2; exact Res.noConfusion rfl (heq_of_eq h2)
      | ub => rw [ha] at h2; exact Res.noConfusion rfl (heq_of_eq h2)
    have hl : p.right - 1 = p.left := by rw [h3, h4]; omega
    rw [hidx, hl, e1, e2] at h2
    have := congrArg Points.weightLeft (Res.ok.inj h2)
    exact this.symm
  show Res.ok (vec[i] * p.weightLeft + vec[i + 1] * p.weightRight) = .ok lim
  congr 1
  rw [h12, hwl]
  by_cases hp : 0 < (lim - vec[i]) + (vec[i + 1] - lim)
  · rw [if_pos hp]
    have : vec[i + 1] - vec[i] ≠ 0 := by intro h; linarith
    have e : (lim - vec[i]) + (vec[i + 1] - lim) = vec[i + 1] - vec[i] := by ring
    rw [e]
    field_simp
    ring
  · rw [if_neg hp]
    linarith

/-! ## Gains -/

theorem roundAway_near (x : ℚ) : |(roundAway x : ℚ) - x| ≤ 1 / 2 := by
  unfold roundAway
  rw [abs_le]
  by_cases h : 0 ≤ x
  · rw [if_pos h]
    have h1 := Int.floor_le (x + 1 / 2)
    have h2 := Int.lt_floor_add_one (x + 1 / 2)
    constructor <;> linarith
  · rw [if_neg h]
    have h1 := Int.floor_le (-x + 1 / 2)
    have h2 := Int.lt_floor_add_one (-x + 1 / 2)
    push_cast
    constructor <;> linarith

theorem roundAway_ge (x : ℚ) (a : Int) (h : (a : ℚ) ≤ x) : a ≤ roundAway x := by
  by_contra hc
  have h1 : roundAway x + 1 ≤ a := by omega
  have h2 : ((roundAway x : Int) : ℚ) + 1 ≤ a := by exact_mod_cast h1
  have h3 := (abs_le.1 (roundAway_near x)).1
  linarith

theorem roundAway_le (x : ℚ) (b : Int) (h : x ≤ (b : ℚ)) : roundAway x ≤ b := by
  by_contra hc
  have h1 : b + 1 ≤ roundAway x := by omega
  have h2 : (b : ℚ) + 1 ≤ ((roundAway x : Int) : ℚ) := by exact_mod_cast h1
  have h3 := (abs_le.1 (roundAway_near x)).2
  linarith

theorem row_nat (t : List (List ℚ)) (i : Nat) (h : i < t.length) : row t (i : Int) = .ok t[i] ∧ t.getD i [] = t[i] := by
  have e : t.getD i [] = t[i] := by simp [List.getD_eq_getElem?_getD, h]
  unfold row
  have h' : (i : Int).toNat = i := by omega
  rw [if_pos ⟨by omega, by rw [h']; exact h⟩, h', e]
  exact ⟨rfl, rfl⟩

/-- A weighted mean lies between the bounds of its two values. -/
theorem mean_bounds {x y w v a b : ℚ} (hw : 0 ≤ w) (hv : 0 ≤ v) (h1 : w + v = 1) (hx : a ≤ x ∧ x ≤ b) (hy : a ≤ y ∧ y ≤ b) :
    a ≤ x * w + y * v ∧ x * w + y * v ≤ b := by
  have e : v = 1 - w := by linarith
  subst e
  have h2 : a * w ≤ x * w := mul_le_mul_of_nonneg_right hx.1 hw
  have h3 : a * (1 - w) ≤ y * (1 - w) := mul_le_mul_of_nonneg_right hy.1 hv
  have h4 : x * w ≤ b * w := mul_le_mul_of_nonneg_right hx.2 hw
  have h5 : y * (1 - w) ≤ b * (1 - w) := mul_le_mul_of_nonneg_right hy.2 hv
  constructor
  · have : a = a * w + a * (1 - w) := by ring
    linarith
  · have : b = b * w + b * (1 - w) := by ring
    linarith

/-- C44, third part. For all tables of the required shape, every requested power and frequency: there is a result; its gain
is a multiple of the step; its power differs by at most half a step from the weighted mean of the requested power, limited
at two adjacent frequencies that enclose the (limited) frequency; and if all gains of the table lie between two multiples
of the step, so does the gain. -/
theorem C44_achievable (freqs : List ℚ) (gains powers : List (List ℚ)) (ht : Tables freqs gains powers) (step power freq : ℚ)
    (hs : 0 < step) :
    ∃ (r : PowerGain) (i : Nat) (f limL limR w : ℚ), achievable freqs gains powers step power freq = .ok r ∧
      (∃ k : Int, r.gain = k * step) ∧
      Limited (freqs.headD 0) (freqs.getLastD 0) freq f ∧
      (∃ _ : i + 1 < freqs.length, freqs[i] ≤ f ∧ f ≤ freqs[i + 1] ∧ f = w * freqs[i] + (1 - w) * freqs[i + 1]) ∧
      0 ≤ w ∧ w ≤ 1 ∧
      Limited ((powers.getD i []).headD 0) ((powers.getD i []).getLastD 0) power limL ∧
      Limited ((powers.getD (i + 1) []).headD 0) ((powers.getD (i + 1) []).getLastD 0) power limR ∧
      |r.power - (w * limL + (1 - w) * limR)| ≤ step / 2 ∧
      ∀ a b : Int, (∀ row ∈ gains, ∀ g ∈ row, a * step ≤ g ∧ g ≤ b * step) → a * step ≤ r.gain ∧ r.gain ≤ b * step := by
  obtain ⟨f, i, pf, hf1, hf2, hf3, hf4, hf5, hf6, hf7, hf8, hf9⟩ := C44_weights freqs ht.table freq
  have ip : i < powers.length := by have := ht.nofPowers; omega
  have jp : i + 1 < powers.length := by have := ht.nofPowers; omega
  have ig : i < gains.length := by have := ht.nofGains; omega
  have jg : i + 1 < gains.length := by have := ht.nofGains; omega
  obtain ⟨rL, dL⟩ := row_nat powers i ip
  obtain ⟨rR, dR⟩ := row_nat powers (i + 1) jp
  obtain ⟨gL, eL⟩ := row_nat gains i ig
  obtain ⟨gR, eR⟩ := row_nat gains (i + 1) jg
  obtain ⟨limL, a, pl, l1, l2, l3, l4, l5, l6, l7, l8, l9⟩ := C44_weights powers[i] (ht.rows _ (List.getElem_mem ip)) power
  obtain ⟨limR, b, pr, r1, r2, r3, r4, r5, r6, r7, r8, r9⟩ := C44_weights powers[i + 1] (ht.rows _ (List.getElem_mem jp)) power
  have fitL := ht.fits i (by omega)
  have fitR := ht.fits (i + 1) (by omega)
  rw [dL, eL] at fitL
  rw [dR, eR] at fitR
  have cast1 : ∀ n : Nat, ((n : Int) + 1) = ((n + 1 : Nat) : Int) := fun n => by omega
  have iL : interpolate gains[i] pl = .ok (gains[i][a] * pl.weightLeft + gains[i][a + 1] * pl.weightRight) := by
    unfold interpolate
    rw [l3, l4, cast1, at_nat _ a (by omega), at_nat _ (a + 1) (by omega)]
    rfl
  have iR : interpolate gains[i + 1] pr = .ok (gains[i + 1][b] * pr.weightLeft + gains[i + 1][b + 1] * pr.weightRight) := by
    unfold interpolate
    rw [r3, r4, cast1, at_nat _ b (by omega), at_nat _ (b + 1) (by omega)]
    rfl
  generalize hGL : gains[i][a] * pl.weightLeft + gains[i][a + 1] * pl.weightRight = GL at *
  generalize hGR : gains[i + 1][b] * pr.weightLeft + gains[i + 1][b + 1] * pr.weightRight = GR at *
  have hwr : pf.weightRight = 1 - pf.weightLeft := by linarith
  generalize hG : GL * pf.weightLeft + GR * pf.weightRight = G
  refine ⟨⟨limL * pf.weightLeft + limR * pf.weightRight + ((roundAway (G / step) : ℚ) * step - G), (roundAway (G / step) : ℚ) * step⟩,
    i, f, limL, limR, pf.weightLeft, ?_, ⟨_, rfl⟩, hf1, ?_, hf6, by linarith, ?_, ?_, ?_, ?_⟩
  · unfold achievable
    rw [hf2]
    simp only [Res.ok_bind]
    rw [hf3, hf4, cast1, rL, rR]
    simp only [Res.ok_bind]
    rw [l2, r2]
    simp only [Res.ok_bind]
    rw [l9, r9, gL, gR]
    simp only [Res.ok_bind]
    rw [iL, iR]
    simp only [Res.ok_bind, hG]
    rfl
  · unfold interpolate at hf9
    rw [hf3, hf4, cast1, at_nat _ i (by omega), at_nat _ (i + 1) hf5] at hf9
    have hm : freqs[i] * pf.weightLeft + freqs[i + 1] * pf.weightRight = f := Res.ok.inj hf9
    obtain ⟨lim, i', p', q1, q2, q3, -, ⟨q5, q6, q7⟩, -⟩ := C44_points id rounding_id freqs ht.table freq
    have ep : p' = pf := Res.ok.inj (q2.symm.trans hf2)
    have ei : i' = i := by rw [ep, hf3] at q3; omega
    have el : lim = f := by
      rcases lt_or_ge freq (freqs.headD 0) with h | h
      · rw [hf1.1 h, q1.1 h]
      · rcases lt_or_ge (freqs.getLastD 0) freq with h' | h'
        · rw [hf1.2.2 h', q1.2.2 h']
        · rw [hf1.2.1 ⟨h, h'⟩, q1.2.1 ⟨h, h'⟩]
    subst ei el
    refine ⟨hf5, q6, q7, ?_⟩
    rw [← hm, hwr]
    ring
  · rw [dL]; exact l1
  · rw [dR]; exact r1
  · show |limL * pf.weightLeft + limR * pf.weightRight + ((roundAway (G / step) : ℚ) * step - G) - _| ≤ _
    have e : limL * pf.weightLeft + limR * pf.weightRight + ((roundAway (G / step) : ℚ) * step - G) -
        (pf.weightLeft * limL + (1 - pf.weightLeft) * limR) = ((roundAway (G / step) : ℚ) - G / step) * step := by
      rw [hwr]; field_simp; ring
    rw [e, abs_mul, abs_of_pos hs]
    have := mul_le_mul_of_nonneg_right (roundAway_near (G / step)) hs.le
    linarith
  · intro lo hi hb
    have bL : lo * step ≤ GL ∧ GL ≤ hi * step := by
      rw [← hGL]
      exact mean_bounds l6 l7 l8 (hb _ (List.getElem_mem ig) _ (List.getElem_mem _)) (hb _ (List.getElem_mem ig) _ (List.getElem_mem _))
    have bR : lo * step ≤ GR ∧ GR ≤ hi * step := by
      rw [← hGR]
      exact mean_bounds r6 r7 r8 (hb _ (List.getElem_mem jg) _ (List.getElem_mem _)) (hb _ (List.getElem_mem jg) _ (List.getElem_mem _))
    have bG : lo * step ≤ G ∧ G ≤ hi * step := by rw [← hG]; exact mean_bounds hf6 hf7 hf8 bL bR
    have h1 : lo ≤ roundAway (G / step) := roundAway_ge _ _ ((le_div_iff₀ hs).2 bG.1)
    have h2 : roundAway (G / step) ≤ hi := roundAway_le _ _ ((div_le_iff₀ hs).2 bG.2)
    have h1' : (lo : ℚ) ≤ ((roundAway (G / step) : Int) : ℚ) := by exact_mod_cast h1
    have h2' : ((roundAway (G / step) : Int) : ℚ) ≤ (hi : ℚ) := by exact_mod_cast h2
    exact ⟨mul_le_mul_of_nonneg_right h1' hs.le, mul_le_mul_of_nonneg_right h2' hs.le⟩

/-- If the requested power is within the range at every frequency, the power is achieved up to half a step. -/
theorem C44_power (freqs : List ℚ) (gains powers : List (List ℚ)) (ht : Tables freqs gains powers) (step power freq : ℚ)
    (hs : 0 < step) (hp : ∀ row ∈ powers, row.headD 0 ≤ power ∧ power ≤ row.getLastD 0) :
    ∃ r, achievable freqs gains powers step power freq = .ok r ∧ |r.power - power| ≤ step / 2 := by
  obtain ⟨r, i, f, limL, limR, w, h1, -, -, ⟨h2, -⟩, -, -, h3, h4, h5, -⟩ := C44_achievable freqs gains powers ht step power freq hs
  have ip : i < powers.length := by have := ht.nofPowers; omega
  have jp : i + 1 < powers.length := by have := ht.nofPowers; omega
  rw [(row_nat powers i ip).2] at h3
  rw [(row_nat powers (i + 1) jp).2] at h4
  have e1 := h3.2.1 (hp _ (List.getElem_mem ip))
  have e2 := h4.2.1 (hp _ (List.getElem_mem jp))
  refine ⟨r, h1, ?_⟩
  rw [e1, e2] at h5
  have e : w * power + (1 - w) * power = power := by ring
  rwa [e] at h5

/-! ## The tables of the code -/

/-- All kinds of hardware (hw_simulator.cpp:60-68, hw_usrp.cpp:77-165) -/
def calibrations : List Calibration := [simulator, b210, n310, n320, x410]

theorem tables_of (freqs : List ℚ) (gains powers : List (List ℚ))
    (h : (decide (Table freqs) && decide (freqs.length ≤ powers.length) && decide (freqs.length ≤ gains.length) &&
      powers.all (fun r => decide (Table r)) &&
      (List.range freqs.length).all fun i => decide ((powers.getD i []).length ≤ (gains.getD i []).length)) = true) :
    Tables freqs gains powers := by
  simp only [Bool.and_eq_true, decide_eq_true_eq, List.all_eq_true, List.mem_range] at h
  exact ⟨h.1.1.1.1, h.1.1.1.2, h.1.1.2, h.1.2, h.2⟩

/-- Every table has the required shape; steps are 1 dB; all gains lie between 0 dB and 90 dB for transmission and between
0 dB and 76 dB for reception. -/
theorem calibration_tables (c : Calibration) (hc : c ∈ calibrations) :
    Tables c.freqs c.gainsTx c.powersTx ∧ Tables c.freqs c.gainsRx c.powersRx ∧ c.stepTx = 1 ∧ c.stepRx = 1 ∧
      (∀ row ∈ c.gainsTx, ∀ g ∈ row, 0 ≤ g ∧ g ≤ 90) ∧ (∀ row ∈ c.gainsRx, ∀ g ∈ row, 0 ≤ g ∧ g ≤ 76) := by
  simp only [calibrations, List.mem_cons, List.not_mem_nil, or_false] at hc
  rcases hc with rfl | rfl | rfl | rfl | rfl <;>
    exact ⟨tables_of _ _ _ (by decide +kernel), tables_of _ _ _ (by decide +kernel), rfl, rfl, by decide +kernel, by decide +kernel⟩

/-- C44 for the hardware of the code: every request for transmission and reception, at any power and frequency, has a
result, whose gain is an integer within the range of the hardware. -/
theorem C44_hardware (c : Calibration) (hc : c ∈ calibrations) (power freq : ℚ) :
    (∃ (r : PowerGain) (k : Int), achievableTx c power freq = .ok r ∧ r.gain = k ∧ 0 ≤ k ∧ k ≤ 90) ∧
      ∃ (r : PowerGain) (k : Int), achievableRx c power freq = .ok r ∧ r.gain = k ∧ 0 ≤ k ∧ k ≤ 76 := by
  obtain ⟨h1, h2, h3, h4, h5, h6⟩ := calibration_tables c hc
  constructor
  · obtain ⟨r, -, -, -, -, -, e, ⟨k, hk⟩, -, -, -, -, -, -, -, hb⟩ :=
      C44_achievable c.freqs c.gainsTx c.powersTx h1 c.stepTx power freq (by rw [h3]; exact zero_lt_one)
    rw [h3, mul_one] at hk
    have := hb 0 90 (by intro row hr g hg; have := h5 row hr g hg; rw [h3]; constructor <;> push_cast <;> linarith [this.1, this.2])
    rw [h3, hk] at this
    push_cast at this
    refine ⟨r, k, e, hk, ?_, ?_⟩
    · have := this.1; rw [zero_mul] at this; exact_mod_cast this
    · have h9 : (k : ℚ) ≤ ((90 : Int) : ℚ) := by push_cast; linarith [this.2]
      exact_mod_cast h9
  · obtain ⟨r, -, -, -, -, -, e, ⟨k, hk⟩, -, -, -, -, -, -, -, hb⟩ :=
      C44_achievable c.freqs c.gainsRx c.powersRx h2 c.stepRx power freq (by rw [h4]; exact zero_lt_one)
    rw [h4, mul_one] at hk
    have := hb 0 76 (by intro row hr g hg; have := h6 row hr g hg; rw [h4]; constructor <;> push_cast <;> linarith [this.1, this.2])
    rw [h4, hk] at this
    push_cast at this
    refine ⟨r, k, e, hk, ?_, ?_⟩
    · have := this.1; rw [zero_mul] at this; exact_mod_cast this
    · have h9 : (k : ℚ) ≤ ((76 : Int) : ℚ) := by push_cast; linarith [this.2]
      exact_mod_cast h9

/-- Finding: some tables of powers are not strictly ascending as required, one is not even ascending (n320 at 1 GHz has 15,
13, 17 dBm). -/
theorem C44_finding_not_ascending :
    (∀ row ∈ simulator.powersTx, Ascending row) ∧ (∀ row ∈ n310.powersTx, Ascending row) ∧
      (∃ row ∈ b210.powersTx, ¬ Ascending row) ∧ (∃ row ∈ x410.powersTx, ¬ Ascending row) ∧
      ¬ (n320.powersTx.getD 1 []).Pairwise (· ≤ ·) := by
  refine ⟨by decide +kernel, by decide +kernel, ?_, ?_, by decide +kernel⟩
  · exact ⟨b210.powersTx.getD 1 [], by decide +kernel, by decide +kernel⟩
  · exact ⟨x410.powersTx.getD 10 [], by decide +kernel, by decide +kernel⟩

/-- Its effect: on n320 at 1 GHz, a request of 15 dBm leads to a gain 8 dB higher than a request of 14.99 dBm. -/
theorem C44_finding_jump :
    ∃ r s, achievableTx n320 15 1000000000 = .ok r ∧ achievableTx n320 (1499 / 100) 1000000000 = .ok s ∧ r.gain = 53 ∧ s.gain = 45 := by
  refine ⟨⟨31 / 2, 53⟩, ⟨6001 / 400, 45⟩, ?_, ?_, rfl, rfl⟩
  · decide +kernel
  · decide +kernel

/-- Non-vacuity: an interior value -/
theorem C44_example : Table [-40, -10, 20] ∧ Ascending [-40, -10, 20] ∧
    (do let p ← points id [-40, -10, 20] 5; pure (p.left, p.right, p.weightLeft, p.weightRight)) = .ok (1, 2, 1 / 2, 1 / 2) ∧
    (do let r ← achievableTx simulator 5 2000000000; pure (r.power, r.gain)) = .ok (5, 45) := by
  refine ⟨by decide +kernel, by decide +kernel, by decide +kernel, by decide +kernel⟩

end Verif.Props.C44
