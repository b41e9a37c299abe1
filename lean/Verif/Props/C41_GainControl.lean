import Verif.Model.Agc
import Verif.Props.C44_GainLut
import Mathlib.Data.Finset.Card

/-!
# C41: Gain control serves all antennas in turn and within limits -/

namespace Verif.Props.C41

open Verif.Phy.Agc Verif.Radio.GainLut

set_option linter.unusedSimpArgs false

/-! ## Round robin -/

theorem getD_set (l : List ℚ) (i a : Nat) (x : ℚ) (h : i < l.length) :
    (l.set i x).getD a 0 = if a = i then x else l.getD a 0 := by
  simp only [List.getD_eq_getElem?_getD, List.getElem?_set]
  by_cases e : i = a
  · subst e; simp [h]
  · simp [e, Ne.symm e]

theorem mod_succ (k n : Nat) (h : 0 < n) : (if k % n + 1 = n then 0 else k % n + 1) = (k + 1) % n := by
  have hlt := Nat.mod_lt k h
  rw [Nat.add_mod]
  by_cases h1 : n = 1
  · subst h1; simp [Nat.mod_one]
  · have : 1 % n = 1 := Nat.mod_eq_of_lt (by omega)
    rw [this]
    by_cases e : k % n + 1 = n
    · rw [if_pos e, e, Nat.mod_self]
    · rw [if_neg e]
      exact (Nat.mod_eq_of_lt (show k % n + 1 < n by omega)).symm

/-- One call, `k` services have been made before. -/
theorem loop_spec (nof sim : Nat) (hn : 0 < nof) (ant : List ℚ) (ha : ant.length = nof) :
    ∀ (n k : Nat) (ret : List ℚ), ret.length = nof → (∀ a, ant.getD a 0 = 0 → ret.getD a 0 = 0) →
      ∃ ret', RoundRobin.loop ⟨nof, sim, k % nof⟩ ant n ret = .ok (ret', ⟨nof, sim, (k + n) % nof⟩) ∧ ret'.length = nof ∧
        ∀ a, ret'.getD a 0 = if ∃ i < n, (k + i) % nof = a then ant.getD a 0 else ret.getD a 0 := by
  intro n
  induction n with
  | zero =>
    intro k ret hl _
    refine ⟨ret, rfl, hl, ?_⟩
    intro a
    rw [if_neg (by rintro ⟨i, hi, -⟩; omega)]
  | succ n ih =>
    intro k ret hl hz
    have hlt := Nat.mod_lt k hn
    have hget : Ant.get ant (k % nof) = .ok (ant.getD (k % nof) 0) := by unfold Ant.get; rw [if_pos (by omega)]
    have key : ∀ ret1 : List ℚ, ret1.length = nof →
        (∀ a, ret1.getD a 0 = if a = k % nof then ant.getD a 0 else ret.getD a 0) →
        ∃ ret', RoundRobin.loop ⟨nof, sim, (k + 1) % nof⟩ ant n ret1 = .ok (ret', ⟨nof, sim, (k + (n + 1)) % nof⟩) ∧ ret'.length = nof ∧
        ∀ a, ret'.getD a 0 = if ∃ i < n + 1, (k + i) % nof = a then ant.getD a 0 else ret.getD a 0 := by
      intro ret1 hl1 hv1
      obtain ⟨ret', h1, h2, h3⟩ := ih (k + 1) ret1 hl1 (by
        intro a h0
        rw [hv1 a]
        split
        · exact h0
        · exact hz a h0)
      have e : k + 1 + n = k + (n + 1) := by omega
      rw [e] at h1
      refine ⟨ret', h1, h2, ?_⟩
      intro a
      rw [h3 a]
      by_cases hc : ∃ i < n, (k + 1 + i) % nof = a
      · rw [if_pos hc, if_pos]
        obtain ⟨i, hi, he⟩ := hc
        exact ⟨i + 1, by omega, by rw [← he]; congr 1; omega⟩
      · rw [if_neg hc, hv1 a]
        by_cases hk : a = k % nof
        · rw [if_pos hk, if_pos]
          exact ⟨0, by omega, hk.symm⟩
        · rw [if_neg hk, if_neg]
          rintro ⟨i, hi, he⟩
          cases i with
          | zero => exact hk he.symm
          | succ i => exact hc ⟨i, by omega, by rw [← he]; congr 1; omega⟩
    unfold RoundRobin.loop
    dsimp only
    rw [hget, Res.ok_bind, mod_succ k nof hn]
    by_cases hx : ant.getD (k % nof) 0 = 0
    · rw [if_neg (by simpa using hx)]
      exact key ret hl (by
        intro a
        by_cases hk : a = k % nof
        · rw [if_pos hk, hk, hx, hz _ hx]
        · rw [if_neg hk])
    · rw [if_pos hx]
      have hset : Ant.set ret (k % nof) (ant.getD (k % nof) 0) = .ok (ret.set (k % nof) (ant.getD (k % nof) 0)) := by
        unfold Ant.set; rw [if_pos (by omega)]
      rw [hset]
      exact key _ (by rw [List.length_set, hl]) (by
        intro a
        rw [getD_set _ _ _ _ (by omega)]
        by_cases hk : a = k % nof
        · rw [if_pos hk, if_pos hk, hk]
        · rw [if_neg hk, if_neg hk])

theorem process_spec (nof sim k : Nat) (hn : 0 < nof) (hm : nof ≤ maxAntennas) (ant : List ℚ) (ha : ant.length = nof) :
    ∃ y, RoundRobin.process ⟨nof, sim, k % nof⟩ ant = .ok (y, ⟨nof, sim, (k + sim) % nof⟩) ∧ y.length = nof ∧
      ∀ a, y.getD a 0 = if ∃ i < sim, (k + i) % nof = a then ant.getD a 0 else 0 := by
  have hz : ∀ a, (List.replicate nof (0 : ℚ)).getD a 0 = 0 := by
    intro a
    rw [List.getD_eq_getElem?_getD, List.getElem?_replicate]
    split <;> rfl
  obtain ⟨y, h1, h2, h3⟩ := loop_spec nof sim hn ant ha sim k (List.replicate nof 0) (by simp) (fun a _ => hz a)
  refine ⟨y, ?_, h2, ?_⟩
  · unfold RoundRobin.process Ant.make
    simp only [hn, hm, decide_true, Res.assert_true, Res.ok_bind, Res.pure_eq]
    exact h1
  · intro a
    rw [h3 a, hz a]

/-- C41, round robin. Number the services of all calls consecutively. For every number of antennas, every number of
simultaneous services and every sequence of calls, service `s` concerns antenna `s` modulo the number of antennas, and in
each call an antenna that is served gets its requested step and the others get none. -/
theorem C41_round_robin (nof simultaneous : Nat) (hn : 0 < nof) (hm : nof ≤ maxAntennas) (hs : 0 < simultaneous) :
    ∃ r, RoundRobin.make nof simultaneous = .ok r ∧ ∀ xs : List (List ℚ), (∀ x ∈ xs, x.length = nof) →
      ∃ ys r', r.run xs = .ok (ys, r') ∧ ys.length = xs.length ∧
        ∀ c < xs.length, (ys.getD c []).length = nof ∧ ∀ a,
          (ys.getD c []).getD a 0 =
            if ∃ i < min simultaneous nof, (c * min simultaneous nof + i) % nof = a then (xs.getD c []).getD a 0 else 0 := by
  refine ⟨⟨nof, min simultaneous nof, 0⟩, ?_, ?_⟩
  · unfold RoundRobin.make
    have h1 : 0 < min simultaneous nof := by omega
    have h2 : min simultaneous nof ≤ nof := by omega
    simp only [h1, h2, decide_true, Res.assert_true, Res.ok_bind, Res.pure_eq]
  · generalize min simultaneous nof = sim
    have key : ∀ (xs : List (List ℚ)) (k : Nat), (∀ x ∈ xs, x.length = nof) →
        ∃ ys r', RoundRobin.run ⟨nof, sim, k % nof⟩ xs = .ok (ys, r') ∧ ys.length = xs.length ∧
          ∀ c < xs.length, (ys.getD c []).length = nof ∧ ∀ a,
            (ys.getD c []).getD a 0 = if ∃ i < sim, (k + c * sim + i) % nof = a then (xs.getD c []).getD a 0 else 0 := by
      intro xs
      induction xs with
      | nil => intro k _; exact ⟨[], _, rfl, rfl, fun c hc => absurd hc (by simp)⟩
      | cons x xs ih =>
        intro k hx
        obtain ⟨y, h1, h2, h3⟩ := process_spec nof sim k hn hm x (hx x List.mem_cons_self)
        obtain ⟨ys, r', g1, g2, g3⟩ := ih (k + sim) fun z hz => hx z (List.mem_cons_of_mem _ hz)
        refine ⟨y :: ys, r', ?_, by simp [g2], ?_⟩
        · rw [RoundRobin.run, h1, Res.ok_bind]
          show (RoundRobin.run _ xs >>= _) = _
          rw [g1]
          rfl
        · intro c hc
          cases c with
          | zero =>
            refine ⟨h2, fun a => ?_⟩
            rw [Nat.zero_mul, Nat.add_zero]
            exact h3 a
          | succ c =>
            have := g3 c (by simpa using hc)
            refine ⟨this.1, fun a => ?_⟩
            have e : k + (c + 1) * sim = k + sim + c * sim := by rw [Nat.add_mul, Nat.one_mul]; omega
            rw [e]
            exact this.2 a
    intro xs hx
    obtain ⟨ys, r', h1, h2, h3⟩ := key xs 0 hx
    rw [Nat.zero_mod] at h1
    refine ⟨ys, r', h1, h2, fun c hc => ?_⟩
    have := h3 c hc
    rw [Nat.zero_add] at this
    exact this

/-- Each antenna is served exactly once in each round of as many services as there are antennas, wherever it begins. -/
theorem C41_once_per_round (nof s a : Nat) (ha : a < nof) : ∃! i, i < nof ∧ (s + i) % nof = a := by
  have hn : 0 < nof := by omega
  have hlt := Nat.mod_lt s hn
  have hd := Nat.div_add_mod s nof
  have hmod : ∀ i < nof, (s + i) % nof = if s % nof + i < nof then s % nof + i else s % nof + i - nof := by
    intro i hi
    rw [Nat.add_mod, Nat.mod_eq_of_lt hi]
    split
    · rename_i h; exact Nat.mod_eq_of_lt h
    · rename_i h; rw [Nat.mod_eq_sub_mod (by omega), Nat.mod_eq_of_lt (by omega)]
  refine ⟨if s % nof ≤ a then a - s % nof else a + nof - s % nof, ⟨?_, ?_⟩, ?_⟩
  · split <;> omega
  · rw [hmod _ (by split <;> omega)]
    split <;> split <;> omega
  · rintro i ⟨hi, he⟩
    rw [hmod i hi] at he
    split at he <;> split <;> omega

/-- At most the configured number of antennas change in a call. -/
theorem C41_at_most (nof simultaneous c : Nat) (x y : List ℚ)
    (hy : ∀ a, y.getD a 0 = if ∃ i < min simultaneous nof, (c * min simultaneous nof + i) % nof = a then x.getD a 0 else 0) :
    ((Finset.range nof).filter fun a => y.getD a 0 ≠ 0).card ≤ simultaneous := by
  have hsub : ((Finset.range nof).filter fun a => y.getD a 0 ≠ 0) ⊆
      (Finset.range (min simultaneous nof)).image fun i => (c * min simultaneous nof + i) % nof := by
    intro a ha
    rw [Finset.mem_filter] at ha
    rw [Finset.mem_image]
    by_contra hno
    apply ha.2
    rw [hy a, if_neg]
    rintro ⟨i, hi, he⟩
    exact hno ⟨i, Finset.mem_range.2 hi, he⟩
  calc _ ≤ _ := Finset.card_le_card hsub
    _ ≤ _ := Finset.card_image_le
    _ = min simultaneous nof := Finset.card_range _
    _ ≤ simultaneous := Nat.min_le_left _ _

/-- No antenna waits longer than the calls needed for one round. -/
theorem C41_waiting (nof simultaneous c a : Nat) (ha : a < nof) (hs : 0 < simultaneous) :
    ∃ d, (d - 1) * min simultaneous nof < nof ∧ 0 < d ∧ ∃ c', c ≤ c' ∧ c' < c + d ∧
      ∃ i < min simultaneous nof, (c' * min simultaneous nof + i) % nof = a := by
  have hp : 0 < min simultaneous nof := by omega
  generalize min simultaneous nof = sim at *
  obtain ⟨i, ⟨hi, he⟩, -⟩ := C41_once_per_round nof (c * sim) a ha
  have hdm := Nat.div_add_mod i sim
  have hml := Nat.mod_lt i hp
  refine ⟨i / sim + 1, ?_, Nat.succ_pos _, c + i / sim, Nat.le_add_right _ _, Nat.lt_succ_self _, i % sim, hml, ?_⟩
  · rw [Nat.add_sub_cancel, Nat.mul_comm]; omega
  · rw [← he]
    congr 1
    rw [Nat.add_mul, Nat.mul_comm (i / sim)]
    omega

/-! ## Steps -/

/-- Configurations that are accepted -/
structure Accepted (c : Config) : Prop where
  nof : 0 < c.nof ∧ c.nof ≤ 8
  multiple : 1 / 2 ≤ c.multiple ∧ c.multiple ≤ 5
  min : ∃ k : Int, 0 < k ∧ c.min = k * c.multiple
  max : ∃ k : Int, 0 < k ∧ c.max = k * c.multiple
  order : c.min ≤ c.max

theorem roundAway_int (k : Int) : roundAway (k : ℚ) = k := by
  have h1 := C44.roundAway_ge (k : ℚ) k (le_refl _)
  have h2 := C44.roundAway_le (k : ℚ) k (le_refl _)
  omega

theorem isPositiveMultiple_iff (x m : ℚ) (hx : 0 < x) (hm : 0 < m) :
    ∃ b, isPositiveMultiple x m = .ok b ∧ (b = true ↔ ∃ k : Int, 0 < k ∧ x = k * m) := by
  refine ⟨decide (x / m = roundAway (x / m)), ?_, ?_⟩
  · unfold isPositiveMultiple
    simp only [hx, hm, decide_true, Res.assert_true, Res.ok_bind, Res.pure_eq]
  · rw [decide_eq_true_eq]
    constructor
    · intro h
      refine ⟨roundAway (x / m), ?_, ?_⟩
      · have : (0 : ℚ) < ((roundAway (x / m) : Int) : ℚ) := by rw [← h]; exact div_pos hx hm
        exact_mod_cast this
      · rw [← h]; field_simp
    · rintro ⟨k, -, hk⟩
      have : x / m = k := by rw [hk]; field_simp
      rw [this, roundAway_int]

/-- Exactly these configurations are accepted by the constructor. -/
theorem C41_configuration (c : Config) : (Accepted c → c.check = .ok ⟨c.nof, c.nof, 0⟩) ∧ (¬ Accepted c → c.check = .abort) := by
  constructor
  · intro h
    have hm : 0 < c.multiple := lt_of_lt_of_le (by norm_num) h.multiple.1
    obtain ⟨k1, hk1, e1⟩ := h.max
    obtain ⟨k2, hk2, e2⟩ := h.min
    have hk1' : (0 : ℚ) < k1 := by exact_mod_cast hk1
    have hk2' : (0 : ℚ) < k2 := by exact_mod_cast hk2
    have p1 : 0 < c.max := by rw [e1]; exact mul_pos hk1' hm
    have p2 : 0 < c.min := by rw [e2]; exact mul_pos hk2' hm
    obtain ⟨b1, f1, g1⟩ := isPositiveMultiple_iff c.max c.multiple p1 hm
    obtain ⟨b2, f2, g2⟩ := isPositiveMultiple_iff c.min c.multiple p2 hm
    rw [g1.2 h.max] at f1
    rw [g2.2 h.min] at f2
    have hr : RoundRobin.make c.nof maxAntennas = .ok ⟨c.nof, c.nof, 0⟩ := by
      have e : min maxAntennas c.nof = c.nof := by unfold maxAntennas; have := h.nof; omega
      unfold RoundRobin.make
      rw [e]
      simp only [h.nof.1, le_refl, decide_true, Res.assert_true, Res.ok_bind, Res.pure_eq]
    unfold Config.check
    rw [hr, f1, f2]
    have hle : c.nof ≤ maxAntennas := h.nof.2
    simp only [h.nof.1, hle, h.multiple.1, h.multiple.2, h.order, decide_true, Res.assert_true, Res.ok_bind, Res.pure_eq]
  · intro h
    unfold Config.check
    by_cases h0 : 0 < c.nof
    swap
    · have : RoundRobin.make c.nof maxAntennas = .abort := by
        unfold RoundRobin.make
        have : ¬ 0 < min maxAntennas c.nof := by omega
        simp only [this, decide_false, Res.assert_false, Res.abort_bind]
      rw [this]; rfl
    have hr : RoundRobin.make c.nof maxAntennas = .ok ⟨c.nof, min maxAntennas c.nof, 0⟩ := by
      unfold RoundRobin.make
      have h1 : 0 < min maxAntennas c.nof := by unfold maxAntennas; omega
      have h2 : min maxAntennas c.nof ≤ c.nof := by omega
      simp only [h1, h2, decide_true, Res.assert_true, Res.ok_bind, Res.pure_eq]
    rw [hr, Res.ok_bind]
    simp only [h0, decide_true, Res.assert_true, Res.ok_bind]
    by_cases h1 : c.nof ≤ maxAntennas
    swap
    · simp only [h1, decide_false, Res.assert_false, Res.abort_bind]
    simp only [h1, decide_true, Res.assert_true, Res.ok_bind]
    by_cases h2 : 1 / 2 ≤ c.multiple
    swap
    · simp only [h2, decide_false, Res.assert_false, Res.abort_bind]
    simp only [h2, decide_true, Res.assert_true, Res.ok_bind]
    by_cases h3 : c.multiple ≤ 5
    swap
    · simp only [h3, decide_false, Res.assert_false, Res.abort_bind]
    simp only [h3, decide_true, Res.assert_true, Res.ok_bind]
    by_cases h4 : c.min ≤ c.max
    swap
    · simp only [h4, decide_false, Res.assert_false, Res.abort_bind]
    simp only [h4, decide_true, Res.assert_true, Res.ok_bind]
    have hm : 0 < c.multiple := lt_of_lt_of_le (by norm_num) h2
    by_cases h5 : 0 < c.max
    swap
    · have : isPositiveMultiple c.max c.multiple = .abort := by
        unfold isPositiveMultiple
        simp only [h5, decide_false, Res.assert_false, Res.abort_bind]
      rw [this]; rfl
    obtain ⟨b1, f1, g1⟩ := isPositiveMultiple_iff c.max c.multiple h5 hm
    rw [f1, Res.ok_bind]
    by_cases h6 : ∃ k : Int, 0 < k ∧ c.max = k * c.multiple
    swap
    · have : b1 = false := by rw [← Bool.not_eq_true, g1]; exact h6
      rw [this]; rfl
    rw [g1.2 h6, Res.assert_true, Res.ok_bind]
    by_cases h7 : 0 < c.min
    swap
    · have : isPositiveMultiple c.min c.multiple = .abort := by
        unfold isPositiveMultiple
        simp only [h7, decide_false, Res.assert_false, Res.abort_bind]
      rw [this]; rfl
    obtain ⟨b2, f2, g2⟩ := isPositiveMultiple_iff c.min c.multiple h7 hm
    rw [f2, Res.ok_bind]
    have : b2 = false := by
      rw [← Bool.not_eq_true, g2]
      intro h8
      exact h ⟨⟨h0, h1⟩, ⟨h2, h3⟩, h8, h6, h4⟩
    rw [this]
    rfl

/-- C41, steps. For every accepted configuration and every requested step there is a multiple of the step size within half
a step size of the request, and the result is zero in the dead band around zero, the multiple itself outside of it, and the
limit if the multiple exceeds the limits. -/
theorem C41_step (c : Config) (hc : Accepted c) (x : ℚ) :
    ∃ k : Int, |k * c.multiple - x| ≤ c.multiple / 2 ∧
      (|k * c.multiple| < c.min → quantize c x = 0) ∧
      (c.min ≤ |k * c.multiple| ∧ |k * c.multiple| ≤ c.max → quantize c x = k * c.multiple) ∧
      (c.max < k * c.multiple → quantize c x = c.max) ∧ (k * c.multiple < -c.max → quantize c x = -c.max) := by
  have hm : 0 < c.multiple := lt_of_lt_of_le (by norm_num) hc.multiple.1
  refine ⟨roundAway (x / c.multiple), ?_, ?_⟩
  · have h := mul_le_mul_of_nonneg_right (C44.roundAway_near (x / c.multiple)) hm.le
    rw [← abs_of_pos hm, ← abs_mul, abs_of_pos hm] at h
    have e : ((roundAway (x / c.multiple) : ℚ) - x / c.multiple) * c.multiple = (roundAway (x / c.multiple) : ℚ) * c.multiple - x := by
      field_simp
    rw [e] at h
    linarith
  · unfold quantize
    dsimp only
    generalize ((roundAway (x / c.multiple) : Int) : ℚ) * c.multiple = q
    have ho := hc.order
    obtain ⟨k2, hk2, e2⟩ := hc.min
    have hk2' : (0 : ℚ) < k2 := by exact_mod_cast hk2
    have p2 : 0 < c.min := by rw [e2]; exact mul_pos hk2' hm
    refine ⟨fun h => ?_, fun h => ?_, fun h => ?_, fun h => ?_⟩
    · rw [abs_lt] at h
      rw [if_pos h]
    · have h1 : ¬ (-c.min < q ∧ q < c.min) := fun hh => absurd h.1 (not_le.2 (abs_lt.2 hh))
      have h2 := abs_le.1 h.2
      rw [if_neg h1, if_neg (by linarith), if_neg (by linarith)]
    · rw [if_neg (by rintro ⟨-, h2⟩; linarith), if_pos h]
    · rw [if_neg (by rintro ⟨h1, -⟩; linarith), if_neg (by linarith), if_pos h]

/-- Every step is a multiple of the step size, and either zero or between the smallest and the largest step in size. -/
theorem C41_limits (c : Config) (hc : Accepted c) (x : ℚ) :
    (∃ k : Int, quantize c x = k * c.multiple) ∧ (quantize c x = 0 ∨ c.min ≤ |quantize c x| ∧ |quantize c x| ≤ c.max) := by
  have hm : 0 < c.multiple := lt_of_lt_of_le (by norm_num) hc.multiple.1
  obtain ⟨k, -, h1, h2, h3, h4⟩ := C41_step c hc x
  obtain ⟨k1, hk1, e1⟩ := hc.max
  have hk1' : (0 : ℚ) < k1 := by exact_mod_cast hk1
  have p1 : 0 < c.max := by rw [e1]; exact mul_pos hk1' hm
  have ho := hc.order
  rcases lt_or_ge |k * c.multiple| c.min with h | h
  · rw [h1 h]; exact ⟨⟨0, by simp⟩, Or.inl rfl⟩
  · rcases le_or_gt |k * c.multiple| c.max with h' | h'
    · rw [h2 ⟨h, h'⟩]; exact ⟨⟨k, rfl⟩, Or.inr ⟨h, h'⟩⟩
    · rcases lt_abs.1 h' with h'' | h''
      · rw [h3 h'']
        exact ⟨⟨k1, e1⟩, Or.inr (by rw [abs_of_pos p1]; exact ⟨ho, le_refl _⟩)⟩
      · rw [h4 (by linarith)]
        exact ⟨⟨-k1, by rw [e1]; push_cast; ring⟩, Or.inr (by rw [abs_neg, abs_of_pos p1]; exact ⟨ho, le_refl _⟩)⟩

theorem quantizeAll_spec (c : Config) (hc : Accepted c) (x : List ℚ) (hx : x.length = c.nof) :
    quantizeAll c x = .ok (x.map (quantize c)) := by
  have hz : Ant.make x.length = .ok (List.replicate x.length 0) := by
    unfold Ant.make
    have h1 : 0 < x.length := by rw [hx]; exact hc.nof.1
    have h2 : x.length ≤ maxAntennas := by rw [hx]; exact hc.nof.2
    simp only [h1, h2, decide_true, Res.assert_true, Res.ok_bind, Res.pure_eq]
  have key : ∀ n ≤ x.length, (List.range n).foldlM (fun ret i => do Ant.set ret i (quantize c (← Ant.get x i))) (List.replicate x.length (0 : ℚ)) =
      .ok ((x.take n).map (quantize c) ++ List.replicate (x.length - n) 0) := by
    intro n
    induction n with
    | zero => intro _; simp
    | succ n ih =>
      intro hn
      rw [List.range_succ, List.foldlM_append, ih (by omega), Res.ok_bind]
      have hg : Ant.get x n = .ok x[n] := by
        unfold Ant.get
        rw [if_pos (by omega)]
        simp [List.getD_eq_getElem?_getD, show n < x.length by omega]
      simp only [List.foldlM_cons, List.foldlM_nil, hg, Res.ok_bind]
      unfold Ant.set
      have hlen : n < ((x.take n).map (quantize c) ++ List.replicate (x.length - n) (0 : ℚ)).length := by
        simp; omega
      rw [if_pos hlen, Res.ok_bind]
      show Res.ok _ = Res.ok _
      congr 1
      obtain ⟨m, hm⟩ : ∃ m, x.length - n = m + 1 := ⟨x.length - n - 1, by omega⟩
      have hm' : x.length - (n + 1) = m := by omega
      rw [hm, hm', List.set_append_right _ _ (by simp), List.replicate_succ]
      have hl : ((x.take n).map (quantize c)).length = n := by simp; omega
      rw [hl, Nat.sub_self, List.set_cons_zero, List.take_succ, List.map_append]
      simp [show n < x.length by omega]
  unfold quantizeAll
  rw [hz, Res.ok_bind, ← hx, key x.length (le_refl _)]
  simp

/-- C41 for the receiver: for every accepted configuration, both modes and every measurement, all antennas are served at once
(`roundrobin_t` is constructed without a limit), each with a quantised step. -/
theorem C41_receiver (mag2db : ℚ → ℚ) (c : Config) (hc : Accepted c) (mode : RxMode) (target offsetMax : ℚ) (k : Nat)
    (power rms : List ℚ) (hp : power.length = c.nof) (hr : rms.length = c.nof) :
    ∃ x y : List ℚ, getGainStep mag2db c mode target offsetMax ⟨c.nof, c.nof, k % c.nof⟩ power rms = .ok (y, ⟨c.nof, c.nof, k % c.nof⟩) ∧
      y.length = c.nof ∧ (∀ a < c.nof, y.getD a 0 = quantize c (x.getD a 0)) ∧
      (∀ a < c.nof, mode = .individually →
        x.getD a 0 = stepIndividually mag2db target (maxOf power) (maxOf power - offsetMax) (power.getD a 0) (rms.getD a 0)) := by
  have gen : ∀ x : List ℚ, x.length = c.nof → ∃ y, (quantizeAll c x >>= fun q => RoundRobin.process ⟨c.nof, c.nof, k % c.nof⟩ q) =
      .ok (y, ⟨c.nof, c.nof, k % c.nof⟩) ∧ y.length = c.nof ∧ ∀ a < c.nof, y.getD a 0 = quantize c (x.getD a 0) := by
    intro x hx
    rw [quantizeAll_spec c hc x hx, Res.ok_bind]
    obtain ⟨y, h1, h2, h3⟩ := process_spec c.nof c.nof k hc.nof.1 hc.nof.2 (x.map (quantize c)) (by simp [hx])
    rw [Nat.add_mod_right] at h1
    refine ⟨y, h1, h2, ?_⟩
    intro a ha
    obtain ⟨i, hi, -⟩ := C41_once_per_round c.nof k a ha
    rw [h3 a, if_pos ⟨i, hi.1, hi.2⟩]
    simp [List.getD_eq_getElem?_getD, show a < x.length by omega]
  unfold getGainStep
  rw [hp, hr]
  simp only [decide_true, Res.assert_true, Res.ok_bind]
  cases mode with
  | individually =>
    have hl : (List.zipWith (stepIndividually mag2db target (maxOf power) (maxOf power - offsetMax)) power rms).length = c.nof := by
      rw [List.length_zipWith, hp, hr, Nat.min_self]
    obtain ⟨y, h1, h2, h3⟩ := gen _ hl
    refine ⟨_, y, h1, h2, h3, ?_⟩
    intro a ha _
    simp [List.getD_eq_getElem?_getD, List.getElem?_zipWith, show a < power.length by omega, show a < rms.length by omega]
  | collectively =>
    obtain ⟨y, h1, h2, h3⟩ := gen (List.replicate c.nof (max (mag2db (rms.getD (indexOfMax rms) 0 / target))
      (maxOf power - offsetMax - power.getD (indexOfMax rms) 0))) (by simp)
    exact ⟨_, y, h1, h2, h3, fun a _ h => RxMode.noConfusion h⟩

/-- In individual tuning no antenna stays more sensitive than the largest allowed offset below the least sensitive antenna,
up to the dead band, unless the step is the largest one. -/
theorem C41_sensitivity (mag2db : ℚ → ℚ) (c : Config) (hc : Accepted c) (target a offsetMax power rms : ℚ) :
    quantize c (stepIndividually mag2db target a (a - offsetMax) power rms) = c.max ∨
      a - offsetMax - max (c.multiple / 2) (c.min - c.multiple / 2) ≤
        power + quantize c (stepIndividually mag2db target a (a - offsetMax) power rms) := by
  have hd : a - offsetMax - power ≤ stepIndividually mag2db target a (a - offsetMax) power rms := le_max_right _ _
  generalize stepIndividually mag2db target a (a - offsetMax) power rms = x at *
  have hm : 0 < c.multiple := lt_of_lt_of_le (by norm_num) hc.multiple.1
  have ho := hc.order
  obtain ⟨k, h0, h1, h2, h3, h4⟩ := C41_step c hc x
  have h0' := abs_le.1 h0
  have m1 := le_max_left (c.multiple / 2) (c.min - c.multiple / 2)
  have m2 := le_max_right (c.multiple / 2) (c.min - c.multiple / 2)
  rcases lt_or_ge |k * c.multiple| c.min with h | h
  · right
    rw [h1 h]
    have h' := abs_lt.1 h
    obtain ⟨k2, hk2, e2⟩ := hc.min
    have hlt : (k : ℚ) < k2 := by
      have : (k : ℚ) * c.multiple < k2 * c.multiple := by rw [← e2]; exact h'.2
      exact lt_of_mul_lt_mul_right this hm.le
    have hle : k + 1 ≤ k2 := by
      have : k < k2 := by exact_mod_cast hlt
      omega
    have hle' : (k : ℚ) + 1 ≤ k2 := by exact_mod_cast hle
    have h5 : ((k : ℚ) + 1) * c.multiple ≤ k2 * c.multiple := mul_le_mul_of_nonneg_right hle' hm.le
    have h6 : ((k : ℚ) + 1) * c.multiple = k * c.multiple + c.multiple := by ring
    linarith
  · rcases le_or_gt |k * c.multiple| c.max with h' | h'
    · right; rw [h2 ⟨h, h'⟩]; linarith
    · rcases lt_abs.1 h' with h'' | h''
      · left; exact h3 h''
      · right; rw [h4 (by linarith)]; linarith

/-- Non-vacuity: steps of 2 dB, dead band below 4 dB, limit 8 dB; three antennas, two per call -/
theorem C41_example : Accepted ⟨3, 2, 8, 4⟩ ∧
    quantize ⟨3, 2, 8, 4⟩ (29 / 10) = 0 ∧ quantize ⟨3, 2, 8, 4⟩ (31 / 10) = 4 ∧ quantize ⟨3, 2, 8, 4⟩ (-61 / 10) = -6 ∧
    quantize ⟨3, 2, 8, 4⟩ 20 = 8 ∧
    (do
      let r ← RoundRobin.make 3 2
      let (ys, _) ← r.run [[1, 2, 3], [4, 5, 6], [7, 8, 9]]
      pure ys) = .ok [[1, 2, 0], [4, 0, 6], [0, 8, 9]] := by
  refine ⟨⟨by decide, by norm_num, ⟨2, by decide, by norm_num⟩, ⟨4, by decide, by norm_num⟩, by norm_num⟩, ?_, ?_, ?_, ?_, ?_⟩ <;> decide +kernel

end Verif.Props.C41
