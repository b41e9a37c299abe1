import Verif.Lemma.FineSync
import Mathlib.Analysis.SpecialFunctions.Trigonometric.Basic
import Mathlib.Analysis.Real.Sqrt
import Mathlib.Tactic.NormNum
import Mathlib.Tactic.LinearCombination

/-!
# C77: fine synchronization finds the position where a template fits best

See Spec/FineSync.lean for the words used here. -/

namespace Verif.Phy.FineSync

open MimoEst (atU atU_ok mapM_eq)

/-- If the hardware samples at least as fast as the signal and at most twice as fast, the constructors succeed: the local buffer holds all
samples the search asks for and not many more. The search extends over 16 samples of the bandwidth to both sides, counted at the rate of the
hardware, and uses the whole STF. A slower hardware is refused. -/
theorem C77_construct (u : Nat) {b os L M : Nat} (hb : 0 < b) (ho : 0 < os) (hM : 0 < M) (nAnt lim : Nat) :
    (M ≤ L → L ≤ 2 * M → ∃ z n, construct u b os L M nAnt lim = .ok (z, n) ∧ z.required ≤ n ∧ n ≤ z.required + 5 ∧
      z.l = 16 * b * os * L / M ∧ z.r = z.l ∧ z.stf = (if u = 1 then 112 else 144) * b * os * L / M ∧ 0 < z.stf ∧ z.eff = z.stf ∧
      z.nAnt = nAnt ∧ z.nLim = min nAnt lim) ∧
    (L < M → construct u b os L M nAnt lim = .abort) := by
  have hs : 0 < stfSamples u := by unfold stfSamples; split <;> omega
  have hbo : 0 < stfSamples u * b * os := Nat.mul_pos (Nat.mul_pos hs hb) ho
  constructor
  · intro h1 h2
    have e1 : stfSamples u * b * os ≤ stfSamples u * b * os * L / M := by
      rw [Nat.le_div_iff_mul_le hM]
      exact Nat.mul_le_mul_left _ h1
    let z : Dim := ⟨16 * b * os * L / M, 16 * b * os * L / M, stfSamples u * b * os * L / M, stfSamples u * b * os * L / M, nAnt, min nAnt lim⟩
    have hn : localLen u b os L M = (2 * (16 * b * os * L) + stfSamples u * b * os * L + L) / M := by
      unfold localLen
      congr 1
      ring
    have hr : z.required = 2 * (16 * b * os * L / M) + stfSamples u * b * os * L / M := by
      simp only [z, Dim.required, Dim.search]
      omega
    have hA : ∃ A, 16 * b * os * L = A := ⟨_, rfl⟩
    obtain ⟨A, hA⟩ := hA
    rw [hA] at hn hr
    have hB : ∃ B, stfSamples u * b * os * L = B := ⟨_, rfl⟩
    obtain ⟨B, hB⟩ := hB
    rw [hB] at hn hr
    have a1 := Nat.div_mul_le_self A M
    have a2 := Nat.lt_div_mul_add (a := A) hM
    have b1 := Nat.div_mul_le_self B M
    have b2 := Nat.lt_div_mul_add (a := B) hM
    have lo : z.required ≤ localLen u b os L M := by
      rw [hn, hr, Nat.le_div_iff_mul_le hM]
      nlinarith
    have hi : localLen u b os L M < z.required + 6 := by
      rw [hn, hr, Nat.div_lt_iff_lt_mul hM]
      nlinarith
    refine ⟨z, localLen u b os L M, ?_, lo, by omega, rfl, rfl, rfl, lt_of_lt_of_le hbo e1, rfl, rfl, rfl⟩
    unfold construct
    simp only
    rw [decide_eq_true e1, Res.assert_true, Res.ok_bind, decide_eq_true (le_refl _), Res.assert_true, Res.ok_bind,
      decide_eq_true (min_le_left _ _), Res.assert_true, Res.ok_bind,
      decide_eq_true (show (0 : Int) ≤ (localLen u b os L M : Int) - (z.required : Int) by omega), Res.assert_true, Res.ok_bind,
      decide_eq_true (show (localLen u b os L M : Int) - (z.required : Int) ≤ 5 by omega), Res.assert_true, Res.ok_bind]
  · intro h
    have : ¬ stfSamples u * b * os ≤ stfSamples u * b * os * L / M := by
      rw [Nat.le_div_iff_mul_le hM, not_le]
      exact Nat.mul_lt_mul_of_pos_left h hbo
    unfold construct
    simp only
    rw [decide_eq_false this, Res.assert_false, Res.abort_bind]

section
variable {K : Type} [Field K] [LinearOrder K] [IsStrictOrderedRing K] [FloorRing K]

omit [FloorRing K] in
theorem antennas_strongest {z : Dim} {coarse : List K} {a : Nat} (h : Strongest coarse a) : antennas false z coarse = .ok [a] := by
  unfold antennas
  rw [if_neg (by decide), indexOfMax_eq h]
  dsimp only
  rw [decide_eq_true h.1, Res.assert_true, Res.ok_bind, decide_eq_true h.2.1, Res.assert_true, Res.ok_bind]

/-- The search uses the antenna with the strongest coarse peak. If its signal is not orthogonal to all templates at all positions, the search
reports a template and a position within the search range such that no template correlates stronger anywhere in the range. The arithmetic
on metrics and indices is the one of single precision; all memory accesses are within bounds. -/
theorem C77_peak_partial {lib : Lib K} (g : lib.Good) {fp : Fp K} (s : fp.Single) {z : Dim} {n copied : Nat} {coarse : List K}
    {tmpl : List (List (Cx K))} (v : Given z n copied coarse tmpl) (hn : n ≤ z.nLim) (hz : z.search ≤ 2 ^ 21) {a : Nat}
    (ha : Strongest coarse a) (L M : Nat) (cfo : K) (t0 : Int) (rx : Nat → Int → Cx K) (x : Nat → Cx K)
    (hx : x = heard lib.cis (cfo * M / L) (t0 - z.l) rx a)
    (h0 : ∃ k < n, ∃ j < z.search, corr z.eff x (template tmpl k) j ≠ 0) :
    ∃ k < n, ∃ j : Nat, j ≤ z.l + z.r ∧ fineSync lib fp false z L M copied cfo coarse tmpl t0 rx = .ok (2 ^ k, t0 - z.l + j) ∧
      (∀ j' < z.search, (corr z.eff x (template tmpl k) j').sq ≤ (corr z.eff x (template tmpl k) j).sq) ∧
      ∀ k' < n, ∀ j' < z.search, lib.mag (corr z.eff x (template tmpl k') j').sq ≤ lib.mag (corr z.eff x (template tmpl k) j).sq := by
  have haL : a < z.nLim := by rw [← v.nCoarse]; exact ha.1
  rw [fineSync_eq g fp false v hn L M cfo t0 rx (antennas_strongest ha) (by intro b hb; simp at hb; rw [hb]; exact ⟨haL, ha.2.1⟩)]
  obtain ⟨k0, hk0, j0, hj0, hc⟩ := h0
  have p0 : 0 < metric lib z x (template tmpl k0) := by
    apply g.mag_pos
    refine lt_of_lt_of_le (lt_of_le_of_ne (sq_nonneg' _) ?_) ((pos_spec g z x _).2 j0 hj0)
    intro e
    exact hc (sq_eq_zero' e.symm)
  obtain ⟨k, hk, hp, hle, he⟩ := evaluate_eq fp (fun b k => (metric lib z (heard lib.cis (cfo * M / L) (t0 - z.l) rx b) (template tmpl k),
        pos lib z (heard lib.cis (cfo * M / L) (t0 - z.l) rx b) (template tmpl k))) [a] v.le hk0
    (by simp only [List.foldl_cons, List.foldl_nil]; rw [s.zero_add, ← hx]; exact p0)
  rw [he]
  simp only [List.foldl_cons, List.foldl_nil, s.zero_add, ← hx] at hp hle ⊢
  obtain ⟨q1, q2⟩ := pos_spec g z x (template tmpl k)
  refine ⟨k, hk, pos lib z x (template tmpl k), ?_, ?_, q2, ?_⟩
  · unfold Dim.search at q1; omega
  · rw [roundU_single s hp (by omega), Res.ok_bind, Res.ok_bind]
  · intro k' hk' j' hj'
    exact (g.mag_mono _ _ ((pos_spec g z x _).2 j' hj')).trans (hle k' hk')

/-- If the strongest antenna is orthogonal to all templates in the whole search range, e.g. because it receives nothing there, zero is
divided by zero and the result converted to an integer, which is undefined. -/
theorem C77_orthogonal_finding {lib : Lib K} (g : lib.Good) {fp : Fp K} (s : fp.Single) {z : Dim} {n copied : Nat} {coarse : List K}
    {tmpl : List (List (Cx K))} (v : Given z n copied coarse tmpl) (hn : n ≤ z.nLim) {a : Nat}
    (ha : Strongest coarse a) (L M : Nat) (cfo : K) (t0 : Int) (rx : Nat → Int → Cx K) (x : Nat → Cx K)
    (hx : x = heard lib.cis (cfo * M / L) (t0 - z.l) rx a)
    (h0 : ∀ k < n, ∀ j < z.search, corr z.eff x (template tmpl k) j = 0) :
    fineSync lib fp false z L M copied cfo coarse tmpl t0 rx = .ub := by
  have haL : a < z.nLim := by rw [← v.nCoarse]; exact ha.1
  rw [fineSync_eq g fp false v hn L M cfo t0 rx (antennas_strongest ha) (by intro b hb; simp at hb; rw [hb]; exact ⟨haL, ha.2.1⟩)]
  have hm : ∀ k < n, metric lib z x (template tmpl k) = 0 := by
    intro k hk
    unfold metric
    rw [h0 k hk _ (pos_spec g z x _).1, show (0 : Cx K).sq = 0 by simp [Cx.sq], g.mag_zero]
  rw [evaluate_zero fp _ [a] v.pos]
  · rfl
  · intro k hk
    simp only [List.foldl_cons, List.foldl_nil, s.zero_add, ← hx, hm k hk]

/-- A packet is found: its STF starts at time `t` within the search range and reaches the strongest antenna without noise, multiplied by a complex
number and turned from sample to sample by the offset estimated before. Then the search reports this time and the number of effective
transmit antennas of the STF, provided that no other part of the received signal is a multiple of a template and that none has more
energy. -/
theorem C77_found {lib : Lib K} (g : lib.Good) (hm : ∀ x y, 0 ≤ x → x < y → lib.mag x < lib.mag y) {fp : Fp K} (s : fp.Single) {z : Dim}
    {n copied : Nat} {coarse : List K} {tmpl : List (List (Cx K))} (v : Given z n copied coarse tmpl) (hn : n ≤ z.nLim)
    (hz : z.search ≤ 2 ^ 21) {a : Nat} (ha : Strongest coarse a) (L M : Nat) (cfo : K) (t0 t : Int) (rx : Nat → Int → Cx K)
    (x : Nat → Cx K) (hx : x = heard lib.cis (cfo * M / L) (t0 - z.l) rx a) (hl : t0 - z.l ≤ t) (hr : t ≤ t0 + z.r)
    {k : Nat} (hk : k < n) {h : Cx K} (hh : h ≠ 0)
    (hs : ∀ i < z.eff, rx a (t + i) = h * template tmpl k i * lib.cis (-(((t + i - (t0 - z.l) : Int) : K) * (cfo * M / L))))
    (hE : 0 < energy z.eff (template tmpl k) 0)
    (ho : ∀ k' < n, ∀ j < z.search, (k' ≠ k ∨ t0 - z.l + j ≠ t) → (¬ ∃ c : Cx K, ∀ i < z.eff, x (j + i) = c * template tmpl k' i) ∧
      energy z.eff x j * energy z.eff (template tmpl k') 0 ≤ h.sq * energy z.eff (template tmpl k) 0 * energy z.eff (template tmpl k) 0) :
    fineSync lib fp false z L M copied cfo coarse tmpl t0 rx = .ok (2 ^ k, t) := by
  obtain ⟨d, hd⟩ : ∃ d : Nat, t = t0 - z.l + d := ⟨(t - (t0 - z.l)).toNat, by omega⟩
  have hds : d < z.search := by unfold Dim.search; omega
  have hh' : 0 < h.sq := lt_of_le_of_ne (sq_nonneg' h) fun e => hh (sq_eq_zero' e.symm)
  have hcopy : ∀ i < z.eff, x (d + i) = h * template tmpl k i := by
    intro i hi
    have e1 : t0 - (z.l : Int) + ((d + i : Nat) : Int) = t + i := by push_cast; omega
    have e2 : ((t + i - (t0 - z.l) : Int) : K) = ((d + i : Nat) : K) := by
      rw [show t + (i : Int) - (t0 - (z.l : Int)) = ((d + i : Nat) : Int) by push_cast; omega]
      exact Int.cast_natCast _
    have c := g.cis_add (-(((d + i : Nat) : K) * (cfo * M / L))) (((d + i : Nat) : K) * (cfo * M / L))
    rw [neg_add_cancel, g.cis_zero] at c
    rw [hx, heard, e1, hs i hi, e2]
    generalize lib.cis (-(((d + i : Nat) : K) * (cfo * M / L))) = A at c
    generalize lib.cis ((((d + i : Nat) : K) * (cfo * M / L))) = B at c
    have cr := congrArg Cx.re c
    have ci := congrArg Cx.im c
    simp only [Cx.mul_re, Cx.mul_im] at cr ci
    generalize h * template tmpl k i = y
    ext
    · simp only [Cx.mul_re, Cx.mul_im]
      linear_combination (-y.re) * cr + y.im * ci
    · simp only [Cx.mul_re, Cx.mul_im]
      linear_combination (-y.im) * cr - y.re * ci
  have top := corr_copy hcopy
  have tpos : 0 < h.sq * energy z.eff (template tmpl k) 0 * energy z.eff (template tmpl k) 0 := mul_pos (mul_pos hh' hE) hE
  obtain ⟨k1, hk1, j1, hj1, e, m1, m2⟩ := C77_peak_partial g s v hn hz ha L M cfo t0 rx x hx ⟨k, hk, d, hds, by
    intro z'
    rw [z'] at top
    simp only [Cx.sq, Cx.zero_re, Cx.zero_im, mul_zero, add_zero] at top
    exact tpos.ne top⟩
  have hj1' : j1 < z.search := by unfold Dim.search; omega
  have := m2 k hk d hds
  rw [top] at this
  by_cases hc : k1 = k ∧ j1 = d
  · rw [e, hc.1, hc.2, hd]
  · exfalso
    obtain ⟨o1, o2⟩ := ho k1 hk1 j1 hj1' (by
      by_cases hkk : k1 = k
      · right; intro q; exact hc ⟨hkk, by omega⟩
      · exact Or.inl hkk)
    exact absurd this (not_le.mpr (hm _ _ (sq_nonneg' _) (corr_lt tpos o2 o1)))

/-- With the option that all antennas are searched, and without rounding: the template has the largest sum of metrics, and the position is
between the positions of the peaks of the antennas. -/
theorem C77_all {lib : Lib K} (g : lib.Good) {z : Dim} {n copied : Nat} {coarse : List K}
    {tmpl : List (List (Cx K))} (v : Given z n copied coarse tmpl) (hn : n ≤ z.nLim) (L M : Nat) (cfo : K) (t0 : Int)
    (rx : Nat → Int → Cx K) (x : Nat → Nat → Cx K) (hx : x = heard lib.cis (cfo * M / L) (t0 - z.l) rx)
    (h0 : ∃ a < z.nLim, 0 < coarse.getD a 0 ∧ ∃ k < n, ∃ j < z.search, corr z.eff (x a) (template tmpl k) j ≠ 0) :
    ∃ (p : Nat → Nat → Nat) (k : Nat) (j : Nat), k < n ∧
      fineSync lib Fp.exact true z L M copied cfo coarse tmpl t0 rx = .ok (2 ^ k, t0 - z.l + j) ∧
      (∀ a, ∀ k', p a k' < z.search ∧
        ∀ j' < z.search, (corr z.eff (x a) (template tmpl k') j').sq ≤ (corr z.eff (x a) (template tmpl k') (p a k')).sq) ∧
      (∀ k' < n, (((List.range z.nLim).filter fun a => decide (0 < coarse.getD a 0)).map fun a =>
          lib.mag (corr z.eff (x a) (template tmpl k') (p a k')).sq).sum ≤
        (((List.range z.nLim).filter fun a => decide (0 < coarse.getD a 0)).map fun a =>
          lib.mag (corr z.eff (x a) (template tmpl k) (p a k)).sq).sum) ∧
      ∀ lo hi : Nat, (∀ a < z.nLim, 0 < coarse.getD a 0 → lo ≤ p a k ∧ p a k ≤ hi) → lo ≤ j ∧ j ≤ hi := by
  obtain ⟨a0, ha0, hc0, k0, hk0, j0, hj0, hne⟩ := h0
  have hcount : ((List.range z.nLim).filter fun a => decide (0 < coarse.getD a 0)).length = (coarse.filter fun x => decide (0 < x)).length := by
    have e : coarse = (List.range z.nLim).map fun a => coarse.getD a 0 := by
      apply List.ext_getElem
      · simp [v.nCoarse]
      · intro i h1 h2
        rw [List.getElem_map, List.getElem_range, List.getD_eq_getElem _ _ h1]
    conv_rhs => rw [e, List.filter_map, List.length_map]
    rfl
  generalize hA : (List.range z.nLim).filter (fun a => decide (0 < coarse.getD a 0)) = as at hcount ⊢
  have mem : ∀ a, a ∈ as ↔ a < z.nLim ∧ 0 < coarse.getD a 0 := by
    intro a; rw [← hA]; simp
  have has : antennas true z coarse = .ok as := by
    unfold antennas
    rw [if_pos rfl, hA, Res.ok_bind, decide_eq_true (List.length_pos_of_mem ((mem a0).mpr ⟨ha0, hc0⟩)), Res.assert_true, Res.ok_bind,
      decide_eq_true hcount, Res.assert_true, Res.ok_bind]
  rw [fineSync_eq g Fp.exact true v hn L M cfo t0 rx has fun a h => (mem a).mp h, ← hx]
  have nn : ∀ a k, 0 ≤ metric lib z (x a) (template tmpl k) := by
    intro a k
    have := g.mag_mono 0 _ (sq_nonneg' (corr z.eff (x a) (template tmpl k) (pos lib z (x a) (template tmpl k))))
    rw [g.mag_zero] at this
    exact this
  have p0 : 0 < metric lib z (x a0) (template tmpl k0) := by
    apply g.mag_pos
    refine lt_of_lt_of_le (lt_of_le_of_ne (sq_nonneg' _) ?_) ((pos_spec g z (x a0) _).2 j0 hj0)
    intro e
    exact hne (sq_eq_zero' e.symm)
  have sum1 : ∀ k, as.foldl (fun s a => Fp.exact.add s (metric lib z (x a) (template tmpl k))) 0 =
      (as.map fun a => metric lib z (x a) (template tmpl k)).sum := by
    intro k
    have := foldl_list_sum (fun a => metric lib z (x a) (template tmpl k)) as 0
    rw [zero_add] at this
    exact this
  obtain ⟨k, hk, hp, hle, he⟩ := evaluate_eq Fp.exact (fun a k => (metric lib z (x a) (template tmpl k), pos lib z (x a) (template tmpl k))) as
    v.le hk0 (by
      simp only
      rw [sum1]
      refine lt_of_lt_of_le p0 (List.single_le_sum ?_ _ (List.mem_map_of_mem ((mem a0).mpr ⟨ha0, hc0⟩)))
      intro y hy
      obtain ⟨a, -, rfl⟩ := List.mem_map.mp hy
      exact nn a k0)
  rw [he]
  simp only [sum1] at hp hle ⊢
  have sum2 : as.foldl (fun s a => Fp.exact.add s (Fp.exact.mul (metric lib z (x a) (template tmpl k))
      (Fp.exact.ofNat (pos lib z (x a) (template tmpl k))))) 0 =
      (as.map fun a => metric lib z (x a) (template tmpl k) * (pos lib z (x a) (template tmpl k) : K)).sum := by
    have := foldl_list_sum (fun a => metric lib z (x a) (template tmpl k) * (pos lib z (x a) (template tmpl k) : K)) as 0
    rw [zero_add] at this
    exact this
  rw [sum2]
  have low : ∀ lo : Nat, (∀ a ∈ as, lo ≤ pos lib z (x a) (template tmpl k)) →
      (lo : K) ≤ (as.map fun a => metric lib z (x a) (template tmpl k) * (pos lib z (x a) (template tmpl k) : K)).sum /
        (as.map fun a => metric lib z (x a) (template tmpl k)).sum := by
    intro lo h
    rw [le_div_iff₀ hp, ← List.sum_map_mul_left]
    apply List.sum_le_sum
    intro a ha
    rw [mul_comm]
    exact mul_le_mul_of_nonneg_left (by exact_mod_cast h a ha) (nn a k)
  have high : ∀ hi : Nat, (∀ a ∈ as, pos lib z (x a) (template tmpl k) ≤ hi) →
      (as.map fun a => metric lib z (x a) (template tmpl k) * (pos lib z (x a) (template tmpl k) : K)).sum /
        (as.map fun a => metric lib z (x a) (template tmpl k)).sum ≤ hi := by
    intro hi h
    rw [div_le_iff₀ hp, ← List.sum_map_mul_left]
    apply List.sum_le_sum
    intro a ha
    rw [mul_comm (hi : K)]
    exact mul_le_mul_of_nonneg_left (by exact_mod_cast h a ha) (nn a k)
  obtain ⟨j, hj, hb⟩ := roundU_between (x := (as.map fun a => metric lib z (x a) (template tmpl k) * (pos lib z (x a) (template tmpl k) : K)).sum /
        (as.map fun a => metric lib z (x a) (template tmpl k)).sum) (by simpa using low 0 (by intro a _; omega))
  refine ⟨fun a k => pos lib z (x a) (template tmpl k), k, j, hk, ?_, fun a k' => pos_spec g z (x a) _, hle, fun lo hi h => ?_⟩
  · change (do
      let p ← (do
        let t ← roundU (_ / _)
        Res.ok (2 ^ k, t))
      Res.ok (p.1, _)) = _
    rw [hj, Res.ok_bind, Res.ok_bind]
  · exact hb lo hi (low lo fun a ha => (h a ((mem a).mp ha).1 ((mem a).mp ha).2).1) (high hi fun a ha => (h a ((mem a).mp ha).1 ((mem a).mp ha).2).2)

/-- The room for the peaks of an antenna is counted in antennas in use, not in templates. With a limit for the number of antennas
(`RX_SYNC_PARAM_AUTOCORRELATOR_ANTENNA_LIMIT`) below the number of templates, each search writes beyond it. -/
theorem C77_limit_finding {lib : Lib K} (g : lib.Good) (fp : Fp K) {z : Dim} {n copied : Nat} {coarse : List K}
    {tmpl : List (List (Cx K))} (v : Given z n copied coarse tmpl) (hn : z.nLim < n) {a : Nat} (ha : Strongest coarse a) (L M : Nat) (cfo : K)
    (t0 : Int) (rx : Nat → Int → Cx K) : fineSync lib fp false z L M copied cfo coarse tmpl t0 rx = .ub := by
  have haL : a < z.nLim := by rw [← v.nCoarse]; exact ha.1
  have hm : z.mixLen ≤ copied := by
    have := v.enough
    unfold Dim.required Dim.search at this
    unfold Dim.mixLen
    omega
  unfold fineSync
  dsimp only
  unfold searchByCorrelation
  rw [decide_eq_true v.enough, Res.assert_true, Res.ok_bind]
  change ((do
    let stage ← mix z (lib.cis (cfo * M / L)) 0 ((List.range z.nLim).map (row rx (t0 - z.l) copied))
    runFineSearch lib fp false z 0 coarse tmpl stage) >>= _) = _
  rw [mix_eq g hm, Res.ok_bind]
  unfold runFineSearch
  have ht : atU nofTemplates z.nAnt = .ok n := by
    have := v.pos
    have := v.le
    rw [v.ant]
    have : n = 1 ∨ n = 2 ∨ n = 3 ∨ n = 4 := by omega
    rcases this with rfl | rfl | rfl | rfl <;> rfl
  rw [decide_eq_true v.nCoarse, Res.assert_true, Res.ok_bind, antennas_strongest ha, Res.ok_bind, ht, Res.ok_bind, decide_eq_true v.nTmpl,
    Res.assert_true, Res.ok_bind, List.mapM_cons, decide_eq_true ha.2.1, Res.assert_true, Res.ok_bind, atU_ok (get_range _ haL), Res.ok_bind]
  have hub : antPeaks lib z 0 tmpl ((List.range z.mixLen).map (heard lib.cis (cfo * M / L) (t0 - z.l) rx a)) = .ub := by
    unfold antPeaks
    rw [v.nTmpl, show n = z.nLim + 1 + (n - z.nLim - 1) by omega, List.range_add, List.range_succ, List.append_assoc]
    refine mapM_ub _ (fun k => (metric lib z (heard lib.cis (cfo * M / L) (t0 - z.l) rx a) (template tmpl k),
        pos lib z (heard lib.cis (cfo * M / L) (t0 - z.l) rx a) (template tmpl k))) _ _ _ ?_ ?_
    · intro k hk
      rw [List.mem_range] at hk
      have h1 := MimoEst.getD_of_lt [] (show k < tmpl.length by rw [v.nTmpl]; omega)
      rw [atU_ok h1, Res.ok_bind, peak_eq g v.eff _ _ (v.len _ (List.mem_of_getElem? h1)), Res.ok_bind, if_neg (by omega)]
      rfl
    · have h1 := MimoEst.getD_of_lt [] (show z.nLim < tmpl.length by rw [v.nTmpl]; omega)
      rw [atU_ok h1, Res.ok_bind, peak_eq g v.eff _ _ (v.len _ (List.mem_of_getElem? h1)), Res.ok_bind, if_pos (le_refl _)]
  rw [hub]
  rfl

omit [FloorRing K] in
/-- Exact arithmetic meets the conditions for single precision. -/
theorem exact_single : (Fp.exact : Fp K).Single where
  zero_add x := zero_add x
  mul x y := by simp only [Fp.exact, sub_self, abs_zero]; positivity
  div x y _ := by simp only [Fp.exact, sub_self, abs_zero]; positivity
  ofNat _ _ := rfl

end

/-- Libraries over the real numbers -/
noncomputable def realLib : Lib ℝ := ⟨indexOfMax, Real.sqrt, fun t => ⟨Real.cos t, Real.sin t⟩⟩

theorem realLib_good : realLib.Good where
  imax_lt l h := by
    cases l with
    | nil => exact absurd rfl h
    | cons x l =>
      exact (fold_idx l [x] (x, 0, 1) (by simp) rfl (by simp) (by simp) (by intro b hb; simp at hb; simp [hb])
        (by intro b hb; simp at hb) _ rfl).1
  imax_le l y hy := by
    cases l with
    | nil => simp at hy
    | cons x l =>
      obtain ⟨-, r2, r3, -⟩ := fold_idx l [x] (x, 0, 1) (by simp) rfl (by simp) (by simp) (by intro b hb; simp at hb; simp [hb])
        (by intro b hb; simp at hb) _ rfl
      rw [r2] at r3
      obtain ⟨b, hb, rfl⟩ := List.getElem_of_mem hy
      have := r3 b hb
      simp only [List.singleton_append] at this
      rw [List.getD_eq_getElem _ _ hb] at this
      exact this
  mag_zero := Real.sqrt_zero
  mag_pos x h := Real.sqrt_pos.mpr h
  mag_mono x y h := Real.sqrt_le_sqrt h
  cis_zero := by simp [realLib]
  cis_add a b := by
    simp only [realLib, Real.cos_add, Real.sin_add]
    ext
    · rfl
    · simp only [Cx.mul_im]; ring
  cis_sq a := by
    have := Real.sin_sq_add_cos_sq a
    simp only [realLib, Cx.sq]
    linarith

/-- A short STF -/
noncomputable def stfExample : List (Cx ℝ) := [⟨1, 0⟩, ⟨-1, 0⟩, ⟨1, 0⟩, ⟨1, 0⟩]

/-- What is received without frequency offset from time 8 on -/
noncomputable def rxExample : List (Cx ℝ) := [0, 0, 0, ⟨0, 2⟩, ⟨0, -2⟩, ⟨0, 2⟩, ⟨0, 2⟩, 0]

theorem given_example : Given ⟨2, 2, 4, 4, 1, 1⟩ 1 8 [(1 / 2 : ℝ)] [stfExample] where
  eff := by decide
  stf := by decide
  nCoarse := rfl
  pos := by decide
  le := by decide
  ant := rfl
  nTmpl := rfl
  len := by intro t ht; simp at ht; rw [ht]; rfl
  enough := by decide

theorem strongest_example : Strongest [(1 / 2 : ℝ)] 0 :=
  ⟨by decide, by norm_num, by intro b hb; simp at hb; simp [hb], by intro b hb; omega⟩

/-- The same with a frequency offset of -0.9 per sample -/
noncomputable def rxTurned (_ : Nat) (t : Int) : Cx ℝ :=
  rxExample.getD (t - 8).toNat 0 * realLib.cis (-(((t - 8 : Int) : ℝ) * (1 * (9 : Nat) / (10 : Nat))))

theorem heard_example (i : Nat) : rxExample.getD i 0 = heard realLib.cis (1 * (9 : Nat) / (10 : Nat)) (10 - (2 : Nat))
    rxTurned 0 i := by
  unfold heard rxTurned
  rw [show (10 - ((2 : Nat) : Int) + (i : Int) - 8) = (i : Int) by omega, Int.toNat_natCast, Int.cast_natCast]
  have c := realLib_good.cis_add (-((i : ℝ) * (1 * (9 : Nat) / (10 : Nat)))) ((i : ℝ) * (1 * (9 : Nat) / (10 : Nat)))
  rw [neg_add_cancel, realLib_good.cis_zero] at c
  generalize realLib.cis (-((i : ℝ) * (1 * (9 : Nat) / (10 : Nat)))) = A at c
  generalize realLib.cis ((i : ℝ) * (1 * (9 : Nat) / (10 : Nat))) = B at c
  have cr := congrArg Cx.re c
  have ci := congrArg Cx.im c
  simp only [Cx.mul_re, Cx.mul_im] at cr ci
  generalize rxExample.getD i 0 = y
  ext
  · simp only [Cx.mul_re, Cx.mul_im]
    linear_combination y.re * cr - y.im * ci
  · simp only [Cx.mul_re, Cx.mul_im]
    linear_combination y.im * cr + y.re * ci

/-- The STF starts one sample after the coarse peak, and the carrier frequencies differ. -/
theorem C77_found_example : fineSync realLib Fp.exact false ⟨2, 2, 4, 4, 1, 1⟩ 10 9 8 1 [1 / 2] [stfExample] 10
    rxTurned = .ok (1, 11) := by
  have hE : energy 4 (template [stfExample] 0) 0 = 4 := by
    simp [energy, Finset.sum_range_succ, template, stfExample, Cx.sq]; norm_num
  refine C77_found realLib_good (fun x y h0 h => Real.sqrt_lt_sqrt h0 h) exact_single given_example (by decide) (by decide) strongest_example
    10 9 1 10 11 _ (fun i => rxExample.getD i 0) (by funext i; exact heard_example i) (by decide) (by decide) (k := 0) (by decide) (h := ⟨0, 2⟩)
    (by intro h; simpa using congrArg Cx.im h) ?_ (by rw [hE]; norm_num) ?_
  · intro i hi
    simp only [rxTurned] at hi ⊢
    have e : rxExample.getD (11 + (i : Int) - 8).toNat 0 = (⟨0, 2⟩ : Cx ℝ) * template [stfExample] 0 i := by
      rw [show (11 + (i : Int) - 8).toNat = 3 + i by omega]
      interval_cases i <;> (ext <;> simp [rxExample, template, stfExample])
    rw [e, show (11 + (i : Int) - (10 - ((2 : Nat) : Int))) = 11 + (i : Int) - 8 by omega]
  · intro k hk j hj hne
    obtain rfl : k = 0 := by omega
    have hj5 : j < 5 := hj
    have hj3 : j ≠ 3 := by
      rintro rfl
      rcases hne with h | h
      · exact h rfl
      · exact h (by decide)
    simp only
    rw [hE]
    refine ⟨?_, ?_⟩
    · rintro ⟨c, hc⟩
      have c0 := hc 0 (by decide)
      have c1 := hc 1 (by decide)
      have c2 := hc 2 (by decide)
      have c3 := hc 3 (by decide)
      have i0 := congrArg Cx.im c0
      have i1 := congrArg Cx.im c1
      have i2 := congrArg Cx.im c2
      have i3 := congrArg Cx.im c3
      interval_cases j <;> simp [rxExample, template, stfExample] at i0 i1 i2 i3 hj3 <;> linarith
    · interval_cases j <;> simp [energy, Finset.sum_range_succ, rxExample, Cx.sq] at hj3 ⊢ <;> norm_num

/-- The same signal with the option that all antennas are searched -/
theorem C77_all_example : ∃ t : Int, 8 ≤ t ∧ t ≤ 12 ∧
    fineSync realLib Fp.exact true ⟨2, 2, 4, 4, 1, 1⟩ 10 9 8 1 [1 / 2] [stfExample] 10 rxTurned = .ok (1, t) := by
  have hc : (corr 4 (fun i => rxExample.getD i 0) (template [stfExample] 0) 3).sq = 4 * 4 * 4 := by
    rw [corr_copy (h := ⟨0, 2⟩)]
    · have hE : energy 4 (template [stfExample] 0) 0 = 4 := by
        simp [energy, Finset.sum_range_succ, template, stfExample, Cx.sq]; norm_num
      rw [hE]
      simp only [Cx.sq]
      norm_num
    · intro i hi
      interval_cases i <;> (ext <;> simp [rxExample, template, stfExample])
  obtain ⟨p, k, j, hk, e, h1, -, h2⟩ := C77_all realLib_good given_example (by decide) 10 9 1 10 rxTurned _ rfl ⟨0, by decide, by norm_num, 0, by decide, 3, by decide, by
    intro z
    rw [show heard realLib.cis (1 * (9 : Nat) / (10 : Nat)) (10 - ((2 : Nat) : Int)) rxTurned 0 = fun i => rxExample.getD i 0 from
      funext fun i => (heard_example i).symm] at z
    rw [z] at hc
    simp [Cx.sq] at hc⟩
  obtain rfl : k = 0 := by omega
  have h3 := (h2 0 4 (fun a _ _ => ⟨by omega, by have := (h1 a 0).1; have e5 : Dim.search ⟨2, 2, 4, 4, 1, 1⟩ = 5 := rfl; omega⟩)).2
  refine ⟨_, ?_, ?_, e⟩
  · change (8 : Int) ≤ 10 - ((2 : Nat) : Int) + j; omega
  · change (10 : Int) - ((2 : Nat) : Int) + j ≤ 12; omega

/-- Nothing is received by the only antenna. -/
theorem C77_orthogonal_example : fineSync realLib Fp.exact false ⟨2, 2, 4, 4, 1, 1⟩ 10 9 8 1 [1 / 2] [stfExample] 10 (fun _ _ => 0) = .ub :=
  C77_orthogonal_finding realLib_good exact_single given_example (by decide) strongest_example 10 9 1 10 _ _ rfl (by
    intro k _ j _
    unfold corr
    apply Finset.sum_eq_zero
    intro i _
    ext <;> simp [heard])

/-- Hardware with 1.92 MHz for a signal with 1.728 MHz: 17 samples to both sides -/
theorem C77_construct_example : construct 1 1 1 10 9 2 8 = .ok (⟨17, 17, 124, 124, 2, 2⟩, 161) ∧ construct 1 1 1 9 10 2 8 = .abort := ⟨rfl, rfl⟩

/-- Two antennas, of which one may be used, and two templates -/
theorem C77_limit_example (rx : Nat → Int → Cx ℝ) :
    fineSync realLib Fp.exact false ⟨2, 2, 4, 4, 2, 1⟩ 10 9 8 1 [1 / 2] [stfExample, stfExample] 10 rx = .ub :=
  C77_limit_finding realLib_good _ (n := 2) ⟨by decide, by decide, rfl, by decide, by decide, rfl, rfl,
    by intro t ht; simp at ht; rw [ht]; rfl, by decide⟩ (by decide) strongest_example 10 9 1 10 rx

end Verif.Phy.FineSync
