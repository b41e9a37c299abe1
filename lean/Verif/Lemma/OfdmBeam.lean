import Verif.Lemma.OfdmMem
import Verif.Spec.Ofdm
import Mathlib.Algebra.BigOperators.Intervals
import Mathlib.Tactic.FieldSimp

/-! Beamforming: every antenna stream is the weighted sum of the transmit streams -/

namespace Verif.Phy.Ofdm

variable {F : Type} [Field F]

/-- What is needed of the dimensions -/
structure Good (d : Dims) : Prop where
  even : d.occ / 2 * 2 = d.occ
  mid : d.occ / 2 + 1 ≤ d.off
  top : d.off + d.occ / 2 = d.os

/-- Bin of the FFT: its subcarrier -/
def bin (d : Dims) (Y : Nat → F) (k : Nat) : F :=
  if k < d.occ / 2 + 1 then Y (d.occ / 2 + k) else if d.off ≤ k ∧ k < d.os then Y (k - d.off) else 0

theorem addSpectrum_ok {d : Dims} (g : Good d) (ant src : List F) (ha : ant.length = d.os) (hs : d.occ + 1 ≤ src.length) :
    ∃ r, addSpectrum d ant src = .ok r ∧ r.length = d.os ∧ ∀ k, k < d.os → r.getD k 0 = ant.getD k 0 + bin d (fun s => src.getD s 0) k := by
  obtain ⟨e1, e2, e3⟩ := g
  have h1 := slice_ok src (d.occ / 2) (d.occ / 2 + 1) (by omega)
  have l1 := slice_length h1
  obtain ⟨r1, h2, l2, g2⟩ := addAt_ok ant 0 ((src.drop (d.occ / 2)).take (d.occ / 2 + 1)) (by omega)
  have h3 := slice_ok src 0 (d.occ / 2) (by omega)
  have l3 := slice_length h3
  obtain ⟨r2, h4, l4, g4⟩ := addAt_ok r1 d.off ((src.drop 0).take (d.occ / 2)) (by omega)
  refine ⟨r2, by rw [addSpectrum, h1, Res.ok_bind, h2, Res.ok_bind, h3, Res.ok_bind, h4], by omega, fun k hk => ?_⟩
  rw [g4, g2, l1, l3, bin, Nat.sub_zero]
  by_cases a : k < d.occ / 2 + 1
  · rw [if_pos (by omega), if_neg (by omega), if_pos a, slice_getD h1, if_pos a, add_zero]
  · rw [if_neg (by omega), if_neg a]
    by_cases b : d.off ≤ k ∧ k < d.os
    · rw [if_pos (by omega), if_pos b, slice_getD h3, if_pos (by omega), Nat.zero_add, add_zero]
    · rw [if_neg (by omega), if_neg b, add_zero]

theorem bitSet_eq (mask j : Nat) : bitSet mask j = mask.testBit j := by
  rw [bitSet, Nat.testBit]
  have h := Nat.and_one_is_mod (mask >>> j)
  have h' : 1 &&& mask >>> j = mask >>> j &&& 1 := Nat.and_comm _ _
  rw [h', h]
  rcases Nat.mod_two_eq_zero_or_one (mask >>> j) with e | e <;> simp [e]

theorem mask_succ (j : Nat) : (2 ^ j - 1) ||| 1 <<< j = 2 ^ (j + 1) - 1 := by
  apply Nat.eq_of_testBit_eq
  intro i
  rw [Nat.testBit_or, Nat.testBit_two_pow_sub_one, Nat.testBit_two_pow_sub_one, Nat.one_shiftLeft, Nat.testBit_two_pow]
  by_cases a : i < j
  · simp [a]; omega
  · by_cases b : j = i
    · subst b; simp
    · simp [a, b]; omega

variable [DecidableEq F]

theorem compare_rest (d : Dims) (W : List F) (nTs : Nat) (src : List F) (w : F) (j : Nat) (js : List Nat) (s : Nat × Nat × List (List F))
    (h : bitSet s.2.1 j = true) : ∃ i, js.foldlM (compareStep d W nTs src w j) s = .ok (i, s.2) := by
  induction js generalizing s with
  | nil => exact ⟨s.1, rfl⟩
  | cons a js ih =>
    rw [List.foldlM_cons, compareStep, if_pos h, Res.ok_bind]
    exact ih _ h

theorem weighted_ok (d : Dims) (ts : List F) (w : F) (hs : d.occ + 1 ≤ ts.length) :
    ∃ r, weighted d ts w = .ok r ∧ d.occ + 1 ≤ r.length ∧ ∀ s, s < d.occ + 1 → r.getD s 0 = w * ts.getD s 0 := by
  rw [weighted]
  by_cases h : w = 1
  · exact ⟨ts, by rw [if_pos h], hs, fun s _ => by rw [h, one_mul]⟩
  · have h1 := slice_ok ts 0 (d.occ + 1) (by omega)
    refine ⟨_, by rw [if_neg h, h1, Res.ok_bind], by rw [List.length_map, slice_length h1], fun s hs => ?_⟩
    rw [getD_map_mul, slice_getD h1, if_pos hs, Nat.zero_add, mul_comm]

omit [DecidableEq F] in
theorem bin_congr {d : Dims} (g : Good d) {Y Z : Nat → F} (h : ∀ s, s < d.occ + 1 → Y s = Z s) (k : Nat) : bin d Y k = bin d Z k := by
  obtain ⟨e1, e2, e3⟩ := g
  rw [bin, bin]
  split
  · exact h _ (by omega)
  · split
    · exact h _ (by omega)
    · rfl

omit [DecidableEq F] in
theorem bin_mul (d : Dims) (Y : Nat → F) (c : F) (k : Nat) : bin d (fun s => c * Y s) k = c * bin d Y k := by
  rw [bin, bin]; split
  · rfl
  · split
    · rfl
    · rw [mul_zero]

omit [DecidableEq F] in
theorem bin_zero (d : Dims) (k : Nat) : bin d (fun _ => (0 : F)) k = 0 := by
  rw [bin]; split
  · rfl
  · split <;> rfl

omit [DecidableEq F] in
theorem bin_add (d : Dims) (Y Z : Nat → F) (k : Nat) : bin d (fun s => Y s + Z s) k = bin d Y k + bin d Z k := by
  simp only [bin]; split
  · rfl
  · split
    · rfl
    · rw [add_zero]

omit [DecidableEq F] in
theorem bin_mulr (d : Dims) (Y : Nat → F) (c : F) (k : Nat) : bin d Y k * c = bin d (fun s => Y s * c) k := by
  simp only [bin]; split
  · rfl
  · split
    · rfl
    · rw [zero_mul]

/-- Antenna streams, bin by bin -/
def Stages (d : Dims) (nTx : Nat) (ants : List (List F)) (X : Nat → Nat → F) : Prop :=
  ants.length = nTx ∧ ∀ a (h : a < ants.length), ants[a].length = d.os ∧ ∀ k, k < d.os → ants[a].getD k 0 = X a k

omit [DecidableEq F] in
theorem stages_set {d : Dims} {nTx : Nat} {ants : List (List F)} {X : Nat → Nat → F} (h : Stages d nTx ants X) (j : Nat) (v : List F)
    (hl : v.length = d.os) : Stages d nTx (ants.set j v) (fun a k => if a = j then v.getD k 0 else X a k) := by
  refine ⟨by rw [List.length_set, h.1], fun a ha => ?_⟩
  rw [List.length_set] at ha
  rw [List.getElem_set]
  by_cases e : j = a
  · rw [if_pos e]; exact ⟨hl, fun k _ => by simp only [e.symm, if_true]⟩
  · rw [if_neg e]
    exact ⟨(h.2 a ha).1, fun k hk => by simp only [if_neg (Ne.symm e)]; exact (h.2 a ha).2 k hk⟩

omit [DecidableEq F] in
theorem stages_congr {d : Dims} {nTx : Nat} {ants : List (List F)} {X Y : Nat → Nat → F} (h : Stages d nTx ants X)
    (e : ∀ a k, a < nTx → k < d.os → X a k = Y a k) : Stages d nTx ants Y :=
  ⟨h.1, fun a ha => ⟨(h.2 a ha).1, fun k hk => by rw [(h.2 a ha).2 k hk, e a k (by rw [← h.1]; exact ha) hk]⟩⟩

theorem antennaStep_ok {d : Dims} (g : Good d) (W : List F) (nTs nTx : Nat) (ts : List F) (hts : d.occ + 1 ≤ ts.length)
    (i j : Nat) (hj : j < nTx) (hw : i + j * nTs < W.length) (ants : List (List F)) (X : Nat → Nat → F) (hX : Stages d nTx ants X) :
    ∃ ants', antennaStep d W nTs nTx ts (i + j * nTs, 2 ^ j - 1, ants) j = .ok (i + (j + 1) * nTs, 2 ^ (j + 1) - 1, ants') ∧
      Stages d nTx ants' (fun a k => if a = j then X a k + W.getD (i + j * nTs) 0 * bin d (fun s => ts.getD s 0) k else X a k) := by
  have hb : bitSet (2 ^ j - 1) j = false := by rw [bitSet_eq, Nat.testBit_two_pow_sub_one]; simp
  have hW : W.getD (i + j * nTs) 0 = W[i + j * nTs] := by
    rw [List.getD_eq_getElem?_getD, List.getElem?_eq_getElem hw]; rfl
  have hi : i + j * nTs + nTs = i + (j + 1) * nTs := by ring
  rw [antennaStep]
  simp only [hb, Bool.false_eq_true, if_false]
  rw [at?_ok W _ hw, Res.ok_bind]
  by_cases h0 : W[i + j * nTs] = 0
  · rw [if_pos h0, mask_succ, hi]
    refine ⟨ants, rfl, stages_congr hX fun a k _ _ => ?_⟩
    rw [hW, h0, zero_mul, add_zero, ite_self]
  · rw [if_neg h0]
    obtain ⟨src, hs1, hs2, hs3⟩ := weighted_ok d ts W[i + j * nTs] hts
    rw [hs1, Res.ok_bind]
    have hr : List.range' j (nTx - j) = j :: List.range' (j + 1) (nTx - j - 1) := by
      rw [show nTx - j = (nTx - j - 1) + 1 by omega, List.range'_succ]; rfl
    have hja : j < ants.length := by rw [hX.1]; exact hj
    obtain ⟨r, hr1, hr2, hr3⟩ := addSpectrum_ok g ants[j] src (hX.2 j hja).1 hs2
    rw [hr, List.foldlM_cons, compareStep]
    simp only [hb, Bool.false_eq_true, if_false]
    rw [at?_ok W _ hw, Res.ok_bind, if_pos rfl, at?_ok ants j hja, Res.ok_bind, hr1, Res.ok_bind, Res.ok_bind, mask_succ]
    obtain ⟨i', hi'⟩ := compare_rest d W nTs src W[i + j * nTs] j (List.range' (j + 1) (nTx - j - 1))
      (i + j * nTs + nTs, 2 ^ (j + 1) - 1, ants.set j r) (by rw [bitSet_eq, Nat.testBit_two_pow_sub_one]; simp)
    rw [hi', Res.ok_bind, hi]
    refine ⟨_, rfl, stages_congr (stages_set hX j r hr2) fun a k ha hk => ?_⟩
    by_cases e : a = j
    · subst e
      rw [if_pos rfl, if_pos rfl, hr3 k hk, (hX.2 a hja).2 k hk, hW, ← bin_mul, bin_congr g hs3]
    · rw [if_neg e, if_neg e]

theorem antennas_ok {d : Dims} (g : Good d) (W : List F) (nTs nTx : Nat) (ts : List F) (hts : d.occ + 1 ≤ ts.length)
    (i : Nat) (hi : i < nTs) (hw : W.length = nTx * nTs) (ants : List (List F)) (X : Nat → Nat → F) (hX : Stages d nTx ants X)
    (n : Nat) (hn : n ≤ nTx) :
    ∃ ants', (List.range n).foldlM (antennaStep d W nTs nTx ts) (i, 0, ants) = .ok (i + n * nTs, 2 ^ n - 1, ants') ∧
      Stages d nTx ants' (fun a k => if a < n then X a k + W.getD (a * nTs + i) 0 * bin d (fun s => ts.getD s 0) k else X a k) := by
  induction n with
  | zero => exact ⟨ants, by rw [Nat.zero_mul]; rfl, stages_congr hX fun a k _ _ => by rw [if_neg (by omega)]⟩
  | succ n ih =>
    obtain ⟨as, h1, h2⟩ := ih (by omega)
    have hlt : i + n * nTs < W.length := by
      rw [hw]
      calc i + n * nTs < nTs + n * nTs := by omega
        _ = (n + 1) * nTs := by ring
        _ ≤ nTx * nTs := Nat.mul_le_mul_right _ hn
    obtain ⟨as', h3, h4⟩ := antennaStep_ok g W nTs nTx ts hts i n (by omega) hlt as _ h2
    refine ⟨as', by rw [List.range_succ, List.foldlM_append, h1, Res.ok_bind, List.foldlM_cons, h3]; rfl, stages_congr h4 fun a k _ _ => ?_⟩
    by_cases e : a = n
    · subst e; rw [if_pos rfl, if_neg (by omega), if_pos (by omega), Nat.add_comm i]
    · rw [if_neg e]
      by_cases e' : a < n
      · rw [if_pos e', if_pos (by omega)]
      · rw [if_neg e', if_neg (by omega)]

theorem beamform_ok {d : Dims} (g : Good d) (W : List F) (nTs nTx n : Nat) (ts : List (List F)) (hn : n ≤ nTs) (hl : n ≤ ts.length)
    (hts : ∀ t ∈ ts, d.occ + 1 ≤ t.length) (hw : W.length = nTx * nTs) :
    ∃ ants, beamform d W nTs nTx n ts = .ok ants ∧ Stages d nTx ants (fun a => bin d (Spec.precoded W nTs n ts a)) := by
  rw [beamform]
  induction n with
  | zero =>
    refine ⟨_, rfl, by rw [List.length_replicate], fun a ha => ?_⟩
    rw [List.getElem_replicate]
    refine ⟨by rw [List.length_replicate], fun k hk => ?_⟩
    have : Spec.precoded W nTs 0 ts a = fun _ => 0 := by funext s; simp [Spec.precoded]
    show _ = bin d (Spec.precoded W nTs 0 ts a) k
    rw [this, bin_zero, List.getD_eq_getElem?_getD, List.getElem?_replicate]
    split <;> rfl
  | succ n ih =>
    obtain ⟨as, h1, h2⟩ := ih (by omega) (by omega)
    have hn' : n < ts.length := by omega
    obtain ⟨as', h3, h4⟩ := antennas_ok g W nTs nTx ts[n] (hts _ (List.getElem_mem _)) n (by omega) hw as _ h2 nTx le_rfl
    refine ⟨as', ?_, stages_congr h4 fun a k ha hk => ?_⟩
    · rw [List.range_succ, List.foldlM_append, h1, Res.ok_bind, List.foldlM_cons, streamStep, at?_ok ts n hn', Res.ok_bind, h3, Res.ok_bind,
        decide_eq_true rfl, Res.assert_true, Res.ok_bind]; rfl
    · rw [if_pos ha, ← bin_mul, ← bin_add]
      congr 1; funext s
      rw [Spec.precoded, Spec.precoded, Finset.sum_range_succ]
      congr 2
      rw [List.getD_eq_getElem?_getD (l := ts), List.getElem?_eq_getElem hn']; rfl

end Verif.Phy.Ofdm
