import Verif.Lemma.Codebook
import Mathlib.Tactic.NormNum
import Mathlib.Analysis.Real.Sqrt
import Mathlib.Data.List.GetD

/-!
# C71: beamforming keeps the power of the transmit streams

`getTm` (model of tm_mode.cpp) lists the numbers of transmit streams and antennas of the twelve transmission modes. -/

namespace Verif.Phy.Codebook

open Spec

section
variable {F : Type} [Field F]

/-- In each transmission mode there is a matrix for each codebook index up to `get_codebook_index_max`, with one weight per antenna and
stream; the weights are 0, 1, -1, j and -j. There is none for any other index, and `clamp_W` gives an index with a matrix. -/
theorem C71_matrices {m : Nat} {tm : Sp3.Tm} (h : Sp3.getTm m = .ok tm) :
    ∃ mx, indexMax tm.nTs tm.nTx = .ok mx ∧ (∀ cb, clampW tm.nTs tm.nTx cb = .ok (if cb ≤ mx then cb else mx)) ∧
      ∀ cb, (cb ≤ mx → ∃ W : List (Cx F), getW tm.nTs tm.nTx cb = .ok W ∧ W.length = tm.nTx * tm.nTs ∧
          ∀ z ∈ W, z = ⟨0, 0⟩ ∨ z = ⟨1, 0⟩ ∨ z = ⟨-1, 0⟩ ∨ z = ⟨0, 1⟩ ∨ z = ⟨0, -1⟩) ∧
        (mx < cb → (getW tm.nTs tm.nTx cb : Res (List (Cx F))) = .abort) := by
  have hp := modes h
  obtain ⟨hm, h0⟩ := indexMax_eq _ hp
  simp only at hm h0
  refine ⟨_, hm, ?_, ?_⟩
  · intro cb
    unfold clampW
    unfold indexMax at hm
    rw [hm, Res.ok_bind]
    rfl
  · intro cb
    refine ⟨fun hc => ?_, fun hc => getW_abort hp (by omega)⟩
    have hc' : cb < (rowI tm.nTs tm.nTx).length := by omega
    refine ⟨_, getW_eq hp hc', ?_, ?_⟩
    · rw [List.length_map, (gram_table _ hp cb hc').1, Nat.mul_comm]
    · intro z hz
      obtain ⟨x, hx, rfl⟩ := List.mem_map.mp hz
      have hv : Valid x := by
        obtain ⟨-, b⟩ := at2_idx _ hp
        refine ints_valid (rowI tm.nTs tm.nTx) ?_ (matI tm.nTs tm.nTx cb) ?_ x hx
        · unfold rowI
          rw [List.getD_eq_getElem?_getD, List.getElem?_eq_getElem b]
          exact List.getElem_mem _
        · unfold matI
          rw [List.getD_eq_getElem?_getD, List.getElem?_eq_getElem hc']
          exact List.getElem_mem _
      rcases hv with e | e | e | e | e <;> subst e <;> simp [cx, reI, imI]

end

section
variable {F : Type} [Field F] [LinearOrder F] [IsStrictOrderedRing F]

omit [LinearOrder F] [IsStrictOrderedRing F] in
theorem scaled_sq (c : F) (z : Cx F) : (scaled c z).sq = c * c * z.sq := by
  unfold scaled Cx.sq
  simp only
  ring

/-- With the scaling of the standard, the antennas together send on each subcarrier the mean of the powers of the transmit streams, whatever
these carry, and however they are related: no matrix favours or cancels any signal. -/
theorem C71_power {sqrt : F → F} (hs : Exact sqrt) {m : Nat} {tm : Sp3.Tm} (h : Sp3.getTm m = .ok tm) {cb : Nat} {W : List (Cx F)}
    (hW : getW tm.nTs tm.nTx cb = .ok W) (x : Nat → Cx F) :
    ∃ s, getScale sqrt tm.nTs tm.nTx cb = .ok s ∧
      ∑ a ∈ Finset.range tm.nTx, (scaled s (sent W tm.nTs x a)).sq = (∑ t ∈ Finset.range tm.nTs, (x t).sq) / tm.nTs := by
  have hp := modes h
  by_cases hc : cb < (rowI tm.nTs tm.nTx).length
  · rw [getW_eq hp hc] at hW
    cases hW
    obtain ⟨s, e, q⟩ := scale_sq hs hp hc
    refine ⟨s, e, ?_⟩
    have hn : (tm.nTs : F) ≠ 0 := by
      have : ∀ p ∈ pairs, 0 < p.1 := by decide
      exact_mod_cast (this _ hp).ne'
    have P := power_table hp hc x
    rw [Finset.sum_congr rfl fun a _ => scaled_sq s _, ← Finset.mul_sum, eq_div_iff hn]
    calc _ = s * s * ((tm.nTs : F) * ∑ a ∈ Finset.range tm.nTx, (sent ((matI tm.nTs tm.nTx cb).map cx) tm.nTs x a).sq) := by ring
      _ = _ := by rw [P, ← mul_assoc, q, one_mul]
  · rw [getW_abort hp (by omega)] at hW
    cases hW

/-- With the scaling for the converters, no antenna sends more than the power of one stream if the streams are unrelated and of the same
power, and at least one antenna sends exactly that. -/
theorem C71_dac {sqrt : F → F} (hs : Exact sqrt) {m : Nat} {tm : Sp3.Tm} (h : Sp3.getTm m = .ok tm) {cb : Nat} {W : List (Cx F)}
    (hW : getW tm.nTs tm.nTx cb = .ok W) :
    ∃ s, getScaleDac sqrt tm.nTs tm.nTx cb = .ok s ∧
      (∀ a < tm.nTx, ∑ t ∈ Finset.range tm.nTs, (scaled s (weight W tm.nTs a t)).sq ≤ 1) ∧
      ∃ a < tm.nTx, ∑ t ∈ Finset.range tm.nTs, (scaled s (weight W tm.nTs a t)).sq = 1 := by
  have hp := modes h
  by_cases hc : cb < (rowI tm.nTs tm.nTx).length
  · rw [getW_eq hp hc] at hW
    cases hW
    obtain ⟨s, e, q⟩ := scaleDac_sq hs hp hc
    obtain ⟨h1, a, ha, h2⟩ := row_table _ hp cb hc
    simp only at h1 ha h2
    have P : ∀ a < tm.nTx, ∑ t ∈ Finset.range tm.nTs, (scaled s (weight ((matI tm.nTs tm.nTx cb).map cx) tm.nTs a t)).sq =
        s * s * (rowPow (matI tm.nTs tm.nTx cb) tm.nTs a : F) := by
      intro a ha
      rw [Finset.sum_congr rfl fun t _ => scaled_sq s _, ← Finset.mul_sum, row_power hp hc ha]
    refine ⟨s, e, fun a ha => ?_, a, ha, ?_⟩
    · rw [P a ha, ← q]
      exact mul_le_mul_of_nonneg_left (by exact_mod_cast h1 a ha) (mul_self_nonneg s)
    · rw [P a ha, h2, q]
  · rw [getW_abort hp (by omega)] at hW
    cases hW

/-- The transmitter accepts exactly the codebook indices with a matrix. -/
theorem C71_accepted {sqrt : F → F} (hs : Exact sqrt) {m : Nat} {tm : Sp3.Tm} (h : Sp3.getTm m = .ok tm) (cb occ : Nat) (opt : Bool) (dac : F) :
    ((∃ r, txScale sqrt opt (decide (0 < cb)) dac occ tm.nTs tm.nTx cb = .ok r) ↔ ∃ W : List (Cx F), getW tm.nTs tm.nTx cb = .ok W) ∧
    txScale sqrt opt (decide (0 < cb)) dac occ tm.nTs tm.nTx cb ≠ .ub := by
  have hp := modes h
  obtain ⟨hm, h0⟩ := indexMax_eq _ hp
  simp only at hm h0
  unfold txScale
  rw [hm, Res.ok_bind]
  by_cases hc : cb < (rowI tm.nTs tm.nTx).length
  · obtain ⟨s, e, -⟩ := scale_sq hs hp hc
    obtain ⟨s', e', -⟩ := scaleDac_sq hs hp hc
    have hb : ((decide (0 < cb) && decide (0 < cb)) || (decide (cb = 0) && !decide (0 < cb))) = true := by
      rcases Nat.eq_zero_or_pos cb with z | z
      · simp [z]
      · simp [z]
    rw [decide_eq_true (by omega : cb ≤ _), hb, Res.assert_true, Res.ok_bind, Res.ok_bind]
    refine ⟨⟨fun _ => ⟨_, getW_eq hp hc⟩, fun _ => ?_⟩, ?_⟩
    · cases opt
      · simp [e]
      · simp [e']
    · cases opt
      · simp [e]
      · simp [e']
  · rw [decide_eq_false (by omega : ¬ cb ≤ _)]
    refine ⟨⟨fun ⟨r, hr⟩ => by simp at hr, fun ⟨W, hW⟩ => ?_⟩, by simp⟩
    rw [getW_abort hp (by omega)] at hW
    cases hW

/-- An OFDM symbol with `occ` subcarriers of power one on each stream is sent with power `dac²` by all antennas together, in each mode and
with each matrix. The STF, with a quarter of the subcarriers, all of them on the first stream, is sent with `dac²` divided by the number of
streams. -/
theorem C71_symbol {sqrt : F → F} (hs : Exact sqrt) {m : Nat} {tm : Sp3.Tm} (h : Sp3.getTm m = .ok tm) {cb : Nat} {W : List (Cx F)}
    (hW : getW tm.nTs tm.nTx cb = .ok W) {n : Nat} (hn : 0 < n) (dac : F) :
    ∃ stf sym, txScale sqrt false (decide (0 < cb)) dac (4 * n) tm.nTs tm.nTx cb = .ok (stf, sym) ∧
      (∀ x : Nat → Nat → Cx F, (∀ t < tm.nTs, ∀ k < 4 * n, (x t k).sq = 1) →
        ∑ k ∈ Finset.range (4 * n), ∑ a ∈ Finset.range tm.nTx, (scaled sym (sent W tm.nTs (fun t => x t k) a)).sq = dac * dac) ∧
      ∀ x : Nat → Cx F, (∀ k < n, (x k).sq = 1) →
        ∑ k ∈ Finset.range n, ∑ a ∈ Finset.range tm.nTx, (scaled stf (sent W tm.nTs (fun t => if t = 0 then x k else 0) a)).sq =
          dac * dac / tm.nTs := by
  have hp := modes h
  have hc : cb < (rowI tm.nTs tm.nTx).length := by
    by_contra hc
    rw [getW_abort hp (by omega)] at hW
    cases hW
  obtain ⟨hm, h0⟩ := indexMax_eq _ hp
  simp only at hm h0
  obtain ⟨s, e, q⟩ := scale_sq hs hp hc
  have hb : ((decide (0 < cb) && decide (0 < cb)) || (decide (cb = 0) && !decide (0 < cb))) = true := by
    rcases Nat.eq_zero_or_pos cb with z | z
    · simp [z]
    · simp [z]
  have hN : 0 < tm.nTs := by
    have : ∀ p ∈ pairs, 0 < p.1 := by decide
    exact this _ hp
  have hN' : (tm.nTs : F) ≠ 0 := by exact_mod_cast hN.ne'
  have key : ∀ (r : Nat), 0 < r → ∀ y : Nat → Cx F,
      ∑ a ∈ Finset.range tm.nTx, (scaled (1 / sqrt (r : F) * (dac * s)) (sent W tm.nTs y a)).sq =
        dac * dac / r * ((∑ t ∈ Finset.range tm.nTs, (y t).sq) / tm.nTs) := by
    intro r hr y
    obtain ⟨s', e', P⟩ := C71_power hs h hW y
    rw [e] at e'
    cases e'
    rw [← P, Finset.sum_congr rfl fun a _ => scaled_sq _ _, Finset.sum_congr rfl fun a _ => scaled_sq _ _, ← Finset.mul_sum, ← Finset.mul_sum]
    have hq := hs r hr
    have hne : (r : F) ≠ 0 := by exact_mod_cast hr.ne'
    have hz : sqrt (r : F) ≠ 0 := by
      intro z; rw [z, zero_mul] at hq; exact hne hq.symm
    have : 1 / sqrt (r : F) * (dac * s) * (1 / sqrt (r : F) * (dac * s)) = dac * dac / r * (s * s) := by
      calc _ = dac * dac / (sqrt (r : F) * sqrt (r : F)) * (s * s) := by field_simp
        _ = _ := by rw [hq]
    rw [this]; ring
  refine ⟨1 / sqrt ((n : Nat) : F) * (dac * s), 1 / sqrt ((4 * n : Nat) : F) * (dac * s), ?_, ?_, ?_⟩
  · unfold txScale
    rw [hm, Res.ok_bind, decide_eq_true (by omega : cb ≤ _), hb, Res.assert_true, Res.ok_bind, Res.ok_bind, show 4 * n / 4 = n by omega]
    simp [e]
  · intro x hx
    have h4 : ((4 * n : Nat) : F) ≠ 0 := by exact_mod_cast (by omega : 4 * n ≠ 0)
    rw [Finset.sum_congr rfl fun k hk => by
      rw [key (4 * n) (by omega) fun t => x t k, Finset.sum_congr rfl fun t ht => hx t (Finset.mem_range.mp ht) k (Finset.mem_range.mp hk)]]
    rw [Finset.sum_const, Finset.sum_const, Finset.card_range, Finset.card_range, nsmul_eq_mul, nsmul_eq_mul, mul_one, div_self hN', mul_one,
      mul_div_cancel₀ _ h4]
  · intro x hx
    have h1 : ((n : Nat) : F) ≠ 0 := by exact_mod_cast hn.ne'
    have one : ∀ k < n, ∑ t ∈ Finset.range tm.nTs, ((if t = 0 then x k else 0 : Cx F)).sq = 1 := by
      intro k hk
      rw [Finset.sum_eq_single 0]
      · simpa using hx k hk
      · intro t _ ht; simp [ht, Cx.sq]
      · intro h; exact absurd (Finset.mem_range.mpr hN) h
    rw [Finset.sum_congr rfl fun k hk => by
      rw [key n hn fun t => if t = 0 then x k else 0, one k (Finset.mem_range.mp hk)]]
    rw [Finset.sum_const, Finset.card_range, nsmul_eq_mul]
    field_simp

/-- Different codebook indices have different matrices. -/
theorem C71_distinct {m : Nat} {tm : Sp3.Tm} (h : Sp3.getTm m = .ok tm) {cb cb' : Nat} {W : List (Cx F)}
    (h1 : getW tm.nTs tm.nTx cb = .ok W) (h2 : getW tm.nTs tm.nTx cb' = .ok W) : cb = cb' := by
  have hp := modes h
  have hc : cb < (rowI tm.nTs tm.nTx).length := by
    by_contra hc
    rw [getW_abort hp (by omega)] at h1
    cases h1
  have hc' : cb' < (rowI tm.nTs tm.nTx).length := by
    by_contra hc
    rw [getW_abort hp (by omega)] at h2
    cases h2
  rw [getW_eq hp hc] at h1
  rw [getW_eq hp hc'] at h2
  have e := (Res.ok.inj h1).trans (Res.ok.inj h2).symm
  have tab : ∀ p ∈ pairs, ∀ c < (rowI p.1 p.2).length, ∀ c' < (rowI p.1 p.2).length,
      (matI p.1 p.2 c).map reI = (matI p.1 p.2 c').map reI → (matI p.1 p.2 c).map imI = (matI p.1 p.2 c').map imI → c = c' := by
    decide +kernel
  have inj : Function.Injective (Int.cast : Int → F) := Int.cast_injective
  refine tab _ hp cb hc cb' hc' ?_ ?_
  · have := congrArg (List.map Cx.re) e
    rw [List.map_map, List.map_map] at this
    have f : (Cx.re ∘ cx : Int → F) = Int.cast ∘ reI := rfl
    rw [f, ← List.map_map, ← List.map_map] at this
    exact (List.map_injective_iff.mpr inj) this
  · have := congrArg (List.map Cx.im) e
    rw [List.map_map, List.map_map] at this
    have f : (Cx.im ∘ cx : Int → F) = Int.cast ∘ imI := rfl
    rw [f, ← List.map_map, ← List.map_map] at this
    exact (List.map_injective_iff.mpr inj) this

/-- Of the antennas that send a stream, the first one sends it unchanged: its weight is 1, the weights of the antennas before it are 0. -/
theorem C71_reference {m : Nat} {tm : Sp3.Tm} (h : Sp3.getTm m = .ok tm) {cb : Nat} {W : List (Cx F)} (hW : getW tm.nTs tm.nTx cb = .ok W)
    {t : Nat} (ht : t < tm.nTs) : ∃ a < tm.nTx, weight W tm.nTs a t = ⟨1, 0⟩ ∧ ∀ b < a, weight W tm.nTs b t = 0 := by
  have hp := modes h
  have hc : cb < (rowI tm.nTs tm.nTx).length := by
    by_contra hc
    rw [getW_abort hp (by omega)] at hW
    cases hW
  rw [getW_eq hp hc] at hW
  cases hW
  have tab : ∀ p ∈ pairs, ∀ c < (rowI p.1 p.2).length, ∀ t < p.1, ∃ a < p.2, (matI p.1 p.2 c).getD (a * p.1 + t) 0 = 1 ∧
      ∀ b < a, (matI p.1 p.2 c).getD (b * p.1 + t) 0 = 0 := by decide +kernel
  obtain ⟨a, ha, h1, h0⟩ := tab _ hp cb hc t ht
  refine ⟨a, ha, ?_, fun b hb => ?_⟩
  · rw [weight_map, h1]; simp [reI, imI]
  · rw [weight_map, h0 b hb]; simp [reI, imI]; rfl

/-- No matrix is another one with streams rotated or amplified: the indices differ in what the antennas send relative to each other. -/
theorem C71_rotated {m : Nat} {tm : Sp3.Tm} (h : Sp3.getTm m = .ok tm) {cb cb' : Nat} {W W' : List (Cx F)}
    (h1 : getW tm.nTs tm.nTx cb = .ok W) (h2 : getW tm.nTs tm.nTx cb' = .ok W') (c : Nat → Cx F)
    (e : ∀ a < tm.nTx, ∀ t < tm.nTs, weight W' tm.nTs a t = c t * weight W tm.nTs a t) : cb = cb' := by
  have one : ∀ t < tm.nTs, c t = ⟨1, 0⟩ := by
    intro t ht
    obtain ⟨a, ha, e1, e0⟩ := C71_reference h h1 ht
    obtain ⟨a', ha', e1', e0'⟩ := C71_reference h h2 ht
    rcases lt_trichotomy a a' with hl | hl | hl
    · exfalso
      have z := e a ha t ht
      rw [e0' a hl, e1] at z
      have zr := congrArg Cx.re z
      have zi := congrArg Cx.im z
      simp at zr zi
      have y := congrArg Cx.re (e a' ha' t ht)
      rw [e1'] at y
      simp [← zr, ← zi] at y
    · subst hl
      have z := e a ha t ht
      rw [e1, e1'] at z
      ext
      · simpa using (congrArg Cx.re z).symm
      · simpa using (congrArg Cx.im z).symm
    · exfalso
      have y := congrArg Cx.re (e a' ha' t ht)
      rw [e1', e0 a' hl] at y
      simp at y
  have hp := modes h
  have len : ∀ {k : Nat} {V : List (Cx F)}, getW tm.nTs tm.nTx k = .ok V → V.length = tm.nTs * tm.nTx := by
    intro k V hV
    by_cases hc : k < (rowI tm.nTs tm.nTx).length
    · rw [getW_eq hp hc] at hV
      cases hV
      rw [List.length_map, (gram_table _ hp k hc).1]
    · rw [getW_abort hp (by omega)] at hV
      cases hV
  refine C71_distinct h h1 ?_
  rw [h2]
  congr 1
  have l1 := len h1
  have l2 := len h2
  apply List.ext_getElem (by omega)
  intro i i2 i1
  have hs : 0 < tm.nTs := by
    rcases Nat.eq_zero_or_pos tm.nTs with z | z
    · rw [z] at l1; omega
    · exact z
  have hi : i / tm.nTs < tm.nTx := by rw [Nat.div_lt_iff_lt_mul hs, Nat.mul_comm]; omega
  have ht : i % tm.nTs < tm.nTs := Nat.mod_lt _ hs
  have q := e _ hi _ ht
  rw [one _ ht] at q
  unfold weight at q
  rw [Nat.div_add_mod' i tm.nTs, List.getD_eq_getElem _ _ i1, List.getD_eq_getElem _ _ i2] at q
  rw [q]
  ext <;> simp

/-- Codebook index 0 sends stream `t` on antenna `t` and nothing on the antennas beyond the streams. -/
theorem C71_default {m : Nat} {tm : Sp3.Tm} (h : Sp3.getTm m = .ok tm) :
    ∃ W : List (Cx F), getW tm.nTs tm.nTx 0 = .ok W ∧
      ∀ a < tm.nTx, ∀ t < tm.nTs, weight W tm.nTs a t = if a = t then ⟨1, 0⟩ else ⟨0, 0⟩ := by
  have hp := modes h
  have h0 := (indexMax_eq _ hp).2
  refine ⟨_, getW_eq hp h0, fun a ha t ht => ?_⟩
  have tab : ∀ p ∈ pairs, ∀ a < p.2, ∀ t < p.1, (matI p.1 p.2 0).getD (a * p.1 + t) 0 = if a = t then 1 else 0 := by decide +kernel
  rw [weight_map, tab _ hp a ha t ht]
  split <;> simp [reI, imI]

/-- From `get_codebook_index_nonzero` on, no weight is zero, except with eight antennas; every matrix before has a weight that is zero. -/
theorem C71_nonzero {m : Nat} {tm : Sp3.Tm} (h : Sp3.getTm m = .ok tm) (h8 : tm.nTx ≠ 8) :
    ∃ nz, indexNonzero tm.nTs tm.nTx = .ok nz ∧ (∃ W : List (Cx F), getW tm.nTs tm.nTx nz = .ok W) ∧
      ∀ cb (W : List (Cx F)), getW tm.nTs tm.nTx cb = .ok W → (nz ≤ cb ↔ ∀ z ∈ W, z ≠ 0) := by
  have hp := modes h
  have tab : ∀ p ∈ pairs, p.2 ≠ 8 → ∃ nz < (rowI p.1 p.2).length, indexNonzero p.1 p.2 = .ok nz ∧
      ∀ cb < (rowI p.1 p.2).length, (nz ≤ cb ↔ ∀ x ∈ matI p.1 p.2 cb, reI x ≠ 0 ∨ imI x ≠ 0) := by decide +kernel
  obtain ⟨nz, hnz, e, T⟩ := tab _ hp h8
  refine ⟨nz, e, ⟨_, getW_eq hp hnz⟩, fun cb W hW => ?_⟩
  have hc : cb < (rowI tm.nTs tm.nTx).length := by
    by_contra hc
    rw [getW_abort hp (by omega)] at hW
    cases hW
  rw [getW_eq hp hc] at hW
  cases hW
  rw [T cb hc]
  have z : ∀ x : Int, ((cx x : Cx F) ≠ 0 ↔ reI x ≠ 0 ∨ imI x ≠ 0) := by
    intro x
    rw [Ne, Cx.ext_iff, not_and_or]
    simp [cx]
  constructor
  · intro g y hy
    obtain ⟨x, hx, rfl⟩ := List.mem_map.mp hy
    exact (z x).mpr (g x hx)
  · intro g x hx
    exact (z x).mp (g _ (List.mem_map_of_mem hx))

/-- With eight antennas the only matrix is the identity, and `get_codebook_index_nonzero` gives its index. -/
theorem C71_nonzero_eight {m : Nat} {tm : Sp3.Tm} (h : Sp3.getTm m = .ok tm) (h8 : tm.nTx = 8) :
    indexNonzero tm.nTs tm.nTx = .ok 0 ∧ indexMax tm.nTs tm.nTx = .ok 0 ∧
      ∃ W : List (Cx F), getW tm.nTs tm.nTx 0 = .ok W ∧ ⟨0, 0⟩ ∈ W := by
  have hp := modes h
  have tab : ∀ p ∈ pairs, p.2 = 8 → indexNonzero p.1 p.2 = .ok 0 ∧ indexMax p.1 p.2 = .ok 0 ∧ 0 ∈ matI p.1 p.2 0 := by decide +kernel
  obtain ⟨a, b, c⟩ := tab _ hp h8
  refine ⟨a, b, _, getW_eq hp (indexMax_eq _ hp).2, ?_⟩
  have := List.mem_map_of_mem (f := cx (F := F)) c
  rwa [cx_zero] at this

end

/-- Two streams on four antennas, matrix 17 -/
theorem C71_example : Sp3.getTm 8 = .ok ⟨2, 2, true, 2, 4⟩ ∧
    getW 2 4 17 = .ok ([⟨1, 0⟩, ⟨1, 0⟩, ⟨0, 1⟩, ⟨0, 1⟩, ⟨0, 1⟩, ⟨0, -1⟩, ⟨-1, 0⟩, ⟨1, 0⟩] : List (Cx ℚ)) ∧
    (getW 2 4 22 : Res (List (Cx ℚ))) = .abort ∧ clampW 2 4 63 = .ok 21 ∧ indexNonzero 2 4 = .ok 14 := by
  refine ⟨rfl, ?_, getW_abort (by decide) (by decide), rfl, rfl⟩
  rw [getW_eq (by decide) (by decide)]
  decide +kernel

/-- The square root of real numbers is exact; a packet with 56 subcarriers, two streams on four antennas, matrix 17 -/
theorem C71_symbol_example : Exact Real.sqrt ∧ ∃ (W : List (Cx ℝ)) (stf sym : ℝ), getW 2 4 17 = .ok W ∧
    txScale Real.sqrt false true 3 56 2 4 17 = .ok (stf, sym) ∧
    ∑ k ∈ Finset.range 56, ∑ a ∈ Finset.range 4, (scaled sym (sent W 2 (fun t => if t = 0 then ⟨1, 0⟩ else ⟨0, -1⟩) a)).sq = 9 ∧
    ∑ k ∈ Finset.range 14, ∑ a ∈ Finset.range 4, (scaled stf (sent W 2 (fun t => if t = 0 then ⟨0, 1⟩ else 0) a)).sq = 9 / 2 := by
  have hs : Exact Real.sqrt := fun n _ => Real.mul_self_sqrt (Nat.cast_nonneg n)
  have hW : (getW 2 4 17 : Res (List (Cx ℝ))) = .ok ((matI 2 4 17).map cx) := getW_eq (by decide) (by decide)
  obtain ⟨stf, sym, e, h1, h2⟩ := C71_symbol hs (m := 8) (tm := ⟨2, 2, true, 2, 4⟩) rfl hW (n := 14) (by decide) (3 : ℝ)
  refine ⟨hs, _, stf, sym, hW, e, ?_, ?_⟩
  · have := h1 (fun t _ => if t = 0 then ⟨1, 0⟩ else ⟨0, -1⟩) (by intro t _ k _; split <;> simp [Cx.sq])
    norm_num at this ⊢
    exact this
  · have := h2 (fun _ => ⟨0, 1⟩) (by intro k _; simp [Cx.sq])
    norm_num at this ⊢
    exact this

end Verif.Phy.Codebook
