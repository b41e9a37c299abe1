import Verif.Lemma.OfdmWave

/-! OFDM symbols at both ends -/

namespace Verif.Phy.Ofdm
open Spec

variable {F : Type} [Field F]

theorem bin_scaled {d : Dims} (g : Good d) (Y : Nat → F) (c : F) (ant : List F) (ha : ant.length = d.os)
    (hY : ∀ k, k < d.os → ant.getD k 0 = bin d Y k) :
    ∃ r1 r2, scaleAt ant 0 (d.occ / 2 + 1) c = .ok r1 ∧ scaleAt r1 d.off (d.occ / 2) c = .ok r2 ∧ r2.length = d.os ∧
      ∀ k, k < d.os → r2.getD k 0 = bin d (fun s => c * Y s) k := by
  obtain ⟨e1, e2, e3⟩ := g
  obtain ⟨r1, h1, l1, g1⟩ := scaleAt_ok ant 0 (d.occ / 2 + 1) c (by omega)
  obtain ⟨r2, h2, l2, g2⟩ := scaleAt_ok r1 d.off (d.occ / 2) c (by omega)
  refine ⟨r1, r2, h1, h2, by omega, fun k hk => ?_⟩
  rw [g2, g1, bin_mul, hY k hk]
  by_cases a : k < d.occ / 2 + 1
  · rw [if_neg (by omega), if_pos (by omega), mul_comm]
  · rw [if_neg (by omega : ¬ (0 ≤ k ∧ _))]
    by_cases b : d.off ≤ k ∧ k < d.os
    · rw [if_pos (by omega), mul_comm]
    · rw [if_neg (by omega), bin, if_neg a, if_neg b, mul_zero]

/-- What a way of copying has to do -/
def Copies (copy : List F → Nat → Nat → Nat → Res (List F)) : Prop :=
  ∀ l dst src n, dst + n ≤ src → src + n ≤ l.length → ∃ r, copy l dst src n = .ok r ∧ r.length = l.length ∧
      ∀ i, r.getD i 0 = if dst ≤ i ∧ i < dst + n then l.getD (src + (i - dst)) 0 else l.getD i 0

theorem copies_memcpy : Copies (F := F) memcpy := memcpy_ok

theorem copies_asc : Copies (F := F) copyAsc := by
  intro l dst src n h1 h2
  rcases Nat.eq_zero_or_pos n with e | e
  · subst e; exact ⟨l, rfl, rfl, fun i => by rw [if_neg (by omega)]⟩
  · exact copyAsc_ok l dst src n (by omega) h2

/-- A symbol, cyclic prefix not longer than the FFT -/
theorem ifftCpScale_ok {copy : List F → Nat → Nat → Nat → Res (List F)} (hc : Copies copy) {d : Dims} (g : Good d) {ω : F}
    (hω : ω ^ d.os = 1) (h0 : ω ≠ 0) (scale : F) (cp : Nat) (hcp : cp ≤ d.os) (ant out : List F) (ha : ant.length = d.os)
    (ho : cp + d.os ≤ out.length) (Y : Nat → F) (hY : ∀ k, k < d.os → ant.getD k 0 = bin d Y k) :
    ∃ r, ifftCpScale copy ω scale d cp ant out = .ok r ∧ r.length = cp + d.os ∧
      ∀ n, n < cp + d.os → r.getD n 0 = wave ω d.occ (fun s => scale * Y s) ((n : Int) - cp) := by
  obtain ⟨r1, r2, h1, h2, l2, g2⟩ := bin_scaled g Y scale ant ha hY
  have lt := transform_length ω r2
  obtain ⟨o1, h3⟩ := write_ok out cp (transform ω r2) (by omega)
  have l3 := write_length h3
  obtain ⟨o2, h4, l4, g4⟩ := hc o1 0 d.os cp (by omega) (by omega)
  have h5 := slice_ok o2 0 (cp + d.os) (by omega)
  refine ⟨_, ?_, slice_length h5, fun n hn => ?_⟩
  · rw [ifftCpScale, h1, Res.ok_bind, h2, Res.ok_bind, symbolTx, h3, Res.ok_bind, l2, prefixLoop, dif_neg (by omega), h4, Res.ok_bind, h5]
  · rw [slice_getD h5, if_pos hn, Nat.zero_add, g4, Nat.sub_zero, Nat.zero_add]
    by_cases a : n < cp
    · rw [if_pos (by omega), write_getD h3, lt, if_pos (by omega), transform_wave g hω h0 r2 l2 _ g2 _ (by omega),
        ← wave_period hω h0 d.occ _ ((n : Int) - cp)]
      congr 1; omega
    · rw [if_neg (by omega), write_getD h3, lt, if_pos (by omega), transform_wave g hω h0 r2 l2 _ g2 _ (by omega)]
      congr 1; omega

/-- A symbol whose cyclic prefix is 5/4 of the FFT, and of which only every fourth subcarrier is used, copied in ascending order -/
theorem ifftCpScale_long {d : Dims} (g : Good d) {ω : F}
    (hω : ω ^ d.os = 1) (h0 : ω ≠ 0) (scale : F) (q : Nat) (hq : d.os = 4 * q) (ant out : List F) (ha : ant.length = d.os)
    (ho : 5 * q + d.os ≤ out.length) (Y : Nat → F) (hY : ∀ k, k < d.os → ant.getD k 0 = bin d Y k)
    (h4 : ∀ s, s < d.occ + 1 → ¬ (4 : Int) ∣ freq d.occ s → Y s = 0) :
    ∃ r, ifftCpScale copyAsc ω scale d (5 * q) ant out = .ok r ∧ r.length = 5 * q + d.os ∧
      ∀ n, n < 5 * q + d.os → r.getD n 0 = wave ω d.occ (fun s => scale * Y s) ((n : Int) - 5 * q) := by
  obtain ⟨r1, r2, h1, h2, l2, g2⟩ := bin_scaled g Y scale ant ha hY
  have e2 := g.mid
  have e3 := g.top
  have hq0 : 0 < q := by omega
  have lt := transform_length ω r2
  obtain ⟨o1, h3⟩ := write_ok out (5 * q) (transform ω r2) (by omega)
  have l3 := write_length h3
  obtain ⟨o2, h5, l5, g5⟩ := copyAsc_ok o1 q (4 * q) (5 * q) (by omega) (by omega)
  obtain ⟨o3, h6, l6, g6⟩ := copyAsc_ok o2 0 (4 * q) (5 * q) (by omega) (by omega)
  have h7 := slice_ok o3 0 (5 * q + d.os) (by omega)
  -- the subcarriers in use have a quarter of the period
  have per : ∀ t : Int, wave ω d.occ (fun s => scale * Y s) (t + q) = wave ω d.occ (fun s => scale * Y s) t := by
    intro t
    rw [wave, wave]
    apply Finset.sum_congr rfl
    intro s hs
    by_cases hd : (4 : Int) ∣ freq d.occ s
    · obtain ⟨m, hm⟩ := hd
      have : ω ^ (freq d.occ s * (q : Int)) = 1 := by
        rw [hm, show (4 : Int) * m * q = ((d.os : Nat) : Int) * m by rw [hq]; push_cast; ring, zpow_mul, zpow_natCast, hω, one_zpow]
      rw [mul_add, zpow_add₀ h0, this, mul_one]
    · rw [h4 s (Finset.mem_range.mp hs) hd]; simp
  have perN : ∀ (m : Nat) (t : Int), wave ω d.occ (fun s => scale * Y s) (t + m * q) = wave ω d.occ (fun s => scale * Y s) t := by
    intro m
    induction m with
    | zero => intro t; simp
    | succ m ih => intro t; rw [show t + ((m + 1 : Nat) : Int) * q = t + m * q + q by push_cast; ring, per, ih]
  have body : ∀ i, 5 * q ≤ i → i < 9 * q → o1.getD i 0 = wave ω d.occ (fun s => scale * Y s) ((i : Int) - 5 * q) := by
    intro i hi hi'
    rw [write_getD h3, lt, if_pos (by omega), transform_wave g hω h0 r2 l2 _ g2 _ (by omega)]
    congr 1; omega
  -- after the loop: everything from twice the period on
  have mid : ∀ i, 4 * q ≤ i → i < 9 * q → o2.getD i 0 = wave ω d.occ (fun s => scale * Y s) ((i : Int) - 5 * q) := by
    intro i hi hi'
    rw [g5]
    by_cases a : i < 6 * q
    · rw [if_pos (by omega), body _ (by omega) (by omega), ← perN 3 ((i : Int) - 5 * q)]
      congr 1; omega
    · rw [if_neg (by omega), body _ (by omega) (by omega)]
  refine ⟨_, ?_, slice_length h7, fun n hn => ?_⟩
  · rw [ifftCpScale, h1, Res.ok_bind, h2, Res.ok_bind, symbolTx, h3, Res.ok_bind, l2, prefixLoop, dif_pos (by omega), hq,
      show 5 * q - 4 * q = q by omega, h5, Res.ok_bind, prefixLoop, dif_neg (by omega), h6, Res.ok_bind, ← hq, h7]
  · rw [slice_getD h7, if_pos hn, Nat.zero_add, g6, Nat.sub_zero, Nat.zero_add]
    by_cases a : n < 5 * q
    · rw [if_pos (by omega), mid _ (by omega) (by omega), ← perN 4 ((n : Int) - 5 * q)]
      congr 1; omega
    · rw [if_neg (by omega), mid _ (by omega) (by omega)]

/-- The cyclic prefix is longer than the FFT: `memcpy` overlaps -/
theorem ifftCpScale_ub {d : Dims} (g : Good d) (ω : F) (scale : F) (cp : Nat) (hcp : d.os < cp) (ant out : List F)
    (ha : ant.length = d.os) : ifftCpScale memcpy ω scale d cp ant out = .ub := by
  have e2 := g.mid
  have e3 := g.top
  obtain ⟨r1, h1, l1, -⟩ := scaleAt_ok ant 0 (d.occ / 2 + 1) scale (by omega)
  obtain ⟨r2, h2, l2, -⟩ := scaleAt_ok r1 d.off (d.occ / 2) scale (by omega)
  rw [ifftCpScale, h1, Res.ok_bind, h2, Res.ok_bind, symbolTx]
  rcases hw : write out cp (transform ω r2) with o | _ | _
  · rw [Res.ok_bind, prefixLoop, dif_pos (by omega), memcpy_overlap _ _ _ _ (by omega) (by omega)]; rfl
  · rw [write] at hw; split at hw <;> cases hw
  · rfl

/-- One OFDM symbol in the receiver, given the samples of its window -/
theorem rxSymbol_ok {d : Dims} (g : Good d) {ω : F} (hω : IsPrimitiveRoot ω d.os) (scale : F) (cp : Nat) (r : List F)
    (hr : cp + d.os ≤ r.length) (n : Nat) (Y : Fin n → Nat → F) (c : Fin n → F) (δ : Fin n → Nat)
    (hw : ∀ i, i < d.os → r.getD (cp + i) 0 = ∑ p, c p * wave ω d.occ (Y p) ((i : Int) - δ p)) :
    ∃ x, rxSymbol ω scale d cp r = .ok x ∧ x.length = d.occ + 1 ∧
      ∀ s, s < d.occ + 1 → x.getD s 0 = scale * d.os * ∑ p, c p * ω ^ (-(freq d.occ s * δ p)) * Y p s := by
  obtain ⟨e1, e2, e3⟩ := id g
  have h0 : ω ≠ 0 := hω.ne_zero (by omega)
  have h1 := slice_ok r cp d.os hr
  have l1 := slice_length h1
  have lt := transform_length ω⁻¹ ((r.drop cp).take d.os)
  have h2 := slice_ok (transform ω⁻¹ ((r.drop cp).take d.os)) 0 (d.occ / 2 + 1) (by omega)
  have h3 := slice_ok (transform ω⁻¹ ((r.drop cp).take d.os)) d.off (d.occ / 2) (by omega)
  have l2 := slice_length h2
  have l3 := slice_length h3
  refine ⟨_, by rw [rxSymbol, h1, Res.ok_bind]; dsimp only; rw [h2, Res.ok_bind, h3, Res.ok_bind],
    by rw [List.length_map, List.length_append, l2, l3]; omega, fun s hs => ?_⟩
  -- a bin with the frequency of the subcarrier
  have key : ∀ k, k < d.os → (∃ m : Int, (k : Int) = freq d.occ s + m * d.os) →
      (transform ω⁻¹ ((r.drop cp).take d.os)).getD k 0 = d.os * ∑ p, c p * ω ^ (-(freq d.occ s * δ p)) * Y p s := by
    rintro k hk ⟨m, hm⟩
    rw [transform_getD _ _ _ (by omega), l1]
    have hz : ∀ n : Nat, (ω⁻¹) ^ (n * k) = ω ^ (-(freq d.occ s * (n : Int))) := by
      intro n
      have h1 : ω ^ ((d.os : Int) * (m * n)) = 1 := by rw [zpow_mul, zpow_natCast, hω.pow_eq_one, one_zpow]
      rw [inv_pow, zpow_neg, inv_inj, ← zpow_natCast, Nat.cast_mul, hm,
        show (n : Int) * (freq d.occ s + m * d.os) = freq d.occ s * n + d.os * (m * n) by ring, zpow_add₀ h0, h1, mul_one]
    have h4 : ∀ n ∈ Finset.range d.os, ((r.drop cp).take d.os).getD n 0 * (ω⁻¹) ^ (n * k) =
        ∑ p, c p * (wave ω d.occ (Y p) ((n : Int) - δ p) * ω ^ (-(freq d.occ s * (n : Int)))) := by
      intro n hn
      rw [Finset.mem_range] at hn
      rw [slice_getD h1, if_pos hn, hw n hn, hz, Finset.sum_mul]
      exact Finset.sum_congr rfl fun p _ => by ring
    rw [Finset.sum_congr rfl h4, Finset.sum_comm, Finset.mul_sum]
    apply Finset.sum_congr rfl
    intro p _
    rw [← Finset.mul_sum, pick g hω (Y p) (δ p) s hs]; ring
  rw [getD_map_mul, getD_append, l3]
  by_cases a : s < d.occ / 2
  · rw [if_pos a, slice_getD h3, if_pos a, key (d.off + s) (by omega) ⟨1, by rw [freq]; omega⟩]; ring
  · rw [if_neg a, slice_getD h2, if_pos (by omega), Nat.zero_add, key (s - d.occ / 2) (by omega) ⟨0, by rw [freq]; omega⟩]; ring

end Verif.Phy.Ofdm
