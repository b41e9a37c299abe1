import Verif.Spec.ChScan
import Verif.Lemma.MimoEst
import Mathlib.Algebra.BigOperators.Intervals

/-! # Lemmas on channel measurements -/

namespace Verif.ChScan

open Verif.Phy.MimoEst (foldlM_eq)

variable {R : Type} [Field R]

theorem idx_nat {L : Nat} (hL : 0 < L) (h32 : L < 2 ^ 32) (t : Nat) : idx L (t : Int) = t % L := by
  unfold idx
  have h := Nat.mod_lt t hL
  rw [show ((t : Int).tmod (L : Int)) = ((t % L : Nat) : Int) from rfl]
  rw [Int.emod_eq_of_lt (by omega) (by omega), Int.toNat_natCast]

theorem energy_eq (v : Nat → Cx R) (a n : Nat) : energy v a n = ∑ i ∈ Finset.range n, (v (a + i)).sq := by
  induction n with
  | zero => simp [energy]
  | succ n ih =>
    rw [Finset.sum_range_succ, ← ih]
    simp [energy, List.range_succ]

theorem foldl_sum (f : Nat → R) (n : Nat) : (List.range n).foldl (fun s k => s + f k) 0 = ∑ k ∈ Finset.range n, f k := by
  induction n with
  | zero => simp
  | succ n ih => rw [List.range_succ, List.foldl_append, ih, Finset.sum_range_succ]; simp

/-- Index of a time -/
theorem idx_add' {L t j : Nat} (hL : 0 < L) (hj : t % L + j < 2 * L) : (t + j) % L = if t % L + j < L then t % L + j else t % L + j - L := by
  have h := Nat.mod_lt t hL
  have e : (t + j) % L = (t % L + j) % L := by simp
  rw [e]
  split
  · next h1 => exact Nat.mod_eq_of_lt h1
  · rw [Nat.mod_eq_sub_mod (by omega)]; exact Nat.mod_eq_of_lt (by omega)

/-- A partial scan -/
theorem scanPartial_ok {c : Ring} (h32 : c.L < 2 ^ 32) (sqrt : R → R) (v x : Nat → Nat → Cx R) (nAnt t0 len : Nat) (h2 : 2 ≤ len)
    (hl : len ≤ c.L) (agree : ∀ a < nAnt, ∀ i < len, v a ((t0 + i) % c.L) = x a (t0 + i)) :
    scanPartial c sqrt v nAnt t0 len = .ok (rms sqrt x nAnt t0 len) := by
  have hL : 0 < c.L := by omega
  have hm := Nat.mod_lt t0 hL
  unfold scanPartial
  rw [idx_nat hL h32, show ((t0 : Int) + (len : Int) - 1) = ((t0 + (len - 1) : Nat) : Int) by omega, idx_nat hL h32,
    idx_add' (t := t0) (j := len - 1) hL (by omega)]
  suffices H : energyAll c v nAnt (t0 % c.L) (if t0 % c.L + (len - 1) < c.L then t0 % c.L + (len - 1) else t0 % c.L + (len - 1) - c.L) =
      .ok (windowEnergy x nAnt t0 len) by
    rw [H, Res.ok_bind]
    simp [rms]
  unfold energyAll
  split
  · next h =>
    rw [if_pos (by omega)]
    rw [foldlM_eq _ (fun s k => s + ∑ i ∈ Finset.range len, (v k (t0 % c.L + i)).sq), foldl_sum]
    · congr 1
      refine Finset.sum_congr rfl fun a ha => Finset.sum_congr rfl fun i hi => ?_
      rw [Finset.mem_range] at ha hi
      have := agree a ha i hi
      rw [idx_add' hL (by omega), if_pos (by omega)] at this
      rw [this]
    · intro k _ s
      rw [show t0 % c.L + (len - 1) - t0 % c.L + 1 = len by omega, readEnergy, if_pos (by omega), energy_eq]
      rfl
  · next h =>
    rw [if_neg (by omega)]
    rw [foldlM_eq _ (fun s k => s + (∑ i ∈ Finset.range (c.L - t0 % c.L), (v k (t0 % c.L + i)).sq +
      ∑ i ∈ Finset.range (t0 % c.L + len - c.L), (v k i).sq)), foldl_sum]
    · congr 1
      refine Finset.sum_congr rfl fun a ha => ?_
      rw [Finset.mem_range] at ha
      conv_rhs => rw [show len = (c.L - t0 % c.L) + (t0 % c.L + len - c.L) by omega, Finset.sum_range_add]
      congr 1
      · refine Finset.sum_congr rfl fun i hi => ?_
        rw [Finset.mem_range] at hi
        have := agree a ha i (by omega)
        rw [idx_add' hL (by omega), if_pos (by omega)] at this
        rw [this]
      · refine Finset.sum_congr rfl fun i hi => ?_
        rw [Finset.mem_range] at hi
        have := agree a ha (c.L - t0 % c.L + i) (by omega)
        rw [idx_add' hL (by omega), if_neg (by omega), show t0 % c.L + (c.L - t0 % c.L + i) - c.L = i by omega] at this
        rw [this]
    · intro k _ s
      rw [toEnd, if_pos (by omega), readEnergy, if_pos (by omega), Res.ok_bind, readEnergy, if_pos (by omega), Res.ok_bind, energy_eq, energy_eq,
        show t0 % c.L + (len - 1) - c.L + 1 = t0 % c.L + len - c.L by omega]
      simp [add_assoc]

/-- All partial scans -/
theorem scanLoop_ok {c : Ring} (h32 : c.L < 2 ^ 32) (sqrt : R → R) (v : Nat → Nat → Nat → Cx R) (x : Nat → Nat → Cx R) (nAnt len : Nat) (h2 : 2 ≤ len)
    (hl : len ≤ c.L) : ∀ (k n t0 : Nat) (r : Result R),
    (∀ j < k, ∀ a < nAnt, ∀ i < len, v (n + j) a ((t0 + j * len + i) % c.L) = x a (t0 + j * len + i)) →
    scanLoop c sqrt v nAnt len k n t0 r = .ok ⟨r.rms ++ (List.range k).map (fun j => rms sqrt x nAnt (t0 + j * len) len),
      r.avg + ∑ j ∈ Finset.range k, rms sqrt x nAnt (t0 + j * len) len⟩
  | 0, n, t0, r, _ => by simp [scanLoop]
  | k + 1, n, t0, r, h => by
    rw [scanLoop, scanPartial_ok h32 sqrt (v n) x nAnt t0 len h2 hl (fun a ha i hi => by simpa using h 0 (by omega) a ha i hi), Res.ok_bind,
      show ((t0 : Int) + (len : Int)) = ((t0 + len : Nat) : Int) by omega, scanLoop_ok h32 sqrt v x nAnt len h2 hl k (n + 1) (t0 + len)]
    · have e : ∀ j, t0 + len + j * len = t0 + (j + 1) * len := fun j => by rw [Nat.add_mul]; omega
      simp only [e]
      rw [Finset.sum_range_succ' (fun j => rms sqrt x nAnt (t0 + j * len) len) k, List.range_succ_eq_map, List.map_cons, List.map_map]
      congr 2
      · simp [Function.comp_def]
      · simp; ring
    · intro j hj a ha i hi
      have := h (j + 1) (by omega) a ha i hi
      rw [show n + 1 + j = n + (j + 1) by omega, show t0 + len + j * len + i = t0 + (j + 1) * len + i by rw [Nat.add_mul]; omega]
      exact this

end Verif.ChScan
