import Verif.Lemma.OfdmBeam
import Mathlib.Algebra.Field.GeomSum
import Mathlib.RingTheory.RootsOfUnity.PrimitiveRoots

/-! The transforms, in terms of subcarriers -/

namespace Verif.Phy.Ofdm
open Spec

variable {F : Type} [Field F]

theorem transform_length (ω : F) (x : List F) : (transform ω x).length = x.length := by simp [transform]

theorem transform_getD (ω : F) (x : List F) (n : Nat) (hn : n < x.length) :
    (transform ω x).getD n 0 = ∑ k ∈ Finset.range x.length, x.getD k 0 * ω ^ (k * n) := by
  rw [transform, List.getD_eq_getElem?_getD, List.getElem?_map, List.getElem?_range hn]; rfl

/-- A sum over the bins is a sum over the subcarriers -/
theorem sum_bins {d : Dims} (g : Good d) (Y : Nat → F) (f : Nat → F) (e : Nat → F)
    (hu : ∀ k, k < d.occ / 2 + 1 → f k = e (d.occ / 2 + k)) (hl : ∀ s, s < d.occ / 2 → f (d.off + s) = e s) :
    ∑ k ∈ Finset.range d.os, bin d Y k * f k = ∑ s ∈ Finset.range (d.occ + 1), Y s * e s := by
  obtain ⟨e1, e2, e3⟩ := g
  have h1 : d.os = (d.occ / 2 + 1) + ((d.off - (d.occ / 2 + 1)) + d.occ / 2) := by omega
  have h2 : d.occ + 1 = d.occ / 2 + (d.occ / 2 + 1) := by omega
  rw [h2, Finset.sum_range_add (fun s => Y s * e s), h1, Finset.sum_range_add (fun k => bin d Y k * f k) (d.occ / 2 + 1),
    Finset.sum_range_add (fun x => bin d Y (d.occ / 2 + 1 + x) * f (d.occ / 2 + 1 + x)) (d.off - (d.occ / 2 + 1)), add_comm]
  have m : ∑ x ∈ Finset.range (d.off - (d.occ / 2 + 1)), bin d Y (d.occ / 2 + 1 + x) * f (d.occ / 2 + 1 + x) = 0 := by
    apply Finset.sum_eq_zero
    intro x hx
    rw [Finset.mem_range] at hx
    rw [bin, if_neg (by omega), if_neg (by omega), zero_mul]
  rw [m, zero_add]
  congr 1
  · apply Finset.sum_congr rfl
    intro x hx
    rw [Finset.mem_range] at hx
    have h : d.occ / 2 + 1 + (d.off - (d.occ / 2 + 1) + x) = d.off + x := by omega
    rw [h, hl x hx, bin, if_neg (by omega), if_pos (by omega), show d.off + x - d.off = x by omega]
  · apply Finset.sum_congr rfl
    intro x hx
    rw [Finset.mem_range] at hx
    rw [hu x hx, bin, if_pos hx]

theorem wave_period {d : Dims} {ω : F} (hω : ω ^ d.os = 1) (h0 : ω ≠ 0) (occ : Nat) (Y : Nat → F) (t : Int) :
    wave ω occ Y (t + d.os) = wave ω occ Y t := by
  rw [wave, wave]
  apply Finset.sum_congr rfl
  intro s _
  have h1 : ω ^ ((d.os : Int) * freq occ s) = 1 := by rw [zpow_mul, zpow_natCast, hω, one_zpow]
  rw [mul_add, zpow_add₀ h0, mul_comm (freq occ s) (d.os : Int), h1, mul_one]

/-- The transform of the bins is the superposition of the subcarriers -/
theorem transform_wave {d : Dims} (g : Good d) {ω : F} (hω : ω ^ d.os = 1) (h0 : ω ≠ 0) (x : List F) (hx : x.length = d.os) (Y : Nat → F)
    (hY : ∀ k, k < d.os → x.getD k 0 = bin d Y k) (n : Nat) (hn : n < d.os) :
    (transform ω x).getD n 0 = wave ω d.occ Y n := by
  have e3 := g.top
  rw [transform_getD ω x n (by omega), hx, wave]
  have h1 : ∑ k ∈ Finset.range d.os, x.getD k 0 * ω ^ (k * n) = ∑ k ∈ Finset.range d.os, bin d Y k * ω ^ (k * n) := by
    apply Finset.sum_congr rfl
    intro k hk
    rw [hY k (Finset.mem_range.mp hk)]
  rw [h1]
  apply sum_bins g Y (fun k => ω ^ (k * n)) (fun s => ω ^ (freq d.occ s * (n : Int)))
  · intro k _
    rw [← zpow_natCast, freq]
    congr 1
    push_cast; ring
  · intro s hs
    have : freq d.occ s * (n : Int) = ((d.off + s) * n : Nat) - (d.os : Int) * n := by
      rw [freq, ← e3]; push_cast; ring
    have h1 : ω ^ ((d.os : Int) * n) = 1 := by rw [zpow_mul, zpow_natCast ω d.os, hω, one_zpow]
    rw [this, zpow_sub₀ h0, h1, div_one, zpow_natCast]

/-- Orthogonality -/
theorem sum_zpow {N : Nat} {ω : F} (hω : IsPrimitiveRoot ω N) (hN : 0 < N) (k : Int) :
    ∑ n ∈ Finset.range N, ω ^ (k * (n : Int)) = if (N : Int) ∣ k then (N : F) else 0 := by
  have h0 : ω ≠ 0 := hω.ne_zero (by omega)
  have hz : ∀ n : Nat, ω ^ (k * (n : Int)) = (ω ^ k) ^ n := fun n => by rw [zpow_mul, zpow_natCast]
  simp only [hz]
  by_cases h : (N : Int) ∣ k
  · have h1 : ω ^ k = 1 := (hω.zpow_eq_one_iff_dvd k).mpr h
    simp [h1, if_pos h]
  · rw [if_neg h]
    have h1 : ω ^ k ≠ 1 := fun e => h ((hω.zpow_eq_one_iff_dvd k).mp e)
    have h2 : (ω ^ k) ^ N = 1 := by
      rw [← zpow_natCast, ← zpow_mul, mul_comm, zpow_mul, zpow_natCast, hω.pow_eq_one, one_zpow]
    have := geom_sum_eq h1 N
    rw [this, h2, sub_self, zero_div]

theorem freq_inj {d : Dims} (g : Good d) {s s' : Nat} (hs : s < d.occ + 1) (hs' : s' < d.occ + 1) :
    (d.os : Int) ∣ freq d.occ s - freq d.occ s' ↔ s = s' := by
  obtain ⟨e1, e2, e3⟩ := g
  constructor
  · intro h
    have h2 : freq d.occ s - freq d.occ s' = 0 := by
      apply Int.eq_zero_of_abs_lt_dvd h
      rw [abs_lt]; simp only [freq]; omega
    simp only [freq] at h2; omega
  · rintro rfl; simp

/-- The receiver picks a single subcarrier out of the superposition -/
theorem pick {d : Dims} (g : Good d) {ω : F} (hω : IsPrimitiveRoot ω d.os) (Y : Nat → F) (δ : Int) (s : Nat) (hs : s < d.occ + 1) :
    ∑ n ∈ Finset.range d.os, wave ω d.occ Y ((n : Int) - δ) * ω ^ (-(freq d.occ s * (n : Int))) =
      d.os * (ω ^ (-(freq d.occ s * δ)) * Y s) := by
  have e2 := g.mid
  have e3 := g.top
  have hN : 0 < d.os := by omega
  have h0 : ω ≠ 0 := hω.ne_zero (by omega)
  have h1 : ∀ n ∈ Finset.range d.os, wave ω d.occ Y ((n : Int) - δ) * ω ^ (-(freq d.occ s * (n : Int))) =
      ∑ s' ∈ Finset.range (d.occ + 1), Y s' * ω ^ (-(freq d.occ s' * δ)) * ω ^ ((freq d.occ s' - freq d.occ s) * (n : Int)) := by
    intro n _
    rw [wave, Finset.sum_mul]
    apply Finset.sum_congr rfl
    intro s' _
    rw [mul_assoc, mul_assoc, ← zpow_add₀ h0, ← zpow_add₀ h0]
    congr 2; ring
  rw [Finset.sum_congr rfl h1, Finset.sum_comm]
  have h2 : ∀ s' ∈ Finset.range (d.occ + 1),
      ∑ n ∈ Finset.range d.os, Y s' * ω ^ (-(freq d.occ s' * δ)) * ω ^ ((freq d.occ s' - freq d.occ s) * (n : Int)) =
        if s' = s then d.os * (ω ^ (-(freq d.occ s * δ)) * Y s) else 0 := by
    intro s' hs'
    rw [← Finset.mul_sum, sum_zpow hω hN]
    have := freq_inj g (Finset.mem_range.mp hs') hs
    by_cases e : s' = s
    · rw [if_pos (this.mpr e), if_pos e, e]; ring
    · rw [if_neg (fun c => e (this.mp c)), if_neg e, mul_zero]
  rw [Finset.sum_congr rfl h2, Finset.sum_ite_eq' , if_pos (Finset.mem_range.mpr hs)]

end Verif.Phy.Ofdm
