import Verif.Model.Combine
import Verif.Spec.Combine
import Verif.Lemma.SymbolMap
import Verif.Spec.Cells
import Mathlib.Algebra.BigOperators.Ring.Finset
import Mathlib.Algebra.Order.BigOperators.Group.Finset

/-!
# Combining: sums over the antennas -/

namespace Verif.Phy.Combine
open Verif.Sp3 Verif.Sp3.Cells Verif.Phy.SymbolMap Verif.Spec.SymbolMap Verif.Spec.Combine

variable {K : Type} [Field K]

theorem combine_aux (nRx n : Nat) (num den : Nat → List (Cx K)) (h1 : ∀ a, (num a).length = n) (h2 : ∀ a, (den a).length = n) :
    (List.range nRx).foldl
      (fun (s : List (Cx K) × List (Cx K)) a => (List.zipWith (· + ·) s.1 (num a), List.zipWith (· + ·) s.2 (den a)))
      (List.replicate n 0, List.replicate n 0) =
    ((List.range n).map fun j => ∑ a ∈ Finset.range nRx, (num a).getD j 0, (List.range n).map fun j => ∑ a ∈ Finset.range nRx, (den a).getD j 0) := by
  have key : ∀ (m : Nat) (f : Nat → List (Cx K)), (∀ a, (f a).length = n) →
      List.zipWith (· + ·) ((List.range n).map fun j => ∑ a ∈ Finset.range m, (f a).getD j 0) (f m) =
        (List.range n).map fun j => ∑ a ∈ Finset.range (m + 1), (f a).getD j 0 := by
    intro m f hf
    apply List.ext_getElem
    · simp [hf]
    · intro i h1 h2
      have hi : i < n := by simpa using h2
      simp only [List.getElem_zipWith, List.getElem_map, List.getElem_range, Finset.sum_range_succ]
      rw [List.getD_eq_getElem?_getD, List.getElem?_eq_getElem (by rw [hf]; exact hi), Option.getD_some]
  induction nRx with
  | zero => simp [List.map_const']
  | succ m ih => rw [List.range_succ, List.foldl_append, ih, List.foldl_cons, List.foldl_nil, key m num h1, key m den h2]

theorem combine_eq (nRx n : Nat) (num den : Nat → List (Cx K)) (h1 : ∀ a, (num a).length = n) (h2 : ∀ a, (den a).length = n) :
    combine nRx n num den = (List.range n).map fun j =>
      (∑ a ∈ Finset.range nRx, (num a).getD j 0) / (∑ a ∈ Finset.range nRx, (den a).getD j 0) := by
  unfold combine
  rw [combine_aux nRx n num den h1 h2]
  apply List.ext_getElem
  · simp
  · intro i _ _
    simp

theorem sum_re {ι : Type} (s : Finset ι) (f : ι → Cx K) : (∑ a ∈ s, f a).re = ∑ a ∈ s, (f a).re := by
  classical
  induction s using Finset.induction_on with
  | empty => rfl
  | insert a s h ih => rw [Finset.sum_insert h, Finset.sum_insert h, Cx.add_re, ih]

theorem sum_im {ι : Type} (s : Finset ι) (f : ι → Cx K) : (∑ a ∈ s, f a).im = ∑ a ∈ s, (f a).im := by
  classical
  induction s using Finset.induction_on with
  | empty => rfl
  | insert a s h ih => rw [Finset.sum_insert h, Finset.sum_insert h, Cx.add_im, ih]

/-- Numerators which are multiples of `x` up to noise -/
theorem mrc_div (nRx : Nat) (p : Nat → K) (x : Cx K) (w : Nat → Cx K) (hp : ∑ a ∈ Finset.range nRx, p a ≠ 0) :
    (∑ a ∈ Finset.range nRx, (scale (p a) x + w a)) / (∑ a ∈ Finset.range nRx, (⟨p a, 0⟩ : Cx K)) =
      x + scale (∑ a ∈ Finset.range nRx, p a)⁻¹ (∑ a ∈ Finset.range nRx, w a) := by
  rw [Finset.sum_add_distrib]
  have e1 : ∑ a ∈ Finset.range nRx, scale (p a) x = scale (∑ a ∈ Finset.range nRx, p a) x := by
    ext
    · rw [sum_re]; simp only [scale]; rw [Finset.sum_mul]
    · rw [sum_im]; simp only [scale]; rw [Finset.sum_mul]
  have e2 : (∑ a ∈ Finset.range nRx, (⟨p a, 0⟩ : Cx K)) = ⟨∑ a ∈ Finset.range nRx, p a, 0⟩ := by
    ext
    · rw [sum_re]
    · rw [sum_im]; simp
  rw [e1, e2]
  generalize (∑ a ∈ Finset.range nRx, p a) = P at *
  generalize (∑ a ∈ Finset.range nRx, w a) = W
  ext <;> simp only [Cx.div_re, Cx.div_im, Cx.add_re, Cx.add_im, Cx.sq, scale] <;> field_simp <;> ring

theorem mul_conj (h : Cx K) : h * h.conj = ⟨h.sq, 0⟩ := by
  ext
  · simp only [Cx.mul_re, Cx.conj_re, Cx.conj_im, Cx.sq]; ring
  · simp only [Cx.mul_im, Cx.conj_re, Cx.conj_im]; ring

theorem single_num (h x n : Cx K) : (h * x + n) * h.conj = scale h.sq x + n * h.conj := by
  ext
  · simp only [Cx.mul_re, Cx.mul_im, Cx.add_re, Cx.add_im, Cx.conj_re, Cx.conj_im, Cx.sq, scale]; ring
  · simp only [Cx.mul_re, Cx.mul_im, Cx.add_re, Cx.add_im, Cx.conj_re, Cx.conj_im, Cx.sq, scale]; ring

theorem div_num0 (hA hB x0 x1 n0 n1 : Cx K) :
    hA.conj * (hA * x0 + hB * -x1.conj + n0) + hB * (hA * x1 + hB * x0.conj + n1).conj =
      scale (hA.sq + hB.sq) x0 + (hA.conj * n0 + hB * n1.conj) := by
  ext
  · simp only [Cx.mul_re, Cx.mul_im, Cx.add_re, Cx.add_im, Cx.neg_re, Cx.neg_im, Cx.conj_re, Cx.conj_im, Cx.sq, scale]; ring
  · simp only [Cx.mul_re, Cx.mul_im, Cx.add_re, Cx.add_im, Cx.neg_re, Cx.neg_im, Cx.conj_re, Cx.conj_im, Cx.sq, scale]; ring

theorem div_num1 (hA hB x0 x1 n0 n1 : Cx K) :
    -hB * (hA * x0 + hB * -x1.conj + n0).conj + hA.conj * (hA * x1 + hB * x0.conj + n1) =
      scale (hA.sq + hB.sq) x1 + (-hB * n0.conj + hA.conj * n1) := by
  ext
  · simp only [Cx.mul_re, Cx.mul_im, Cx.add_re, Cx.add_im, Cx.neg_re, Cx.neg_im, Cx.conj_re, Cx.conj_im, Cx.sq, scale]; ring
  · simp only [Cx.mul_re, Cx.mul_im, Cx.add_re, Cx.add_im, Cx.neg_re, Cx.neg_im, Cx.conj_re, Cx.conj_im, Cx.sq, scale]; ring

theorem mul_zero' (h : Cx K) : h * 0 = 0 := by
  ext <;> simp

/-- Only two streams send -/
theorem superposed_two {nTs A B : Nat} (hAB : A ≠ B) (hA : A < nTs) (hB : B < nTs) (g x : Nat → Cx K) (n : Cx K)
    (hx : ∀ t, t ≠ A → t ≠ B → x t = 0) : superposed nTs g x n = g A * x A + g B * x B + n := by
  unfold superposed
  congr 1
  rw [← Finset.sum_pair hAB (f := fun t => g t * x t)]
  symm
  apply Finset.sum_subset
  · intro t ht
    simp only [Finset.mem_insert, Finset.mem_singleton] at ht
    rcases ht with rfl | rfl <;> exact Finset.mem_range.2 ‹_›
  · intro t _ ht
    simp only [Finset.mem_insert, Finset.mem_singleton, not_or] at ht
    show g t * x t = 0
    rw [hx t ht.1 ht.2, mul_zero']

theorem superposed_one (g x : Nat → Cx K) (n : Cx K) : superposed 1 g x n = g 0 * x 0 + n := by
  unfold superposed
  rw [Finset.sum_range_one]

/-- Two elements for each -/
theorem flatMap_two {α : Type} (f g : Nat → α) : ∀ m, ((List.range m).flatMap fun c => [f c, g c]) =
    (List.range (2 * m)).map fun j => if j % 2 = 0 then f (j / 2) else g (j / 2) := by
  intro m
  induction m with
  | zero => rfl
  | succ m ih =>
    rw [List.range_succ, List.flatMap_append, ih, show 2 * (m + 1) = 2 * m + 1 + 1 by omega, List.range_succ, List.range_succ,
      List.map_append, List.map_append]
    simp only [List.flatMap_cons, List.flatMap_nil, List.append_nil, List.map_cons, List.map_nil, List.append_assoc, List.cons_append, List.nil_append]
    rw [if_pos (by omega), if_neg (by omega), show 2 * m / 2 = m by omega, show (2 * m + 1) / 2 = m by omega]

theorem mrc_cell {nRx : Nat} {y g n : Nat → Cx K} {x : Cx K} (hy : ∀ a < nRx, y a = g a * x + n a) (hp : power nRx g ≠ 0) :
    (∑ a ∈ Finset.range nRx, y a * (g a).conj) / (∑ a ∈ Finset.range nRx, g a * (g a).conj) = x + noise nRx g n := by
  have e : ∑ a ∈ Finset.range nRx, y a * (g a).conj = ∑ a ∈ Finset.range nRx, (scale (g a).sq x + n a * (g a).conj) :=
    Finset.sum_congr rfl fun a ha => by rw [hy a (Finset.mem_range.1 ha), single_num]
  have e' : ∑ a ∈ Finset.range nRx, g a * (g a).conj = ∑ a ∈ Finset.range nRx, (⟨(g a).sq, 0⟩ : Cx K) :=
    Finset.sum_congr rfl fun a _ => mul_conj _
  rw [e, e']
  exact mrc_div nRx (fun a => (g a).sq) x _ hp

theorem getD_map_range {α : Type} (f : Nat → α) (d : α) {n j : Nat} (h : j < n) : ((List.range n).map f).getD j d = f j := by
  rw [List.getD_eq_getElem?_getD, List.getElem?_map, List.getElem?_range h, Option.map_some, Option.getD_some]

theorem getD_map {α β : Type} (f : α → β) (l : List α) (d : β) (d' : α) {j : Nat} (h : j < l.length) : (l.map f).getD j d = f (l.getD j d') := by
  rw [List.getD_eq_getElem?_getD, List.getElem?_map, List.getElem?_eq_getElem h, Option.map_some, Option.getD_some,
    List.getD_eq_getElem?_getD, List.getElem?_eq_getElem h, Option.getD_some]

theorem pccSingle_eq {nRx : Nat} {y : Rx K} {h : Est K} {ks : List Nat} {x : Nat → Cx K} {n : Rx K}
    (hy : ∀ j < ks.length, ∀ a < nRx, y a (ks.getD j 0) = h a 0 (ks.getD j 0) * x j + n a (ks.getD j 0))
    (hp : ∀ j < ks.length, power nRx (fun a => h a 0 (ks.getD j 0)) ≠ 0) :
    pccSingle nRx y h ks = (List.range ks.length).map fun j =>
      x j + noise nRx (fun a => h a 0 (ks.getD j 0)) (fun a => n a (ks.getD j 0)) := by
  unfold pccSingle
  rw [combine_eq _ _ _ _ (fun a => by simp) (fun a => by simp)]
  refine List.map_congr_left fun j hj => ?_
  rw [List.mem_range] at hj
  rw [Finset.sum_congr rfl fun a _ => getD_map _ ks 0 0 hj, Finset.sum_congr rfl fun a _ => getD_map _ ks 0 0 hj]
  exact mrc_cell (y := fun a => y a (ks.getD j 0)) (g := fun a => h a 0 (ks.getD j 0)) (n := fun a => n a (ks.getD j 0)) (hy j hj) (hp j hj)

theorem mrcStep_eq (nRx : Nat) (y : Rx K) (h : Est K) (off width : Nat) : mrcStep nRx y h off width = (List.range width).map fun j =>
    (∑ a ∈ Finset.range nRx, y a (off + j) * (h a 0 (off + j)).conj) / (∑ a ∈ Finset.range nRx, h a 0 (off + j) * (h a 0 (off + j)).conj) := by
  unfold mrcStep
  rw [combine_eq _ _ _ _ (fun a => by simp) (fun a => by simp)]
  refine List.map_congr_left fun j hj => ?_
  rw [List.mem_range] at hj
  rw [Finset.sum_congr rfl fun a _ => getD_map_range _ 0 hj, Finset.sum_congr rfl fun a _ => getD_map_range _ 0 hj]

/-- The PDC of an OFDM symbol with one transmit stream, either on all occupied subcarriers or on some of them -/
theorem pdcSingle_eq {b nRx : Nat} {y : Rx K} {h : Est K} {ks : List Nat} {x : Nat → Cx K} {n : Rx K}
    (hfull : ks.length = 56 * b → ks = (List.range (56 * b)).map (Verif.Sp3.Cells.Spec.subc b)) (hk : ∀ k ∈ ks, k ≤ 56 * b)
    (hy : ∀ j < ks.length, ∀ a < nRx, y a (ks.getD j 0) = h a 0 (ks.getD j 0) * x j + n a (ks.getD j 0))
    (hp : ∀ j < ks.length, power nRx (fun a => h a 0 (ks.getD j 0)) ≠ 0) :
    pdcSingle (56 * b) nRx y h ks = .ok ((List.range ks.length).map fun j =>
      x j + noise nRx (fun a => h a 0 (ks.getD j 0)) (fun a => n a (ks.getD j 0))) := by
  have cell : ∀ j < ks.length, (∑ a ∈ Finset.range nRx, y a (ks.getD j 0) * (h a 0 (ks.getD j 0)).conj) /
      (∑ a ∈ Finset.range nRx, h a 0 (ks.getD j 0) * (h a 0 (ks.getD j 0)).conj) =
      x j + noise nRx (fun a => h a 0 (ks.getD j 0)) (fun a => n a (ks.getD j 0)) := fun j hj =>
    mrc_cell (y := fun a => y a (ks.getD j 0)) (g := fun a => h a 0 (ks.getD j 0)) (n := fun a => n a (ks.getD j 0)) (hy j hj) (hp j hj)
  unfold pdcSingle
  split
  · rename_i hl
    have hks := hfull hl
    congr 1
    have e : ((List.range 2).flatMap fun s => mrcStep nRx y h ((56 * b / 2 + 1) * s) (56 * b / 2)) =
        mrcStep nRx y h 0 (28 * b) ++ mrcStep nRx y h (28 * b + 1) (28 * b) := by
      rw [show 56 * b / 2 = 28 * b by omega]
      simp [List.range_succ]
    have er : List.range ks.length = List.range (28 * b) ++ (List.range (28 * b)).map (28 * b + ·) := by
      rw [hl, show 56 * b = 28 * b + 28 * b by omega, List.range_add]
    rw [e, er, List.map_append, mrcStep_eq, mrcStep_eq, List.map_map]
    congr 1
    · refine List.map_congr_left fun j hj => ?_
      rw [List.mem_range] at hj
      have ek : ks.getD j 0 = j := by
        rw [hks, getD_map_range _ 0 (by omega), Verif.Sp3.Cells.Spec.subc, if_pos hj]
      rw [← cell j (by omega), ek, Nat.zero_add]
    · refine List.map_congr_left fun j hj => ?_
      rw [List.mem_range] at hj
      have ek : ks.getD (28 * b + j) 0 = 28 * b + 1 + j := by
        rw [hks, getD_map_range _ 0 (by omega), Verif.Sp3.Cells.Spec.subc, if_neg (by omega)]; omega
      show _ = x (28 * b + j) + noise nRx (fun a => h a 0 (ks.getD (28 * b + j) 0)) (fun a => n a (ks.getD (28 * b + j) 0))
      rw [← cell (28 * b + j) (by omega), ek]
  · rw [if_neg (by
      simp only [List.any_eq_true, decide_eq_true_eq, not_exists, not_and]
      intro k hk'
      have := hk k hk'
      omega)]
    congr 1
    apply List.ext_getElem
    · simp
    · intro j h1 h2
      have hj : j < ks.length := by simpa using h1
      have hkj : ks[j] ≤ 56 * b := hk _ (List.getElem_mem hj)
      have eg : ks.getD j 0 = ks[j] := by rw [List.getD_eq_getElem?_getD, List.getElem?_eq_getElem hj, Option.getD_some]
      rw [List.getElem_map, List.getElem_map, List.getElem_range, ← eg, mrcStep_eq, getD_map_range _ 0 (by omega), ← cell j hj]
      simp only [Nat.zero_add]

variable [LinearOrder K] [IsStrictOrderedRing K]

theorem half_self (a : Cx K) : (a + a).half = a := by
  ext <;> simp

/-- Transmit diversity in one OFDM symbol -/
theorem pxxDiversity_eq {nTs nRx idx : Nat} (hn : nTs = 2 ∨ nTs = 4 ∨ nTs = 8) {y : Rx K} {h : Est K} {ks : List Nat} {x : Nat → Cx K} {n : Rx K}
    {st : Stage K} (hev : ks.length % 2 = 0) (hidx : idx % 2 = 0)
    (hst : ∀ j < ks.length, ∀ t, st t (ks.getD j 0) = diversity nTs x (idx + j) t)
    (hy : ∀ j < ks.length, ∀ a < nRx, y a (ks.getD j 0) = superposed nTs (fun t => h a t (ks.getD j 0)) (fun t => st t (ks.getD j 0)) (n a (ks.getD j 0)))
    (hflat : ∀ c, 2 * c + 1 < ks.length → ∀ a < nRx, ∀ t < nTs, h a t (ks.getD (2 * c) 0) = h a t (ks.getD (2 * c + 1) 0))
    (hp : ∀ j < ks.length, pairPower nRx (fun a => h a (streams nTs ((idx + j) / 2)).1 (ks.getD j 0))
      (fun a => h a (streams nTs ((idx + j) / 2)).2 (ks.getD j 0)) ≠ 0) :
    pxxDiversity nTs nRx y h idx ks = .ok ((List.range ks.length).map fun j => x (idx + j) +
      pairNoise (j % 2) nRx (fun a => h a (streams nTs ((idx + j) / 2)).1 (ks.getD j 0)) (fun a => h a (streams nTs ((idx + j) / 2)).2 (ks.getD j 0))
        (fun a => n a (ks.getD (j - j % 2) 0)) (fun a => n a (ks.getD (j - j % 2 + 1) 0))) := by
  have h2 : ks.length = 2 * (ks.length / 2) := by omega
  unfold pxxDiversity
  rw [decide_eq_true hev, Res.assert_true, Res.ok_bind]
  congr 1
  simp only [divNum, divDen]
  have hl : ∀ f g : Nat → Cx K, ((List.range (ks.length / 2)).flatMap fun c => [f c, g c]).length = ks.length := by
    intro f g
    rw [flatMap_two, List.length_map, List.length_range]; omega
  rw [combine_eq _ _ _ _ (fun a => hl _ _) (fun a => hl _ _)]
  refine List.map_congr_left fun j hj => ?_
  rw [List.mem_range] at hj
  have hj' : j < 2 * (ks.length / 2) := by omega
  have gd : ∀ f g : Nat → Cx K, ((List.range (ks.length / 2)).flatMap fun c => [f c, g c]).getD j 0 =
      if j % 2 = 0 then f (j / 2) else g (j / 2) := by
    intro f g
    rw [flatMap_two, getD_map_range _ 0 hj']
  rw [Finset.sum_congr rfl fun a _ => gd _ _, Finset.sum_congr rfl fun a _ => gd _ _]
  have hc : 2 * (j / 2) + 1 < ks.length := by omega
  obtain ⟨s1, s2, s3⟩ := streams_ne hn ((idx + j) / 2)
  have hpair : pair nTs (idx + 2 * (j / 2)) = streams nTs ((idx + j) / 2) := by
    rw [pair_eq hn]; congr 1; omega
  rw [hpair]
  have hx0 : ∀ t, st t (ks.getD (2 * (j / 2)) 0) = if t = (streams nTs ((idx + j) / 2)).1 then x (idx + 2 * (j / 2))
      else if t = (streams nTs ((idx + j) / 2)).2 then -(x (idx + 2 * (j / 2) + 1)).conj else 0 := by
    intro t
    rw [hst _ (by omega), diversity, show (idx + 2 * (j / 2)) / 2 = (idx + j) / 2 by omega, if_pos (by omega : (idx + 2 * (j / 2)) % 2 = 0)]
  have hx1 : ∀ t, st t (ks.getD (2 * (j / 2) + 1) 0) = if t = (streams nTs ((idx + j) / 2)).1 then x (idx + 2 * (j / 2) + 1)
      else if t = (streams nTs ((idx + j) / 2)).2 then (x (idx + 2 * (j / 2))).conj else 0 := by
    intro t
    rw [hst _ (by omega), diversity, show (idx + (2 * (j / 2) + 1)) / 2 = (idx + j) / 2 by omega,
      if_neg (by omega : ¬ (idx + (2 * (j / 2) + 1)) % 2 = 0), show idx + (2 * (j / 2) + 1) - 1 = idx + 2 * (j / 2) by omega]
    rfl
  have hpj := hp j hj
  generalize streams nTs ((idx + j) / 2) = p at *
  obtain ⟨A, B⟩ := p
  dsimp only at s1 s2 s3 hx0 hx1 hpj ⊢
  have ev : ks.getD j 0 = if j % 2 = 0 then ks.getD (2 * (j / 2)) 0 else ks.getD (2 * (j / 2) + 1) 0 := by
    split <;> congr 1 <;> omega
  have hsame : ∀ a < nRx, ∀ t < nTs, h a t (ks.getD j 0) = h a t (ks.getD (2 * (j / 2)) 0) := by
    intro a ha t ht
    rw [ev]
    split
    · rfl
    · exact (hflat _ hc a ha t ht).symm
  have hb0 : ks.getD (j - j % 2) 0 = ks.getD (2 * (j / 2)) 0 := by congr 1; omega
  have hb1 : ks.getD (j - j % 2 + 1) 0 = ks.getD (2 * (j / 2) + 1) 0 := by congr 1; omega
  rw [hb0, hb1]
  have y0 : ∀ a < nRx, y a (ks.getD (2 * (j / 2)) 0) = h a A (ks.getD j 0) * x (idx + 2 * (j / 2)) +
      h a B (ks.getD j 0) * -(x (idx + 2 * (j / 2) + 1)).conj + n a (ks.getD (2 * (j / 2)) 0) := by
    intro a ha
    rw [hy _ (by omega) a ha, superposed_two s1 s2 s3 _ _ _ (fun t ht1 ht2 => by rw [hx0 t, if_neg ht1, if_neg ht2])]
    rw [hx0, hx0, if_pos rfl, if_neg (Ne.symm s1), if_pos rfl, hsame a ha A s2, hsame a ha B s3]
  have y1 : ∀ a < nRx, y a (ks.getD (2 * (j / 2) + 1) 0) = h a A (ks.getD j 0) * x (idx + 2 * (j / 2) + 1) +
      h a B (ks.getD j 0) * (x (idx + 2 * (j / 2))).conj + n a (ks.getD (2 * (j / 2) + 1) 0) := by
    intro a ha
    rw [hy _ hc a ha, superposed_two s1 s2 s3 _ _ _ (fun t ht1 ht2 => by rw [hx1 t, if_neg ht1, if_neg ht2])]
    rw [hx1, hx1, if_pos rfl, if_neg (Ne.symm s1), if_pos rfl, hsame a ha A s2, hsame a ha B s3, hflat _ hc a ha A s2, hflat _ hc a ha B s3]
  have av : ∀ a < nRx, ∀ t < nTs, avg h a t (ks.getD (2 * (j / 2)) 0) (ks.getD (2 * (j / 2) + 1) 0) = h a t (ks.getD j 0) := by
    intro a ha t ht
    unfold avg
    rw [← hflat _ hc a ha t ht, half_self, hsame a ha t ht]
  have den : ∑ a ∈ Finset.range nRx, (if j % 2 = 0 then
        avg h a A (ks.getD (2 * (j / 2)) 0) (ks.getD (2 * (j / 2) + 1) 0) * (avg h a A (ks.getD (2 * (j / 2)) 0) (ks.getD (2 * (j / 2) + 1) 0)).conj +
          avg h a B (ks.getD (2 * (j / 2)) 0) (ks.getD (2 * (j / 2) + 1) 0) * (avg h a B (ks.getD (2 * (j / 2)) 0) (ks.getD (2 * (j / 2) + 1) 0)).conj
      else
        avg h a A (ks.getD (2 * (j / 2)) 0) (ks.getD (2 * (j / 2) + 1) 0) * (avg h a A (ks.getD (2 * (j / 2)) 0) (ks.getD (2 * (j / 2) + 1) 0)).conj +
          avg h a B (ks.getD (2 * (j / 2)) 0) (ks.getD (2 * (j / 2) + 1) 0) * (avg h a B (ks.getD (2 * (j / 2)) 0) (ks.getD (2 * (j / 2) + 1) 0)).conj) =
      ∑ a ∈ Finset.range nRx, (⟨(h a A (ks.getD j 0)).sq + (h a B (ks.getD j 0)).sq, 0⟩ : Cx K) := by
    refine Finset.sum_congr rfl fun a ha => ?_
    rw [Finset.mem_range] at ha
    rw [ite_self, av a ha A s2, av a ha B s3, mul_conj, mul_conj]
    ext
    · rfl
    · simp
  rw [den]
  by_cases hj2 : j % 2 = 0
  · have ej : idx + j = idx + 2 * (j / 2) := by omega
    simp only [if_pos hj2]
    rw [ej, hj2, pairNoise, pairPower, ← mrc_div nRx (fun a => (h a A (ks.getD j 0)).sq + (h a B (ks.getD j 0)).sq) _ _ hpj]
    congr 1
    refine Finset.sum_congr rfl fun a ha => ?_
    rw [Finset.mem_range] at ha
    rw [av a ha A s2, av a ha B s3, y0 a ha, y1 a ha, div_num0, if_pos rfl]
  · have ej : idx + j = idx + 2 * (j / 2) + 1 := by omega
    have hj2' : j % 2 = 1 := by omega
    simp only [if_neg hj2]
    rw [ej, hj2', pairNoise, pairPower, ← mrc_div nRx (fun a => (h a A (ks.getD j 0)).sq + (h a B (ks.getD j 0)).sq) _ _ hpj]
    congr 1
    refine Finset.sum_congr rfl fun a ha => ?_
    rw [Finset.mem_range] at ha
    rw [av a ha A s2, av a ha B s3, y0 a ha, y1 a ha, div_num1, if_neg Nat.one_ne_zero]

end Verif.Phy.Combine
