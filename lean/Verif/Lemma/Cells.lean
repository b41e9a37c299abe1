import Verif.Spec.Cells
import Mathlib.Data.List.Range

/-!
# Tables of cells
-/

set_option linter.unusedSimpArgs false

namespace Verif.Sp3.Cells

open Spec

/-- Valid number of transmit streams -/
def TsOk (n : Nat) : Prop := n = 1 ∨ n = 2 ∨ n = 4 ∨ n = 8

theorem b_cases {b : Nat} (h : bOk b = true) : b = 1 ∨ b = 2 ∨ b = 4 ∨ b = 8 ∨ b = 16 ∨ b = 12 := by
  unfold bOk at h
  simp only [Bool.or_eq_true, beq_iff_eq] at h
  omega

theorem luts {b : Nat} (h : bOk b = true) : dft b = 64 * b ∧ occ b = 56 * b ∧ guardsTop b + 1 = 4 * b ∧ guardsBottom b = 4 * b ∧ 0 < b := by
  rcases b_cases h with rfl | rfl | rfl | rfl | rfl | rfl <;> decide

/-- A DRS of any stream in OFDM symbol `l` at the p-th occupied subcarrier -/
def drsOcc (nTs l p : Nat) : Bool :=
  (List.range nTs).any fun t => decide (1 + t / 4 ≤ l ∧ (l - 1 - t / 4) % nStep nTs = 0 ∧ p % 4 = (t + (l - 1 - t / 4) / nStep nTs % 2 * 2) % 4)

/-- Closed form -/
def drsPat (nTs l p : Nat) : Bool :=
  if nTs = 1 then decide (l % 5 = 1 ∧ p % 4 = l % 10 / 5 * 2)
  else if nTs = 2 then decide (l % 5 = 1 ∧ (p % 4 = l % 10 / 5 * 2 ∨ p % 4 = l % 10 / 5 * 2 + 1))
  else if nTs = 4 then decide (l % 10 = 1)
  else decide (l % 10 = 1 ∨ l % 10 = 2)

theorem drsOcc_pat {nTs : Nat} (h : TsOk nTs) (l p : Nat) : drsOcc nTs l p = drsPat nTs l p := by
  rw [Bool.eq_iff_iff]
  unfold drsOcc
  rw [List.any_eq_true]
  simp only [List.mem_range, decide_eq_true_eq]
  rcases h with rfl | rfl | rfl | rfl
  · unfold drsPat nStep
    simp only [if_true, decide_eq_true_eq, show (1 : Nat) ≤ 2 by omega]
    constructor
    · rintro ⟨t, ht, h1, h2, h3⟩; omega
    · rintro ⟨h1, h2⟩; exact ⟨0, by omega, by omega, by omega, by omega⟩
  · unfold drsPat nStep
    simp only [if_true, decide_eq_true_eq, show ¬ (2 : Nat) = 1 by omega, if_false, Nat.le_refl]
    constructor
    · rintro ⟨t, ht, h1, h2, h3⟩; omega
    · rintro ⟨h1, h2 | h2⟩
      · exact ⟨0, by omega, by omega, by omega, by omega⟩
      · exact ⟨1, by omega, by omega, by omega, by omega⟩
  · unfold drsPat nStep
    simp only [if_true, decide_eq_true_eq, show ¬ (4 : Nat) = 1 by omega, show ¬ (4 : Nat) = 2 by omega, show ¬ (4 : Nat) ≤ 2 by omega, if_false]
    constructor
    · rintro ⟨t, ht, h1, h2, h3⟩; omega
    · intro h1
      exact ⟨(p + l / 10 % 2 * 2) % 4, by omega, by omega, by omega, by omega⟩
  · unfold drsPat nStep
    simp only [if_true, decide_eq_true_eq, show ¬ (8 : Nat) = 1 by omega, show ¬ (8 : Nat) = 2 by omega, show ¬ (8 : Nat) = 4 by omega,
      show ¬ (8 : Nat) ≤ 2 by omega, if_false]
    constructor
    · rintro ⟨t, ht, h1, h2, h3⟩
      have : t / 4 = 0 ∨ t / 4 = 1 := by omega
      rcases this with ht4 | ht4 <;> rw [ht4] at h1 h2 <;> omega
    · rintro (h1 | h1)
      · exact ⟨(p + l / 10 % 2 * 2) % 4, by omega, by omega, by omega, by omega⟩
      · exact ⟨(p + l / 10 % 2 * 2) % 4 + 4, by omega, by omega, by omega, by omega⟩

theorem lin_inj {D l i l' i' : Nat} (h : i < D) (h' : i' < D) : l * D + i = l' * D + i' ↔ l = l' ∧ i = i' := by
  constructor
  · intro e
    have h1 : (l * D + i) / D = l := by rw [Nat.mul_comm, Nat.mul_add_div (by omega), Nat.div_eq_of_lt h, Nat.add_zero]
    have h2 : (l' * D + i') / D = l' := by rw [Nat.mul_comm, Nat.mul_add_div (by omega), Nat.div_eq_of_lt h', Nat.add_zero]
    have : l = l' := by rw [← h1, ← h2, e]
    subst this
    exact ⟨rfl, by omega⟩
  · rintro ⟨rfl, rfl⟩; rfl

theorem kOcc_get {b j : Nat} (h : j < 56 * b) :
    (kOcc (56 * b)).getD j 0 = if j < 28 * b then (j : Int) - 28 * b else (j : Int) - 28 * b + 1 := by
  have e : 56 * b / 2 = 28 * b := by omega
  unfold kOcc
  rw [e, List.getD_eq_getElem?_getD]
  by_cases hj : j < 28 * b
  · rw [List.getElem?_append_left (by simpa using hj), List.getElem?_map, List.getElem?_range hj, if_pos hj]
    simp
  · rw [List.getElem?_append_right (by simpa using hj), List.getElem?_map, List.length_map, List.length_range,
      List.getElem?_range (by omega), if_neg hj]
    simp
    omega

theorem step_eq (nTs : Nat) : step nTs = nStep nTs := rfl

/-- Number of DRS symbols in the virtual frames -/
theorem nDrsSymb_frame {nTs n : Nat} (h : TsOk nTs) (hn : n = 20 ∨ n = 30) : nDrsSymb 8 n nTs = .ok (n / nStep nTs) := by
  rcases h with rfl | rfl | rfl | rfl <;> rcases hn with rfl | rfl <;> decide

theorem sum_const {α : Type} (l : List α) (f : α → Nat) (k : Nat) (h : ∀ a ∈ l, f a = k) : (l.map f).sum = l.length * k := by
  induction l with
  | nil => simp
  | cons a t ih =>
    rw [List.map_cons, List.sum_cons, h a List.mem_cons_self, ih (fun x hx => h x (List.mem_cons_of_mem _ hx)), List.length_cons]
    rw [Nat.add_mul, Nat.one_mul, Nat.add_comm]

theorem drsLinear_ok {b nTs n : Nat} (hb : bOk b = true) (h : TsOk nTs) (hn : n = 20 ∨ n = 30) :
    ∃ d, drsLinear 8 b n nTs = .ok d ∧
      ∀ x, x ∈ d.flatten ↔ ∃ t < nTs, ∃ m < n / nStep nTs, ∃ p, p < 56 * b ∧ p % 4 = (t + m % 2 * 2) % 4 ∧
        x = (1 + t / 4 + m * nStep nTs) * (64 * b) + (4 * b + subc b p) := by
  obtain ⟨e1, e2, e3, e4, e5⟩ := luts hb
  have hs := nDrsSymb_frame h hn
  obtain ⟨s, hs'⟩ : ∃ s, s = n / nStep nTs := ⟨_, rfl⟩
  refine ⟨(List.range nTs).map fun t => (List.range (n / nStep nTs)).flatMap fun m => (List.range (occ b / 4)).map fun i =>
    ((kOcc (occ b)).getD (i * 4 + (t + m % 2 * 2) % 4) 0 + (dft b / 2 + dft b * (1 + t / 4 + m * nStep nTs) : Nat)).toNat, ?_, ?_⟩
  · unfold drsLinear
    rw [hs, Res.ok_bind]
    unfold nDrsSubc
    rw [hs, Res.ok_bind, Res.ok_bind, decide_eq_true, Res.assert_true, Res.ok_bind]
    rw [List.map_map, sum_const _ _ (n / nStep nTs * (14 * b))]
    · rw [List.length_range, e2, show nTs * (56 * b) / 4 = nTs * (14 * b) by
        rw [show nTs * (56 * b) = nTs * (14 * b) * 4 by ring, Nat.mul_div_cancel _ (by omega)]]
      ring
    · intro t _
      show List.length (List.flatMap _ _) = _
      rw [List.length_flatMap, sum_const _ _ (14 * b)]
      · rw [List.length_range]
      · intro m _
        rw [List.length_map, List.length_range, e2]; omega
  · intro x
    rw [List.mem_flatten]
    have hval : ∀ t m i, i < 14 * b →
        ((kOcc (occ b)).getD (i * 4 + (t + m % 2 * 2) % 4) 0 + (dft b / 2 + dft b * (1 + t / 4 + m * nStep nTs) : Nat)).toNat =
          (1 + t / 4 + m * nStep nTs) * (64 * b) + (4 * b + subc b (i * 4 + (t + m % 2 * 2) % 4)) := by
      intro t m i hi
      rw [e1, e2, kOcc_get (by omega)]
      unfold subc
      rw [Nat.mul_comm (64 * b)]
      generalize (1 + t / 4 + m * nStep nTs) * (64 * b) = z
      generalize i * 4 + (t + m % 2 * 2) % 4 = j
      split <;> omega
    constructor
    · rintro ⟨l, hl, hx⟩
      rw [List.mem_map] at hl
      obtain ⟨t, ht, rfl⟩ := hl
      rw [List.mem_flatMap] at hx
      obtain ⟨m, hm, hx⟩ := hx
      rw [List.mem_map] at hx
      obtain ⟨i, hi, rfl⟩ := hx
      rw [List.mem_range] at ht hm hi
      rw [e2] at hi
      refine ⟨t, ht, m, hm, i * 4 + (t + m % 2 * 2) % 4, by omega, by omega, hval t m i (by omega)⟩
    · rintro ⟨t, ht, m, hm, p, hp, hp', rfl⟩
      refine ⟨_, List.mem_map.mpr ⟨t, List.mem_range.mpr ht, rfl⟩, ?_⟩
      rw [List.mem_flatMap]
      refine ⟨m, List.mem_range.mpr hm, List.mem_map.mpr ⟨p / 4, List.mem_range.mpr (by rw [e2]; omega), ?_⟩⟩
      rw [hval t m (p / 4) (by omega), show p / 4 * 4 + (t + m % 2 * 2) % 4 = p by omega]

theorem mark_ok {size : Nat} {v : Int} {idx : List Nat} {f : Nat → Int} (h : ∀ j ∈ idx, j < size) :
    mark size v idx f = .ok (fun j => if j ∈ idx then v else f j) := if_pos h

theorem subc_lt {b p : Nat} (h : p < 56 * b) : subc b p ≤ 56 * b ∧ subc b p ≠ 28 * b := by
  unfold subc; split <;> omega

theorem subc_inj {b p p' : Nat} (h : subc b p = subc b p') : p = p' := by
  unfold subc at h; split at h <;> split at h <;> omega

theorem subc_lt_iff {b p p' : Nat} : subc b p < subc b p' ↔ p < p' := by
  unfold subc; split <;> split <;> omega

theorem lt_frame {D l i n : Nat} (hl : l < n) (hi : i < D) : l * D + i < n * D := by
  calc l * D + i < l * D + D := by omega
    _ = (l + 1) * D := by ring
    _ ≤ n * D := Nat.mul_le_mul_right _ hl

/-- The virtual frame with DC, guards and DRS marked -/
theorem frame_ok {b nTs n : Nat} (hb : bOk b = true) (h : TsOk nTs) (hn : n = 20 ∨ n = 30) :
    ∃ f, virtualFrame 8 b n nTs = .ok f ∧ ∀ l < n, ∀ i < 64 * b,
      ((∃ p < 56 * b, i = 4 * b + subc b p ∧ drsOcc nTs l p = false) ∧ f (l * (64 * b) + i) = (l * (64 * b) + i : Nat)) ∨
      ((¬ ∃ p < 56 * b, i = 4 * b + subc b p ∧ drsOcc nTs l p = false) ∧ f (l * (64 * b) + i) < 0) := by
  obtain ⟨e1, e2, e3, e4, e5⟩ := luts hb
  obtain ⟨d, hd, hm⟩ := drsLinear_ok hb h hn
  have hdc : ∀ j ∈ dcIdx b n, j < n * dft b := by
    intro j hj
    unfold dcIdx at hj
    rw [List.mem_map] at hj
    obtain ⟨l, hl, rfl⟩ := hj
    rw [List.mem_range] at hl
    exact lt_frame hl (by omega)
  have hg : ∀ j ∈ guardIdx b n, j < n * dft b := by
    intro j hj
    unfold guardIdx at hj
    rw [List.mem_flatMap] at hj
    obtain ⟨l, hl, hj⟩ := hj
    rw [List.mem_range] at hl
    rw [List.mem_append, List.mem_map, List.mem_map] at hj
    rcases hj with ⟨i, hi, rfl⟩ | ⟨i, hi, rfl⟩
    · rw [List.mem_range] at hi; exact lt_frame hl (by omega)
    · rw [List.mem_range] at hi; exact lt_frame hl (by omega)
  have hlm : ∀ t < nTs, ∀ m < n / nStep nTs, 1 + t / 4 + m * nStep nTs < n := by
    intro t ht m hm
    rcases h with rfl | rfl | rfl | rfl <;> unfold nStep at hm ⊢ <;> simp at hm ⊢ <;> omega
  have hdd : ∀ j ∈ d.flatten, j < n * dft b := by
    intro j hj
    obtain ⟨t, ht, m, hm', p, hp, -, rfl⟩ := (hm j).mp hj
    rw [e1]
    have := subc_lt hp
    exact lt_frame (hlm t ht m hm') (by omega)
  refine ⟨fun j => if j ∈ d.flatten then -3 else if j ∈ guardIdx b n then -2 else if j ∈ dcIdx b n then -1 else j, ?_, ?_⟩
  · unfold virtualFrame
    rw [mark_ok hdc, Res.ok_bind, mark_ok hg, Res.ok_bind, hd, Res.ok_bind, mark_ok hdd]
  · intro l hl i hi
    have c1 : l * (64 * b) + i ∈ dcIdx b n ↔ i = 32 * b := by
      unfold dcIdx
      rw [List.mem_map]
      constructor
      · rintro ⟨l', -, he⟩
        rw [e1] at he
        have := (lin_inj (by omega) hi).mp he
        omega
      · rintro rfl
        exact ⟨l, List.mem_range.mpr hl, by rw [e1]; omega⟩
    have c2 : l * (64 * b) + i ∈ guardIdx b n ↔ i < 4 * b ∨ 60 * b + 1 ≤ i := by
      unfold guardIdx
      rw [List.mem_flatMap]
      constructor
      · rintro ⟨l', -, hj⟩
        rw [List.mem_append, List.mem_map, List.mem_map] at hj
        rcases hj with ⟨i', hi', he⟩ | ⟨i', hi', he⟩
        · rw [List.mem_range] at hi'
          rw [e1] at he
          have := (lin_inj (by omega) hi).mp he
          omega
        · rw [List.mem_range] at hi'
          rw [e1] at he
          have := (lin_inj (by omega) hi).mp he
          omega
      · intro hx
        refine ⟨l, List.mem_range.mpr hl, ?_⟩
        rw [List.mem_append, List.mem_map, List.mem_map]
        rcases hx with hx | hx
        · left; exact ⟨i, List.mem_range.mpr (by omega), by rw [e1]⟩
        · right; exact ⟨i - (64 * b - guardsTop b), List.mem_range.mpr (by omega), by rw [e1]; omega⟩
    have c3 : l * (64 * b) + i ∈ d.flatten ↔ ∃ p < 56 * b, i = 4 * b + subc b p ∧ drsOcc nTs l p = true := by
      rw [hm]
      unfold drsOcc
      constructor
      · rintro ⟨t, ht, m, hm', p, hp, hp', he⟩
        have := subc_lt hp
        obtain ⟨rfl, rfl⟩ := (lin_inj hi (by omega)).mp he
        refine ⟨p, hp, rfl, ?_⟩
        rw [List.any_eq_true]
        refine ⟨t, List.mem_range.mpr ht, ?_⟩
        rw [decide_eq_true_eq]
        have hpos : 0 < nStep nTs := by unfold nStep; split <;> omega
        rw [show 1 + t / 4 + m * nStep nTs - 1 - t / 4 = m * nStep nTs by omega, Nat.mul_mod_left, Nat.mul_div_cancel _ hpos]
        exact ⟨by omega, rfl, hp'⟩
      · rintro ⟨p, hp, rfl, ha⟩
        rw [List.any_eq_true] at ha
        obtain ⟨t, ht, ha⟩ := ha
        rw [decide_eq_true_eq] at ha
        rw [List.mem_range] at ht
        obtain ⟨a1, a2, a3⟩ := ha
        have hdm : (l - 1 - t / 4) / nStep nTs * nStep nTs = l - 1 - t / 4 := Nat.div_mul_cancel (Nat.dvd_of_mod_eq_zero a2)
        refine ⟨t, ht, (l - 1 - t / 4) / nStep nTs, ?_, p, hp, a3, ?_⟩
        · rcases h with rfl | rfl | rfl | rfl <;> unfold nStep at * <;> simp at * <;> omega
        · rw [hdm, show 1 + t / 4 + (l - 1 - t / 4) = l by omega]
    simp only
    have hocc : (¬ (i = 32 * b) ∧ ¬ (i < 4 * b ∨ 60 * b + 1 ≤ i)) ↔ ∃ p < 56 * b, i = 4 * b + subc b p := by
      constructor
      · rintro ⟨h1, h2⟩
        refine ⟨if i < 32 * b then i - 4 * b else i - 4 * b - 1, ?_, ?_⟩
        · split <;> omega
        · unfold subc; split <;> split <;> omega
      · rintro ⟨p, hp, rfl⟩
        have := subc_lt hp
        omega
    by_cases h3 : l * (64 * b) + i ∈ d.flatten
    · right
      rw [if_pos h3]
      refine ⟨?_, by omega⟩
      rintro ⟨p, hp, rfl, hx⟩
      obtain ⟨p', hp', he, hx'⟩ := c3.mp h3
      have := subc_inj (Nat.add_left_cancel he)
      subst this
      rw [hx] at hx'
      cases hx'
    · rw [if_neg h3]
      by_cases h2 : l * (64 * b) + i ∈ guardIdx b n
      · right
        rw [if_pos h2]
        refine ⟨?_, by omega⟩
        rintro ⟨p, hp, he, -⟩
        exact (hocc.mpr ⟨p, hp, he⟩).2 (c2.mp h2)
      · rw [if_neg h2]
        by_cases h1 : l * (64 * b) + i ∈ dcIdx b n
        · right
          rw [if_pos h1]
          refine ⟨?_, by omega⟩
          rintro ⟨p, hp, he, -⟩
          exact (hocc.mpr ⟨p, hp, he⟩).1 (c1.mp h1)
        · left
          rw [if_neg h1]
          refine ⟨?_, rfl⟩
          obtain ⟨p, hp, he⟩ := hocc.mp ⟨fun hx => h1 (c1.mpr hx), fun hx => h2 (c2.mpr hx)⟩
          refine ⟨p, hp, he, ?_⟩
          rw [Bool.eq_false_iff]
          exact fun hx => h3 (c3.mpr ⟨p, hp, he, hx⟩)

theorem sorted_ext {l l' : List Nat} (h : l.Pairwise (· < ·)) (h' : l'.Pairwise (· < ·)) (hm : ∀ x, x ∈ l ↔ x ∈ l') : l = l' := by
  have hp : l.Perm l' := (List.perm_ext_iff_of_nodup (h.imp (fun h => Nat.ne_of_lt h)) (h'.imp (fun h => Nat.ne_of_lt h))).mpr hm
  exact hp.eq_of_pairwise (fun a b _ _ h1 h2 => absurd h1 (Nat.lt_asymm h2)) h h'

/-- Free cells of a symbol, where `q` tells which of the occupied subcarriers are taken -/
def fastFree (b : Nat) (q : Nat → Nat → Bool) (l : Nat) : List Nat :=
  ((List.range (56 * b)).filter fun p => !q l p).map fun p => l * (64 * b) + (4 * b + subc b p)

theorem fastFree_pairwise (b : Nat) (q : Nat → Nat → Bool) (l : Nat) : (fastFree b q l).Pairwise (· < ·) := by
  unfold fastFree
  rw [List.pairwise_map]
  refine List.Pairwise.imp ?_ (List.Pairwise.filter _ List.pairwise_lt_range)
  intro a c hac
  have := (subc_lt_iff (b := b)).mpr hac
  omega

theorem mem_fastFree {b : Nat} {q : Nat → Nat → Bool} {l x : Nat} :
    x ∈ fastFree b q l ↔ ∃ p < 56 * b, q l p = false ∧ x = l * (64 * b) + (4 * b + subc b p) := by
  unfold fastFree
  rw [List.mem_map]
  constructor
  · rintro ⟨p, hp, rfl⟩
    rw [List.mem_filter, List.mem_range, Bool.not_eq_true'] at hp
    exact ⟨p, hp.1, hp.2, rfl⟩
  · rintro ⟨p, h1, h2, rfl⟩
    exact ⟨p, List.mem_filter.mpr ⟨List.mem_range.mpr h1, by rw [h2]; rfl⟩, rfl⟩

theorem freeCells_eq {b : Nat} (hb : bOk b = true) {q : Nat → Nat → Bool} {f : Nat → Int} {l : Nat}
    (h : ∀ i < 64 * b, ((∃ p < 56 * b, i = 4 * b + subc b p ∧ q l p = false) ∧ f (l * (64 * b) + i) = (l * (64 * b) + i : Nat)) ∨
      ((¬ ∃ p < 56 * b, i = 4 * b + subc b p ∧ q l p = false) ∧ f (l * (64 * b) + i) < 0)) :
    freeCells b f l = fastFree b q l := by
  obtain ⟨e1, -, -, -, e5⟩ := luts hb
  have e : freeCells b f l = ((List.range (64 * b)).filter fun i => decide (0 ≤ f (l * (64 * b) + i))).map fun i => l * (64 * b) + i := by
    unfold freeCells
    rw [e1, List.filter_map, List.map_map]
    refine List.map_congr_left fun i hi => ?_
    rw [List.mem_filter, List.mem_range] at hi
    have h2 : 0 ≤ f (l * (64 * b) + i) := of_decide_eq_true hi.2
    rcases h i hi.1 with ⟨-, hx⟩ | ⟨-, hx⟩
    · show (f (l * (64 * b) + i)).toNat = _
      rw [hx]; rfl
    · omega
  rw [e]
  refine sorted_ext ?_ (fastFree_pairwise _ _ _) ?_
  · rw [List.pairwise_map]
    exact List.Pairwise.imp (fun hac => by omega) (List.Pairwise.filter _ List.pairwise_lt_range)
  · intro x
    rw [mem_fastFree, List.mem_map]
    constructor
    · rintro ⟨i, hi, rfl⟩
      rw [List.mem_filter, List.mem_range] at hi
      have h2 : 0 ≤ f (l * (64 * b) + i) := of_decide_eq_true hi.2
      rcases h i hi.1 with ⟨⟨p, hp, rfl, hq⟩, -⟩ | ⟨-, hx⟩
      · exact ⟨p, hp, hq, rfl⟩
      · omega
    · rintro ⟨p, hp, hq, rfl⟩
      have := subc_lt hp
      refine ⟨4 * b + subc b p, List.mem_filter.mpr ⟨List.mem_range.mpr (by omega), ?_⟩, rfl⟩
      rcases h (4 * b + subc b p) (by omega) with ⟨-, hx⟩ | ⟨hx, -⟩
      · rw [hx]; exact decide_eq_true (Int.natCast_nonneg _)
      · exact absurd ⟨p, hp, rfl, hq⟩ hx

end Verif.Sp3.Cells
