import Verif.Model.MimoEst
import Verif.Spec.MimoEst
import Verif.Lemma.Codebook

/-! # Lemmas about the recommendation of a beamforming matrix -/

namespace Verif.Phy.MimoEst

open Codebook Spec

theorem mapM_eq {α β : Type} (f : α → Res β) (g : α → β) : ∀ l : List α, (∀ x ∈ l, f x = .ok (g x)) → l.mapM f = .ok (l.map g)
  | [], _ => rfl
  | x :: l, h => by
    have := mapM_eq f g l fun y hy => h y (by simp [hy])
    rw [List.mapM_cons, h x (by simp), Res.ok_bind, this, Res.ok_bind]; rfl

theorem foldlM_eq {α β : Type} (f : β → α → Res β) (g : β → α → β) : ∀ (l : List α) (b : β), (∀ x ∈ l, ∀ b, f b x = .ok (g b x)) →
    l.foldlM f b = .ok (l.foldl g b)
  | [], _, _ => rfl
  | x :: l, b, h => by
    rw [List.foldlM_cons, h x (by simp), Res.ok_bind]
    exact foldlM_eq f g l _ fun y hy => h y (by simp [hy])

theorem atU_ok {α : Type} {l : List α} {i : Nat} {x : α} (h : l[i]? = some x) : atU l i = .ok x := by simp [atU, h]

section
variable {F : Type} [Field F]

/-- One stage: four cells for each of `n` antennas -/
def grid (n : Nat) (g : Nat → Nat → Cx F) : List (Cx F) := ((List.range n).map fun i => (List.range 4).map (g i)).flatten

theorem grid_length (n : Nat) (g : Nat → Nat → Cx F) : (grid n g).length = n * 4 := by
  unfold grid
  induction n with
  | zero => rfl
  | succ n ih => rw [List.range_succ (n := n), List.map_append, List.flatten_append, List.length_append, ih]; simp; omega

theorem grid_get (n : Nat) (g : Nat → Nat → Cx F) {i c : Nat} (hi : i < n) (hc : c < 4) : (grid n g)[i * 4 + c]? = some (g i c) := by
  induction n with
  | zero => omega
  | succ n ih =>
    have hl := grid_length n g
    unfold grid at *
    rw [List.range_succ (n := n), List.map_append, List.flatten_append]
    by_cases h : i < n
    · rw [List.getElem?_append_left (by rw [hl]; omega)]
      exact ih h
    · obtain rfl : i = n := by omega
      rw [List.getElem?_append_right (by rw [hl]; omega), hl]
      simp [hc]

theorem slice_grid [LinearOrder F] (n : Nat) (g : Nat → Nat → Cx F) {i : Nat} (hi : i < n) : slice (grid n g) (i * nCells) = .ok ((List.range 4).map (g i)) := by
  unfold slice
  apply mapM_eq
  intro c hc
  exact atU_ok (grid_get n g hi (List.mem_range.mp hc))

theorem steps_eq {b : Nat} (hb : 0 < b) : steps b = .ok (14 * b / 4, 14 * b / 4 / 2) := by
  unfold steps nCells
  simp only
  rw [decide_eq_true (show 0 < 14 * b / 4 by omega), Res.assert_true, Res.ok_bind]

theorem getD_of_lt {α : Type} {l : List α} {i : Nat} (d : α) (h : i < l.length) : l[i]? = some (l.getD i d) := by
  rw [List.getD_eq_getElem?_getD, List.getElem?_eq_getElem h]; rfl

variable [LinearOrder F]

theorem stages_eq {b nRx nTs nTsMax : Nat} (hb : 0 < b) (ht : nTs ≤ nTsMax) {ch : List (List (List (Cx F)))} (h : Complete b nRx nTs ch) :
    stages (14 * b / 4, 14 * b / 4 / 2) nRx nTsMax nTs ch = .ok ((List.range nRx).map fun rx => grid nTs (chan b ch rx)) := by
  obtain ⟨hl, ha⟩ := h
  unfold stages
  rw [if_neg (by omega)]
  apply mapM_eq
  intro rx hrx
  rw [List.mem_range] at hrx
  have h1 := getD_of_lt [] (show rx < ch.length by omega)
  have hmem : ch.getD rx [] ∈ ch := List.mem_of_getElem? h1
  obtain ⟨hn, hp⟩ := ha _ hmem
  have h2 : atA ch rx = .ok (ch.getD rx []) := by simp only [atA, h1]
  rw [h2, Res.ok_bind]
  unfold stage
  have h3 := mapM_eq (fun ts => (do let p ← atU (ch.getD rx []) ts; cells (14 * b / 4, 14 * b / 4 / 2) p : Res (List (Cx F))))
    (fun ts => (List.range 4).map (chan b ch rx ts)) (List.range nTs) (by
      intro ts hts
      rw [List.mem_range] at hts
      have h4 := getD_of_lt [] (show ts < (ch.getD rx []).length by omega)
      rw [atU_ok h4, Res.ok_bind]
      unfold cells
      apply mapM_eq
      intro c hc
      have hc' : c < 4 := List.mem_range.mp hc
      have hlen := hp _ (List.mem_of_getElem? h4)
      have hbd : 14 * b / 4 / 2 + c * (14 * b / 4) < 14 * b := by
        have : c * (14 * b / 4) ≤ 3 * (14 * b / 4) := Nat.mul_le_mul_right _ (by omega)
        omega
      exact atU_ok (getD_of_lt 0 (lt_of_lt_of_le hbd hlen)))
  rw [h3, Res.ok_bind]
  rfl

theorem transposed_eq {nRx nTs : Nat} (h : Nat → Nat → Nat → Cx F) :
    transposed nRx nTs ((List.range nRx).map fun rx => grid nTs (h rx)) = .ok ((List.range nTs).map fun ts => grid nRx fun rx c => h rx ts c) := by
  unfold transposed
  apply mapM_eq
  intro ts hts
  rw [List.mem_range] at hts
  rw [mapM_eq _ (fun rx => (List.range 4).map fun c => h rx ts c) (List.range nRx) (by
    intro rx hrx
    rw [List.mem_range] at hrx
    rw [atA_ok (by simpa using hrx), Res.ok_bind]
    simp only [List.getElem_map, List.getElem_range]
    exact slice_grid nTs (h rx) hts), Res.ok_bind]
  rfl

theorem foldl_range_sum (f : Nat → Cx F) (n : Nat) (z : Cx F) : (List.range n).foldl (fun s x => s + f x) z = z + ∑ x ∈ Finset.range n, f x := by
  induction n with
  | zero => simp
  | succ n ih => rw [List.range_succ, List.foldl_append, ih, Finset.sum_range_succ]; simp [add_assoc]

theorem sumOf_eq {nTx nRx : Nat} (h : Nat → Nat → Nat → Cx F) {W : List (Cx F)} (hW : W.length = nTx) {rx : Nat} (hrx : rx < nRx) :
    sumOf ((List.range nRx).map fun rx => grid nTx (h rx)) W nTx rx = .ok (received W nTx (h rx)) := by
  unfold sumOf
  rw [foldlM_eq _ (fun s tx => s + ∑ c ∈ Finset.range 4, h rx tx c * Codebook.Spec.weight W 1 tx 0)]
  · rw [foldl_range_sum, zero_add]; rfl
  · intro tx htx s
    rw [List.mem_range] at htx
    unfold sumStep
    rw [atA_ok (by simpa using hrx), Res.ok_bind]
    simp only [List.getElem_map, List.getElem_range]
    rw [slice_grid nTx (h rx) htx, Res.ok_bind, atA_ok (by omega), Res.ok_bind, List.map_map, List.foldl_map]
    have hw : W[tx] = Codebook.Spec.weight W 1 tx 0 := by
      unfold Codebook.Spec.weight
      rw [Nat.mul_one, Nat.add_zero, List.getD_eq_getElem?_getD, List.getElem?_eq_getElem (by omega)]; rfl
    have := foldl_range_sum (fun c => h rx tx c * Codebook.Spec.weight W 1 tx 0) 4 0
    simp only [Function.comp_apply, hw]
    rw [this, zero_add]

/-- The lowest amplitude, at most 10^6 -/
def low (g : Nat → Option F) (n : Nat) : F := (List.range n).foldl (fun m i => lower (g i) m) 1000000

theorem low_succ (g : Nat → Option F) (n : Nat) : low g (n + 1) = lower (g n) (low g n) := by
  unfold low
  rw [List.range_succ, List.foldl_append]; rfl

theorem inner_eq {nTx nRx : Nat} (abs : Cx F → Option F) (h : Nat → Nat → Nat → Cx F) {W : List (Cx F)} (hW : W.length = nTx) :
    inner abs ((List.range nRx).map fun rx => grid nTx (h rx)) W nTx nRx = .ok (low (fun rx => abs (received W nTx (h rx))) nRx) := by
  unfold inner low
  apply foldlM_eq
  intro rx hrx m
  rw [sumOf_eq h hW (List.mem_range.mp hrx), Res.ok_bind]

variable [IsStrictOrderedRing F]

theorem lower_le (o : Option F) (m : F) : lower o m ≤ m ∧ (∀ y, o = some y → lower o m ≤ y) ∧ (lower o m = m ∨ o = some (lower o m)) := by
  unfold lower
  cases o with
  | none => exact ⟨le_rfl, by simp, .inl rfl⟩
  | some x =>
    by_cases h : x < m
    · simp [flt, h, h.le]
    · simp [flt, h]
      exact not_lt.mp h

theorem low_spec (g : Nat → Option F) : ∀ n, low g n ≤ 1000000 ∧ (∀ i < n, ∀ y, g i = some y → low g n ≤ y) ∧
    (low g n = 1000000 ∨ ∃ i < n, g i = some (low g n))
  | 0 => ⟨le_rfl, fun i hi => by omega, .inl rfl⟩
  | n + 1 => by
    obtain ⟨a, b, c⟩ := low_spec g n
    obtain ⟨d, e, f⟩ := lower_le (g n) (low g n)
    rw [low_succ]
    refine ⟨d.trans a, fun i hi y hy => ?_, ?_⟩
    · by_cases h : i < n
      · exact d.trans (b i h y hy)
      · obtain rfl : i = n := by omega
        exact e y hy
    · rcases f with f | f
      · rw [f]
        rcases c with c | ⟨i, hi, c⟩
        · exact .inl c
        · exact .inr ⟨i, by omega, c⟩
      · exact .inr ⟨n, by omega, f⟩

theorem low_nonneg {g : Nat → Option F} (h : ∀ i y, g i = some y → 0 ≤ y) (n : Nat) : 0 ≤ low g n := by
  obtain ⟨-, -, c | ⟨i, -, c⟩⟩ := low_spec g n
  · rw [c]; norm_num
  · exact h i _ c

/-- The loop over the matrices -/
def search (v : Nat → F) (A n : Nat) : F × Option Nat := (List.range' A n).foldl (fun o wm => better o (v wm) wm) (-1000000, none)

omit [Field F] [IsStrictOrderedRing F] in
theorem better_spec (o : F × Option Nat) (v : F) (k : Nat) : better o v k = if o.1 < v then (v, some k) else o := rfl

theorem search_spec (v : Nat → F) (A : Nat) (hv : ∀ k, 0 ≤ v k) : ∀ n, 0 < n → ∃ r, search v A n = (v r, some r) ∧ A ≤ r ∧ r < A + n ∧
    (∀ k, A ≤ k → k < A + n → v k ≤ v r) ∧ ∀ k, A ≤ k → k < r → v k < v r
  | 0, h => by omega
  | 1, _ => by
    refine ⟨A, ?_, le_rfl, by omega, fun k h1 h2 => ?_, fun k h1 h2 => by omega⟩
    · have : (-1000000 : F) < v A := lt_of_lt_of_le (by norm_num) (hv A)
      simp [search, better, this]
    · obtain rfl : k = A := by omega
      exact le_rfl
  | n + 2, _ => by
    obtain ⟨r, e, h1, h2, h3, h4⟩ := search_spec v A hv (n + 1) (by omega)
    have hs : search v A (n + 2) = better (search v A (n + 1)) (v (A + (n + 1))) (A + (n + 1)) := by
      unfold search
      rw [List.range'_1_concat, List.foldl_append]; rfl
    rw [hs, e]
    unfold better
    by_cases hc : v r < v (A + (n + 1))
    · rw [if_pos hc]
      refine ⟨_, rfl, by omega, by omega, fun k g1 g2 => ?_, fun k g1 g2 => lt_of_le_of_lt (h3 k g1 (by omega)) hc⟩
      by_cases hk : k < A + (n + 1)
      · exact (h3 k g1 hk).trans hc.le
      · obtain rfl : k = A + (n + 1) := by omega
        exact le_rfl
    · rw [if_neg hc]
      refine ⟨r, rfl, h1, by omega, fun k g1 g2 => ?_, h4⟩
      by_cases hk : k < A + (n + 1)
      · exact h3 k g1 hk
      · obtain rfl : k = A + (n + 1) := by omega
        exact not_lt.mp hc

/-- All matrices considered have only weights that are not zero -/
theorem full_table : ∀ p ∈ [(1, 2), (1, 4)], ∃ A, indexNonzero p.1 p.2 = .ok A ∧ A < (rowI p.1 p.2).length ∧
    (∀ k < (rowI p.1 p.2).length, A ≤ k → cnt (matI p.1 p.2 k) = p.2) ∧ ∀ k < (rowI p.1 p.2).length, (matI p.1 p.2 k).length = p.2 := by
  intro p hp
  simp only [List.mem_cons, List.not_mem_nil, or_false] at hp
  rcases hp with rfl | rfl
  · exact ⟨2, by decide +kernel⟩
  · exact ⟨12, by decide +kernel⟩

end
end Verif.Phy.MimoEst
