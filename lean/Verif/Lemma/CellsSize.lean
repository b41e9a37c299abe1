import Verif.Lemma.CellsWalk

/-!
# Numbers of cells per OFDM symbol -/

namespace Verif.Sp3.Cells

/-- In the first five OFDM symbols: numbers of PCC cells are even; PDC has no cell, at least 24 or it is the first symbol
with PDC cells. -/
def sizesGood (b nTs : Nat) (r : Res (List Nat)) : Bool :=
  match r with
  | .ok L => decide (∀ l ∈ List.range 6, pccCount b L l % 2 = 0 ∧
      (freeCount b nTs l = pccCount b L l ∨ 24 + pccCount b L l ≤ freeCount b nTs l ∨
        ∀ l' ∈ List.range l, 1 ≤ l' → freeCount b nTs l' = pccCount b L l'))
  | _ => false

theorem sizesGood_all : ∀ b ∈ [1, 2, 4, 8, 16, 12], ∀ nTs ∈ [1, 2, 4, 8],
    sizesGood b nTs (pccLoop (fastFree b (drsPat nTs)) 19 1 98 []) = true := by
  decide +kernel

theorem drsStreams_cases {nTs : Nat} (hn : TsOk nTs) (l : Nat) :
    drsStreams nTs l = 0 ∨ drsStreams nTs l = 1 ∨ drsStreams nTs l = 2 ∨ drsStreams nTs l = 4 := by
  unfold drsStreams
  rcases hn with rfl | rfl | rfl | rfl <;> simp <;> omega

theorem packet_sizes {b nTs : Nat} (hb : bOk b = true) (hn : TsOk nTs) : ∃ L, PccOk b nTs L ∧
    (∀ df, packet b nTs df =
      .ok ((List.range' 1 df).map fun l => ⟨drsSpec b nTs l, pccSpec (64 * b) (4 * b) L l, pdcSpec b nTs L l⟩)) ∧
    ∀ l, 1 ≤ l → (pccSpec (64 * b) (4 * b) L l).length % 2 = 0 ∧ (pdcSpec b nTs L l).length % 2 = 0 ∧
      (pdcSpec b nTs L l).length ≤ 56 * b ∧
      ((pdcSpec b nTs L l).length = 0 ∨ 24 ≤ (pdcSpec b nTs L l).length ∨
        ∀ l', 1 ≤ l' → l' < l → (pdcSpec b nTs L l').length = 0) := by
  obtain ⟨L, hL, h, hp⟩ := packet_ok' hb hn
  obtain ⟨-, -, -, -, hpos⟩ := luts hb
  refine ⟨L, h, hp, fun l hl => ?_⟩
  have hg : sizesGood b nTs (pccLinear b nTs) = true := by
    rw [pccLinear_eq hb hn]
    refine sizesGood_all b ?_ nTs ?_
    · rcases b_cases hb with rfl | rfl | rfl | rfl | rfl | rfl <;> decide
    · rcases hn with rfl | rfl | rfl | rfl <;> decide
  rw [hL] at hg
  unfold sizesGood at hg
  rw [decide_eq_true_eq] at hg
  rw [pccSpec_length]
  have hcnt := pdc_count hpos h
  have hfree := freeCount_eq hn b
  have h1 := hcnt l
  have h2 := hfree l
  by_cases hl6 : l < 6
  · obtain ⟨g1, g2⟩ := hg l (List.mem_range.mpr hl6)
    refine ⟨g1, ?_, by omega, ?_⟩
    · rcases drsStreams_cases hn l with h3 | h3 | h3 | h3 <;> rw [h3] at h2 <;> omega
    · rcases g2 with g | g | g
      · left; omega
      · right; left; omega
      · right; right
        intro l' h1' h2'
        have := g l' (List.mem_range.mpr h2') h1'
        have := hcnt l'
        omega
  · rw [pccCount_zero hpos h (by omega)] at h1 ⊢
    refine ⟨rfl, ?_, by omega, ?_⟩
    · rcases drsStreams_cases hn l with h3 | h3 | h3 | h3 <;> rw [h3] at h2 <;> omega
    · rcases drsStreams_cases hn l with h3 | h3 | h3 | h3 <;> rw [h3] at h2 <;> omega

end Verif.Sp3.Cells
