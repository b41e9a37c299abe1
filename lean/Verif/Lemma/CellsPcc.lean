import Verif.Lemma.Cells

/-!
# PCC cells
-/

set_option linter.unusedSimpArgs false

namespace Verif.Sp3.Cells

open Spec

theorem pccLoop_congr {f g : Nat → List Nat} : ∀ (n l u : Nat) (acc : List Nat), (∀ l', l ≤ l' → l' < l + n → f l' = g l') →
    pccLoop f n l u acc = pccLoop g n l u acc := by
  intro n
  induction n with
  | zero => intro l u acc _; rfl
  | succ n ih =>
    intro l u acc h
    rw [pccLoop, pccLoop, h l (Nat.le_refl _) (by omega), ih _ _ _ (fun l' h1 h2 => h l' (by omega) (by omega))]

theorem pccLinear_eq {b nTs : Nat} (hb : bOk b = true) (h : TsOk nTs) :
    pccLinear b nTs = pccLoop (fastFree b (drsPat nTs)) 19 1 98 [] := by
  obtain ⟨f, hf, hx⟩ := frame_ok hb h (Or.inl rfl)
  unfold pccLinear
  rw [hf, Res.ok_bind]
  refine pccLoop_congr _ _ _ _ fun l h1 h2 => ?_
  refine freeCells_eq hb fun i hi => ?_
  have := hx l (by omega) i hi
  simp only [drsOcc_pat h] at this
  exact this

/-- Cells of a symbol which are free of DRS -/
def freeCount (b nTs l : Nat) : Nat := (fastFree b (drsPat nTs) l).length

/-- What holds for the PCC cells: symbols 1 to 5, free of DRS, and the symbols in front of the last one have less than 98 free
cells altogether -/
def pccGood (b nTs : Nat) (r : Res (List Nat)) : Bool :=
  match r with
  | .ok L => decide (L.length = 98 ∧ L.Pairwise (· < ·) ∧
      (∀ x ∈ L, 1 ≤ x / (64 * b) ∧ x / (64 * b) ≤ L.getLastD 0 / (64 * b) ∧ 4 * b ≤ x % (64 * b) ∧ x % (64 * b) ≤ 60 * b ∧ x % (64 * b) ≠ 32 * b ∧
        drsPat nTs (x / (64 * b)) (if x % (64 * b) < 32 * b then x % (64 * b) - 4 * b else x % (64 * b) - 4 * b - 1) = false) ∧
      L.getLastD 0 / (64 * b) ≤ 5 ∧
      ((List.range' 1 (L.getLastD 0 / (64 * b) - 1)).map (freeCount b nTs)).sum < 98 ∧
      ∀ l ∈ List.range 6, (L.filter fun x => decide (x / (64 * b) = l)).length + 1 ≠ freeCount b nTs l)
  | _ => false

theorem pccGood_all : ∀ b ∈ [1, 2, 4, 8, 16, 12], ∀ nTs ∈ [1, 2, 4, 8],
    pccGood b nTs (pccLoop (fastFree b (drsPat nTs)) 19 1 98 []) = true := by
  decide +kernel

end Verif.Sp3.Cells
