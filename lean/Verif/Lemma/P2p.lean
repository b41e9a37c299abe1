import Verif.Model.P2p
import Verif.Props.C33_TxOpportunity

/-!
# Lemmas on the opportunities of the point-to-point firmware -/

namespace Verif.P2p

open Verif.Mac.Allocation Verif.Spec.Allocation Verif.Props.C33

theorem opportunity_eq {a : Alloc} {d : Dir} {now earliest : Int} {r : Res Opportunity} (h : Returns a d now earliest r) :
    opportunity a d now earliest = r := by
  have hex : ∃ r, ∃ F, ∀ fuel, F ≤ fuel → getTxOpportunity fuel a d now earliest = some r := ⟨r, h⟩
  unfold opportunity
  rw [dif_pos hex]
  obtain ⟨F1, h1⟩ := hex.choose_spec
  obtain ⟨F2, h2⟩ := h
  have e1 := h1 (max F1 F2) (by omega)
  have e2 := h2 (max F1 F2) (by omega)
  rw [e1] at e2
  exact Option.some.inj e2

/-- What an opportunity can be -/
theorem opportunity_spec (a : Alloc) (d : Dir) (now earliest : Int) (hr : Ranges a now earliest) (hd : d ≠ .both)
    (hb : d = .ul → a.beacon ≤ now) (hv : ∀ r ∈ a.vec d, 1 ≤ r.len ∧ r.off + r.len ≤ a.period) :
    ∃ o, opportunity a d now earliest = .ok o ∧
      ((o = ⟨-1, -1⟩ ∧ (Sorted (a.vec d) → ∀ t, Start a.beacon a.period (offs a d) t → lo a now earliest ≤ t → hi a d now ≤ t)) ∨
       (∃ r ∈ a.vec d, o.n = r.len ∧ Start a.beacon a.period [r.off] o.time ∧
          lo a now earliest ≤ o.time ∧ o.time < hi a d now)) := by
  obtain ⟨o, ho, h⟩ := returns_spec a d now earliest hr hd hb hv
  refine ⟨o, opportunity_eq ho, ?_⟩
  rcases h with h | ⟨r, h1, h2, h3, h4, h5, -⟩
  · exact Or.inl h
  · exact Or.inr ⟨r, h1, h2, h3, h4, h5⟩

/-- A result with some fuel is the result with more fuel. -/
theorem search_mono {a : Alloc} {v : List Resource} {e l : Int} : ∀ fuel fuel' s r, fuel ≤ fuel' →
    search a v e l fuel s = some r → search a v e l fuel' s = some r := by
  intro fuel
  induction fuel with
  | zero => intro fuel' s r _ h; exact absurd h (by simp [search])
  | succ fuel ih =>
    intro fuel' s r hle h
    obtain ⟨f, rfl⟩ : ∃ f, fuel' = f + 1 := ⟨fuel' - 1, by omega⟩
    rw [search] at h ⊢
    split at h
    · rename_i hi
      rw [dif_pos hi]
      cases hx : Sp3.Duration.i64 (s.base + v[s.idx].off) with
      | abort => rw [hx] at h; exact h
      | ub => rw [hx] at h; exact h
      | ok D =>
        rw [hx] at h
        dsimp only at h ⊢
        split_ifs at h ⊢ with h1 h2
        · exact h
        · exact h
        · cases hy : Search.next a v s with
          | abort => rw [hy] at h; exact h
          | ub => rw [hy] at h; exact h
          | ok s' =>
            rw [hy] at h
            exact ih f s' r (by omega) h
    · rename_i hi
      rw [dif_neg hi]
      exact h

/-- Evaluation with sufficient fuel -/
theorem opportunity_of_fuel (fuel : Nat) {a : Alloc} {d : Dir} {now earliest : Int} {r : Res Opportunity}
    (h : getTxOpportunity fuel a d now earliest = some r) : opportunity a d now earliest = r := by
  refine opportunity_eq ⟨fuel, fun fuel' hle => ?_⟩
  unfold getTxOpportunity at h ⊢
  cases hw : window a d now earliest with
  | abort => rw [hw] at h; exact h
  | ub => rw [hw] at h; exact h
  | ok w =>
    rw [hw] at h
    dsimp only at h ⊢
    unfold generic at h ⊢
    split_ifs at h ⊢
    · exact h
    · exact h
    · cases hb : baseTime a w.1 with
      | abort => rw [hb] at h; exact h
      | ub => rw [hb] at h; exact h
      | ok A => rw [hb] at h; exact search_mono _ _ _ _ hle h

end Verif.P2p
