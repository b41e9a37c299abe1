import Verif.Model.Allocation
import Mathlib.Data.List.Basic

/-!
# The search for a TX opportunity -/

namespace Verif.Mac.Allocation

open Verif.Sp3.Duration (i64 multipleLeq)

set_option linter.unusedSimpArgs false

theorem i64_ok {x : Int} (h : -9223372036854775808 ≤ x) (h' : x < 9223372036854775808) : i64 x = .ok x := by
  unfold i64
  rw [if_pos ⟨h, h'⟩]

/-- Resource `r` starts at time `t`, and the search visits this start at its state `s` or later. -/
def After (rvec : List Resource) (period : Nat) (s : Search) (r : Resource) (t : Int) : Prop :=
  ∃ k : Nat, ∃ j, ∃ hj : j < rvec.length, r = rvec[j] ∧ t = s.base + (k * period : Nat) + rvec[j].off ∧ (k = 0 → s.idx ≤ j)

/-- In order of time -/
def Sorted (rvec : List Resource) : Prop := rvec.Pairwise fun r s => r.off < s.off

theorem sorted_le {rvec : List Resource} (h : Sorted rvec) {i j : Nat} (hi : i < rvec.length) (hj : j < rvec.length)
    (hij : i ≤ j) : rvec[i].off ≤ rvec[j].off := by
  rcases Nat.eq_or_lt_of_le hij with rfl | hlt
  · exact Nat.le_refl _
  · exact Nat.le_of_lt (List.pairwise_iff_getElem.1 h i j hi hj hlt)

theorem after_ge {rvec : List Resource} {period : Nat} {s : Search} (h : Sorted rvec) (hin : ∀ r ∈ rvec, r.off < period)
    (hs : s.idx < rvec.length) {r : Resource} {t : Int} (ha : After rvec period s r t) :
    s.base + rvec[s.idx].off ≤ t := by
  obtain ⟨k, j, hj, -, rfl, hk⟩ := ha
  rcases Nat.eq_zero_or_pos k with rfl | hkp
  · have := sorted_le h hs hj (hk rfl)
    simp only [Nat.zero_mul]
    omega
  · have h1 := hin rvec[s.idx] (List.getElem_mem _)
    have h2 : 1 * period ≤ k * period := Nat.mul_le_mul_right _ hkp
    rw [Nat.one_mul] at h2
    omega

theorem search_succ (a : Alloc) (rvec : List Resource) (earliest latest : Int) (fuel : Nat) (s s' : Search)
    (h : s.idx < rvec.length) (hD : i64 (s.base + rvec[s.idx].off) = .ok (s.base + rvec[s.idx].off))
    (h1 : s.base + rvec[s.idx].off < earliest) (h2 : s.base + rvec[s.idx].off < latest)
    (hn : Search.next a rvec s = .ok s') :
    search a rvec earliest latest (fuel + 1) s = search a rvec earliest latest fuel s' := by
  rw [search, dif_pos h, hD]
  show (if _ then _ else _) = _
  rw [if_neg (by omega), if_neg (by omega), hn]

theorem search_hit (a : Alloc) (rvec : List Resource) (earliest latest : Int) (fuel : Nat) (s : Search)
    (h : s.idx < rvec.length) (hD : i64 (s.base + rvec[s.idx].off) = .ok (s.base + rvec[s.idx].off))
    (h1 : earliest ≤ s.base + rvec[s.idx].off) (h2 : s.base + rvec[s.idx].off < latest) :
    search a rvec earliest latest (fuel + 1) s = some (.ok ⟨s.base + rvec[s.idx].off, rvec[s.idx].len⟩) := by
  rw [search, dif_pos h, hD]
  show (if _ then _ else _) = _
  rw [if_pos ⟨h1, h2⟩]

theorem search_stop (a : Alloc) (rvec : List Resource) (earliest latest : Int) (fuel : Nat) (s : Search)
    (h : s.idx < rvec.length) (hD : i64 (s.base + rvec[s.idx].off) = .ok (s.base + rvec[s.idx].off))
    (h2 : latest ≤ s.base + rvec[s.idx].off) :
    search a rvec earliest latest (fuel + 1) s = some (.ok {}) := by
  rw [search, dif_pos h, hD]
  show (if _ then _ else _) = _
  rw [if_neg (by omega), if_pos h2]

/-- A start visited at `s` or later is the one at `s`, or is visited later. -/
theorem after_step {rvec : List Resource} {period : Nat} {s : Search} (hs : s.idx < rvec.length) {s' : Search}
    (hs' : s' = if s.idx + 1 = rvec.length then ⟨s.base + period, 0⟩ else ⟨s.base, s.idx + 1⟩) (r : Resource) (t : Int) :
    After rvec period s r t ↔ (r = rvec[s.idx] ∧ t = s.base + rvec[s.idx].off) ∨ After rvec period s' r t := by
  constructor
  · rintro ⟨k, j, hj, hr, ht, hk⟩
    by_cases h0 : k = 0 ∧ j = s.idx
    · obtain ⟨rfl, rfl⟩ := h0
      left
      refine ⟨hr, ?_⟩
      rw [ht]
      simp
    · right
      by_cases hw : s.idx + 1 = rvec.length
      · rw [if_pos hw] at hs'
        subst hs'
        have hk1 : k ≠ 0 := by
          intro h
          have := hk h
          apply h0
          exact ⟨h, by omega⟩
        obtain ⟨k', rfl⟩ := Nat.exists_eq_succ_of_ne_zero hk1
        refine ⟨k', j, hj, hr, ?_, fun _ => Nat.zero_le _⟩
        rw [ht, Nat.succ_mul]
        push_cast
        ring
      · rw [if_neg hw] at hs'
        subst hs'
        refine ⟨k, j, hj, hr, ht, fun h => ?_⟩
        have := hk h
        show s.idx + 1 ≤ j
        rcases Nat.eq_or_lt_of_le this with h' | h'
        · exact absurd ⟨h, h'.symm⟩ h0
        · exact h'
  · rintro (⟨hr, ht⟩ | ⟨k, j, hj, hr, ht, hk⟩)
    · exact ⟨0, s.idx, hs, hr, by rw [ht]; simp, fun _ => Nat.le_refl _⟩
    · by_cases hw : s.idx + 1 = rvec.length
      · rw [if_pos hw] at hs'
        subst hs'
        refine ⟨k + 1, j, hj, hr, ?_, fun h => absurd h (Nat.succ_ne_zero _)⟩
        rw [ht, Nat.succ_mul]
        push_cast
        ring
      · rw [if_neg hw] at hs'
        subst hs'
        refine ⟨k, j, hj, hr, ht, fun h => ?_⟩
        have : s.idx + 1 ≤ j := hk h
        omega

/-- What the search returns -/
def Outcome (rvec : List Resource) (period : Nat) (earliest latest : Int) (s : Search) (o : Opportunity) : Prop :=
  (o = {} ∧ (Sorted rvec → ∀ r t, After rvec period s r t → earliest ≤ t → latest ≤ t)) ∨
    (∃ r, After rvec period s r o.time ∧ o.n = r.len ∧ earliest ≤ o.time ∧ o.time < latest ∧
      (Sorted rvec → ∀ r' t, After rvec period s r' t → earliest ≤ t → o.time ≤ t))

theorem search_spec (a : Alloc) (rvec : List Resource) (earliest latest : Int) (hp : 1 ≤ a.period)
    (hp' : a.period < 2147483648) (hin : ∀ r ∈ rvec, r.off < a.period) (hl : latest < 4611686018427387904) :
    ∀ (m : Nat) (s : Search), s.idx < rvec.length → -4611686018427387904 ≤ s.base → s.base < 4611686018427387904 + 2147483648 →
      (latest - s.base).toNat * (rvec.length + 1) + (rvec.length - s.idx) = m →
      ∃ o F, (∀ fuel, F ≤ fuel → search a rvec earliest latest fuel s = some (.ok o)) ∧
        Outcome rvec a.period earliest latest s o := by
  intro m
  induction m using Nat.strong_induction_on with
  | _ m ih =>
    intro s hs hb hb' hm
    have hoff := hin rvec[s.idx] (List.getElem_mem _)
    have hD : i64 (s.base + rvec[s.idx].off) = .ok (s.base + rvec[s.idx].off) := i64_ok (by omega) (by omega)
    by_cases h1 : latest ≤ s.base + rvec[s.idx].off
    · refine ⟨{}, 1, fun fuel hf => ?_, Or.inl ⟨rfl, fun hsort r t hat _ => ?_⟩⟩
      · obtain ⟨f, rfl⟩ : ∃ f, fuel = f + 1 := ⟨fuel - 1, by omega⟩
        exact search_stop a rvec earliest latest f s hs hD h1
      · exact Int.le_trans h1 (after_ge hsort hin hs hat)
    · by_cases h2 : earliest ≤ s.base + rvec[s.idx].off
      · refine ⟨⟨s.base + rvec[s.idx].off, rvec[s.idx].len⟩, 1, fun fuel hf => ?_, Or.inr ⟨rvec[s.idx], ?_, rfl, h2,
          (by show s.base + (rvec[s.idx].off : Int) < latest; omega), fun hsort r t hat _ => after_ge hsort hin hs hat⟩⟩
        · obtain ⟨f, rfl⟩ : ∃ f, fuel = f + 1 := ⟨fuel - 1, by omega⟩
          exact search_hit a rvec earliest latest f s hs hD h2 (by omega)
        · exact ⟨0, s.idx, hs, rfl, by simp, fun _ => Nat.le_refl _⟩
      · obtain ⟨s', hs'⟩ : ∃ s' : Search, s' = if s.idx + 1 = rvec.length then ⟨s.base + a.period, 0⟩ else ⟨s.base, s.idx + 1⟩ :=
          ⟨_, rfl⟩
        have hn : Search.next a rvec s = .ok s' := by
          rw [hs', Search.next]
          split
          · rw [i64_ok (by omega) (by omega)]; rfl
          · rfl
        have hidx : s'.idx < rvec.length := by
          rw [hs']; split
          · show 0 < _; omega
          · show s.idx + 1 < _; omega
        have hbase : s.base ≤ s'.base ∧ s'.base ≤ s.base + a.period := by
          rw [hs']; split
          · show s.base ≤ s.base + a.period ∧ s.base + a.period ≤ s.base + a.period; omega
          · show s.base ≤ s.base ∧ s.base ≤ s.base + a.period; omega
        have hlt : (latest - s'.base).toNat * (rvec.length + 1) + (rvec.length - s'.idx) < m := by
          rw [← hm, hs']
          split
          · show (latest - (s.base + a.period)).toNat * (rvec.length + 1) + (rvec.length - 0) < _
            have : (latest - (s.base + a.period)).toNat + 1 ≤ (latest - s.base).toNat := by omega
            have := Nat.mul_le_mul_right (rvec.length + 1) this
            rw [Nat.succ_mul] at this
            omega
          · show (latest - s.base).toNat * (rvec.length + 1) + (rvec.length - (s.idx + 1)) < _
            omega
        obtain ⟨o, F, hF, ho⟩ := ih _ hlt s' hidx (by omega) (by omega) rfl
        refine ⟨o, F + 1, fun fuel hf => ?_, ?_⟩
        · obtain ⟨f, rfl⟩ : ∃ f, fuel = f + 1 := ⟨fuel - 1, by omega⟩
          rw [search_succ a rvec earliest latest f s s' hs hD (by omega) (by omega) hn]
          exact hF f (by omega)
        · have hst := fun r t => after_step hs hs' r t
          rcases ho with ⟨rfl, hno⟩ | ⟨r, hr, hlen, he, hla, hmin⟩
          · refine Or.inl ⟨rfl, fun hsort r t hat het => ?_⟩
            rcases (hst r t).1 hat with ⟨-, rfl⟩ | h
            · omega
            · exact hno hsort r t h het
          · refine Or.inr ⟨r, (hst r _).2 (Or.inr hr), hlen, he, hla, fun hsort r' t hat het => ?_⟩
            rcases (hst r' t).1 hat with ⟨-, rfl⟩ | h
            · omega
            · exact hmin hsort r' t h het

end Verif.Mac.Allocation
